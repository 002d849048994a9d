import Verif.Hull.Spec
import Mathlib.Tactic.Linarith
import Mathlib.Tactic.LinearCombination
import Mathlib.Tactic.Ring
import Mathlib.Algebra.Order.Field.Rat

/-!
Geometric lemmas for the convex hull.
-/

namespace Hob3l.Hull

/-- lexicographical order -/
def Ge (u v : V) : Prop := u.x < v.x ∨ (u.x = v.x ∧ u.y ≤ v.y)

/-- the order of the points -/
def L (u a b : V) : Prop := 0 < turn u a b ∨ (turn u a b = 0 ∧ sqrDist u a ≤ sqrDist u b)

theorem V.ext' {a b : V} (hx : a.x = b.x) (hy : a.y = b.y) : a = b := by
  cases a; cases b; simp_all

theorem turn_cyc (a b c : V) : turn b c a = turn a b c := by simp only [turn]; ring
theorem turn_swap (a b c : V) : turn a c b = -turn a b c := by simp only [turn]; ring
theorem turn_swap' (a b c : V) : turn b a c = -turn a b c := by simp only [turn]; ring
theorem turn_self_right (a b : V) : turn a b b = 0 := by simp only [turn]; ring
theorem turn_self_left (a b : V) : turn a a b = 0 := by simp only [turn]; ring
theorem turn_self_out (a b : V) : turn a b a = 0 := by simp only [turn]; ring
theorem turn_four (u a b c : V) : turn a b c = turn u b c - turn u a c + turn u a b := by simp only [turn]; ring

theorem sqrDist_nonneg (u a : V) : 0 ≤ sqrDist u a := by
  unfold sqrDist; nlinarith [mul_self_nonneg (u.x - a.x), mul_self_nonneg (u.y - a.y)]

theorem eq_of_sqrDist {u a : V} (h : sqrDist u a ≤ 0) : a = u := by
  unfold sqrDist at h
  have h1 := mul_self_nonneg (u.x - a.x)
  have h2 := mul_self_nonneg (u.y - a.y)
  have e1 : u.x - a.x = 0 := mul_self_eq_zero.1 (by linarith)
  have e2 : u.y - a.y = 0 := mul_self_eq_zero.1 (by linarith)
  exact V.ext' (by linarith) (by linarith)

theorem sqrDist_pos {u a : V} (h : a ≠ u) : 0 < sqrDist u a := by
  by_contra hc
  exact h (eq_of_sqrDist (not_lt.1 hc))

theorem strict_trans {u a b c : V} (ha : Ge u a) (hb : Ge u b) (hc : Ge u c) (hcu : c ≠ u) (h1 : 0 < turn u a b)
    (h2 : 0 ≤ turn u b c) : 0 < turn u a c := by
  have id1 : turn u a c * (b.x - u.x) = turn u a b * (c.x - u.x) + turn u b c * (a.x - u.x) := by
    simp only [turn]; ring
  have hax : 0 ≤ a.x - u.x := by rcases ha with h | h <;> [linarith; linarith [h.1]]
  have hcx : 0 ≤ c.x - u.x := by rcases hc with h | h <;> [linarith; linarith [h.1]]
  have hbx : 0 < b.x - u.x := by
    rcases hb with h | ⟨h, h'⟩
    · linarith
    · exfalso
      have : turn u a b = -((a.x - u.x) * (b.y - u.y)) := by simp only [turn]; rw [h]; ring
      have := mul_nonneg hax (sub_nonneg.2 h')
      linarith
  have hcx' : 0 < c.x - u.x := by
    rcases hc with h | ⟨h, h'⟩
    · linarith
    · exfalso
      have hcy : 0 < c.y - u.y := by
        rcases lt_or_eq_of_le h' with h'' | h''
        · linarith
        · exact absurd (V.ext' h.symm h''.symm) hcu
      have : turn u b c = -((b.x - u.x) * (c.y - u.y)) := by simp only [turn]; rw [h]; ring
      have := mul_pos hbx hcy
      linarith
  have : 0 < turn u a c * (b.x - u.x) := by
    rw [id1]
    have := mul_pos h1 hcx'
    have := mul_nonneg h2 hax
    linarith
  exact (mul_pos_iff_of_pos_right hbx).1 this

/-- the dot product of the vectors from `u` -/
def dotp (u a b : V) : ℚ := (a.x - u.x) * (b.x - u.x) + (a.y - u.y) * (b.y - u.y)

theorem ray_dot {u a b : V} (ha : Ge u a) (hb : Ge u b) (h : turn u a b = 0) : 0 ≤ dotp u a b := by
  have h' : (a.x - u.x) * (b.y - u.y) = (a.y - u.y) * (b.x - u.x) := by
    simp only [turn] at h; linear_combination -h
  unfold dotp
  rcases ha with ha | ⟨ha, ha'⟩
  · rcases hb with hb | ⟨hb, hb'⟩
    · have p := mul_pos (sub_pos.2 ha) (sub_pos.2 hb)
      have : 0 ≤ ((a.x - u.x) * (b.x - u.x) + (a.y - u.y) * (b.y - u.y)) * ((a.x - u.x) * (b.x - u.x)) := by
        have e : ((a.x - u.x) * (b.x - u.x) + (a.y - u.y) * (b.y - u.y)) * ((a.x - u.x) * (b.x - u.x)) =
            ((a.x - u.x) * (b.x - u.x)) * ((a.x - u.x) * (b.x - u.x)) +
            ((a.x - u.x) * (b.y - u.y)) * ((a.x - u.x) * (b.y - u.y)) := by
          linear_combination (-(a.x - u.x) * (b.y - u.y)) * h'
        rw [e]
        nlinarith [mul_self_nonneg ((a.x - u.x) * (b.x - u.x)), mul_self_nonneg ((a.x - u.x) * (b.y - u.y))]
      exact nonneg_of_mul_nonneg_left this p
    · rw [← hb] at h' ⊢
      have : (a.x - u.x) * (b.y - u.y) = 0 := by rw [h']; ring
      rcases mul_eq_zero.1 this with h0 | h0
      · linarith
      · rw [h0]; simp
  · rw [← ha]
    rcases hb with hb | ⟨hb, hb'⟩
    · rw [← ha] at h'
      have : (a.y - u.y) * (b.x - u.x) = 0 := by rw [← h']; ring
      rcases mul_eq_zero.1 this with h0 | h0
      · rw [h0]; simp
      · linarith
    · have := mul_nonneg (sub_nonneg.2 ha') (sub_nonneg.2 hb')
      linarith

theorem dot_sq {u a b : V} (h : turn u a b = 0) : dotp u a b * dotp u a b = sqrDist u a * sqrDist u b := by
  have h' : (a.x - u.x) * (b.y - u.y) - (a.y - u.y) * (b.x - u.x) = 0 := by
    simp only [turn] at h; linear_combination -h
  unfold dotp sqrDist
  linear_combination (-((a.x - u.x) * (b.y - u.y) - (a.y - u.y) * (b.x - u.x))) * h'

/-- on a ray, the dot product is between the squares of the lengths -/
theorem dot_between {u a b : V} (ha : Ge u a) (hb : Ge u b) (h : turn u a b = 0) (hd : sqrDist u a ≤ sqrDist u b) :
    sqrDist u a ≤ dotp u a b ∧ dotp u a b ≤ sqrDist u b := by
  have h0 := ray_dot ha hb h
  have h1 := dot_sq h
  have na := sqrDist_nonneg u a
  have nb := sqrDist_nonneg u b
  constructor
  · by_contra hc
    have hc := not_le.1 hc
    have : dotp u a b * dotp u a b < sqrDist u a * sqrDist u a := mul_self_lt_mul_self h0 hc
    have : sqrDist u a * sqrDist u a ≤ sqrDist u a * sqrDist u b := mul_le_mul_of_nonneg_left hd na
    linarith
  · by_contra hc
    have hc := not_le.1 hc
    have : sqrDist u b * sqrDist u b < dotp u a b * dotp u a b := mul_self_lt_mul_self nb hc
    have : sqrDist u a * sqrDist u b ≤ sqrDist u b * sqrDist u b := mul_le_mul_of_nonneg_right hd nb
    linarith

theorem L_total (u a b : V) : L u a b ∨ L u b a := by
  unfold L
  rw [turn_swap u a b]
  rcases lt_trichotomy (turn u a b) 0 with h | h | h
  · right; left; linarith
  · rcases le_total (sqrDist u a) (sqrDist u b) with h' | h'
    · left; right; exact ⟨h, h'⟩
    · right; right; exact ⟨by linarith, h'⟩
  · left; left; exact h

theorem L_trans {u a b c : V} (ha : Ge u a) (hb : Ge u b) (hc : Ge u c) (h1 : L u a b) (h2 : L u b c) : L u a c := by
  rcases h1 with h1 | ⟨h1, d1⟩
  · left
    have hbu : b ≠ u := by rintro rfl; rw [turn_self_out] at h1; linarith
    rcases h2 with h2 | ⟨h2, d2⟩
    · have hcu : c ≠ u := by rintro rfl; rw [turn_self_out] at h2; linarith
      exact strict_trans ha hb hc hcu h1 h2.le
    · have hcu : c ≠ u := by
        rintro rfl
        have := sqrDist_pos hbu
        have e : sqrDist c c = 0 := by simp [sqrDist]
        linarith
      exact strict_trans ha hb hc hcu h1 h2.symm.le
  · by_cases hau : a = u
    · subst hau
      right
      refine ⟨turn_self_left a c, ?_⟩
      have e : sqrDist a a = 0 := by simp [sqrDist]
      rw [e]; exact sqrDist_nonneg a c
    have hbu : b ≠ u := by
      rintro rfl
      have := sqrDist_pos hau
      have e : sqrDist b b = 0 := by simp [sqrDist]
      linarith
    have pa := sqrDist_pos hau
    have hdot := (dot_between ha hb h1 d1).1
    -- |a|² b = dot · a
    have key : sqrDist u a * turn u b c = dotp u a b * turn u a c := by
      have h1' : (a.x - u.x) * (b.y - u.y) - (a.y - u.y) * (b.x - u.x) = 0 := by
        simp only [turn] at h1; linear_combination -h1
      simp only [sqrDist, dotp, turn]
      linear_combination ((a.x - u.x) * (c.x - u.x) + (a.y - u.y) * (c.y - u.y)) * h1'
    have pd : 0 < dotp u a b := by linarith
    rcases h2 with h2 | ⟨h2, d2⟩
    · left
      have : 0 < dotp u a b * turn u a c := by rw [← key]; exact mul_pos pa h2
      exact (mul_pos_iff_of_pos_left pd).1 this
    · right
      rw [h2, mul_zero] at key
      refine ⟨?_, le_trans d1 d2⟩
      rcases mul_eq_zero.1 key.symm with h | h
      · linarith
      · exact h

/-- an affine function -/
def aff (a b : ℚ) (v : V) : ℚ := a * v.x + b * v.y

/-- a vertex that is removed is covered by the others -/
theorem pop_cover {u cp cl cc : V} (hl : Ge u cl) (hc : Ge u cc) (hcu : cc ≠ u) (hp : cp = u ∨ 0 < turn u cp cl)
    (hL : L u cl cc) (ht : turn cp cl cc ≤ 0) (a b k : ℚ) (h1 : aff a b u ≤ k) (h2 : aff a b cp ≤ k)
    (h3 : aff a b cc ≤ k) : aff a b cl ≤ k := by
  have hL0 : 0 ≤ turn u cl cc := by
    rcases hL with h | h
    · exact h.le
    · exact h.1.symm.le
  rcases hp with rfl | hp
  · have h0 : turn cp cl cc = 0 := le_antisymm ht hL0
    have hd : sqrDist cp cl ≤ sqrDist cp cc := by
      rcases hL with h | h
      · linarith
      · exact h.2
    obtain ⟨-, hdot⟩ := dot_between hl hc h0 hd
    have hdot0 := ray_dot hl hc h0
    have pc := sqrDist_pos hcu
    have id1 : sqrDist cp cc * aff a b cl = dotp cp cl cc * aff a b cc + (sqrDist cp cc - dotp cp cl cc) * aff a b cp := by
      have h0' : (cl.x - cp.x) * (cc.y - cp.y) - (cl.y - cp.y) * (cc.x - cp.x) = 0 := by
        simp only [turn] at h0; linear_combination -h0
      simp only [sqrDist, dotp, aff]
      linear_combination (a * (cc.y - cp.y) - b * (cc.x - cp.x)) * h0'
    have : sqrDist cp cc * aff a b cl ≤ sqrDist cp cc * k := by
      rw [id1]
      have e1 := mul_le_mul_of_nonneg_left h3 hdot0
      have e2 := mul_le_mul_of_nonneg_left h2 (sub_nonneg.2 hdot)
      linarith
    exact le_of_mul_le_mul_left this pc
  · have hS : turn u cp cc = turn u cl cc + turn u cp cl - turn cp cl cc := by
      have := turn_four u cp cl cc; linarith
    have pS : 0 < turn u cp cc := by linarith
    have id1 : turn u cp cc * aff a b cl =
        turn u cl cc * aff a b cp + turn u cp cl * aff a b cc + (-turn cp cl cc) * aff a b u := by
      simp only [turn, aff]; ring
    have : turn u cp cc * aff a b cl ≤ turn u cp cc * k := by
      rw [id1]
      have e1 := mul_le_mul_of_nonneg_left h2 hL0
      have e2 := mul_le_mul_of_nonneg_left h3 hp.le
      have e3 := mul_le_mul_of_nonneg_left h1 (neg_nonneg.2 ht)
      have e4 : turn u cp cc * k = turn u cl cc * k + turn u cp cl * k + (-turn cp cl cc) * k := by rw [hS]; ring
      linarith
    exact le_of_mul_le_mul_left this pS

/-- a vertex that is kept is seen strictly before the new one -/
theorem kept_strict {u cp cl cc : V} (hl : Ge u cl) (hc : Ge u cc) (hp : cp = u ∨ 0 < turn u cp cl)
    (hL : L u cl cc) (ht : 0 < turn cp cl cc) : 0 < turn u cl cc := by
  rcases hp with rfl | hp
  · exact ht
  · rcases hL with h | ⟨h, hd⟩
    · exact h
    · exfalso
      have hdot := (dot_between hl hc h hd).1
      have hcl : cl ≠ u := by rintro rfl; rw [turn_self_out] at hp; linarith
      have pl := sqrDist_pos hcl
      have key : sqrDist u cl * turn u cp cc = dotp u cl cc * turn u cp cl := by
        have h' : (cl.x - u.x) * (cc.y - u.y) - (cl.y - u.y) * (cc.x - u.x) = 0 := by
          simp only [turn] at h; linear_combination -h
        simp only [sqrDist, dotp, turn]
        linear_combination (-((cl.x - u.x) * (cp.x - u.x)) - (cl.y - u.y) * (cp.y - u.y)) * h'
      have h4 := turn_four u cp cl cc
      have h5 : turn u cp cc < turn u cp cl := by linarith
      have h6 : sqrDist u cl * turn u cp cc < sqrDist u cl * turn u cp cl := mul_lt_mul_of_pos_left h5 pl
      have h7 : sqrDist u cl * turn u cp cl ≤ dotp u cl cc * turn u cp cl := mul_le_mul_of_nonneg_right hdot hp.le
      linarith

/-- the relation of Grassmann and Plücker -/
theorem plucker (o a b c d : V) :
    turn o a b * turn o c d - turn o a c * turn o b d + turn o a d * turn o b c = 0 := by
  simp only [turn]; ring

/-- `i`, `m`, `b` in order, then `k` -/
theorem conv_step1 {u i m b k : V} (h1 : 0 < turn i m b) (h2 : 0 < turn m b k) (h3 : 0 < turn u b k) (h4 : 0 < turn u m b)
    (h5 : 0 < turn u i b) : 0 < turn i b k := by
  have hp := plucker b i m k u
  have e1 : turn b i m = turn i m b := by simp only [turn]; ring
  have e2 : turn b k u = turn u b k := by simp only [turn]; ring
  have e3 : turn b i k = -turn i b k := by simp only [turn]; ring
  have e4 : turn b m u = -turn u m b := by simp only [turn]; ring
  have e5 : turn b i u = -turn u i b := by simp only [turn]; ring
  have e6 : turn b m k = -turn m b k := by simp only [turn]; ring
  rw [e1, e2, e3, e4, e5, e6] at hp
  have p1 := mul_pos h1 h3
  have p2 := mul_pos h5 h2
  have : 0 < turn i b k * turn u m b := by linarith
  exact (mul_pos_iff_of_pos_right h4).1 this

/-- `i`, `j`, `t` in order, then `k` -/
theorem conv_step2 {u i j t k : V} (h1 : 0 < turn i j t) (h2 : 0 < turn j t k) (h3 : 0 < turn u j k) (h4 : 0 < turn u j t)
    (h5 : 0 < turn u i j) : 0 < turn i j k := by
  have hp := plucker j i t k u
  have e1 : turn j i t = -turn i j t := by simp only [turn]; ring
  have e2 : turn j k u = turn u j k := by simp only [turn]; ring
  have e3 : turn j i k = -turn i j k := by simp only [turn]; ring
  have e4 : turn j t u = turn u j t := by simp only [turn]; ring
  have e5 : turn j i u = -turn u i j := by simp only [turn]; ring
  rw [e1, e2, e3, e4, e5] at hp
  have p1 := mul_pos h1 h3
  have p2 := mul_pos h5 h2
  have : 0 < turn i j k * turn u j t := by linarith
  exact (mul_pos_iff_of_pos_right h4).1 this

end Hob3l.Hull
