import Verif.Poly.LemmasTotal
import Mathlib.Algebra.BigOperators.Group.Finset.Basic
import Mathlib.Algebra.BigOperators.Ring.Finset
import Mathlib.Data.List.Perm.Subperm

/-!
The order of the edges on a vertical line.
-/

namespace Hob3l.Poly

/-- a point over the rationals -/
def cx (p : P) : ℚ × ℚ := (p.1, p.2)

/-- an edge over the rationals -/
def sx (ed : Nat → Bool → P) (e : Nat) : Seg := (cx (ed e false), cx (ed e true))

theorem apart_cx {a b c d : P} (h1 : (cx a).1 < (cx b).1) (h2 : (cx c).1 < (cx d).1) (h : NonCrossing a b c d) :
    Apart (cx a, cx b) (cx c, cx d) := by
  have key : ∀ (a b : P), (cx a).1 < (cx b).1 → ∀ u, Seg.has (cx a, cx b) u →
      ∃ s, 0 ≤ s ∧ s ≤ 1 ∧ pointAt a b s = (u, Seg.y (cx a, cx b) u) ∧
        (s = 0 → u = (cx a).1) ∧ (s = 1 → u = (cx b).1) := by
    intro a b h u ⟨hu1, hu2⟩
    simp only at hu1 hu2
    have hpos : 0 < (cx b).1 - (cx a).1 := by linarith
    obtain ⟨s, hs⟩ : ∃ s, s = (u - (cx a).1) / ((cx b).1 - (cx a).1) := ⟨_, rfl⟩
    have hs' : s * ((cx b).1 - (cx a).1) = u - (cx a).1 := by rw [hs]; field_simp
    have hy : Seg.y (cx a, cx b) u = (cx a).2 + s * ((cx b).2 - (cx a).2) := by
      unfold Seg.y Seg.slope
      rw [hs]; simp only; ring
    refine ⟨s, ?_, ?_, ?_, ?_, ?_⟩
    · rw [hs]; exact div_nonneg (by linarith) hpos.le
    · rw [hs, div_le_one₀ hpos]; linarith
    · rw [hy]
      unfold pointAt
      have : (a.1 : ℚ) + s * (b.1 - a.1) = u := by
        unfold cx at hs'
        simp only at hs'
        linarith
      rw [this]
      rfl
    · intro h0; rw [h0] at hs'; linarith
    · intro h0; rw [h0] at hs'; linarith
  intro u hu1 hu2 heq
  obtain ⟨s, s0, s1, hs, e1, e2⟩ := key a b h1 u hu1
  obtain ⟨t, t0, t1, ht, e3, e4⟩ := key c d h2 u hu2
  obtain ⟨h3, h4⟩ := h s t s0 s1 t0 t1 (by rw [hs, ht, heq])
  exact ⟨h3.imp e1 e2, h4.imp e3 e4⟩

theorem cross_cx (a o b : P) : ((cx a).1 - (cx o).1) * ((cx b).2 - (cx o).2) - ((cx a).2 - (cx o).2) * ((cx b).1 - (cx o).1) =
    (crossI a o b : ℚ) := by
  unfold crossI cx
  push_cast
  ring

section
variable {ed : Nat → Bool → P}

/-- the side of a point does not depend on the shear -/
theorem side_iff {e : Nat} (h1 : (sg ed e).ok) (h2 : (sx ed e).ok) (q : P) :
    ((sh q).2 ≤ (sg ed e).y (sh q).1 ↔ (cx q).2 ≤ (sx ed e).y (cx q).1) ∧
    ((sg ed e).y (sh q).1 ≤ (sh q).2 ↔ (sx ed e).y (cx q).1 ≤ (cx q).2) := by
  have s1 := side_eq h1 (sh q)
  have s2 := side_eq h2 (cx q)
  have c1 : ((sh q).2 - (sg ed e).y (sh q).1) * ((sg ed e).2.1 - (sg ed e).1.1) = K * (crossI q (ed e true) (ed e false) : ℚ) := by
    rw [← s1, ← cross_sh]; rfl
  have c2 : ((cx q).2 - (sx ed e).y (cx q).1) * ((sx ed e).2.1 - (sx ed e).1.1) = (crossI q (ed e true) (ed e false) : ℚ) := by
    rw [← s2, ← cross_cx]; rfl
  have w1 : 0 < (sg ed e).2.1 - (sg ed e).1.1 := by unfold Seg.ok at h1; linarith
  have w2 : 0 < (sx ed e).2.1 - (sx ed e).1.1 := by unfold Seg.ok at h2; linarith
  have hK := K_pos
  rw [← c2] at c1
  constructor
  · constructor
    · intro h
      by_contra hc
      rw [not_le] at hc
      have h3 : 0 < K * (((cx q).2 - (sx ed e).y (cx q).1) * ((sx ed e).2.1 - (sx ed e).1.1)) :=
        mul_pos hK (mul_pos (by linarith) w2)
      have h4 := mul_nonneg (by linarith : 0 ≤ (sg ed e).y (sh q).1 - (sh q).2) w1.le
      linarith
    · intro h
      by_contra hc
      rw [not_le] at hc
      have h3 := mul_pos (by linarith : 0 < (sh q).2 - (sg ed e).y (sh q).1) w1
      have h4 : 0 ≤ K * (((sx ed e).y (cx q).1 - (cx q).2) * ((sx ed e).2.1 - (sx ed e).1.1)) :=
        mul_nonneg hK.le (mul_nonneg (by linarith) w2.le)
      linarith
  · constructor
    · intro h
      by_contra hc
      rw [not_le] at hc
      have h3 : 0 < K * (((sx ed e).y (cx q).1 - (cx q).2) * ((sx ed e).2.1 - (sx ed e).1.1)) :=
        mul_pos hK (mul_pos (by linarith) w2)
      have h4 := mul_nonneg (by linarith : 0 ≤ (sh q).2 - (sg ed e).y (sh q).1) w1.le
      linarith
    · intro h
      by_contra hc
      rw [not_le] at hc
      have h3 := mul_pos (by linarith : 0 < (sg ed e).y (sh q).1 - (sh q).2) w1
      have h4 : 0 ≤ K * (((cx q).2 - (sx ed e).y (cx q).1) * ((sx ed e).2.1 - (sx ed e).1.1)) :=
        mul_nonneg hK.le (mul_nonneg (by linarith) w2.le)
      linarith

theorem sh_le_fst {p q : P} (hp : Small p) (hq : Small q) (h : (sh p).1 ≤ (sh q).1) : p.1 ≤ q.1 := by
  by_contra hc
  have : Lt q p := .inl (by omega)
  have := (sh_lt hq hp).2 this
  linarith

/-- on a vertical line, the order is the same -/
theorem below_at {l : List Vtx} (hl : Proper l) (ha : Arranged ed l) {e f : Nat} (he : Started l e) (hf : Started l f) (hne : e ≠ f)
    (hb : Below (sg ed e) (sg ed f)) {x : ℚ} (hxe : (cx (ed e false)).1 < x ∧ x < (cx (ed e true)).1)
    (hxf : (cx (ed f false)).1 < x ∧ x < (cx (ed f true)).1) : (sx ed e).y x < (sx ed f).y x := by
  have oe := sg_ok hl ha he
  have of := sg_ok hl ha hf
  have xe : (sx ed e).ok := by unfold Seg.ok sx; simp only; linarith
  have xf : (sx ed f).ok := by unfold Seg.ok sx; simp only; linarith
  have hapS := sg_apart hl ha he hf hne
  have hapX : Apart (sx ed e) (sx ed f) := by
    obtain ⟨v, hv, e1, -⟩ := he
    obtain ⟨w, hw, e2, -⟩ := hf
    have := ha.apart v hv w hw (by rw [e1, e2]; exact hne)
    rw [e1, e2] at this
    exact apart_cx xe xf this
  have hxe' : (sx ed e).has x := ⟨hxe.1.le, hxe.2.le⟩
  have hxf' : (sx ed f).has x := ⟨hxf.1.le, hxf.2.le⟩
  rcases lt_trichotomy ((sx ed e).y x) ((sx ed f).y x) with h | h | h
  · exact h
  · exfalso
    rcases (hapX x hxe' hxf' h).1 with h | h
    · unfold sx at h; simp only at h; linarith
    · unfold sx at h; simp only at h; linarith
  · exfalso
    have hbx : Below (sx ed f) (sx ed e) := ⟨x, hxf', hxe', h⟩
    have sle := end_small hl ha he false
    have sre := end_small hl ha he true
    have slf := end_small hl ha hf false
    have srf := end_small hl ha hf true
    have hcmp : ∀ {p q : P}, (cx p).1 < x → x < (cx q).1 → Small p → Small q → (sh p).1 < (sh q).1 ∧ p.1 ≤ q.1 := by
      intro p q h1 h2 hp hq
      have : p.1 < q.1 := by
        have : (cx p).1 < (cx q).1 := by linarith
        unfold cx at this
        simp only at this
        exact_mod_cast this
      exact ⟨(sh_lt hp hq).2 (.inl this), this.le⟩
    have c1 := hcmp hxe.1 hxf.2 sle srf
    have c2 := hcmp hxf.1 hxe.2 slf sre
    have c3 := hcmp hxe.1 hxe.2 sle sre
    have c4 := hcmp hxf.1 hxf.2 slf srf
    have cast : ∀ {p q : P}, p.1 ≤ q.1 → (cx p).1 ≤ (cx q).1 := by
      intro p q h
      unfold cx; simp only; exact_mod_cast h
    -- a point of one edge in the range of the other
    have touchF : ∀ q : P, (sg ed e).has (sh q).1 → (sg ed f).has (sh q).1 → (sx ed e).has (cx q).1 → (sx ed f).has (cx q).1 →
        (sg ed f).y (sh q).1 = (sh q).2 → (sx ed f).y (cx q).1 = (cx q).2 → (sg ed e).y (sh q).1 = (sg ed f).y (sh q).1 := by
      intro q g1 g2 g3 g4 g5 g6
      have k1 := hb.le hapS g1 g2
      have k2 := hbx.le hapX.symm g4 g3
      rw [g6] at k2
      have := (side_iff oe xe q).1.2 k2
      rw [g5] at k1 ⊢
      linarith
    have touchE : ∀ q : P, (sg ed e).has (sh q).1 → (sg ed f).has (sh q).1 → (sx ed e).has (cx q).1 → (sx ed f).has (cx q).1 →
        (sg ed e).y (sh q).1 = (sh q).2 → (sx ed e).y (cx q).1 = (cx q).2 → (sg ed e).y (sh q).1 = (sg ed f).y (sh q).1 := by
      intro q g1 g2 g3 g4 g5 g6
      have k1 := hb.le hapS g1 g2
      have k2 := hbx.le hapX.symm g4 g3
      rw [g6] at k2
      have := (side_iff of xf q).2.2 k2
      rw [g5] at k1 ⊢
      linarith
    have hA : ∃ a, (sg ed e).y a = (sg ed f).y a ∧ (a = (sh (ed e false)).1 ∨ a = (sh (ed f false)).1) := by
      rcases le_total (sh (ed e false)).1 (sh (ed f false)).1 with h | h
      · refine ⟨_, touchF (ed f false) ⟨h, c2.1.le⟩ ⟨le_rfl, c4.1.le⟩ ⟨cast (sh_le_fst sle slf h), cast c2.2⟩ ⟨le_rfl, cast c4.2⟩
          (y_left _) (y_left _), .inr rfl⟩
      · refine ⟨_, touchE (ed e false) ⟨le_rfl, c3.1.le⟩ ⟨h, c1.1.le⟩ ⟨le_rfl, cast c3.2⟩ ⟨cast (sh_le_fst slf sle h), cast c1.2⟩
          (y_left _) (y_left _), .inl rfl⟩
    have hB : ∃ b, (sg ed e).y b = (sg ed f).y b ∧ (b = (sh (ed e true)).1 ∨ b = (sh (ed f true)).1) := by
      rcases le_total (sh (ed e true)).1 (sh (ed f true)).1 with h | h
      · refine ⟨_, touchE (ed e true) ⟨c3.1.le, le_rfl⟩ ⟨c2.1.le, h⟩ ⟨cast c3.2, le_rfl⟩ ⟨cast c2.2, cast (sh_le_fst sre srf h)⟩
          (y_right oe) (y_right xe), .inl rfl⟩
      · refine ⟨_, touchF (ed f true) ⟨c1.1.le, h⟩ ⟨c4.1.le, le_rfl⟩ ⟨cast c1.2, cast (sh_le_fst srf sre h)⟩ ⟨cast c4.2, le_rfl⟩
          (y_right of) (y_right xf), .inr rfl⟩
    obtain ⟨a, ha1, ha2⟩ := hA
    obtain ⟨b, hb1, hb2⟩ := hB
    have hab : a < b := by
      rcases ha2 with rfl | rfl <;> rcases hb2 with rfl | rfl
      · exact c3.1
      · exact c1.1
      · exact c2.1
      · exact c4.1
    have hsl : (sg ed e).slope = (sg ed f).slope := by
      have d1 := y_diff (sg ed e) a b
      have d2 := y_diff (sg ed f) a b
      have d3 : (b - a) * (sg ed e).slope = (b - a) * (sg ed f).slope := by linarith
      exact mul_left_cancel₀ (by linarith) d3
    obtain ⟨u, -, -, hu⟩ := hb
    have d1 := y_diff (sg ed e) a u
    have d2 := y_diff (sg ed f) a u
    rw [hsl] at d1
    linarith

end

/-- a predicate on points, all of which have even degree -/
theorem even_count {l : List Vtx} (h : ∀ p, degree l p % 2 = 0) (Q : P → Bool) : (l.filter fun v => Q v.pos).length % 2 = 0 := by
  have h1 : (l.filter fun v => Q v.pos).length = ((l.map (·.pos)).filter Q).length := by
    rw [List.filter_map, List.length_map]; rfl
  rw [h1, ← List.sum_toFinset_count_eq_length]
  apply Nat.mod_eq_zero_of_dvd
  apply Finset.dvd_sum
  intro p hp
  rw [List.mem_toFinset, List.mem_filter] at hp
  unfold List.count
  rw [List.countP_filter, List.countP_map]
  have h2 : ∀ R : Vtx → Bool, (∀ v, R v = true ↔ v.pos = p) → l.countP R = degree l p := by
    intro R hR
    unfold degree
    apply List.countP_congr
    intro v _
    rw [hR v, decide_eq_true_eq]
  rw [h2]
  · exact Nat.dvd_of_mod_eq_zero (h p)
  · intro v
    simp only [Function.comp_apply, Bool.and_eq_true, beq_iff_eq]
    exact ⟨fun h => h.1, fun h => ⟨h, by rw [h]; exact hp.2⟩⟩

theorem arranged_le {ed : Nat → Bool → P} {l : List Vtx} (hl : Proper l) (ha : Arranged ed l) :
    l.Pairwise fun v w => Le v.pos w.pos := by
  refine List.Pairwise.imp_of_mem ?_ ha.sorted
  intro v w hv hw h
  have := before_cases h (ha.small v hv) (end_small hl ha (mem_started hl hv) _) (end_small hl ha (mem_started hl hw) _)
  rcases this with h | ⟨h, -⟩
  · unfold Lt at h
    unfold Le
    omega
  · rw [h]; exact .inr ⟨rfl, le_rfl⟩

end Hob3l.Poly
