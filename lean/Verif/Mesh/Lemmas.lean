import Verif.Mesh.Spec
import Verif.Solid.LemmasVolume
import Mathlib.Tactic.LinearCombination
import Mathlib.Tactic.Linarith

/-!
Sorting of points, and the volume of plane faces.
-/

namespace Hob3l.Mesh

open Hob3l.Solid
open Hob3l.Slice (sides)

/-! ### sorting -/

theorem lexCmp_symm (e : ℝ) (a b : List ℝ) : lexCmp e a b = 0 → lexCmp e b a = 0 := by
  induction a generalizing b with
  | nil => cases b <;> simp [lexCmp]
  | cons x a ih =>
    cases b with
    | nil => simp [lexCmp]
    | cons y b =>
      intro h
      simp only [lexCmp] at h ⊢
      rw [abs_sub_comm]
      by_cases hx : |x - y| < e
      · rw [if_neg (not_not.2 hx)] at h ⊢
        exact ih b h
      · rw [if_pos hx] at h
        split at h <;> simp at h

/-- neighbours of a sorted list are equal if any two elements are -/
theorem adjDup_of_pair (e : ℝ) (l : List (List ℝ)) (hc : Consistent (lexCmp e) l) (hs : l.Pairwise fun a b => lexCmp e a b ≤ 0)
    (h : adjDup e l = false) : l.Pairwise fun a b => lexCmp e a b ≠ 0 := by
  induction l with
  | nil => exact .nil
  | cons a l ih =>
    have hc' : Consistent (lexCmp e) l :=
      ⟨fun x hx y hy => hc.1 x (by simp [hx]) y (by simp [hy]), fun x hx y hy z hz => hc.2 x (by simp [hx]) y (by simp [hy]) z (by simp [hz])⟩
    rw [List.pairwise_cons] at hs ⊢
    cases l with
    | nil => exact ⟨fun _ h => (nomatch h), .nil⟩
    | cons b l =>
      simp only [adjDup, Bool.or_eq_false_iff, beq_eq_false_iff_ne, ne_eq] at h
      refine ⟨fun x hx hz => ?_, ih hc' hs.2 h.2⟩
      rcases List.mem_cons.1 hx with rfl | hx'
      · exact h.1 hz
      · have h1 : lexCmp e b x ≤ 0 := (List.pairwise_cons.1 hs.2).1 x hx'
        have h2 : lexCmp e x a ≤ 0 := (hc.1 x (by simp [hx']) a (by simp)).2 (by rw [hz])
        have h3 : lexCmp e b a ≤ 0 := hc.2 b (by simp) x (by simp [hx']) a (by simp) h1 h2
        have h4 : 0 ≤ lexCmp e a b := (hc.1 b (by simp) a (by simp)).1 h3
        have h5 := hs.1 b (by simp)
        exact h.1 (by omega)

theorem pair_of_adjDup (e : ℝ) (l : List (List ℝ)) (h : adjDup e l = true) : ¬ l.Pairwise fun a b => lexCmp e a b ≠ 0 := by
  induction l with
  | nil => simp [adjDup] at h
  | cons a l ih =>
    cases l with
    | nil => simp [adjDup] at h
    | cons b l =>
      intro hp
      rw [List.pairwise_cons] at hp
      simp only [adjDup, Bool.or_eq_true, beq_iff_eq] at h
      rcases h with h | h
      · exact hp.1 b (by simp) h
      · exact ih h hp.2

theorem consistent_perm {cmp : List ℝ → List ℝ → Int} {l l' : List (List ℝ)} (h : l.Perm l') (hc : Consistent cmp l) :
    Consistent cmp l' :=
  ⟨fun a ha b hb => hc.1 a (h.mem_iff.2 ha) b (h.mem_iff.2 hb),
    fun a ha b hb c hd => hc.2 a (h.mem_iff.2 ha) b (h.mem_iff.2 hb) c (h.mem_iff.2 hd)⟩

/-- the check finds two equal points exactly if there are two -/
theorem check_eq (e : ℝ) (q : QSort) (hq : q.Ok) (l : List (List ℝ)) (hc : Consistent (lexCmp e) l) :
    ∃ b, check e q l = some b ∧ (b = false ↔ l.Pairwise fun a b => lexCmp e a b ≠ 0) := by
  obtain ⟨hp, hs⟩ := hq _ l hc
  refine ⟨adjDup e (q.run (lexCmp e) l), by unfold check; rw [if_pos hc], ?_⟩
  have hi : l.Pairwise (fun a b => lexCmp e a b ≠ 0) ↔ (q.run (lexCmp e) l).Pairwise fun a b => lexCmp e a b ≠ 0 :=
    hp.pairwise_iff fun {a b} h h' => h (lexCmp_symm e b a h')
  rw [hi]
  constructor
  · exact adjDup_of_pair e _ (consistent_perm hp hc) hs
  · intro h
    by_contra hn
    exact pair_of_adjDup e _ (by simpa using hn) h

/-! ### points on a grid -/

/-- exact comparison -/
def Le : List ℝ → List ℝ → Prop
  | a :: as, b :: bs => a < b ∨ (a = b ∧ Le as bs)
  | _, _ => True

/-- two points with the coordinates apart or equal -/
def Sep (e : ℝ) : List ℝ → List ℝ → Prop
  | a :: as, b :: bs => (a = b ∨ e ≤ |a - b|) ∧ Sep e as bs
  | [], [] => True
  | _, _ => False

theorem sep_of (e : ℝ) (a b : List ℝ) (hl : a.length = b.length)
    (h : ∀ i (h : i < a.length) (h' : i < b.length), a[i] = b[i] ∨ e ≤ |a[i] - b[i]|) : Sep e a b := by
  induction a generalizing b with
  | nil => cases b with
    | nil => trivial
    | cons y b => simp at hl
  | cons x a ih =>
    cases b with
    | nil => simp at hl
    | cons y b =>
      refine ⟨h 0 (by simp) (by simp), ih b (by simpa using hl) fun i h1 h2 => ?_⟩
      exact h (i + 1) (by simpa using h1) (by simpa using h2)

theorem lexCmp_sep {e : ℝ} (h0 : 0 < e) (a b : List ℝ) (h : Sep e a b) :
    (lexCmp e a b ≤ 0 ↔ Le a b) ∧ (0 ≤ lexCmp e a b ↔ Le b a) ∧ (lexCmp e a b = 0 ↔ a = b) := by
  induction a generalizing b with
  | nil => cases b with
    | nil => simp [lexCmp, Le]
    | cons y b => exact h.elim
  | cons x a ih =>
    cases b with
    | nil => exact h.elim
    | cons y b =>
      obtain ⟨h1, h2⟩ := h
      obtain ⟨i1, i2, i3⟩ := ih b h2
      by_cases hx : x = y
      · subst hx
        have : lexCmp e (x :: a) (x :: b) = lexCmp e a b := by
          simp only [lexCmp, sub_self, abs_zero, h0, not_true_eq_false, if_false]
        rw [this]
        simp [Le, i1, i2, i3]
      · have h3 : ¬ |x - y| < e := by
          rcases h1 with h1 | h1
          · exact absurd h1 hx
          · exact not_lt.2 h1
        rcases lt_or_gt_of_ne hx with hlt | hlt
        · have : lexCmp e (x :: a) (y :: b) = -1 := by simp only [lexCmp, h3, not_false_eq_true, if_true, hlt]
          rw [this]
          simp [Le, hlt, hx, Ne.symm hx, hlt.le, not_lt.2 hlt.le]
        · have : lexCmp e (x :: a) (y :: b) = 1 := by
            simp only [lexCmp, h3, not_false_eq_true, if_true, not_lt.2 hlt.le, if_false]
          rw [this]
          simp [Le, hlt, hx, Ne.symm hx, not_lt.2 hlt.le]

theorem le_trans' (a b c : List ℝ) (e : ℝ) (h1 : Sep e a b) (h2 : Sep e b c) (hab : Le a b) (hbc : Le b c) : Le a c := by
  induction a generalizing b c with
  | nil => cases c <;> simp [Le]
  | cons x a ih =>
    cases b with
    | nil => exact h1.elim
    | cons y b =>
      cases c with
      | nil => exact h2.elim
      | cons z c =>
        rcases hab with hab | ⟨rfl, hab⟩
        · rcases hbc with hbc | ⟨rfl, hbc⟩
          · exact Or.inl (hab.trans hbc)
          · exact Or.inl hab
        · rcases hbc with hbc | ⟨rfl, hbc⟩
          · exact Or.inl hbc
          · exact Or.inr ⟨rfl, ih b c h1.2 h2.2 hab hbc⟩

theorem spaced_consistent {e : ℝ} (h0 : 0 < e) {l : List (List ℝ)} (h : Spaced e l) : Consistent (lexCmp e) l := by
  have hs : ∀ a ∈ l, ∀ b ∈ l, Sep e a b := fun a ha b hb => sep_of e a b (h a ha b hb).1 (h a ha b hb).2
  constructor
  · intro a ha b hb
    rw [(lexCmp_sep h0 a b (hs a ha b hb)).1, (lexCmp_sep h0 b a (hs b hb a ha)).2.1]
  · intro a ha b hb c hc h1 h2
    rw [(lexCmp_sep h0 _ _ (hs a ha b hb)).1] at h1
    rw [(lexCmp_sep h0 _ _ (hs b hb c hc)).1] at h2
    rw [(lexCmp_sep h0 _ _ (hs a ha c hc)).1]
    exact le_trans' a b c e (hs a ha b hb) (hs b hb c hc) h1 h2

/-- on a grid, the check finds equal points -/
theorem check_spaced {e : ℝ} (h0 : 0 < e) (q : QSort) (hq : q.Ok) {l : List (List ℝ)} (h : Spaced e l) :
    (l.Nodup → check e q l = some false) ∧ (¬ l.Nodup → check e q l = some true) := by
  obtain ⟨b, hb, hi⟩ := check_eq e q hq l (spaced_consistent h0 h)
  have hn : l.Nodup ↔ l.Pairwise fun a b => lexCmp e a b ≠ 0 := by
    unfold List.Nodup
    constructor
    · intro hp
      exact hp.imp_of_mem fun {a b} ha hb hab hz =>
        hab ((lexCmp_sep h0 a b (sep_of e a b (h a ha b hb).1 (h a ha b hb).2)).2.2.1 hz)
    · intro hp
      exact hp.imp_of_mem fun {a b} ha hb hab hz =>
        hab ((lexCmp_sep h0 a b (sep_of e a b (h a ha b hb).1 (h a ha b hb).2)).2.2.2 hz)
  rw [← hn] at hi
  rw [hb]
  constructor
  · intro h'; rw [hi.2 h']
  · intro h'
    cases b with
    | true => rfl
    | false => exact absurd (hi.1 rfl) h'

/-! ### plane faces -/

theorem plane_det {p q r s : P3} {n : P3} {k : ℝ} (hn : n.x ≠ 0 ∨ n.y ≠ 0 ∨ n.z ≠ 0)
    (hp : n.x * p.x + n.y * p.y + n.z * p.z = k) (hq : n.x * q.x + n.y * q.y + n.z * q.z = k)
    (hr : n.x * r.x + n.y * r.y + n.z * r.z = k) (hs : n.x * s.x + n.y * s.y + n.z * s.z = k) :
    det3 p q r = det3 s p q + det3 s q r + det3 s r p := by
  have hu : n.x * (p.x - s.x) + n.y * (p.y - s.y) + n.z * (p.z - s.z) = 0 := by linarith
  have hv : n.x * (q.x - s.x) + n.y * (q.y - s.y) + n.z * (q.z - s.z) = 0 := by linarith
  have hw : n.x * (r.x - s.x) + n.y * (r.y - s.y) + n.z * (r.z - s.z) = 0 := by linarith
  have e : det3 p q r - (det3 s p q + det3 s q r + det3 s r p) =
      (p.x - s.x) * ((q.y - s.y) * (r.z - s.z) - (q.z - s.z) * (r.y - s.y)) -
      (p.y - s.y) * ((q.x - s.x) * (r.z - s.z) - (q.z - s.z) * (r.x - s.x)) +
      (p.z - s.z) * ((q.x - s.x) * (r.y - s.y) - (q.y - s.y) * (r.x - s.x)) := by
    unfold det3; ring
  suffices h : det3 p q r - (det3 s p q + det3 s q r + det3 s r p) = 0 by linarith
  rw [e]
  generalize p.x - s.x = ux at *
  generalize p.y - s.y = uy at *
  generalize p.z - s.z = uz at *
  generalize q.x - s.x = vx at *
  generalize q.y - s.y = vy at *
  generalize q.z - s.z = vz at *
  generalize r.x - s.x = wx at *
  generalize r.y - s.y = wy at *
  generalize r.z - s.z = wz at *
  rcases hn with h | h | h
  · apply mul_left_cancel₀ h
    linear_combination (vy * wz - vz * wy) * hu + (wy * uz - wz * uy) * hv + (uy * vz - uz * vy) * hw
  · apply mul_left_cancel₀ h
    linear_combination (vz * wx - vx * wz) * hu + (wz * ux - wx * uz) * hv + (uz * vx - ux * vz) * hw
  · apply mul_left_cancel₀ h
    linear_combination (vx * wy - vy * wx) * hu + (wx * uy - wy * ux) * hv + (ux * vy - uy * vx) * hw

theorem faceVol_plane {f : List P3} {n : P3} {k : ℝ} (hn : n.x ≠ 0 ∨ n.y ≠ 0 ∨ n.z ≠ 0)
    (h : ∀ p ∈ f, n.x * p.x + n.y * p.y + n.z * p.z = k) {s : P3} (hs : n.x * s.x + n.y * s.y + n.z * s.z = k) :
    faceVol f = ssum (det3 s) (sides f) := by
  cases f with
  | nil => simp [faceVol, ssum, sides]
  | cons p l =>
    rw [faceVol, fan_fanF, sides]
    have := fan_split (det3 p) (fun _ _ => 0) (det3 s) (fun a b => by unfold det3; ring) p l (by
      intro q hq r hr
      have := plane_det hn (h p (by simp)) (h q (by simp [hq])) (h r (by simp [hr])) hs
      rw [zero_add]
      exact this)
    rw [this]
    have z : ∀ l, fanF (fun _ _ => (0 : ℝ)) l = 0 := by
      intro l
      induction l with
      | nil => rfl
      | cons q l ih =>
        cases l with
        | nil => rfl
        | cons r l => rw [fanF, ih, add_zero]
    rw [z, zero_add]

/-- a plane face that is reversed -/
theorem faceVol_reverse {f : List P3} (h : Planar f) : faceVol f.reverse = - faceVol f := by
  obtain ⟨n, k, hn, hp⟩ := h
  cases hf : f with
  | nil => simp [faceVol]
  | cons s l =>
    rw [← hf]
    have hs := hp s (by simp [hf])
    rw [faceVol_plane hn (fun p hp' => hp p (List.mem_reverse.1 hp')) hs, faceVol_plane hn hp hs]
    have h1 : ssum (det3 s) (sides f.reverse) = ssum (det3 s) ((sides f).map Prod.swap) := ((sides_reverse f).map _).sum_eq
    rw [h1]
    generalize sides f = g
    induction g with
    | nil => simp [ssum]
    | cons a g ih =>
      have e : det3 s a.2 a.1 = - det3 s a.1 a.2 := by unfold det3; ring
      simp only [ssum, List.map_cons, List.sum_cons, List.map_map, Prod.fst_swap, Prod.snd_swap] at ih ⊢
      rw [ih, e]; ring

theorem vol6_reverse {fs : List (List P3)} (h : ∀ f ∈ fs, Planar f) : vol6 (fs.map List.reverse) = - vol6 fs := by
  induction fs with
  | nil => simp [vol6]
  | cons f fs ih =>
    have := ih fun g hg => h g (by simp [hg])
    simp only [vol6, List.map_cons, List.sum_cons] at this ⊢
    rw [this, faceVol_reverse (h f (by simp))]; ring

end Hob3l.Mesh
