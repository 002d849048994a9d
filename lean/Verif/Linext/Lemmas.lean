import Verif.Linext.Spec
import Verif.Xform.LemmasStep
import Mathlib.Tactic.SplitIfs

/-!
Lemmas about the points of `linear_extrude`.
-/

namespace Hob3l.Linext

open Hob3l.Xform

theorem mapM_some {α β : Type} (f : α → Option β) (g : α → β) (l : List α) (h : ∀ a ∈ l, f a = some (g a)) :
    l.mapM f = some (l.map g) := by
  induction l with
  | nil => rfl
  | cons a l ih =>
    rw [List.mapM_cons, h a (by simp), ih (fun b hb => h b (by simp [hb]))]
    rfl

theorem rot_eq (e : Eps) (he : 0 < e.sqr) (a : ℝ) :
    rot e (sincos a) = some ⟨⟨(sincos a).y, -(sincos a).x, (sincos a).x, (sincos a).y⟩, ⟨0, 0⟩⟩ := by
  unfold rot
  rw [hasLen01_sc he (sincos_one a)]
  rfl

/-- a point of a level before the transformation -/
noncomputable def raw (s : V2) (twist z : ℝ) (v : V2) : V3 :=
  ⟨(1 - z + z * s.x) * (turn (-(z * twist)) v).x, (1 - z + z * s.y) * (turn (-(z * twist)) v).y, z⟩

theorem level_eq (e : Eps) (he : 0 < e.sqr) (s : V2) (twist z : ℝ) (q : List V2) :
    level e s twist z q = some (q.map (raw s twist z)) := by
  unfold level
  rw [rot_eq e he]
  simp only [Option.bind_eq_bind, Option.bind_some, Option.pure_def, Option.some.injEq]
  apply List.map_congr_left
  intro v _
  simp only [raw, turn, scale, M2w.mul, M2.mul, M2w.xform, M2.xform, V2.add, sincos, lerp, mul_neg]
  ext <;> simp <;> ring

theorem tower_eq (e : Eps) (he : 0 < e.sqr) (s : V2) (twist : ℝ) (slices : Nat) (cone : Bool) (q : List V2) :
    tower e s twist slices cone q = some (((List.range (if cone then slices else slices + 1)).flatMap fun (k : Nat) =>
      q.map (raw s twist ((k : ℝ) / slices))) ++ (if cone then [⟨0, 0, 1⟩] else [])) := by
  unfold tower
  dsimp only
  rw [mapM_some _ (fun (k : Nat) => q.map (raw s twist ((k : ℝ) / slices))) _ (fun k _ => level_eq e he s twist _ q)]
  rfl

theorem matrix_xform (e : Eps) (h0 : 0 < e.eq) (mo : M3wi) (p : Par) (h1 : p.height = 1 ∨ e.eq ≤ |p.height - 1|) (x y z : ℝ) :
    (matrix e mo p).n.xform ⟨x, y, z⟩ = mo.n.xform ⟨x, y, p.height * (if p.center then z - 1 / 2 else z)⟩ := by
  have hs : ∀ z : ℝ, (M3wi.scale e 1 1 p.height).n.xform ⟨x, y, z⟩ = ⟨x, y, p.height * z⟩ := by
    intro z
    simp only [M3wi.scale, M3w.xform, M3.xform, V3.add, M3.scale]; ext <;> simp
  have ht : (M3wi.xlat 0 0 (-1 / 2)).n.xform ⟨x, y, z⟩ = ⟨x, y, z - 1 / 2⟩ := by
    simp only [M3wi.xlat, M3w.xform, M3.xform, V3.add, M3.one, M3.scale]; ext <;> simp <;> ring
  have hm : ∀ a b : M3wi, (a.mul b).n = a.n.mul b.n := fun _ _ => rfl
  unfold matrix
  dsimp only
  rcases h1 with h1 | h1
  · rw [(eEq_iff.2 (by rw [h1]; simpa using h0) : eEq e.eq p.height 1 = true)]
    simp only [if_true]
    cases p.center
    · simp only [Bool.false_eq_true, if_false]; rw [h1, one_mul]
    · simp only [if_true]; rw [hm, mul_xform, ht, h1, one_mul]
  · rw [eEq_false.2 h1]
    simp only [Bool.false_eq_true, if_false]
    cases p.center
    · simp only [Bool.false_eq_true, if_false]; rw [hm, mul_xform, hs]
    · simp only [if_true]; rw [hm, mul_xform, ht, hm, mul_xform, hs]

theorem matrix_neg (e : Eps) (h0 : 0 < e.eq) (mo : M3wi) (p : Par) (h : e.eq ≤ p.height) :
    (matrix e mo p).d < 0 ↔ mo.d < 0 := by
  have hp : 0 < p.height := lt_of_lt_of_le h0 h
  have hm : ∀ a b : M3wi, (a.mul b).d = a.d * b.d := fun _ _ => rfl
  have hk : mo.d * p.height < 0 ↔ mo.d < 0 := by
    constructor
    · intro h; by_contra hc; exact absurd h (not_lt.2 (mul_nonneg (not_lt.1 hc) hp.le))
    · intro h; exact mul_neg_of_neg_of_pos h hp
  unfold matrix
  dsimp only
  split <;> split <;> simp only [hm, M3wi.scale, M3wi.xlat, mul_one, one_mul, hk]

theorem vol_xform (m : M3w) (a b c d : V3) : vol (m.xform a) (m.xform b) (m.xform c) (m.xform d) = m.b.det * vol a b c d := by
  simp only [vol, M3w.xform, M3.xform, V3.add, M3.det]
  ring

theorem flatMap_getElem? {α β : Type} (n : Nat) (f : α → List β) (l : List α) (hf : ∀ a ∈ l, (f a).length = n)
    (k j : Nat) (hj : j < n) (tl : List β) (hk : k < l.length) :
    (l.flatMap f ++ tl)[k * n + j]? = (l[k]?).bind fun a => (f a)[j]? := by
  induction l generalizing k with
  | nil => simp at hk
  | cons a l ih =>
    have ha := hf a (by simp)
    rw [List.flatMap_cons, List.append_assoc]
    cases k with
    | zero =>
      rw [List.getElem?_append_left (by omega)]
      simp
    | succ k =>
      rw [List.getElem?_append_right (by rw [ha, Nat.succ_mul]; omega)]
      have : (k + 1) * n + j - (f a).length = k * n + j := by rw [ha, Nat.succ_mul]; omega
      rw [this, ih (fun b hb => hf b (by simp [hb])) k (by simpa using hk)]
      simp

theorem zeroish_iff (e : Eps) (h0 : 0 < e.eq) (s : ℝ) :
    eEq e.eq (if eLt e.eq s 0 then 0 else s) 0 = true ↔ Zeroish e.eq s := by
  have hl : eLt e.eq s 0 = true ↔ s < -e.eq := by simp [eLt]
  unfold Zeroish
  by_cases h : s < -e.eq
  · rw [if_pos (hl.2 h), eEq_iff]
    simp [h, h0]
  · rw [if_neg (fun hc => h (hl.1 hc)), eEq_iff]
    simp [h]

theorem polyOf_some (e : Eps) (he : 0 < e.sqr) (m : M3wi) (s : V2) (twist : ℝ) (slices : Nat) (cone : Bool) (q : List V2)
    (hq : 3 ≤ q.length) : ∃ o, polyOf e m s twist slices cone q = some o := by
  unfold polyOf
  rw [tower_eq e he]
  simp [ass, hq]

theorem mapM_total {α β : Type} (f : α → Option β) (l : List α) (h : ∀ a ∈ l, ∃ b, f a = some b) : ∃ r, l.mapM f = some r := by
  induction l with
  | nil => exact ⟨[], rfl⟩
  | cons a l ih =>
    obtain ⟨b, hb⟩ := h a (by simp)
    obtain ⟨r, hr⟩ := ih (fun c hc => h c (by simp [hc]))
    exact ⟨b :: r, by rw [List.mapM_cons, hb, hr]; rfl⟩

end Hob3l.Linext
