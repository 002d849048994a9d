import Verif.Layer.Lemmas
import Verif.Flatten.Props

/-!
C49: cutting layer by layer, with subtrahends skipped where there is nothing to subtract from, gives the point set of the
3D tree for each layer.
-/

namespace Hob3l.Layer

open Hob3l.Bitmap Hob3l.Flatten

section
variable {P : Type}

theorem process_ok (opt : Opt) (hskip : opt.skipEmpty = true) (hopt : 2 ≤ opt.maxSimultaneous) (sw : Sweep P)
    (hsw : sw.Ok) (n : Nat) (c : Csg3s P) (hc : c.WF) (k zi : Nat) (hz : zi + k ≤ n) (t : Trees P) (h : Invs n c t) :
    ∃ os, process opt sw n k zi t = some os ∧ os.length = k ∧
      ∀ j, j < k → ∃ o, os[j]? = some o ∧ ∀ p, Res.has o p = c.hasAny (zi + j) p := by
  induction k generalizing zi t with
  | zero => exact ⟨[], rfl, rfl, fun j hj => by omega⟩
  | succ k ih =>
    obtain ⟨e1, e2, -, -⟩ := addLayers_ok n zi (by omega) false c t h
    obtain ⟨o, ho1, ho2⟩ := C17_flatten_layer opt hskip hopt sw hsw zi (.add (toCsgsT (addLayers zi false t).2))
      (by simpa only [Csg.WF] using toCsgs_WF' n c _ hc e1)
    obtain ⟨os, h1, h2, h3⟩ := ih (zi + 1) (by omega) _ e1
    refine ⟨o :: os, ?_, by simp [h2], fun j hj => ?_⟩
    · have ha : treeAddLayer n zi t = some (addLayers zi false t).2 := by
        unfold treeAddLayer ass
        rw [if_pos (by omega)]; rfl
      simp only [process, ha, ho1, h1, Option.bind_eq_bind, Option.bind_some]
    · cases j with
      | zero =>
        refine ⟨o, rfl, fun p => ?_⟩
        rw [ho2, Csg.has, e2, Nat.add_zero]
      | succ j =>
        obtain ⟨o', h4, h5⟩ := h3 j (by omega)
        refine ⟨o', by simpa using h4, fun p => ?_⟩
        rw [h5, show zi + 1 + j = zi + (j + 1) by omega]

/-- All layers: for every 3D tree, every number of layers, every limit `≥ 2`, the whole run succeeds, there is one output
entry per layer, and the output of each layer contains exactly the points of the 3D tree at that layer. -/
theorem C49_layers (opt : Opt) (hskip : opt.skipEmpty = true) (hopt : 2 ≤ opt.maxSimultaneous) (sw : Sweep P)
    (hsw : sw.Ok) (cnt : Nat) (t : Csg3s P) (ht : t.WF) :
    ∃ os, layers opt sw cnt t = some os ∧ os.length = cnt ∧
      ∀ zi, zi < cnt → ∃ o, os[zi]? = some o ∧ ∀ p, Res.has o p = t.hasAny zi p := by
  obtain ⟨os, h1, h2, h3⟩ := process_ok opt hskip hopt sw hsw cnt t ht cnt 0 (by omega) _ (invs_from cnt t)
  exact ⟨os, h1, h2, fun zi hz => by simpa using h3 zi hz⟩

/-! ### any order -/

theorem toLayers_congr (zi : Nat) (p : P) (ls ls' : List (Lay P)) (i : Nat) (h : ls[i]? = ls'[i]?) :
    (toLayers ls).has zi p i = (toLayers ls').has zi p i := by
  induction ls generalizing ls' i with
  | nil =>
    induction ls' generalizing i with
    | nil => rfl
    | cons l' ls' ih' =>
      cases i with
      | zero => simp at h
      | succ i =>
        have := ih' i (by simpa using h)
        obtain ⟨z, r⟩ := l'
        cases r <;> simpa [toLayers, Layers.has] using this
  | cons l ls ih =>
    cases ls' with
    | nil =>
      cases i with
      | zero => simp at h
      | succ i =>
        have := ih [] i (by simpa using h)
        obtain ⟨z, r⟩ := l
        cases r <;> simpa [toLayers, Layers.has] using this
    | cons l' ls' =>
      cases i with
      | zero =>
        simp only [List.getElem?_cons_zero, Option.some.injEq] at h
        subst h
        obtain ⟨z, r⟩ := l
        cases r <;> simp [toLayers, Layers.has]
      | succ i =>
        have := ih ls' i (by simpa using h)
        obtain ⟨z, r⟩ := l
        obtain ⟨z', r'⟩ := l'
        cases r <;> cases r' <;> simpa [toLayers, Layers.has] using this

mutual
theorem other (zi zj : Nat) (hne : zi ≠ zj) (no : Bool) (p : P) (t : Tree P) :
    (toCsg (addLayer zj no t).2).has zi p = (toCsg t).has zi p := by
  match t with
  | .stack o ls =>
    simp only [addLayer, toCsg, Csg.has]
    congr 1
    apply toLayers_congr
    unfold addStack
    split
    · rfl
    · simp only
      rw [List.getElem?_set_ne (by omega)]
  | .add xs => simp only [addLayer, toCsg, Csg.has]; exact others zi zj hne no p xs
  | .xor xss => simp only [addLayer, toCsg, Csg.has]; exact (otherAdds zi zj hne no p xss).2
  | .sub xs ys =>
    simp only [addLayer]
    split
    · simp only [toCsg, Csg.has]; rw [others zi zj hne _ p xs, others zi zj hne _ p ys]
    · simp only [toCsg, Csg.has]; rw [others zi zj hne _ p xs]
  | .cut .nil => simp only [addLayer, addLayerAdds]
  | .cut (.cons x xs) =>
    have := (otherAdds zi zj hne no p (.cons x xs)).1
    simp only [addLayerAdds, toAdds, CsgAdds.hasAll] at this
    simp only [addLayer, addLayerAdds, toCsg, toAdds, Csg.has]
    exact this
theorem others (zi zj : Nat) (hne : zi ≠ zj) (no : Bool) (p : P) (t : Trees P) :
    (toCsgsT (addLayers zj no t).2).hasAny zi p = (toCsgsT t).hasAny zi p := by
  match t with
  | .nil => simp only [addLayers]
  | .cons x xs =>
    simp only [addLayers, toCsgsT, Csgs.hasAny]
    rw [other zi zj hne no p x, others zi zj hne _ p xs]
theorem otherAdds (zi zj : Nat) (hne : zi ≠ zj) (no : Bool) (p : P) (t : TreeAdds P) :
    (toAdds (addLayerAdds zj no t).2).hasAll zi p = (toAdds t).hasAll zi p ∧
    (toAdds (addLayerAdds zj no t).2).hasOdd zi p = (toAdds t).hasOdd zi p := by
  match t with
  | .nil => simp only [addLayerAdds, and_self]
  | .cons x xs =>
    simp only [addLayerAdds, toAdds, CsgAdds.hasAll, CsgAdds.hasOdd]
    rw [others zi zj hne no p x, (otherAdds zi zj hne _ p xs).1, (otherAdds zi zj hne _ p xs).2]
    exact ⟨rfl, rfl⟩
end

/-- the layers `zs` are cut out in this order -/
def addAll (n : Nat) : List Nat → Trees P → Option (Trees P)
  | [], t => some t
  | z :: zs, t => do
    let t ← treeAddLayer n z t
    addAll n zs t

theorem addAll_ok (n : Nat) (c : Csg3s P) (zs : List Nat) (hzs : ∀ z ∈ zs, z < n) (t : Trees P) (h : Invs n c t) :
    ∃ t', addAll n zs t = some t' ∧ Invs n c t' ∧
      ∀ zi p, zi ∈ zs ∨ (toCsgsT t).hasAny zi p = c.hasAny zi p → (toCsgsT t').hasAny zi p = c.hasAny zi p := by
  induction zs generalizing t with
  | nil => exact ⟨t, rfl, h, fun zi p hz => by simpa using hz⟩
  | cons z zs ih =>
    have hz : z < n := hzs z (by simp)
    obtain ⟨e1, e2, -, -⟩ := addLayers_ok n z hz false c t h
    obtain ⟨t', h1, h2, h3⟩ := ih (fun z hz => hzs z (by simp [hz])) _ e1
    have ha : treeAddLayer n z t = some (addLayers z false t).2 := by
      unfold treeAddLayer ass
      rw [if_pos hz]; rfl
    refine ⟨t', by simp only [addAll, ha, Option.bind_eq_bind, Option.bind_some, h1], h2, fun zi p hp => h3 zi p ?_⟩
    by_cases hzz : zi = z
    · subst hzz; exact .inr (e2 p)
    · rcases hp with hp | hp
      · simp only [List.mem_cons, hzz, false_or] at hp; exact .inl hp
      · right; rw [others zi z hzz false p t, hp]

/-- Layers may be cut in any order, and repeatedly: for each layer that was cut, the reduction gives the points of the 3D
tree. -/
theorem C49_any_order (opt : Opt) (hskip : opt.skipEmpty = true) (hopt : 2 ≤ opt.maxSimultaneous) (sw : Sweep P)
    (hsw : sw.Ok) (cnt : Nat) (t : Csg3s P) (ht : t.WF) (zs : List Nat) (hzs : ∀ z ∈ zs, z < cnt) :
    ∃ t', addAll cnt zs (fromCsg3s cnt t) = some t' ∧
      ∀ zi ∈ zs, ∃ o, opFlattenLayer opt sw zi (.add (toCsgsT t')) = some o ∧ ∀ p, Res.has o p = t.hasAny zi p := by
  obtain ⟨t', h1, h2, h3⟩ := addAll_ok cnt t zs hzs _ (invs_from cnt t)
  refine ⟨t', h1, fun zi hz => ?_⟩
  obtain ⟨o, ho1, ho2⟩ := C17_flatten_layer opt hskip hopt sw hsw zi (.add (toCsgsT t'))
    (by simpa only [Csg.WF] using toCsgs_WF' cnt t _ ht h2)
  exact ⟨o, ho1, fun p => by rw [ho2, Csg.has]; exact h3 zi p (.inl hz)⟩

/-- A layer outside of the range is rejected. -/
theorem C49_out_of_range (n zi : Nat) (t : Trees P) (h : n ≤ zi) : treeAddLayer n zi t = none := by
  unfold treeAddLayer ass
  rw [if_neg (by omega)]; rfl

/-- Subtrahends are not cut where there is nothing to subtract from: the layers of the subtrahend are left as they are. -/
theorem C49_skips (zi : Nat) (no : Bool) (xs ys : Trees P) (h : (addLayers zi false xs).1 = false) :
    addLayer zi no (.sub xs ys) = (no, .sub (addLayers zi false xs).2 ys) := by
  simp [addLayer, h]

end

/-! Concrete cases meeting the hypotheses: three points, two layers.  Object `a` exists in layer 0 only, `b` in both. -/

/-- points 0 and 1, at layer 0 -/
def exA : Solid (Fin 3) := fun zi => if zi = 0 then some (3, fun p => p ≠ 2) else none
/-- points 1 and 2, at both layers -/
def exB : Solid (Fin 3) := fun _ => some (3, fun p => p ≠ 0)
/-- `a - b` -/
def exT : Csg3s (Fin 3) := .cons (.sub (.cons (.obj exA) .nil) (.cons (.obj exB) .nil)) .nil

example : exT.WF := by
  simp only [exT, Csg3s.WF, Csg3.WF, and_true]
  constructor
  · intro zi n r h hn
    unfold exA at h
    split at h <;> simp_all
  · intro zi n r h hn
    simp [exB] at h
    omega
example : (layers ⟨10, true⟩ sweep3 2 exT).map (fun os => os.map fun o => (List.finRange 3).map (Res.has o)) =
    some [[true, false, false], [false, false, false]] := by decide +kernel
/-- at layer 1, `b` is skipped -/
example : (addLayers 1 false (fromCsg3s 2 (.cons (.obj exA) .nil))).1 = false := by decide +kernel

end Hob3l.Layer
