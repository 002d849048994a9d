import Verif.Layer.Spec

namespace Hob3l.Layer

open Hob3l.Bitmap Hob3l.Flatten

section
variable {P : Type}

/-- a layer `k` of the stack of `o`: not visited, or it has only cuts of `o` at `k` -/
def LayOk (o : Solid P) (k : Nat) (l : Lay P) : Prop :=
  l = ⟨0, none⟩ ∨ (l.zi = k ∧ ∃ root, l.root = some root ∧ ∀ e ∈ root, o k = some e)

mutual
/-- the tree of stacks belongs to the 3D tree -/
def Inv (cnt : Nat) : Csg3 P → Tree P → Prop
  | .obj o, .stack o' ls => o' = o ∧ ls.length = cnt ∧ ∀ k l, ls[k]? = some l → LayOk o k l
  | .add xs, .add ys => Invs cnt xs ys
  | .xor xss, .xor yss => InvAdds cnt xss yss
  | .sub xs xs', .sub ys ys' => Invs cnt xs ys ∧ Invs cnt xs' ys'
  | .cut xss, .cut yss => InvAdds cnt xss yss
  | _, _ => False
def Invs (cnt : Nat) : Csg3s P → Trees P → Prop
  | .nil, .nil => True
  | .cons x xs, .cons y ys => Inv cnt x y ∧ Invs cnt xs ys
  | _, _ => False
def InvAdds (cnt : Nat) : Csg3Adds P → TreeAdds P → Prop
  | .nil, .nil => True
  | .cons x xs, .cons y ys => Invs cnt x y ∧ InvAdds cnt xs ys
  | _, _ => False
end

/-! ### the initial tree -/

mutual
theorem inv_from (cnt : Nat) (c : Csg3 P) : Inv cnt c (fromCsg3 cnt c) := by
  match c with
  | .obj o =>
    simp only [fromCsg3, Inv, List.length_replicate, true_and]
    intro k l h
    rw [List.getElem?_replicate] at h
    split at h
    · left; exact (Option.some.inj h).symm
    · cases h
  | .add xs => simp only [fromCsg3, Inv]; exact invs_from cnt xs
  | .xor xss => simp only [fromCsg3, Inv]; exact invAdds_from cnt xss
  | .sub xs ys => simp only [fromCsg3, Inv]; exact ⟨invs_from cnt xs, invs_from cnt ys⟩
  | .cut xss => simp only [fromCsg3, Inv]; exact invAdds_from cnt xss
theorem invs_from (cnt : Nat) (c : Csg3s P) : Invs cnt c (fromCsg3s cnt c) := by
  match c with
  | .nil => simp only [fromCsg3s, Invs]
  | .cons x xs => simp only [fromCsg3s, Invs]; exact ⟨inv_from cnt x, invs_from cnt xs⟩
theorem invAdds_from (cnt : Nat) (c : Csg3Adds P) : InvAdds cnt c (fromCsg3Adds cnt c) := by
  match c with
  | .nil => simp only [fromCsg3Adds, InvAdds]
  | .cons x xs => simp only [fromCsg3Adds, InvAdds]; exact ⟨invs_from cnt x, invAdds_from cnt xs⟩
end

/-! ### stacks -/

theorem toCsgs_has (zi : Nat) (p : P) (l : List (Nat × (P → Bool))) :
    (toCsgs l).hasAny zi p = l.any fun e => e.2 p := by
  induction l with
  | nil => simp [toCsgs, Csgs.hasAny]
  | cons e l ih =>
    obtain ⟨n, r⟩ := e
    simp [toCsgs, Csgs.hasAny, ih, Csg.has]

theorem toCsgs_WF (l : List (Nat × (P → Bool))) (h : ∀ e ∈ l, e.1 = 0 → ∀ p, e.2 p = false) : (toCsgs l).WF := by
  induction l with
  | nil => simp [toCsgs, Csgs.WF]
  | cons e l ih =>
    obtain ⟨n, r⟩ := e
    simp only [toCsgs, Csgs.WF, Csg.WF]
    exact ⟨h (n, r) (by simp), ih fun e he => h e (by simp [he])⟩

theorem toLayers_has (zi : Nat) (p : P) (ls : List (Lay P)) (i : Nat) (z : Nat) (root : List (Nat × (P → Bool)))
    (h : ls[i]? = some ⟨z, some root⟩) :
    (toLayers ls).has zi p i = (decide (zi = z) && root.any fun e => e.2 p) := by
  induction ls generalizing i with
  | nil => simp at h
  | cons l ls ih =>
    cases i with
    | zero =>
      simp only [List.getElem?_cons_zero, Option.some.injEq] at h
      subst h
      simp [toLayers, Layers.has, toCsgs_has]
    | succ i =>
      simp only [List.getElem?_cons_succ] at h
      obtain ⟨z', r'⟩ := l
      cases r' <;> simp only [toLayers, Layers.has] <;> exact ih i h

theorem toLayers_WF (o : Solid P) (ho : Solid.WF o) (ls : List (Lay P)) (i : Nat)
    (h : ∀ k l, ls[k]? = some l → LayOk o (i + k) l) : (toLayers ls).WF i := by
  induction ls generalizing i with
  | nil => simp [toLayers, Layers.WF]
  | cons l ls ih =>
    have h' : (toLayers ls).WF (i + 1) := by
      refine ih (i + 1) fun k l' hk => ?_
      have := h (k + 1) l' (by simpa using hk)
      rwa [show i + 1 + k = i + (k + 1) by omega]
    rcases h 0 l (by simp) with h0 | ⟨h1, root, h2, h3⟩
    · subst h0
      simp only [toLayers, Layers.WF]
      exact ⟨by simp, h'⟩
    · obtain ⟨z, r⟩ := l
      simp only at h1 h2
      subst h1 h2
      simp only [toLayers, Layers.WF]
      refine ⟨by simp, toCsgs_WF root fun e he h0 p => ?_, h'⟩
      exact ho _ _ _ (h3 e he) h0 p

theorem slice_any (o : Solid P) (zi : Nat) (p : P) (root : List (Nat × (P → Bool)))
    (h : ∀ e ∈ root, o zi = some e) (ho : ∀ e, o zi = some e → e ∈ root) :
    (root.any fun e => e.2 p) = Solid.has zi p o := by
  unfold Solid.has
  cases hz : o zi with
  | none =>
    cases root with
    | nil => rfl
    | cons e l => have := h e (by simp); rw [hz] at this; cases this
  | some e =>
    rw [Bool.eq_iff_iff, List.any_eq_true]
    constructor
    · rintro ⟨e', h1, h2⟩
      have := h e' h1
      rw [hz] at this
      cases this
      exact h2
    · intro h2
      exact ⟨e, ho e hz, h2⟩

theorem addStack_ok (cnt zi : Nat) (hz : zi < cnt) (o : Solid P) (no : Bool) (ls : List (Lay P))
    (hl : ls.length = cnt) (hk : ∀ k l, ls[k]? = some l → LayOk o k l) :
    (addStack zi o no ls).2.length = cnt ∧
    (∀ k l, (addStack zi o no ls).2[k]? = some l → LayOk o k l) ∧
    (∀ p, (toLayers (addStack zi o no ls).2).has zi p zi = Solid.has zi p o) ∧
    (no = true → (addStack zi o no ls).1 = true) ∧
    ((addStack zi o no ls).1 = false → ∀ p, Solid.has zi p o = false) := by
  have hlt : zi < ls.length := by omega
  have hg : ls[zi]? = some ls[zi] := List.getElem?_eq_getElem hlt
  have hlay := hk zi ls[zi] hg
  generalize ls[zi] = l at hg hlay
  unfold addStack
  rw [hg]
  simp only
  -- the new list of polygons
  have hroot : ∀ e ∈ l.root.getD [] ++ (o zi).toList, o zi = some e := by
    intro e he
    rw [List.mem_append] at he
    rcases he with he | he
    · rcases hlay with h0 | ⟨h1, root, h2, h3⟩
      · subst h0; simp at he
      · rw [h2] at he; exact h3 e he
    · simpa [Option.mem_toList] using he
  have hmem : ∀ e, o zi = some e → e ∈ l.root.getD [] ++ (o zi).toList := by
    intro e he
    rw [List.mem_append]
    right
    rw [he]; simp
  have hset : (ls.set zi (sliceLay zi o l).2)[zi]? = some ⟨zi, some (l.root.getD [] ++ (o zi).toList)⟩ := by
    rw [List.getElem?_set_self hlt]; rfl
  refine ⟨by simp [hl], ?_, ?_, ?_, ?_⟩
  · intro k l' h
    by_cases hkz : k = zi
    · subst hkz
      rw [hset] at h
      cases h
      exact .inr ⟨rfl, _, rfl, hroot⟩
    · rw [List.getElem?_set_ne (by omega)] at h
      exact hk k l' h
  · intro p
    rw [toLayers_has zi p _ zi _ _ hset, slice_any o zi p _ hroot hmem]
    simp
  · intro h; simp [h]
  · intro h p
    rw [← slice_any o zi p _ hroot hmem]
    simp only [sliceLay, Bool.or_eq_false_iff, decide_eq_false_iff_not, Nat.not_lt, Nat.le_zero,
      List.length_eq_zero_iff] at h
    rw [h.2]; rfl

/-! ### trees -/

mutual
theorem addLayer_ok (cnt zi : Nat) (hz : zi < cnt) (no : Bool) (c : Csg3 P) (t : Tree P) (h : Inv cnt c t) :
    Inv cnt c (addLayer zi no t).2 ∧
    (∀ p, (toCsg (addLayer zi no t).2).has zi p = c.has zi p) ∧
    (no = true → (addLayer zi no t).1 = true) ∧
    ((addLayer zi no t).1 = false → ∀ p, c.has zi p = false) := by
  match c, t, h with
  | .obj o, .stack o' ls, h =>
    obtain ⟨rfl, h1, h2⟩ := h
    obtain ⟨e1, e2, e3, e4, e5⟩ := addStack_ok cnt zi hz o' no ls h1 h2
    simp only [addLayer, toCsg, Csg.has, Csg3.has, Inv]
    exact ⟨⟨trivial, e1, e2⟩, fun p => by simpa using e3 p, e4, e5⟩
  | .add xs, .add ys, h =>
    simp only [Inv] at h
    simpa only [addLayer, toCsg, Csg.has, Csg3.has, Inv] using addLayers_ok cnt zi hz no xs ys h
  | .xor xss, .xor yss, h =>
    simp only [Inv] at h
    obtain ⟨e1, -, e2, e3, e4⟩ := addLayerAdds_ok cnt zi hz no xss yss h
    simp only [addLayer, toCsg, Csg.has, Csg3.has, Inv]
    exact ⟨e1, e2, e3, fun hf p => (e4 hf p).2⟩
  | .sub xs xs', .sub ys ys', h =>
    simp only [Inv] at h
    obtain ⟨e1, e2, e3, e4⟩ := addLayers_ok cnt zi hz false xs ys h.1
    obtain ⟨f1, f2, f3, f4⟩ := addLayers_ok cnt zi hz true xs' ys' h.2
    simp only [addLayer]
    by_cases hb : (addLayers zi false ys).1 = true
    · rw [if_pos hb]
      simp only [toCsg, Csg.has, Csg3.has, Inv]
      refine ⟨⟨e1, f1⟩, fun p => by rw [e2, f2], fun _ => f3 rfl, fun hf => ?_⟩
      rw [f3 rfl] at hf
      cases hf
    · rw [if_neg hb]
      have hb := e4 (by simpa using hb)
      simp only [toCsg, Csg.has, Csg3.has, Inv]
      exact ⟨⟨e1, h.2⟩, fun p => by rw [e2, hb]; simp, fun h => h, fun _ p => by rw [hb]; simp⟩
  | .cut xss, .cut yss, h =>
    simp only [Inv] at h
    obtain ⟨e1, e2, -, e3, e4⟩ := addLayerAdds_ok cnt zi hz no xss yss h
    simp only [addLayer, Inv]
    match xss, yss, h with
    | .nil, .nil, _ =>
      simp only [addLayerAdds, toCsg, toAdds, Csg.has, Csg3.has, InvAdds]
      simp
    | .cons x xs, .cons y ys, h =>
      refine ⟨e1, fun p => ?_, e3, fun hf p => ?_⟩
      · have := e2 p
        simp only [addLayerAdds, toAdds, CsgAdds.hasAll, Csg3Adds.hasAll] at this
        simp only [addLayerAdds, toCsg, toAdds, Csg.has, Csg3.has]
        exact this
      · have := (e4 hf p).1 (by simp)
        simp only [Csg3Adds.hasAll] at this
        simp only [Csg3.has]
        exact this
theorem addLayers_ok (cnt zi : Nat) (hz : zi < cnt) (no : Bool) (c : Csg3s P) (t : Trees P) (h : Invs cnt c t) :
    Invs cnt c (addLayers zi no t).2 ∧
    (∀ p, (toCsgsT (addLayers zi no t).2).hasAny zi p = c.hasAny zi p) ∧
    (no = true → (addLayers zi no t).1 = true) ∧
    ((addLayers zi no t).1 = false → ∀ p, c.hasAny zi p = false) := by
  match c, t, h with
  | .nil, .nil, _ =>
    simp only [addLayers, toCsgsT, Csgs.hasAny, Csg3s.hasAny, Invs]
    simp
  | .cons x xs, .cons y ys, h =>
    simp only [Invs] at h
    obtain ⟨e1, e2, e3, e4⟩ := addLayer_ok cnt zi hz no x y h.1
    obtain ⟨f1, f2, f3, f4⟩ := addLayers_ok cnt zi hz (addLayer zi no y).1 xs ys h.2
    simp only [addLayers, toCsgsT, Csgs.hasAny, Csg3s.hasAny, Invs]
    refine ⟨⟨e1, f1⟩, fun p => by rw [e2, f2], fun h => f3 (e3 h), fun hf p => ?_⟩
    have h1 : (addLayer zi no y).1 = false := by
      cases hc : (addLayer zi no y).1 with
      | false => rfl
      | true => rw [f3 hc] at hf; cases hf
    rw [e4 h1, f4 hf]; rfl
theorem addLayerAdds_ok (cnt zi : Nat) (hz : zi < cnt) (no : Bool) (c : Csg3Adds P) (t : TreeAdds P)
    (h : InvAdds cnt c t) :
    InvAdds cnt c (addLayerAdds zi no t).2 ∧
    (∀ p, (toAdds (addLayerAdds zi no t).2).hasAll zi p = c.hasAll zi p) ∧
    (∀ p, (toAdds (addLayerAdds zi no t).2).hasOdd zi p = c.hasOdd zi p) ∧
    (no = true → (addLayerAdds zi no t).1 = true) ∧
    ((addLayerAdds zi no t).1 = false → ∀ p, (c ≠ .nil → c.hasAll zi p = false) ∧ c.hasOdd zi p = false) := by
  match c, t, h with
  | .nil, .nil, _ =>
    simp only [addLayerAdds, toAdds, CsgAdds.hasAll, Csg3Adds.hasAll, CsgAdds.hasOdd, Csg3Adds.hasOdd, InvAdds]
    simp
  | .cons x xs, .cons y ys, h =>
    simp only [InvAdds] at h
    obtain ⟨e1, e2, e3, e4⟩ := addLayers_ok cnt zi hz no x y h.1
    obtain ⟨f1, f2, f2', f3, f4⟩ := addLayerAdds_ok cnt zi hz (addLayers zi no y).1 xs ys h.2
    simp only [addLayerAdds, toAdds, CsgAdds.hasAll, Csg3Adds.hasAll, CsgAdds.hasOdd, Csg3Adds.hasOdd, InvAdds]
    refine ⟨⟨e1, f1⟩, fun p => by rw [e2, f2], fun p => by rw [e2, f2'], fun h => f3 (e3 h), fun hf p => ?_⟩
    have h1 : (addLayers zi no y).1 = false := by
      cases hc : (addLayers zi no y).1 with
      | false => rfl
      | true => rw [f3 hc] at hf; cases hf
    rw [e4 h1, (f4 hf p).2]
    exact ⟨fun _ => by simp, rfl⟩
end

mutual
theorem toCsg_WF (cnt : Nat) (c : Csg3 P) (t : Tree P) (hc : c.WF) (h : Inv cnt c t) : (toCsg t).WF := by
  match c, t, h with
  | .obj o, .stack o' ls, h =>
    obtain ⟨rfl, h1, h2⟩ := h
    simp only [Csg3.WF] at hc
    simp only [toCsg, Csg.WF]
    exact toLayers_WF o' hc ls 0 fun k l hk => by simpa using h2 k l hk
  | .add xs, .add ys, h =>
    simp only [Inv] at h; simp only [Csg3.WF] at hc; simp only [toCsg, Csg.WF]
    exact toCsgs_WF' cnt xs ys hc h
  | .xor xss, .xor yss, h =>
    simp only [Inv] at h; simp only [Csg3.WF] at hc; simp only [toCsg, Csg.WF]
    exact toAdds_WF cnt xss yss hc h
  | .sub xs xs', .sub ys ys', h =>
    simp only [Inv] at h; simp only [Csg3.WF] at hc; simp only [toCsg, Csg.WF]
    exact ⟨toCsgs_WF' cnt xs ys hc.1 h.1, toCsgs_WF' cnt xs' ys' hc.2 h.2⟩
  | .cut xss, .cut yss, h =>
    simp only [Inv] at h; simp only [Csg3.WF] at hc; simp only [toCsg, Csg.WF]
    exact toAdds_WF cnt xss yss hc h
theorem toCsgs_WF' (cnt : Nat) (c : Csg3s P) (t : Trees P) (hc : c.WF) (h : Invs cnt c t) : (toCsgsT t).WF := by
  match c, t, h with
  | .nil, .nil, _ => simp only [toCsgsT, Csgs.WF]
  | .cons x xs, .cons y ys, h =>
    simp only [Invs] at h; simp only [Csg3s.WF] at hc; simp only [toCsgsT, Csgs.WF]
    exact ⟨toCsg_WF cnt x y hc.1 h.1, toCsgs_WF' cnt xs ys hc.2 h.2⟩
theorem toAdds_WF (cnt : Nat) (c : Csg3Adds P) (t : TreeAdds P) (hc : c.WF) (h : InvAdds cnt c t) : (toAdds t).WF := by
  match c, t, h with
  | .nil, .nil, _ => simp only [toAdds, CsgAdds.WF]
  | .cons x xs, .cons y ys, h =>
    simp only [InvAdds] at h; simp only [Csg3Adds.WF] at hc; simp only [toAdds, CsgAdds.WF]
    exact ⟨toCsgs_WF' cnt x y hc.1 h.1, toAdds_WF cnt xs ys hc.2 h.2⟩
end

end

end Hob3l.Layer
