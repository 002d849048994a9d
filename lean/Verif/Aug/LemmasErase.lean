import Verif.Aug.Spec

/-
The trees are those of the operations without callback.
-/

namespace Hob3l.Aug

open Hob3l.Matq (ass)
open Hob3l.Dict
open Hob3l.Dict.Tree

variable {α M : Type}

/-- a frame without the stored value -/
def eraseF (f : Frame (α × M)) : Frame α := ⟨f.i, f.a.1, f.s, erase f.sib⟩

/-- a path without the stored values -/
def eraseP (p : Path (α × M)) : Path α := p.map eraseF

/-- a location without the stored values -/
def eraseL (q : Tree (α × M) × Path (α × M)) : Tree α × Path α := (erase q.1, eraseP q.2)

/-- a result without the stored values -/
def eraseR (r : Tree (α × M) × Option α) : Tree α × Option α := (erase r.1, r.2)

theorem mb {A B C D : Type} {a : Option A} {a' : Option B} {f : A → Option C} {f' : B → Option D} {h : C → D} (e : A → B)
    (h1 : a.map e = a') (h2 : ∀ v, (f v).map h = f' (e v)) : (a >>= f).map h = a' >>= f' := by
  subst h1
  cases a with
  | none => rfl
  | some v => exact h2 v

theorem ma {C D : Type} {P Q : Prop} [Decidable P] [Decidable Q] {f : Unit → Option C} {f' : Unit → Option D} {h : C → D} (e : P ↔ Q)
    (h2 : ∀ v, (f v).map h = f' v) : (ass P >>= f).map h = ass Q >>= f' := by
  refine mb (e := id) ?_ h2
  simp only [ass, e]
  split <;> rfl

theorem ml {A C D : Type} {a : Option A} {f : A → Option C} {f' : A → Option D} {h : C → D}
    (h2 : ∀ v, (f v).map h = f' v) : (a >>= f).map h = a >>= f' :=
  mb (e := id) (by simp) h2

theorem mi {C D : Type} {P Q : Prop} [Decidable P] [Decidable Q] {a b : Option C} {a' b' : Option D} {h : C → D} (e : P ↔ Q)
    (h1 : a.map h = a') (h2 : b.map h = b') : (if P then a else b).map h = if Q then a' else b' := by
  simp only [e]
  split
  · exact h1
  · exact h2

@[simp] theorem rootId_erase (t : Tree (α × M)) : rootId (erase t) = rid t := by cases t <;> rfl
@[simp] theorem red_erase (t : Tree (α × M)) : red (erase t) = red t := by cases t <;> rfl
@[simp] theorem height2_erase (t : Tree (α × M)) : height2 (erase t) = height2 t := by cases t <;> rfl
@[simp] theorem isLeaf_erase (t : Tree (α × M)) : isLeaf (erase t) = isLeaf t := by cases t <;> rfl

theorem edge_erase (t : Tree (α × M)) (i : Bool) : (edge t i).map erase = edge (erase t) i := by
  cases t <;> cases i <;> rfl

theorem erase_mkNode (i : Bool) (x : Tree (α × M)) (a : α × M) (s : Nat) (y : Tree (α × M)) :
    erase (mkNode i x a s y) = mkNode i (erase x) a.1 s (erase y) := by
  cases i <;> rfl

@[simp] theorem erase_plug1 (f : Frame (α × M)) (t : Tree (α × M)) : erase (plug1 f t) = plug1 (eraseF f) (erase t) :=
  erase_mkNode _ _ _ _ _

@[simp] theorem erase_upd (g : α → M → M → M) (z : M) (t : Tree (α × M)) : erase (upd g z t) = erase t := by
  cases t <;> rfl

@[simp] theorem red_upd (g : α → M → M → M) (z : M) (t : Tree (α × M)) : red (upd g z t) = red t := by
  cases t <;> rfl

@[simp] theorem rid_upd (g : α → M → M → M) (z : M) (t : Tree (α × M)) : rid (upd g z t) = rid t := by
  cases t <;> rfl

@[simp] theorem erase_updRot (g : α → M → M → M) (z : M) (dir : Bool) (t : Tree (α × M)) : erase (updRot g z dir t) = erase t := by
  cases t with
  | leaf => rfl
  | node l a s r => cases dir <;> simp [updRot, erase]

@[simp] theorem erase_finiUp (g : α → M → M → M) (z : M) (t : Tree (α × M)) (p : Path (α × M)) :
    erase (finiUp g z t p) = plug (erase t) (eraseP p) := by
  induction p generalizing t with
  | nil => rfl
  | cons f p ih => simp [finiUp, ih, eraseP, plug]

theorem mapStat_erase (f : Nat → Option Nat) (t : Tree (α × M)) : (mapStat f t).map erase = mapStat f (erase t) := by
  cases t with
  | leaf => rfl
  | node l a s r => exact ml fun v => rfl

theorem goodTree_erase (b : Bool) (t : Tree (α × M)) : goodTree b (erase t) = goodTree b t := by
  cases t with
  | leaf => rfl
  | node l a s r =>
    have h1 : red (node (erase l) a.1 s (erase r)) = red (node l a s r) := rfl
    have h2 : height2 (node (erase l) a.1 s (erase r)) = height2 (node l a s r) := rfl
    simp only [erase, goodTree, h1, h2, red_erase, height2_erase]

theorem blackHeight_erase (t : Tree (α × M)) : getBlackHeight (erase t) = getBlackHeight t := by
  induction t with
  | leaf => rfl
  | node l a s r ih1 ih2 =>
    have h1 : red (node (erase l) a.1 s (erase r)) = red (node l a s r) := rfl
    have h2 := goodTree_erase true (node l a s r)
    rw [erase] at h2
    simp only [erase, getBlackHeight, ih1, h1, h2]

theorem veryGood_erase (t : Tree (α × M)) : veryGood (erase t) = veryGood t := by
  simp only [veryGood, blackHeight_erase, height2_erase]

theorem rotate_erase (dir : Bool) (t : Tree (α × M)) : (rotate dir t).map erase = rotate dir (erase t) := by
  cases t with
  | leaf => rfl
  | node l a s r =>
    cases dir
    · cases r <;> rfl
    · cases l <;> rfl

theorem rotateA_erase (g : α → M → M → M) (z : M) (dir : Bool) (t : Tree (α × M)) :
    (rotateA g z dir t).map erase = rotate dir (erase t) := by
  rw [← rotate_erase, rotateA]
  cases rotate dir t <;> simp

theorem isEmpty_eraseP (p : Path (α × M)) : (eraseP p).isEmpty = p.isEmpty := by cases p <;> rfl

theorem rbRotateA_erase (g : α → M → M → M) (z : M) (rv : Option α) (dir : Bool) (t : Tree (α × M)) (p : Path (α × M)) :
    (rbRotateA g z rv dir t p).map eraseR = rbRotate rv dir (erase t) (eraseP p) :=
  mb erase (rotateA_erase g z dir t) fun v => by simp [eraseR, isEmpty_eraseP]

theorem innerRotateA_erase (g : α → M → M → M) (z : M) (a b : Bool) (t : Tree (α × M)) :
    (innerRotateA g z a b t).map erase = innerRotate a b (erase t) :=
  mi Iff.rfl (rotateA_erase g z b t) rfl

theorem startLoc_erase (dir : Bool) (t : Tree (α × M)) (p : Path (α × M)) :
    (startLoc dir t p).map eraseL = startLoc dir (erase t) (eraseP p) := by
  induction t generalizing p with
  | leaf => rfl
  | node l a s r ih1 ih2 =>
    cases dir
    · have := ih1 (⟨false, a, s, r⟩ :: p)
      simp only [startLoc, erase]
      rw [show (⟨false, a.1, s, erase r⟩ :: eraseP p : Path α) = eraseP (⟨false, a, s, r⟩ :: p) from rfl, ← this]
      cases startLoc false l (⟨false, a, s, r⟩ :: p) <;> rfl
    · have := ih2 (⟨true, a, s, l⟩ :: p)
      simp only [startLoc, erase]
      rw [show (⟨true, a.1, s, erase l⟩ :: eraseP p : Path α) = eraseP (⟨true, a, s, l⟩ :: p) from rfl, ← this]
      cases startLoc true r (⟨true, a, s, l⟩ :: p) <;> rfl

theorem climb_erase (dir : Bool) (t : Tree (α × M)) (p : Path (α × M)) :
    (climb dir t p).map eraseL = climb dir (erase t) (eraseP p) := by
  induction p generalizing t with
  | nil => rfl
  | cons f p ih =>
    have := ih (plug1 f t)
    rw [erase_plug1] at this
    refine mi Iff.rfl this ?_
    simp only [Option.map_some, eraseL, erase_plug1]
    rfl

theorem stepLoc_erase (dir : Bool) (t : Tree (α × M)) (p : Path (α × M)) :
    (stepLoc dir t p).map eraseL = stepLoc dir (erase t) (eraseP p) := by
  cases t with
  | leaf => rfl
  | node l a s r =>
    cases dir
    · exact mi (by rw [isLeaf_erase]) (climb_erase false _ p) (startLoc_erase false _ _)
    · exact mi (by rw [isLeaf_erase]) (climb_erase true _ p) (startLoc_erase true _ _)

section dec
variable [DecidableEq α] [DecidableEq M]

theorem balanceInsertA_erase (g : α → M → M → M) (z : M) (rv : Option α) : ∀ (x : Tree (α × M)) (p : Path (α × M)),
    (balanceInsertA g z rv x p).map eraseR = balanceInsert rv (erase x) (eraseP p)
  | x, [] => ma (by simp) fun v => rfl
  | x, [f] => by simp [balanceInsertA, balanceInsert, eraseR, eraseP, finiUp]
  | x, f :: h :: p => by
    rw [balanceInsertA, show eraseP (f :: h :: p) = eraseF f :: eraseF h :: eraseP p from rfl, balanceInsert]
    refine mi (by rw [rootId_erase]; rfl) (by simp [eraseR]; rfl) ?_
    refine ma (by simp) fun _ => ?_
    refine mi (by simp [eraseF]) ?_ ?_
    · refine ml fun fs => mb erase (mapStat_erase _ _) fun y => ?_
      rw [balanceInsertA_erase]
      simp [eraseF]
    · refine mb erase (by rw [innerRotateA_erase, erase_plug1]; rfl) fun pt => ?_
      refine mb erase (mapStat_erase _ _) fun pt => ml fun gs => ?_
      refine mb eraseR (by rw [rbRotateA_erase, erase_plug1]; rfl) fun q => ?_
      exact ma (by simp [eraseR]) fun _ => by simp [eraseR]

theorem locateA_erase (a : α) (t : Tree (α × M)) (p : Path (α × M)) :
    (locateA a t p).map eraseL = locate a (erase t) (eraseP p) := by
  induction t generalizing p with
  | leaf => rfl
  | node l b s r ih1 ih2 =>
    refine mi Iff.rfl rfl ?_
    have h1 := ih1 (⟨false, b, s, r⟩ :: p)
    have h2 := ih2 (⟨true, b, s, l⟩ :: p)
    rw [show (⟨false, b.1, s, erase r⟩ :: eraseP p : Path α) = eraseP (⟨false, b, s, r⟩ :: p) from rfl,
      show (⟨true, b.1, s, erase l⟩ :: eraseP p : Path α) = eraseP (⟨true, b, s, l⟩ :: p) from rfl, ← h1, ← h2]
    cases locateA a l (⟨false, b, s, r⟩ :: p) <;> rfl

theorem memA_erase (a : α) (t : Tree (α × M)) : mem a (erase t) = memA a t := by
  induction t with
  | leaf => rfl
  | node l b s r ih1 ih2 => simp [erase, mem, memA, ih1, ih2]

theorem insertLocA_erase (t : Tree (α × M)) (ref : Option α) (i : Bool) :
    (insertLocA t ref i).map (fun q => (eraseL q.1, q.2)) = insertLoc (erase t) ref i := by
  refine mb eraseL ?_ fun q => ?_
  · cases ref
    · exact startLoc_erase _ _ _
    · exact locateA_erase _ _ _
  · refine mb erase (edge_erase _ _) fun e => mi (by rw [isLeaf_erase]) rfl ?_
    exact mb eraseL (stepLoc_erase _ _ _) fun q => rfl

theorem emptyEdge_erase (t : Tree (α × M)) (i : Bool) : (emptyEdge t i).map eraseF = emptyEdge (erase t) i := by
  refine mb erase (edge_erase _ _) fun e => ma (by simp) fun _ => ?_
  cases t with
  | leaf => rfl
  | node l a s r => cases i <;> rfl

theorem ensureBlack_erase (t : Tree (α × M)) : (ensureBlack t).map erase = ensureBlack (erase t) := by
  cases t with
  | leaf => rfl
  | node l a s r => exact mi Iff.rfl (mapStat_erase _ _) rfl

theorem insertRefA_erase (g : α → M → M → M) (z : M) (x : α × M) (ref : Option α) (i : Bool) (t : Tree (α × M)) :
    (insertRefA g z x ref i t).map eraseR = insertRef x.1 ref i (erase t) := by
  cases t with
  | leaf => exact ma Iff.rfl fun _ => ma (by rw [← veryGood_erase]; rfl) fun _ => rfl
  | node l a s r =>
    refine ma (by rw [← memA_erase]) fun _ => ?_
    refine mb (fun q => (eraseL q.1, q.2)) (insertLocA_erase _ _ _) fun q => ?_
    refine mb eraseF (emptyEdge_erase _ _) fun f => ?_
    refine mb eraseR (by rw [balanceInsertA_erase, erase_upd]; rfl) fun r => ?_
    refine ma (by simp [eraseR]) fun _ => mb erase (ensureBlack_erase _) fun t' => ?_
    exact ma (by rw [veryGood_erase]) fun _ => rfl

/-! ### removal -/

/-- what `down` gives, without the stored values -/
def eraseD (d : Tree (α × M) × Frame (α × M)) : Tree α × Frame α := (erase d.1, eraseF d.2)

theorem down_erase (i : Bool) (t : Tree (α × M)) : (down i t).map eraseD = down i (erase t) := by
  cases t with
  | leaf => rfl
  | node l a s r => cases i <;> rfl

theorem removeRedSibA_erase (g : α → M → M → M) (z : M) (rv : Option α) (x : Tree (α × M)) (f : Frame (α × M)) (p : Path (α × M)) :
    (removeRedSibA g z rv x f p).map (fun q => (eraseF q.1, eraseP q.2.1, q.2.2)) =
      removeRedSib rv (erase x) (eraseF f) (eraseP p) := by
  refine mi (by simp [eraseF]) ?_ rfl
  refine mb erase (mapStat_erase _ _) fun w => ml fun fs => ?_
  refine mb eraseR (by rw [rbRotateA_erase, erase_plug1]; rfl) fun q => ?_
  exact mb eraseD (down_erase _ _) fun d => mb eraseD (down_erase _ _) fun d' => rfl

theorem removeOuterA_erase (g : α → M → M → M) (z : M) (i : Bool) (w : Tree (α × M)) :
    (removeOuterA g z i w).map erase = removeOuter i (erase w) := by
  refine mb erase (edge_erase _ _) fun o => mi (by simp) rfl ?_
  refine mb erase (edge_erase _ _) fun n => mb erase (mapStat_erase _ _) fun n => ?_
  refine mb Prod.fst (by cases w <;> rfl) fun a => mb id (by cases w <;> simp [erase]) fun s => ?_
  refine mb erase (by rw [rotateA_erase, erase_mkNode]; rfl) fun w' => mb erase (edge_erase _ _) fun old => ?_
  exact ma (by rw [goodTree_erase]) fun _ => rfl

theorem removeFinalA_erase (g : α → M → M → M) (z : M) (rv : Option α) (x w : Tree (α × M)) (f : Frame (α × M)) (p : Path (α × M)) :
    (removeFinalA g z rv x w f p).map eraseR = removeFinal rv (erase x) (erase w) (eraseF f) (eraseP p) := by
  cases w with
  | leaf => rfl
  | node wl wa ws wr =>
    refine ml fun ss => mb erase (edge_erase _ _) fun o => mb erase (edge_erase _ _) fun n => mb erase (mapStat_erase _ _) fun o => ?_
    refine mb eraseR (by rw [rbRotateA_erase, erase_plug1, eraseF, erase_mkNode]; rfl) fun q => ?_
    exact ma (by rw [← goodTree_erase]; rfl) fun _ => by simp [eraseR]

theorem removeEndA_erase (g : α → M → M → M) (z : M) (rv : Option α) (x : Tree (α × M)) (p : Path (α × M)) :
    (removeEndA g z rv x p).map eraseR = removeEnd rv (erase x) (eraseP p) := by
  refine mi (by simp) (mb erase (mapStat_erase _ _) fun x' => by simp [eraseR]) (by simp [eraseR])

theorem blackChildren_erase (t : Tree (α × M)) : blackChildren (erase t) = blackChildren t := by
  cases t <;> simp [erase, blackChildren]

theorem balanceRemoveA_erase (g : α → M → M → M) (z : M) : ∀ (n : Nat) (rv : Option α) (x : Tree (α × M)) (p : Path (α × M)),
    (balanceRemoveA g z n rv x p).map eraseR = balanceRemove n rv (erase x) (eraseP p)
  | n, rv, x, [] => by
    rw [balanceRemoveA, show eraseP ([] : Path (α × M)) = [] from rfl, balanceRemove]
    exact removeEndA_erase g z rv x []
  | 0, rv, x, f :: p => by
    rw [balanceRemoveA, show eraseP (f :: p) = eraseF f :: eraseP p from rfl, balanceRemove]
    rfl
  | n + 1, rv, x, f :: p => by
    rw [balanceRemoveA, show eraseP (f :: p) = eraseF f :: eraseP p from rfl, balanceRemove]
    refine mi (by simp) (removeEndA_erase g z rv x (f :: p)) ?_
    refine ma (by simp [goodTree_erase, eraseF]) fun _ => ?_
    refine mb (fun q => (eraseF q.1, eraseP q.2.1, q.2.2)) (removeRedSibA_erase g z rv x f p) fun q => ?_
    refine mi (by simp [eraseF]) (by rw [balanceRemoveA_erase, erase_upd, erase_plug1]) ?_
    refine ma (by simp [eraseF]) fun _ => mi (by simp [eraseF, blackChildren_erase]) ?_ ?_
    · refine mb erase (mapStat_erase _ _) fun w => ml fun fs => ma ?_ fun _ => ?_
      · rw [← goodTree_erase, erase_plug1]
        rfl
      · rw [balanceRemoveA_erase, erase_upd, erase_plug1]
        rfl
    · refine mb erase (removeOuterA_erase g z _ _) fun w => removeFinalA_erase g z _ _ _ _ _

/-- without the stored values -/
def eraseU : Removed (α × M) → Removed α
  | .whole b => .whole (erase b)
  | .edge c x p => .edge c (erase x) (eraseP p)

theorem collapse_erase (c : Bool) (t : Tree (α × M)) : erase (collapse c t) = collapse c (erase t) := by
  cases t <;> rfl

theorem eraseP_append (p q : Path (α × M)) : eraseP (p ++ q) = eraseP p ++ eraseP q := List.map_append

theorem swapRemoveU_erase (l : Tree (α × M)) (s : Nat) (r : Tree (α × M)) (p : Path (α × M)) :
    (swapRemoveU l s r p).map eraseU = swapRemoveU (erase l) s (erase r) (eraseP p) := by
  refine mb eraseL (startLoc_erase false r []) fun d => ?_
  obtain ⟨t, q⟩ := d
  cases t with
  | leaf => rfl
  | node dl da ds dr =>
    refine ma (by simp) fun _ => ma ?_ fun _ => ?_
    · simp only [eraseL, isEmpty_eraseP]
      cases q <;> simp [eraseP, eraseF]
    · simp [eraseU, eraseL, eraseP_append, collapse_erase]
      rfl

theorem removeU_erase (l : Tree (α × M)) (s : Nat) (r : Tree (α × M)) (p : Path (α × M)) :
    (removeU l s r p).map eraseU = removeU (erase l) s (erase r) (eraseP p) := by
  refine mi (by simp) (swapRemoveU_erase l s r p) ?_
  have : erase (if (!isLeaf l) = true then l else r) = if (!isLeaf (erase l)) = true then erase l else erase r := by
    rw [isLeaf_erase]
    split <;> rfl
  cases p with
  | nil => simp only [Option.map_some, eraseU, this]; rfl
  | cons f p => simp only [Option.map_some, eraseU, collapse_erase, this]; rfl

theorem updHead_erase (g : α → M → M → M) (z : M) (x : Tree (α × M)) (p : Path (α × M)) : eraseP (updHead g z x p) = eraseP p := by
  cases p <;> rfl

theorem removeBalanceA_erase (g : α → M → M → M) (z : M) (c : Bool) (x : Tree (α × M)) (p : Path (α × M)) :
    (removeBalanceA g z c x p).map eraseR = removeBalance c (erase x) (eraseP p) := by
  refine mi Iff.rfl (by simp [eraseR]) ?_
  rw [balanceRemoveA_erase, show (eraseP p).length = p.length from List.length_map ..]

theorem remainingChild_erase (l r : Tree (α × M)) (p : Path (α × M)) :
    (remainingChild l r p).map Prod.fst = remainingChild (erase l) (erase r) (eraseP p) := by
  refine mi (by rw [isEmpty_eraseP]) (mi (by simp) ?_ ?_) rfl <;> rw [rootId_erase] <;> rfl

theorem finalRootA_erase (t : Tree (α × M)) (r zc old : Option α) : finalRootA t r zc old = finalRoot (erase t) r zc old := by
  cases r <;> cases zc <;> simp [finalRootA, finalRoot, veryGood_erase, memA_erase]

theorem removeA_erase (g : α → M → M → M) (z : M) (c : α) (t : Tree (α × M)) :
    (removeA g z c t).map eraseR = remove c (erase t) := by
  refine mb eraseL (locateA_erase c t []) fun q => ?_
  obtain ⟨t', p⟩ := q
  cases t' with
  | leaf => rfl
  | node l a s r =>
    refine mb eraseU (removeU_erase l s r p) fun u => ?_
    cases u with
    | whole b => exact ma (by rw [veryGood_erase]) fun _ => by simp [eraseR]
    | edge cr x p' =>
      refine mb eraseR (by rw [removeBalanceA_erase, updHead_erase]) fun res => ?_
      refine mb id ?_ fun rv => rfl
      rw [finalRootA_erase, remainingChild_erase, rootId_erase, Option.map_id]
      rfl

theorem extractStartA_erase (g : α → M → M → M) (z : M) (dir : Bool) (t : Tree (α × M)) :
    (extractStartA g z dir t).map (fun e => (e.1.map Prod.fst, erase e.2.1, e.2.2)) = extractStart dir (erase t) := by
  have h := startLoc_erase dir t []
  rw [show eraseP ([] : Path (α × M)) = [] from rfl] at h
  unfold extractStartA extractStart
  rw [← h]
  cases startLoc dir t [] with
  | none => simp
  | some q =>
    refine mb Prod.fst ?_ fun a => mb eraseR (removeA_erase g z _ t) fun res => rfl
    simp only [eraseL, rootId_erase]
    rfl

/-! ### join and split -/

theorem joinDesc_erase (i : Bool) (h : Nat) (t : Tree (α × M)) (p : Path (α × M)) :
    eraseL (joinDesc i h t p) = joinDesc i h (erase t) (eraseP p) := by
  induction t generalizing p with
  | leaf => rfl
  | node l a s r ih1 ih2 =>
    have e1 : red (node (erase l) a.1 s (erase r)) = red (node l a s r) := rfl
    have e2 : height2 (node (erase l) a.1 s (erase r)) = height2 (node l a s r) := rfl
    simp only [joinDesc, erase, e1, e2]
    split
    · cases i
      · exact ih2 _
      · exact ih1 _
    · rfl

theorem incSetBlackIfNeeded_erase (t : Tree (α × M)) : (incSetBlackIfNeeded t).map erase = incSetBlackIfNeeded (erase t) := by
  cases t with
  | leaf => rfl
  | node l a s r =>
    refine mi ?_ (mapStat_erase _ _) rfl
    simp only [red_erase]

theorem joinUpA_erase (g : α → M → M → M) (z : M) (i : Bool) : ∀ (rv : Option α) (t : Tree (α × M)) (p : Path (α × M)),
    (joinUpA g z i rv t p).map eraseR = joinUp i rv (erase t) (eraseP p)
  | rv, t, [] => by simp [joinUpA, joinUp, eraseP]
  | rv, t, [f] => by
    rw [joinUpA, show eraseP [f] = [eraseF f] from rfl, joinUp]
    exact mb erase (by rw [incSetBlackIfNeeded_erase, erase_plug1]) fun t' => by simp [eraseR]
  | rv, t, f :: h :: p => by
    rw [joinUpA, show eraseP (f :: h :: p) = eraseF f :: eraseF h :: eraseP p from rfl, joinUp]
    refine mi (by simp [eraseF]) ?_ ?_
    · refine ma Iff.rfl fun _ => mb erase (mapStat_erase _ _) fun r => ?_
      refine mb eraseR (by rw [rbRotateA_erase, erase_plug1, erase_upd, erase_plug1]; rfl) fun q => ?_
      cases p with
      | nil => exact mb erase (by rw [incSetBlackIfNeeded_erase]; rfl) fun t' => by simp [eraseR]
      | cons k p => exact joinUpA_erase g z i q.2 q.1 (k :: p)
    · exact mb erase (by rw [incSetBlackIfNeeded_erase, erase_plug1]) fun t' => by simp [eraseR]; rfl

theorem joinBlacken_erase (l r : Tree (α × M)) : (joinBlacken l r).map erase = joinBlacken (erase l) (erase r) :=
  mi (by simp) (mapStat_erase _ _) rfl

theorem join3OrderedA_erase (g : α → M → M → M) (z : M) (i : Bool) (l : Tree (α × M)) (m : α × M) (r : Tree (α × M)) :
    (join3OrderedA g z i l m r).map eraseR = join3Ordered i (erase l) m.1 (erase r) := by
  refine mb erase (joinBlacken_erase l r) fun r => mi (by simp) ?_ ?_
  · refine mb erase (by rw [incSetBlackIfNeeded_erase, erase_mkNode, height2_erase]) fun t => ma (by rw [veryGood_erase]) fun _ => ?_
    simp [eraseR]
  · refine ma (by simp) fun _ => ma (by simp) fun _ => mb eraseD (down_erase _ _) fun d => ?_
    have hq := joinDesc_erase i (height2 r) d.1 [d.2]
    rw [← height2_erase r] at hq
    have h1 : (joinDesc i (height2 (erase r)) (eraseD d).1 [(eraseD d).2]).1 = erase (joinDesc i (height2 r) d.1 [d.2]).1 := by
      rw [← height2_erase r]; exact (congrArg Prod.fst hq).symm
    have h2 : (joinDesc i (height2 (erase r)) (eraseD d).1 [(eraseD d).2]).2 = eraseP (joinDesc i (height2 r) d.1 [d.2]).2 := by
      rw [← height2_erase r]; exact (congrArg Prod.snd hq).symm
    simp only [h1, h2]
    refine ma (by rw [← goodTree_erase, erase_mkNode, height2_erase]) fun _ => ?_
    refine mb eraseR (by rw [joinUpA_erase, erase_upd, erase_mkNode, height2_erase, rootId_erase]) fun t => ?_
    exact ma (by simp [eraseR]) fun _ => ma (by rw [← veryGood_erase]; rfl) fun _ => rfl

theorem join3A_erase (g : α → M → M → M) (z : M) (l : Tree (α × M)) (m : α × M) (r : Tree (α × M)) :
    (join3A g z l m r).map eraseR = join3 (erase l) m.1 (erase r) :=
  mi (by simp) (join3OrderedA_erase ..) (join3OrderedA_erase ..)

theorem join2A_erase (g : α → M → M → M) (z : M) (l r : Tree (α × M)) : (join2A g z l r).map eraseR = join2 (erase l) (erase r) := by
  refine mi (by simp) (by simp [eraseR]) (mi (by simp) (by simp [eraseR]) ?_)
  refine mb (fun e => (e.1.map Prod.fst, erase e.2.1, e.2.2)) (extractStartA_erase g z false r) fun e => ?_
  refine ma (by simp) fun _ => mb Prod.fst rfl fun m => join3A_erase ..

theorem splitA_erase (g : α → M → M → M) (z : M) (cmp : α → Int) (back : Bool) (t : Tree (α × M)) :
    (splitA g z cmp back t).map (fun q => (erase q.1, erase q.2)) = split cmp back (erase t) := by
  induction t with
  | leaf => rfl
  | node l n s r ih1 ih2 =>
    refine mi Iff.rfl ?_ ?_
    · refine mb _ ih2 fun q => mb eraseR (join3A_erase g z l (n.1, g n.1 z z) q.1) fun x => ?_
      exact ma (by simp [eraseR]) fun _ => rfl
    · refine mb _ ih1 fun q => mb eraseR (join3A_erase g z q.2 (n.1, g n.1 z z) r) fun x => ?_
      exact ma (by simp [eraseR]) fun _ => rfl

end dec
end Hob3l.Aug
