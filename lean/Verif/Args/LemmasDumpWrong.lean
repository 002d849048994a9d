import Verif.Args.LemmasDumpWf
/-!
The dump of single objects.
-/
namespace Hob3l.Args

open Hob3l.Syn

variable {F : Type} [Flt F]

/-- a tree of one object -/
def single (o : Obj F) : List (Tree F) := [.mk 0 o 0 []]

theorem single_reads (pr : Printf F) (o : Obj F) (h : ObjText pr o) (fs : FS) (file : Text) :
    Program fs file (dump pr (single o)) [.item (itemOf pr (.mk 0 o 0 []))] := by
  have := dump_reads pr fs file (single o) (by
    simp only [single, Tree.BothList, Tree.Both, and_true]
    exact ⟨h, false, false, false, false, by decide⟩)
  simpa only [single, itemsOfTrees, List.map_cons, List.map_nil] using this

theorem single_fail (pr : Printf F) (o : Obj F) (op : Opts)
    (h : fromArgs (F := F) op.param op.colors o.fn ((objArgs pr o).map (Arg.printed id)) = .fail) :
    fromTree (F := F) op [.item (itemOf pr (.mk 0 o 0 []))] = .fail := by
  simp only [fromTree, fromStmts, itemOf, fromItem, name_fn, funcNew, isRoot, Nat.zero_testBit, Bool.false_eq_true, if_false, h, Bind.bind,
    Out.bind]

theorem single_crash (pr : Printf F) (o : Obj F) (op : Opts)
    (h : fromArgs (F := F) op.param op.colors o.fn ((objArgs pr o).map (Arg.printed id)) = .crash) :
    fromTree (F := F) op [.item (itemOf pr (.mk 0 o 0 []))] = .crash := by
  simp only [fromTree, fromStmts, itemOf, fromItem, name_fn, funcNew, isRoot, Nat.zero_testBit, Bool.false_eq_true, if_false, h, Bind.bind,
    Out.bind]

theorem single_ok (pr : Printf F) (o o' : Obj F) (op : Opts)
    (h : fromArgs op.param op.colors o.fn ((objArgs pr o).map (Arg.printed id)) = .ok o') :
    fromTree (F := F) op [.item (itemOf pr (.mk 0 o 0 []))] = .ok (single o', none) := by
  simp only [fromTree, fromStmts, itemOf, fromItem, name_fn, funcNew, isRoot, Nat.zero_testBit, Bool.false_eq_true, if_false, h, Bind.bind,
    Out.bind, itemsOfTrees, fromItems, single, ite_self, List.append_nil]

theorem unknown {strict : Bool} {f : Fn} {need : Bool} {i : Nat} {k : Text} {v : Value} {l : List Arg} {s : List (Slot F)}
    (hk : ((posNames f ++ keyNames f).map txt).findIdx? (· == k) = none) :
    getLoop strict (posParams f) (nameParams f) need i (⟨some k, v⟩ :: l) s = if strict then .fail else .ok ⟨s, true⟩ := by
  have hn : (posParams f ++ nameParams f : List (Param F)).map (·.name) = (posNames f ++ keyNames f).map txt := by
    have a := names_pos (F := F) f
    have b := names_key (F := F) f
    unfold namesOf at a b
    rw [List.map_append, List.map_append, a, b]
  have ht : target (posParams f) (nameParams f : List (Param F)) need i ⟨some k, v⟩ = .unknown := by
    rw [← hn, List.findIdx?_map] at hk
    have e : (posParams f ++ nameParams f : List (Param F)).findIdx? (fun p => p.name == k) = none := hk
    simp only [target, e]
  rw [getLoop, ht]

theorem stepEq {strict : Bool} {f : Fn} {need : Bool} {i : Nat} {k : Text} {v : Value} {l : List Arg} {s : List (Slot F)} {r : Out (Got F)}
    (j : Nat) {p : Param F} {o : Slot F} {x : Val F}
    (hj : ((posNames f ++ keyNames f).map txt).findIdx? (· == k) = some j)
    (hp : (posParams f ++ nameParams f)[j]? = some p) (ho : s[j]? = some o) (hx : get p.kind o.val v = .ok x)
    (h : getLoop strict (posParams f) (nameParams f) true (i + 1) l (s.set j ⟨some x, true⟩) = r) :
    getLoop strict (posParams f) (nameParams f) need i (⟨some k, v⟩ :: l) s = r := by
  have hn : (posParams f ++ nameParams f : List (Param F)).map (·.name) = (posNames f ++ keyNames f).map txt := by
    have a := names_pos (F := F) f
    have b := names_key (F := F) f
    unfold namesOf at a b
    rw [List.map_append, List.map_append, a, b]
  have ht : target (posParams f) (nameParams f : List (Param F)) need i ⟨some k, v⟩ = .at j := by
    rw [← hn, List.findIdx?_map] at hj
    have e : (posParams f ++ nameParams f : List (Param F)).findIdx? (fun p => p.name == k) = some j := hj
    simp only [target, e]
  rw [getLoop, ht]
  simp only [store, hp, ho, Out.orCrash, Bind.bind, Out.bind, hx, Option.isSome_some, Bool.or_true]
  exact h

theorem fromArgs_strict {colors : Colors} {f : Fn} {args : List Arg} (hr : reads f = true)
    (hl : getLoop true (posParams f) (nameParams f) false 0 args (start (posParams f ++ nameParams f : List (Param F))) = .fail) :
    (fromArgs true colors f args : Out (Obj F)) = .fail := by
  simp only [fromArgs, hr, if_true, getArg, hl, Bind.bind, Out.bind]

theorem fromArgs_lax {colors : Colors} {f : Fn} {args : List Arg} {s : List (Slot F)} (hr : reads f = true)
    (hl : getLoop false (posParams f) (nameParams f) false 0 args (start (posParams f ++ nameParams f)) = .ok ⟨s, true⟩) :
    fromArgs false colors f args = build colors f ⟨s, true⟩ := by
  simp only [fromArgs, hr, if_true, getArg, hl, Bind.bind, Out.bind]

theorem get_str' {s : Text} {old : Option (Val F)} : get .str old ((Value.str s).printed id) = .ok (.str s) := by
  simp only [get, Value.printed, tryStr, Option.map_some, Out.orFail]

theorem get_grey' {t : Text} {n : Nat} {old : Option (Val F)} (h : PrintsGrey F t n) :
    get .grey old ((Value.float t).printed id) = .ok (.grey n : Val F) := by
  simp only [get, tryGrey_printed h, Option.map_some, Out.orFail]

theorem valOk_str {s : Text} (h : StrBody s) : ValOk (.str s) := by
  unfold ValOk
  simp only [Value.All, LeafTxt, PrintsNumber, and_true]
  exact h

theorem number_of {s : Text} (h : s ≠ []) (h2 : ∀ c ∈ s, Digit c) : NumberText s :=
  ⟨[], s, [], [], by simp, by simp, h2, by simp, by simp, by simpa using h⟩

theorem digits_text {t : Text} (h : NumberText t) (h2 : t.head? ≠ some 43) : ValOk (.float t) := by
  unfold ValOk
  simp only [Value.All, LeafTxt, PrintsNumber, true_and, id]
  exact ⟨h, h2⟩

end Hob3l.Args
