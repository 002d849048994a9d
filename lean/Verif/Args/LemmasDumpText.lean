import Verif.Args.DumpSpec
import Verif.Args.Spec
import Verif.Syn.LemmasPrintWf
/-!
The dump of a tree is a program.
-/
namespace Hob3l.Args

open Hob3l.Syn

variable {F : Type} [Flt F]

theorem spaces_reads {w s : Text} {P} (hw : ∀ c ∈ w, Space c) (h : Reads s P) : Reads (w ++ s) P := by
  induction w with
  | nil => exact h
  | cons c w ih =>
    exact (space_any (hw c (by simp)) (ih fun x hx => hw x (by simp [hx]))).reads

/-- a comma and blanks -/
def IsSep (s : Text) : Prop := ∃ w, s = 44 :: w ∧ ∀ c ∈ w, Space c

theorem list_reads {sep : Text} (hsep : IsSep sep) (l : List Arg) (h : ∀ a ∈ l, ArgOk id a) (s : Text) (P : List Token → Prop)
    (hs : Stop s) (hr : ReadsAny s P) :
    Reads (putList sep true l ++ s) (fun ts => ∃ ts', IsArgs ts (l.map (Arg.printed id)) ts' ∧ P ts') := by
  obtain ⟨w, rfl, hw⟩ := hsep
  induction l with
  | nil => exact hr.reads.mono fun ts h => ⟨ts, .nil, h⟩
  | cons a l ih =>
    cases l with
    | nil =>
      have : putList (44 :: w) true [a] ++ s = putArg id a ++ s := by simp [putList]
      rw [this]
      refine (arg_reads id a (h a (by simp)) s P hs hr).mono ?_
      rintro ts ⟨t, hv, hp⟩
      exact ⟨t, .one hv, hp⟩
    | cons b l =>
      have : putList (44 :: w) true (a :: b :: l) ++ s =
          putArg id a ++ 44 :: (w ++ (putList (44 :: w) true (b :: l) ++ s)) := by
        simp [putList]
      rw [this]
      have hL := ih fun x hx => h x (List.mem_cons_of_mem _ hx)
      refine (arg_reads id a (h a (by simp)) _ _ (stop_cons (by unfold StopChar; omega))
        (sym_any (by unfold SymChar; omega) (spaces_reads hw hL))).mono ?_
      rintro ts ⟨t, ha, x, t1, rfl, t2, hl, hp⟩
      exact ⟨t2, .cons ha hl, hp⟩

/-- the tokens do not begin with `include` -/
def NoIncl (ts : List Token) : Prop := ts.head? ≠ some (.id (txt "include"))

theorem mod_reads {c b m : Nat} (h : Bool) (hc : SymChar c) (hb : modifier c = some b) {s : Text} {P : List Token → Prop}
    (hr : Reads s (fun ts => NoIncl ts ∧ ∃ ts', IsMods ts m ts' ∧ P ts')) :
    Reads ((if h then [c] else []) ++ s) (fun ts => NoIncl ts ∧ ∃ ts', IsMods ts ((if h then b else 0) ||| m) ts' ∧ P ts') := by
  cases h with
  | false =>
    simp only [Bool.false_eq_true, if_false, Nat.zero_or, List.nil_append]
    exact hr
  | true =>
    simp only [if_true, List.cons_append, List.nil_append]
    refine (sym_any hc hr).reads.mono ?_
    rintro ts ⟨x, t1, rfl, -, t2, hm, hp⟩
    exact ⟨by simp [NoIncl], t2, .cons hb hm, hp⟩

theorem putMods_bits (h p a e : Bool) : putMods (modBits h p a e) =
    (if h then [35] else []) ++ ((if p then [37] else []) ++ ((if a then [42] else []) ++ (if e then [33] else []))) := by
  revert h p a e
  decide +kernel

theorem mods_reads {m : Nat} (hm : ModSet m) {s : Text} {P : List Token → Prop}
    (hr : Reads s (fun ts => NoIncl ts ∧ P ts)) :
    Reads (putMods m ++ s) (fun ts => NoIncl ts ∧ ∃ ts', IsMods ts m ts' ∧ P ts') := by
  obtain ⟨h, p, a, e, rfl⟩ := hm
  rw [putMods_bits]
  unfold modBits
  simp only [List.append_assoc]
  have h0 : Reads s (fun ts => NoIncl ts ∧ ∃ ts', IsMods ts 0 ts' ∧ P ts') := hr.mono fun ts h => ⟨h.1, ts, .nil, h.2⟩
  have h1 := mod_reads e (c := 33) (b := 0x44) (by unfold SymChar; omega) rfl h0
  rw [Nat.or_zero] at h1
  have h2 := mod_reads a (c := 42) (b := 0x82) (by unfold SymChar; omega) rfl h1
  have h3 := mod_reads p (c := 37) (b := 0x23) (by unfold SymChar; omega) rfl h2
  exact mod_reads h (c := 35) (b := 0x11) (by unfold SymChar; omega) rfl h3

/-! ## The syntax tree of the dump -/

mutual

/-- the item that is read from the dump of an object -/
def itemOf (pr : Printf F) : Tree F → Item
  | .mk _ obj m child =>
    .mk (txt (objName obj)) ((objArgs pr obj).map (Arg.printed id)) (if hasBody obj then itemsOfTrees pr child else []) m

def itemsOfTrees (pr : Printf F) : List (Tree F) → List Item
  | [] => []
  | t :: l => itemOf pr t :: itemsOfTrees pr l

end

mutual

/-- the objects and modifiers of a tree satisfy `p` and `q` -/
def Tree.Both (p : Obj F → Prop) (q : Nat → Prop) : Tree F → Prop
  | .mk _ o m l => (p o ∧ q m) ∧ Tree.BothList p q l

def Tree.BothList (p : Obj F → Prop) (q : Nat → Prop) : List (Tree F) → Prop
  | [] => True
  | t :: l => t.Both p q ∧ Tree.BothList p q l

end

/-- what is required of the arguments -/
def ObjText (pr : Printf F) (o : Obj F) : Prop := ∀ a ∈ objArgs pr o, ArgOk id a

theorem idText_of {s : Text} (h : (s.head?.any fun c => c = 36 ∨ c = 95 ∨ 97 ≤ c ∧ c ≤ 122 ∨ 65 ≤ c ∧ c ≤ 90) = true)
    (h2 : (s.tail.all fun c => (97 ≤ c ∧ c ≤ 122 ∨ 65 ≤ c ∧ c ≤ 90) ∨ (48 ≤ c ∧ c ≤ 57) ∨ c = 95) = true) : IdText s := by
  cases s with
  | nil => simp at h
  | cons c r =>
    refine ⟨c, r, rfl, ?_, ?_⟩
    · simpa [BeginsId, Letter] using h
    · intro x hx
      have := List.all_eq_true.mp h2 x hx
      simpa [Letter, Digit] using this

theorem name_id (o : Obj F) : IdText (txt (objName o)) ∧ ¬ Keyword (txt (objName o)) := by
  unfold Keyword
  cases o <;> simp only [objName] <;> exact ⟨idText_of (by decide +kernel) (by decide +kernel), by decide +kernel⟩

theorem lead_space (d : Nat) (o : Obj F) : ∀ c ∈ lead d o, Space c := by
  have : ∀ c ∈ txt "\n" ++ indent (d + 2), Space c := by
    intro c hc
    rw [show txt "\n" = [10] by decide +kernel] at hc
    rcases List.mem_append.mp hc with hc | hc
    · simp at hc; unfold Space; omega
    · unfold indent at hc
      have := List.eq_of_mem_replicate hc
      unfold Space; omega
  cases o <;> first | exact this | simp [lead]

theorem sep_sep (d : Nat) (o : Obj F) : IsSep (sep d o) := by
  have h1 : IsSep (txt ",\n" ++ indent (d + 2)) := by
    refine ⟨10 :: indent (d + 2), by rw [show txt ",\n" = [44, 10] by decide +kernel]; rfl, ?_⟩
    intro c hc
    rcases List.mem_cons.mp hc with hc | hc
    · unfold Space; omega
    · unfold indent at hc
      have := List.eq_of_mem_replicate hc
      unfold Space; omega
  have h2 : IsSep (txt ",") := ⟨[], by decide +kernel, by simp⟩
  have h3 : IsSep (txt ", ") := ⟨[32], by decide +kernel, by simp [Space]⟩
  cases o <;> first | exact h1 | exact h2 | exact h3

theorem opening_reads (o : Obj F) {s : Text} {P} (h : Reads s P) :
    Reads (opening o ++ s) (fun ts => ∃ x ts', ts = .sym 123 x :: ts' ∧ P ts') := by
  have h1 := (sym_any (c := 123) (by unfold SymChar; omega) (space_any (c := 10) (by unfold Space; omega) h).reads).reads
  have h2 : Reads (txt "{\n" ++ s) (fun ts => ∃ x ts', ts = .sym 123 x :: ts' ∧ P ts') := by
    rw [show txt "{\n" = [123, 10] by decide +kernel]
    exact h1
  have h3 : Reads (txt " {\n" ++ s) (fun ts => ∃ x ts', ts = .sym 123 x :: ts' ∧ P ts') := by
    rw [show txt " {\n" = [32, 123, 10] by decide +kernel]
    exact (space_any (c := 32) (by unfold Space; omega) h1).reads
  cases o <;> first | exact h2 | exact h3

theorem call_reads (pr : Printf F) (o : Obj F) (ho : ObjText pr o) {m : Nat} (hm : ModSet m) (d : Nat) {s : Text}
    {P : List Token → Prop} (hr : Reads s P) :
    Reads (indent d ++ putMods m ++ txt (objName o) ++ txt "(" ++ lead d o ++ putList (sep d o) true (objArgs pr o) ++ txt ")" ++ s)
      (fun ts => NoIncl ts ∧ ∃ x t1 y t2, IsMods ts m (.id (txt (objName o)) :: .sym 40 x :: t1) ∧
        IsArgs t1 ((objArgs pr o).map (Arg.printed id)) (.sym 41 y :: t2) ∧ P t2) := by
  simp only [txt_lp, txt_rp, List.cons_append, List.nil_append, List.append_assoc]
  obtain ⟨n1, n2⟩ := name_id o
  have hA := list_reads (sep_sep d o) (objArgs pr o) ho _ _ (stop_cons (by unfold StopChar; omega))
    (sym_any (c := 41) (by unfold SymChar; omega) hr)
  have hN := id_reads n1 (stop_cons (by unfold StopChar; omega))
    (sym_any (c := 40) (by unfold SymChar; omega) (spaces_reads (lead_space d o) hA))
  have hN' := hN.mono (Q := fun ts => NoIncl ts ∧ ∃ x t1 y t2, ts = .id (txt (objName o)) :: .sym 40 x :: t1 ∧
        IsArgs t1 ((objArgs pr o).map (Arg.printed id)) (.sym 41 y :: t2) ∧ P t2) (by
    rintro ts ⟨t1, rfl, x, t2, rfl, t3, ha, y, t4, rfl, hp⟩
    refine ⟨?_, x, t2, y, t4, rfl, ha, hp⟩
    simp only [NoIncl, List.head?_cons, ne_eq, Option.some.injEq, Token.id.injEq]
    exact fun e => n2 (Or.inl e))
  refine (indent_reads (mods_reads hm hN')).mono ?_
  rintro ts ⟨h1, t1, h2, x, t2, y, t3, rfl, h3, h4⟩
  exact ⟨h1, x, t2, y, t3, h2, h3, h4⟩

mutual

theorem scad_reads (pr : Printf F) (fs : FS) (file : Text) : (t : Tree F) → t.Both (ObjText pr) ModSet → (d : Nat) → (s : Text) →
    (P : List Token → Prop) → Reads s P →
    Reads (putScad pr d t ++ s) (fun ts => NoIncl ts ∧ ∃ ts', IsItem fs file ts (itemOf pr t) ts' ∧ P ts')
  | .mk i o m child, h, d, s, P, hr => by
    simp only [Tree.Both] at h
    obtain ⟨⟨h1, h2⟩, h3⟩ := h
    rw [putScad, itemOf]
    by_cases hb : hasBody o = true
    · simp only [hb, if_true]
      have hE := indent_reads (d := d) (sym_any (c := 125) (by unfold SymChar; omega)
        (space_any (c := 10) (by unfold Space; omega) hr).reads).reads
      have hI := scads_reads pr fs file child h3 (d + 2) _ _ hE
      have hC := call_reads pr o h1 h2 d (opening_reads o hI)
      have e : ∀ a b c e : Text, a ++ (b ++ c ++ e ++ txt "}\n") ++ s = a ++ (b ++ (c ++ (e ++ 125 :: 10 :: s))) := by
        intro a b c e
        rw [txt_close]
        simp
      rw [e]
      refine hC.mono ?_
      rintro ts ⟨g, x, t1, y, t2, a1, a2, z, t3, rfl, t4, a3, w, t5, rfl, hp⟩
      exact ⟨g, t5, .call a1 (fun hk => absurd hk (name_id o).2) a2 rfl (.braces a3), hp⟩
    · simp only [Bool.not_eq_true] at hb
      simp only [hb, Bool.false_eq_true, if_false]
      have hT := (sym_any (c := 59) (by unfold SymChar; omega)
        (space_any (c := 10) (by unfold Space; omega) hr).reads).reads
      have hC := call_reads pr o h1 h2 d hT
      rw [txt_semi, List.append_assoc _ [59, 10] s]
      refine Reads.mono hC ?_
      rintro ts ⟨g, x, t1, y, t2, a1, a2, z, t3, rfl, hp⟩
      exact ⟨g, t3, .call a1 (fun hk => absurd hk (name_id o).2) a2 rfl (.one .semicolon (by intro x r h; cases h)), hp⟩

theorem scads_reads (pr : Printf F) (fs : FS) (file : Text) : (l : List (Tree F)) → Tree.BothList (ObjText pr) ModSet l → (d : Nat) →
    (s : Text) → (P : List Token → Prop) → Reads s P →
    Reads (putScads pr d l ++ s) (fun ts => ∃ ts', IsItems fs file ts (itemsOfTrees pr l) ts' ∧ P ts')
  | [], _, d, s, P, hr => by
    simp only [putScads, itemsOfTrees, List.nil_append]
    exact hr.mono fun ts h => ⟨ts, .nil, h⟩
  | t :: l, h, d, s, P, hr => by
    simp only [Tree.BothList] at h
    simp only [putScads, itemsOfTrees, List.append_assoc]
    have hL := scads_reads pr fs file l h.2 d s P hr
    refine (scad_reads pr fs file t h.1 d _ _ hL).mono ?_
    rintro ts ⟨-, t1, hi, t2, hl, hp⟩
    exact ⟨t2, .cons (l := [itemOf pr t]) (.item hi) hl, hp⟩

end

theorem dump_reads (pr : Printf F) (fs : FS) (file : Text) (l : List (Tree F)) (h : Tree.BothList (ObjText pr) ModSet l) :
    Program fs file (dump pr l) ((itemsOfTrees pr l).map .item) := by
  unfold dump
  induction l with
  | nil => exact ⟨[], by simp only [putScads]; exact .eof, by simp only [itemsOfTrees, List.map_nil]; exact .nil⟩
  | cons t l ih =>
    simp only [Tree.BothList] at h
    have hL : Reads (putScads pr 0 l) (fun ts => IsStmts fs file ts ((itemsOfTrees pr l).map .item)) := ih h.2
    simp only [putScads, itemsOfTrees, List.map_cons]
    have hT := scad_reads pr fs file t h.1 0 _ _ hL
    obtain ⟨ts, hl, g, t1, hi, hs⟩ := hT
    exact ⟨ts, hl, IsStmts.push (l := [itemOf pr t]) (.item hi) g hs⟩

end Hob3l.Args
