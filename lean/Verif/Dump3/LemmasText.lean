import Verif.Dump3.Spec
import Verif.Args.LemmasDumpWrong
/-!
The dump is a program.
-/
namespace Hob3l.Dump3

open Hob3l.Syn
open Hob3l.Args

variable {F : Type} [Flt F]

/-- the items of a union -/
def unionItems (l : List Item) : List Item := if l.length = 1 then l else [.mk (txt "union") [] l 0]

mutual
/-- the item that is read -/
def item (pr : Printf F) : Csg3 F → Item
  | .sphere rows fn m => .mk (txt "multmatrix") ((objArgs pr (.multmatrix rows)).map (Arg.printed id))
      [.mk (txt "sphere") ((sphereArgs fn).map (Arg.printed id)) [] 0] m
  | .poly points faces m => .mk (txt "polyhedron") ((objArgs pr (.polyhedron points faces)).map (Arg.printed id)) [] m
  | .sub a b => .mk (txt "difference") [] (unionItems (items pr a) ++ items pr b) 0
  | .cut l => .mk (txt "intersection") [] (addItems pr l) 0
  | .xor l => .mk (txt "hob3l_xor") [] (addItems pr l) 0
def items (pr : Printf F) : List (Csg3 F) → List Item
  | [] => []
  | c :: l => item pr c :: items pr l
def addItems (pr : Printf F) : List (List (Csg3 F)) → List Item
  | [] => []
  | a :: l => unionItems (items pr a) ++ addItems pr l
end

theorem items_length (pr : Printf F) (l : List (Csg3 F)) : (items pr l).length = l.length := by
  induction l with
  | nil => simp [items]
  | cons c l ih => simp [items, ih]

mutual
/-- what is needed for reading the text -/
def TextOk (pr : Printf F) : Csg3 F → Prop
  | .sphere rows fn m => ObjText pr (.multmatrix rows) ∧ fn < 2 ^ 63 ∧ ModSet m
  | .poly points faces m => ObjText pr (.polyhedron points faces) ∧ ModSet m
  | .sub a b => TextOks pr a ∧ TextOks pr b
  | .cut l | .xor l => TextOkss pr l
def TextOks (pr : Printf F) : List (Csg3 F) → Prop
  | [] => True
  | c :: l => TextOk pr c ∧ TextOks pr l
def TextOkss (pr : Printf F) : List (List (Csg3 F)) → Prop
  | [] => True
  | a :: l => TextOks pr a ∧ TextOkss pr l
end

theorem txt_comma' : IsSep (txt ",") := ⟨[], by decide +kernel, by simp⟩

theorem call_reads' {name : String} (n1 : IdText (txt name)) (n2 : ¬ Keyword (txt name)) {args : List Arg}
    (ha : ∀ a ∈ args, ArgOk id a) {s : Text} {P : List Token → Prop} (hr : Reads s P) :
    Reads (call name args ++ s) (fun ts => NoIncl ts ∧ ∃ x t1 y t2, ts = .id (txt name) :: .sym 40 x :: t1 ∧
        IsArgs t1 (args.map (Arg.printed id)) (.sym 41 y :: t2) ∧ P t2) := by
  unfold call
  simp only [txt_lp, txt_rp, List.cons_append, List.nil_append, List.append_assoc]
  have hA := list_reads txt_comma' args ha _ _ (stop_cons (by unfold StopChar; omega))
    (sym_any (c := 41) (by unfold SymChar; omega) hr)
  have hN := id_reads n1 (stop_cons (by unfold StopChar; omega)) (sym_any (c := 40) (by unfold SymChar; omega) hA)
  refine hN.mono ?_
  rintro ts ⟨t1, rfl, x, t2, rfl, t3, ha, y, t4, rfl, hp⟩
  refine ⟨?_, x, t2, y, t4, rfl, ha, hp⟩
  simp only [NoIncl, List.head?_cons, ne_eq, Option.some.injEq, Token.id.injEq]
  exact fun e => n2 (Or.inl e)

theorem mod_call_reads {name : String} (n1 : IdText (txt name)) (n2 : ¬ Keyword (txt name)) {args : List Arg}
    (ha : ∀ a ∈ args, ArgOk id a) {m : Nat} (hm : ModSet m) (d : Nat) {s : Text} {P : List Token → Prop} (hr : Reads s P) :
    Reads (indent d ++ (putMods m ++ (call name args ++ s))) (fun ts => NoIncl ts ∧ ∃ x t1 y t2,
        IsMods ts m (.id (txt name) :: .sym 40 x :: t1) ∧ IsArgs t1 (args.map (Arg.printed id)) (.sym 41 y :: t2) ∧ P t2) := by
  refine (indent_reads (mods_reads hm (call_reads' n1 n2 ha hr))).mono ?_
  rintro ts ⟨h1, t1, h2, x, t2, y, t3, rfl, h3, h4⟩
  exact ⟨h1, x, t2, y, t3, h2, h3, h4⟩

theorem block_reads {fs : FS} {file : Text} {name : String} (n1 : IdText (txt name)) (n2 : ¬ Keyword (txt name)) (d : Nat)
    {content s : Text} {l : List Item} {P : List Token → Prop} (hs : Reads s P)
    (hc : ∀ (s : Text) (P : List Token → Prop), Reads s P →
      Reads (content ++ s) (fun ts => ∃ ts', IsItems fs file ts l ts' ∧ P ts')) :
    Reads (block d name content ++ s)
      (fun ts => NoIncl ts ∧ ∃ ts', IsItem fs file ts (.mk (txt name) [] l 0) ts' ∧ P ts') := by
  unfold block
  simp only [List.append_assoc]
  have hE := indent_reads (d := d) (sym_any (c := 125) (by unfold SymChar; omega)
    (space_any (c := 10) (by unfold Space; omega) hs).reads).reads
  have hI := hc _ _ hE
  have hB := (sym_any (c := 123) (by unfold SymChar; omega) (space_any (c := 10) (by unfold Space; omega) hI).reads).reads
  have hR := sym_any (c := 41) (by unfold SymChar; omega) hB
  have hN := id_reads n1 (stop_cons (by unfold StopChar; omega)) (sym_any (c := 40) (by unfold SymChar; omega) hR.reads)
  rw [show txt "(){\n" = [40, 41, 123, 10] by decide +kernel, show txt "}\n" = [125, 10] by decide +kernel]
  refine (indent_reads (d := d) hN).mono ?_
  rintro ts ⟨t1, rfl, x, t2, rfl, y, t3, rfl, z, t4, rfl, t5, a, w, t6, rfl, hp⟩
  refine ⟨?_, t6, .call .nil (fun hk => absurd hk n2) .nil rfl (.braces a), hp⟩
  simp only [NoIncl, List.head?_cons, ne_eq, Option.some.injEq, Token.id.injEq]
  exact fun e => n2 (Or.inl e)

theorem comment_reads (d : Nat) (n : String) (hn : (txt n).all (fun c => c ≠ 10 ∧ c ≠ 0) = true) {s : Text} {P}
    (h : Reads s P) : Reads (comment d n ++ s) P := by
  unfold comment
  simp only [List.append_assoc]
  refine indent_reads ?_
  obtain ⟨ts, h1, h2⟩ := (space_any (c := 10) (by unfold Space; omega) h).reads
  refine ⟨ts, ?_, h2⟩
  rw [show txt "// " = [47, 47, 32] by decide +kernel, show txt "\n" = [10] by decide +kernel]
  have : Lexes false (47 :: 47 :: ((32 :: txt n) ++ (10 :: s))) ts := by
    refine .lineComment ?_ (.inr (.inl rfl)) h1
    intro c hc
    rcases List.mem_cons.mp hc with rfl | hc
    · omega
    · have := List.all_eq_true.mp hn c hc
      simpa using this
  simpa using this

theorem sphereArgs_ok {fn : Nat} (h : fn < 2 ^ 63) : ∀ a ∈ sphereArgs fn, ArgOk id a := by
  intro a ha
  simp only [sphereArgs, List.mem_cons, List.not_mem_nil, or_false] at ha
  rcases ha with rfl | rfl | rfl
  · exact argOk_key (idText_of (by decide +kernel) (by decide +kernel)) (valOk_int (n := 1) (by omega))
  · exact argOk_key (idText_of (by decide +kernel) (by decide +kernel)) (valOk_word _)
  · exact argOk_key (idText_of (by decide +kernel) (by decide +kernel)) (valOk_int h)

theorem union_reads {fs : FS} {file : Text} {n d : Nat} {v : Nat → Text} {l : List Item} (hn : l.length = n)
    (hv : ∀ (d : Nat) (s : Text) (P : List Token → Prop), Reads s P →
      Reads (v d ++ s) (fun ts => ∃ ts', IsItems fs file ts l ts' ∧ P ts'))
    {s : Text} {P : List Token → Prop} (hs : Reads s P) :
    Reads (putUnion n d v ++ s) (fun ts => ∃ ts', IsItems fs file ts (unionItems l) ts' ∧ P ts') := by
  unfold putUnion unionItems
  by_cases h : n = 1
  · rw [if_pos h, if_pos (hn.trans h)]
    exact hv d s P hs
  · rw [if_neg h, if_neg (fun e => h (hn.symm.trans e))]
    refine (block_reads (idText_of (by decide +kernel) (by decide +kernel)) (by unfold Keyword; decide +kernel) d hs
      (hv (d + 2))).mono ?_
    rintro ts ⟨-, t1, hi, hp⟩
    exact ⟨t1, .cons (l := [_]) (.item hi) .nil, hp⟩

theorem items_append {fs : FS} {b : List Item} {t2 : List Token} : ∀ {file : Text} {ts : List Token} {a : List Item}
    {t1 : List Token}, IsItems fs file ts a t1 → IsItems fs file t1 b t2 → IsItems fs file ts (a ++ b) t2
  | _, _, _, _, .nil, h2 => h2
  | _, _, _, _, .cons hp hr, h2 => by
    rw [List.append_assoc]
    exact .cons hp (items_append hr h2)

mutual
theorem put_reads (pr : Printf F) (fs : FS) (file : Text) : (c : Csg3 F) → TextOk pr c → (d : Nat) → (s : Text) →
    (P : List Token → Prop) → Reads s P →
    Reads (put pr d c ++ s) (fun ts => NoIncl ts ∧ ∃ ts', IsItem fs file ts (item pr c) ts' ∧ P ts')
  | .sphere rows fn m, h, d, s, P, hr => by
    simp only [TextOk] at h
    simp only [put, item, List.append_assoc]
    have n1 : IdText (txt "multmatrix") := idText_of (by decide +kernel) (by decide +kernel)
    have n2 : ¬ Keyword (txt "multmatrix") := by unfold Keyword; decide +kernel
    have n3 : IdText (txt "sphere") := idText_of (by decide +kernel) (by decide +kernel)
    have n4 : ¬ Keyword (txt "sphere") := by unfold Keyword; decide +kernel
    have hT := (sym_any (c := 59) (by unfold SymChar; omega)
        (space_any (c := 10) (by unfold Space; omega) hr).reads).reads
    have hS := call_reads' n3 n4 (sphereArgs_ok h.2.1) hT
    have hS2 := (space_any (c := 32) (by unfold Space; omega) hS).reads
    rw [show txt " " = [32] by decide +kernel, txt_semi]
    refine (mod_call_reads n1 n2 h.1 h.2.2 d hS2).mono ?_
    rintro ts ⟨g, x, t1, y, t2, a1, a2, -, x', t1', y', t2', rfl, a3, z, t3, rfl, hp⟩
    refine ⟨g, t3, .call a1 (fun hk => absurd hk n2) a2 rfl (.one (.item ?_) (by intro x r h; cases h)), hp⟩
    exact .call .nil (fun hk => absurd hk n4) a3 rfl (.one .semicolon (by intro x r h; cases h))
  | .poly points faces m, h, d, s, P, hr => by
    simp only [TextOk] at h
    simp only [put, item, List.append_assoc]
    have n1 : IdText (txt "polyhedron") := idText_of (by decide +kernel) (by decide +kernel)
    have n2 : ¬ Keyword (txt "polyhedron") := by unfold Keyword; decide +kernel
    have hT := (sym_any (c := 59) (by unfold SymChar; omega)
        (space_any (c := 10) (by unfold Space; omega) hr).reads).reads
    rw [txt_semi]
    refine (mod_call_reads n1 n2 h.1 h.2 d hT).mono ?_
    rintro ts ⟨g, x, t1, y, t2, a1, a2, z, t3, rfl, hp⟩
    exact ⟨g, t3, .call a1 (fun hk => absurd hk n2) a2 rfl (.one .semicolon (by intro x r h; cases h)), hp⟩
  | .sub a b, h, d, s, P, hr => by
    simp only [TextOk] at h
    simp only [put, item]
    refine block_reads (idText_of (by decide +kernel) (by decide +kernel)) (by unfold Keyword; decide +kernel) d hr ?_
    intro s P hs
    simp only [List.append_assoc]
    refine comment_reads _ _ (by decide +kernel) ?_
    refine (union_reads (items_length pr a) (fun d s P hs => putV_reads pr fs file a h.1 d s P hs)
      (comment_reads _ _ (by decide +kernel) (putV_reads pr fs file b h.2 (d + 2) s P hs))).mono ?_
    rintro ts ⟨t1, h1, t2, h2, hp⟩
    exact ⟨t2, items_append h1 h2, hp⟩
  | .cut l, h, d, s, P, hr => by
    simp only [TextOk] at h
    simp only [put, item]
    exact block_reads (idText_of (by decide +kernel) (by decide +kernel)) (by unfold Keyword; decide +kernel) d hr
      (fun s P hs => putAdds_reads pr fs file l h (d + 2) s P hs)
  | .xor l, h, d, s, P, hr => by
    simp only [TextOk] at h
    simp only [put, item]
    exact block_reads (idText_of (by decide +kernel) (by decide +kernel)) (by unfold Keyword; decide +kernel) d hr
      (fun s P hs => putAdds_reads pr fs file l h (d + 2) s P hs)

theorem putV_reads (pr : Printf F) (fs : FS) (file : Text) : (l : List (Csg3 F)) → TextOks pr l → (d : Nat) → (s : Text) →
    (P : List Token → Prop) → Reads s P →
    Reads (putV pr d l ++ s) (fun ts => ∃ ts', IsItems fs file ts (items pr l) ts' ∧ P ts')
  | [], _, d, s, P, hr => by
    simp only [putV, items, List.nil_append]
    exact hr.mono fun ts h => ⟨ts, .nil, h⟩
  | c :: l, h, d, s, P, hr => by
    simp only [TextOks] at h
    simp only [putV, items, List.append_assoc]
    refine (put_reads pr fs file c h.1 d _ _ (putV_reads pr fs file l h.2 d s P hr)).mono ?_
    rintro ts ⟨-, t1, hi, t2, hl, hp⟩
    exact ⟨t2, .cons (l := [item pr c]) (.item hi) hl, hp⟩

theorem putAdds_reads (pr : Printf F) (fs : FS) (file : Text) : (l : List (List (Csg3 F))) → TextOkss pr l → (d : Nat) →
    (s : Text) → (P : List Token → Prop) → Reads s P →
    Reads (putAdds pr d l ++ s) (fun ts => ∃ ts', IsItems fs file ts (addItems pr l) ts' ∧ P ts')
  | [], _, d, s, P, hr => by
    simp only [putAdds, addItems, List.nil_append]
    exact hr.mono fun ts h => ⟨ts, .nil, h⟩
  | a :: l, h, d, s, P, hr => by
    simp only [TextOkss] at h
    simp only [putAdds, addItems, List.append_assoc]
    refine (union_reads (items_length pr a) (fun d s P hs => putV_reads pr fs file a h.1 d s P hs)
      (putAdds_reads pr fs file l h.2 d s P hr)).mono ?_
    rintro ts ⟨t1, h1, t2, h2, hp⟩
    exact ⟨t2, items_append h1 h2, hp⟩
end

/-- the dump is a program -/
theorem dump3_reads (pr : Printf F) (fs : FS) (file : Text) (l : List (Csg3 F)) (h : TextOks pr l) :
    Program fs file (dump3 pr l) ((items pr l).map .item) := by
  unfold dump3
  induction l with
  | nil => exact ⟨[], by simp only [putV]; exact .eof, by simp only [items, List.map_nil]; exact .nil⟩
  | cons t l ih =>
    simp only [TextOks] at h
    have hL : Reads (putV pr 0 l) (fun ts => IsStmts fs file ts ((items pr l).map .item)) := ih h.2
    simp only [putV, items, List.map_cons]
    obtain ⟨ts, hl, g, t1, hi, hs⟩ := put_reads pr fs file t h.1 0 _ _ hL
    exact ⟨ts, hl, IsStmts.push (l := [item pr t]) (.item hi) g hs⟩

end Hob3l.Dump3
