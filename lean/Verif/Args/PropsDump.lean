import Verif.Args.LemmasDumpWrong
import Verif.Syn.Props
/-!
# Property C116: the dump of the tree of objects is read back
-/
namespace Hob3l.Args

open Hob3l.Syn

variable {F : Type} [Flt F]

/-- **C116, the part that holds**: for every program that is converted to a tree of objects: if the numbers of the objects are
printed so that they can be read back, then the dump of the tree is a program (whatever the file is called and whatever other
files there are), and it is converted to the same tree, with the same root, whatever the options are.  Missing: objects that are
not dumped properly (`Obj.Dumpable`): see the theorems below. -/
theorem C116_dump_partial (pr : Printf F) (hb : ByteLaw F) (hq : EqLaw F) (hc : ∀ n ≤ 255, PrintsGrey F (pr.cc n) n)
    (fs fs' : FS) (file file' content : Text) (l : List Stmt) (h : Program fs file content l) (o o' : Opts) (hcol : ColorLaw o.colors)
    (t : List (Tree F)) (root : Option Nat) (ht : fromTree o l = .ok (t, root))
    (hd : Tree.AllList (fun obj => obj.Dumpable ∧ obj.Exact pr) t) :
    ∃ l', Program fs' file' (dump pr t) l' ∧ fromTree o' l' = .ok (t, root) := by
  obtain ⟨ts, h1, h2⟩ := h
  have wf := stmts_ok h2 (lexes_ok h1)
  unfold fromTree at ht
  rw [Out.bind_ok] at ht
  obtain ⟨⟨t', s⟩, e, ht⟩ := ht
  simp only [Out.ok.injEq, Prod.mk.injEq] at ht
  obtain ⟨rfl, rfl⟩ := ht
  rw [fromStmts_items o l _ (fromStmts_no_use o l _ _ e)] at e
  have w := fromItems_wf hb o hcol _ _ _ _ (itemsOf_wf l wf) e
  have a := (bothList_text (r := ObjText pr) (fun obj hw hd => objText_dump pr hc obj hw hd.1 hd.2) t' w hd).1
  have r := (bothList_text (r := Redo pr)
    (fun obj hw hd strict colors => fromArgs_dump strict colors pr hc hq obj hw hd.1 hd.2) t' w hd).2
  refine ⟨_, dump_reads pr fs' file' t' a, ?_⟩
  unfold fromTree
  rw [fromStmts_items o' _ _ (by simp), itemsOf_map, fromItems_again pr o o' _ _ _ _ e r]
  rfl

/-- **C116, the part that holds**: the same for the parser: the dump is parsed and gives the same tree. -/
theorem C116_parse_partial (pr : Printf F) (hb : ByteLaw F) (hq : EqLaw F) (hc : ∀ n ≤ 255, PrintsGrey F (pr.cc n) n)
    (fs fs' : FS) (file file' content : Text) (l : List Stmt) (h : Program fs file content l) (o o' : Opts) (hcol : ColorLaw o.colors)
    (t : List (Tree F)) (root : Option Nat) (ht : fromTree o l = .ok (t, root))
    (hd : Tree.AllList (fun obj => obj.Dumpable ∧ obj.Exact pr) t) :
    ∃ n, ∀ m, n ≤ m → ∃ l', parse fs' m file' (dump pr t) = .ok l' ∧ fromTree o' l' = .ok (t, root) := by
  obtain ⟨l', h1, h2⟩ := C116_dump_partial pr hb hq hc fs fs' file file' content l h o o' hcol t root ht hd
  obtain ⟨n, hn⟩ := C71_complete fs' file' _ l' h1
  exact ⟨n, fun m hm => ⟨l', hn m hm, h2⟩⟩

/-! ## Objects that are not read back -/

/-- **C116 fails for `import`**: it is dumped with the parameter `s`, but the parameter is called `file`: the dump is rejected, and
if unknown parameters are accepted, reading it crashes, because the name of the file is NULL. -/
theorem C116_import_wrong (pr : Printf F) (fs : FS) (file : Text) (o : Opts) (name : Text) (layer : Option Text) (center : Bool)
    (id' : Option Text) (dpi : F) (d : Detail F) (hn : StrBody name) (hd : d.fn < 2 ^ 32) (ha : PrintsAs (pr.gg d.fa) d.fa)
    (hs : PrintsAs (pr.gg d.fs) d.fs) :
    ∃ l, Program fs file (dump pr (single (.import_ name layer center id' dpi d))) l ∧
      fromTree (F := F) o l = if o.param then .fail else .crash := by
  have ht : ObjText pr (.import_ name layer center id' dpi d) := by
    intro a h
    simp only [objArgs] at h
    rcases List.mem_cons.mp h with rfl | h
    · exact argOk_key (idText_of (by decide +kernel) (by decide +kernel)) (valOk_str hn)
    · exact detail_text hd ha hs a h
  refine ⟨_, single_reads pr _ ht fs file, ?_⟩
  cases hp : o.param with
  | true =>
    refine single_fail pr _ o ?_
    rw [hp]
    exact fromArgs_strict (f := .import_) rfl (unknown (by decide +kernel))
  | false =>
    refine single_crash pr _ o ?_
    rw [hp]
    refine (fromArgs_lax (f := .import_) rfl (unknown (by decide +kernel))).trans ?_
    rfl

/-- **C116 fails for `surface`**, for the same reason. -/
theorem C116_surface_wrong (pr : Printf F) (fs : FS) (file : Text) (o : Opts) (name : Text) (center : Bool) (hn : StrBody name) :
    ∃ l, Program fs file (dump pr (single (.surface name center))) l ∧ fromTree (F := F) o l = if o.param then .fail else .crash := by
  have ht : ObjText pr (.surface name center) := by
    intro a h
    simp only [objArgs, List.mem_cons, List.not_mem_nil, or_false] at h
    rcases h with rfl | rfl
    · exact argOk_key (idText_of (by decide +kernel) (by decide +kernel)) (valOk_str hn)
    · exact argOk_key (idText_of (by decide +kernel) (by decide +kernel)) (valOk_word _)
  refine ⟨_, single_reads pr _ ht fs file, ?_⟩
  cases hp : o.param with
  | true =>
    refine single_fail pr _ o ?_
    rw [hp]
    exact fromArgs_strict (f := .surface) rfl (unknown (by decide +kernel))
  | false =>
    refine single_crash pr _ o ?_
    rw [hp]
    refine (fromArgs_lax (f := .surface) rfl (unknown (by decide +kernel))).trans ?_
    rfl

/-- **C116 fails for `text`**: it is dumped with `$fn`, `$fa`, `$fs`, which `text` does not have, so the dump is rejected; if unknown
parameters are accepted, the dump is read, but the tracking is lost, because it is not dumped. -/
theorem C116_text_wrong (pr : Printf F) (fs : FS) (file : Text) (o : Opts) (text font halign valign direction language script : Text)
    (size spacing tracking : F) (hn : ∀ s ∈ [text, font, halign, valign, direction, language, script], StrBody s)
    (h1 : PrintsAs (pr.gg size) size) (h2 : PrintsAs (pr.gg spacing) spacing) (h3 : PrintsAs (pr.gg (con 0)) (con 0 : F)) :
    ∃ l, Program fs file (dump pr (single (.text (some text) size (some font) (some halign) (some valign) (some direction)
        (some language) (some script) spacing tracking))) l ∧
      fromTree o l = if o.param then .fail else
        .ok (single (.text (some text) size (some font) (some halign) (some valign) (some direction) (some language)
          (some script) spacing (con 0)), none) := by
  have ht : ObjText pr (.text (some text) size (some font) (some halign) (some valign) (some direction)
        (some language) (some script) spacing tracking) := by
    intro a h
    simp only [objArgs] at h
    simp only [List.mem_cons, List.not_mem_nil, or_false, forall_eq_or_imp, forall_eq] at hn
    obtain ⟨s1, s2, s3, s4, s5, s6, s7⟩ := hn
    rcases List.mem_append.mp h with h | h
    · simp only [List.mem_cons, List.not_mem_nil, or_false, strOf, Option.getD_some] at h
      rcases h with rfl | rfl | rfl | rfl | rfl | rfl | rfl | rfl | rfl
      · exact argOk_key (idText_of (by decide +kernel) (by decide +kernel)) (valOk_str s1)
      · exact argOk_key (idText_of (by decide +kernel) (by decide +kernel)) (valOk_float h1)
      · exact argOk_key (idText_of (by decide +kernel) (by decide +kernel)) (valOk_str s2)
      · exact argOk_key (idText_of (by decide +kernel) (by decide +kernel)) (valOk_str s3)
      · exact argOk_key (idText_of (by decide +kernel) (by decide +kernel)) (valOk_str s4)
      · exact argOk_key (idText_of (by decide +kernel) (by decide +kernel)) (valOk_float h2)
      · exact argOk_key (idText_of (by decide +kernel) (by decide +kernel)) (valOk_str s5)
      · exact argOk_key (idText_of (by decide +kernel) (by decide +kernel)) (valOk_str s6)
      · exact argOk_key (idText_of (by decide +kernel) (by decide +kernel)) (valOk_str s7)
    · exact detail_text (by show 0 < 2 ^ 32; decide) h3 h3 a h
  refine ⟨_, single_reads pr _ ht fs file, ?_⟩
  cases hp : o.param with
  | true =>
    refine single_fail pr _ o ?_
    rw [hp]
    exact fromArgs_strict (f := .text) rfl (stepEq 0 (by decide +kernel) rfl rfl get_str' <|
      stepEq 1 (by decide +kernel) rfl rfl (get_float' h1) <| stepEq 2 (by decide +kernel) rfl rfl get_str' <|
      stepEq 3 (by decide +kernel) rfl rfl get_str' <| stepEq 4 (by decide +kernel) rfl rfl get_str' <|
      stepEq 8 (by decide +kernel) rfl rfl (get_float' h2) <| stepEq 5 (by decide +kernel) rfl rfl get_str' <|
      stepEq 6 (by decide +kernel) rfl rfl get_str' <| stepEq 7 (by decide +kernel) rfl rfl get_str' <|
      unknown (by decide +kernel))
  | false =>
    refine single_ok pr _ _ o ?_
    rw [hp]
    refine (fromArgs_lax (f := .text) rfl (stepEq 0 (by decide +kernel) rfl rfl get_str' <|
      stepEq 1 (by decide +kernel) rfl rfl (get_float' h1) <| stepEq 2 (by decide +kernel) rfl rfl get_str' <|
      stepEq 3 (by decide +kernel) rfl rfl get_str' <| stepEq 4 (by decide +kernel) rfl rfl get_str' <|
      stepEq 8 (by decide +kernel) rfl rfl (get_float' h2) <| stepEq 5 (by decide +kernel) rfl rfl get_str' <|
      stepEq 6 (by decide +kernel) rfl rfl get_str' <| stepEq 7 (by decide +kernel) rfl rfl get_str' <|
      unknown (by decide +kernel))).trans ?_
    rfl

/-- **C116 fails for `color(undef)`**: it is dumped as `color(alpha=...)` without the colour, which is mandatory: the dump is
rejected. -/
theorem C116_color_wrong (pr : Printf F) (hc : PrintsGrey F (pr.cc 255) 255) (fs : FS) (file : Text) (o o' : Opts) :
    (∃ l, Program (fun _ => none) [] (txt "color(undef);") l ∧ fromTree (F := F) o' l = .ok (single (.color none), none)) ∧
    ∃ l, Program fs file (dump pr (single (.color none))) l ∧ fromTree (F := F) o l = .fail := by
  constructor
  · have e : parse (fun _ => none) 60 [] (txt "color(undef);") =
        .ok [.item (.mk (txt "color") [⟨none, .id (txt "undef")⟩] [] 0)] := eq_of_sameRes (by decide +kernel)
    exact ⟨_, ((C71_sound _ _ _ _).1 _ e _).mpr rfl, rfl⟩
  · have ht : ObjText pr (.color none : Obj F) := by
      intro a h
      simp only [objArgs, List.mem_cons, List.not_mem_nil, or_false] at h
      subst h
      obtain ⟨x, hx, -⟩ := hc
      exact argOk_key (idText_of (by decide +kernel) (by decide +kernel)) (valOk_float hx)
    refine ⟨_, single_reads pr _ ht fs file, single_fail pr _ o ?_⟩
    have hl : getLoop o.param (posParams .color) (nameParams .color) false 0
        ((objArgs pr (.color none)).map (Arg.printed id)) (start (posParams .color ++ nameParams .color : List (Param F))) =
        .ok ⟨[⟨none, false⟩, ⟨some (.grey 255), true⟩], false⟩ :=
      step 1 (by decide +kernel) rfl rfl (get_grey' hc) rfl
    show fromArgs o.param o.colors .color _ = _
    simp only [fromArgs, reads, if_true, getArg, hl, Bind.bind, Out.bind]
    rfl

/-- **C116 fails for polygons with fewer than three points**: they are accepted without paths, but dumped with a path, and such
paths are rejected. -/
theorem C116_polygon_wrong (pr : Printf F) (h0 : pr.ff (con 0) = txt "0") (h1 : pr.ff (con 1) = txt "1") (fs : FS) (file : Text)
    (o o' : Opts) :
    (∃ l, Program (fun _ => none) [] (txt "polygon([[0,0],[1,0]]);") l ∧
      fromTree (F := F) o' l = .ok (single (.polygon [[con 0, con 0], [con 1, con 0]] [[0, 1]]), none)) ∧
    dump pr (single (.polygon [[con 0, con 0], [con 1, con 0]] [[0, 1]])) =
      txt "polygon(\n  points=[[0,0],[1,0]],\n  paths=[[0,1]]);\n" ∧
    ∃ l, Program fs file (txt "polygon(\n  points=[[0,0],[1,0]],\n  paths=[[0,1]]);\n") l ∧ fromTree (F := F) o l = .fail := by
  have e0 : ∀ i : Nat, NumberText (txt "0") ∧ NumberText (txt "1") := fun _ => by
    constructor <;>
    · refine number_of (by decide +kernel) ?_
      unfold Digit
      decide +kernel
  have n0 := digits_text (e0 0).1 (by decide +kernel)
  have n1 := digits_text (e0 0).2 (by decide +kernel)
  have hdump : dump pr (single (.polygon [[con 0, con 0], [con 1, con 0]] [[0, 1]])) =
      txt "polygon(\n  points=[[0,0],[1,0]],\n  paths=[[0,1]]);\n" := by
    simp only [dump, single, putScads, putScad, objName, objArgs, lead, sep, hasBody, Bool.false_eq_true, if_false, List.map_cons,
      List.map_nil, nums, nats, h0, h1, putList, key, putArg, if_true]
    decide +kernel
  refine ⟨?_, hdump, ?_⟩
  · have e : parse (fun _ => none) 90 [] (txt "polygon([[0,0],[1,0]]);") =
        .ok [.item (.mk (txt "polygon") [⟨none, .arr [.arr [.int 0, .int 0], .arr [.int 1, .int 0]]⟩] [] 0)] :=
      eq_of_sameRes (by decide +kernel)
    exact ⟨_, ((C71_sound _ _ _ _).1 _ e _).mpr rfl, rfl⟩
  · have ht : ObjText pr (.polygon [[con 0, con 0], [con 1, con 0]] [[0, 1]]) := by
      intro a h
      simp only [objArgs, List.mem_cons, List.not_mem_nil, or_false, nums, List.map_cons, List.map_nil, h0, h1] at h
      rcases h with rfl | rfl
      · refine argOk_key (idText_of (by decide +kernel) (by decide +kernel)) (valOk_arr ?_)
        simp only [List.mem_cons, List.not_mem_nil, or_false, forall_eq_or_imp, forall_eq]
        constructor <;>
        · refine valOk_arr ?_
          simp only [List.mem_cons, List.not_mem_nil, or_false, forall_eq_or_imp, forall_eq]
          first | exact ⟨n0, n0⟩ | exact ⟨n1, n0⟩
      · refine argOk_key (idText_of (by decide +kernel) (by decide +kernel)) (valOk_arr ?_)
        simp only [List.mem_cons, List.not_mem_nil, or_false, forall_eq]
        exact valOk_nats (by simp)
    have hr := single_reads pr _ ht fs file
    rw [hdump] at hr
    refine ⟨_, hr, single_fail pr _ o ?_⟩
    have hz : (Value.float (txt "0")).printed id = .int 0 := by
      rw [Value.printed, if_neg (by decide +kernel), show intValue (id (txt "0")) = 0 by decide +kernel]
    have hone : (Value.float (txt "1")).printed id = .int 1 := by
      rw [Value.printed, if_neg (by decide +kernel), show intValue (id (txt "1")) = 1 by decide +kernel]
    have ha : (objArgs pr (.polygon [[con 0, con 0], [con 1, con 0]] [[0, 1]])).map (Arg.printed id) =
        [⟨some (txt "points"), .arr [.arr [.int 0, .int 0], .arr [.int 1, .int 0]]⟩,
          ⟨some (txt "paths"), .arr [.arr [.int 0, .int 1]]⟩] := by
      simp only [objArgs, List.map_cons, List.map_nil, nums, h0, h1, Arg.printed, key, arr_printed, hz, hone, nats_printed, nats,
        Value.printed]
      rfl
    rw [ha]
    show fromArgs o.param o.colors .polygon _ = _
    have hl : getLoop o.param (posParams .polygon) (nameParams .polygon) false 0
        [⟨some (txt "points"), .arr [.arr [.int 0, .int 0], .arr [.int 1, .int 0]]⟩,
          ⟨some (txt "paths"), .arr [.arr [.int 0, .int 1]]⟩] (start (posParams .polygon ++ nameParams .polygon : List (Param F))) =
        .ok ⟨[⟨some (.raw (.arr [.arr [.int 0, .int 0], .arr [.int 1, .int 0]])), true⟩,
          ⟨some (.raw (.arr [.arr [.int 0, .int 1]])), true⟩, ⟨none, false⟩], false⟩ :=
      step 0 (by decide +kernel) rfl rfl rfl <| step 1 (by decide +kernel) rfl rfl rfl rfl
    simp only [fromArgs, reads, if_true, getArg, hl, Bind.bind, Out.bind]
    rfl

/-- **C116 fails for angles and for `$fa`, `$fs` with more than six digits**: `%g` prints six. -/
theorem C116_digits_wrong (pr : Printf F) (hg : pr.gg (con 1234567) = txt "1.23457e+06") (fs : FS) (file : Text)
    (o : Opts) (d : Detail F) (hd : d.fn < 2 ^ 32) (ha : PrintsAs (pr.gg d.fa) d.fa) (hs : PrintsAs (pr.gg d.fs) d.fs) :
    ∃ l, Program fs file (dump pr (single (.rotext (con 1234567) d))) l ∧
      fromTree o l = .ok (single (.rotext (Flt.ofText (txt "1.23457e+06")) d), none) := by
  have hp : PrintsAs (pr.gg (con 1234567)) (Flt.ofText (txt "1.23457e+06") : F) := by
    rw [hg]
    refine ⟨⟨[], [49], txt ".23457", txt "e+06", by decide +kernel, by simp, ?_, .inr ⟨txt "23457", by decide +kernel, ?_⟩,
      .inr ⟨101, [43], txt "06", by decide +kernel, by simp, by simp, ?_⟩, by simp⟩, by decide +kernel, ?_⟩
    · unfold Digits Digit; decide +kernel
    · unfold Digits Digit; decide +kernel
    · unfold Digits Digit; decide +kernel
    · rw [if_pos (by decide +kernel)]
  have ht : ObjText pr (.rotext (con 1234567) d) := by
    intro a h
    simp only [objArgs] at h
    rcases List.mem_cons.mp h with rfl | h
    · exact argOk_key (idText_of (by decide +kernel) (by decide +kernel)) (valOk_float hp)
    · exact detail_text hd ha hs a h
  refine ⟨_, single_reads pr _ ht fs file, single_ok pr _ _ o ?_⟩
  exact fromArgs_of (f := .rotext) rfl (step 0 (by decide +kernel) rfl rfl (get_float' hp) <|
      step 4 (by decide +kernel) rfl rfl (get_uint' hd) <| step 2 (by decide +kernel) rfl rfl (get_float' ha) <|
      step 3 (by decide +kernel) rfl rfl (get_float' hs) rfl) rfl rfl

/-! ## Examples -/

/-- arithmetic for examples: decimal numbers with five digits behind the point -/
structure Fix where
  raw : Int
  deriving DecidableEq

instance fixFlt : Flt Fix where
  ofText t :=
    let fp := (t.dropWhile (· ≠ 46)).drop 1
    ⟨decimal (t.takeWhile (· ≠ 46)) * 100000 + decimal (fp ++ List.replicate (5 - fp.length) 48)⟩
  ofInt i := ⟨i * 100000⟩
  pi := ⟨314159⟩
  half x := ⟨x.raw / 2⟩
  unit x := decide (0 ≤ x.raw ∧ x.raw ≤ 100000)
  byte x := ((x.raw * 255 + 50000) / 100000).toNat % 256
  eq x y := x == y

/-- `k` digits of a number -/
def pad (k n : Nat) : Text := (List.range k).reverse.map fun i => n / 10 ^ i % 10 + 48

/-- without trailing zeros -/
def strip (t : Text) : Text := (t.reverse.dropWhile (· == 48)).reverse

/-- a number with point -/
def fixText (k n : Nat) : Text :=
  natText (n / 10 ^ k) ++ (if n % 10 ^ k = 0 then [] else 46 :: strip (pad k (n % 10 ^ k)))

/-- `%.16g`, `%g` for small numbers, and `%.3g` for colours -/
def fixPr : Printf Fix where
  ff x := fixText 5 x.raw.toNat
  gg x := fixText 5 x.raw.toNat
  cc n :=
    let k := if n ≤ 2 then 5 else if n ≤ 25 then 4 else 3
    fixText k ((n * 10 ^ k * 2 + 255) / 510)

/-- the form of a number that can be decided -/
def plain (t : Text) : Bool :=
  let ip := t.takeWhile (· ≠ 46)
  let fp := t.dropWhile (· ≠ 46)
  decide (ip ≠ [] ∧ (∀ c ∈ ip, 48 ≤ c ∧ c ≤ 57) ∧ (∀ c ∈ fp.drop 1, 48 ≤ c ∧ c ≤ 57))

theorem plain_number {t : Text} (h : plain t = true) : NumberText t ∧ t.head? ≠ some 43 := by
  simp only [plain, decide_eq_true_eq] at h
  obtain ⟨h1, h2, h3⟩ := h
  refine ⟨⟨[], t.takeWhile (· ≠ 46), t.dropWhile (· ≠ 46), [], ?_, by simp, h2, ?_, by simp, fun h => h1 (List.append_eq_nil_iff.mp h).1⟩, ?_⟩
  · simp only [List.nil_append, List.append_nil]
    exact List.takeWhile_append_dropWhile.symm
  · cases hd : t.dropWhile (· ≠ 46) with
    | nil => left; rfl
    | cons c d =>
      right
      rw [hd] at h3
      have : c = 46 := by
        have := List.head_dropWhile_not (fun x => decide (x ≠ 46)) (l := t) (by rw [hd]; simp)
        simp only [hd, List.head_cons] at this
        simpa using this
      subst this
      exact ⟨d, rfl, h3⟩
  · cases t with
    | nil => simp
    | cons c t =>
      simp only [List.head?_cons, ne_eq, Option.some.injEq]
      rintro rfl
      have := h2 43 (by simp)
      omega

theorem plain_prints {t : Text} {x : Fix} (h : plain t = true)
    (h2 : (if IsFloat t then Flt.ofText t else Flt.ofInt (intValue t)) = x) : PrintsAs t x :=
  ⟨(plain_number h).1, (plain_number h).2, h2⟩

/-- the hypotheses of C116 about the arithmetic can be met: three digits are enough for a colour -/
example : ByteLaw Fix ∧ EqLaw Fix ∧ (∀ n ≤ 255, PrintsGrey Fix (fixPr.cc n) n) ∧ ColorLaw (fun _ => none) := by
  refine ⟨?_, by unfold EqLaw; decide +kernel, ?_, by intro s c h; simp at h⟩
  · intro x
    have : (Flt.byte x : Nat) = ((x.raw * 255 + 50000) / 100000).toNat % 256 := rfl
    omega
  · have h : ∀ n : Fin 256, plain (fixPr.cc n) = true ∧
        Flt.unit (if IsFloat (fixPr.cc n) then Flt.ofText (fixPr.cc n) else Flt.ofInt (intValue (fixPr.cc n)) : Fix) = true ∧
        Flt.byte (if IsFloat (fixPr.cc n) then Flt.ofText (fixPr.cc n) else Flt.ofInt (intValue (fixPr.cc n)) : Fix) = n := by
      decide +kernel
    intro n hn
    have := h ⟨n, by omega⟩
    exact ⟨_, plain_prints this.1 rfl, this.2.1, this.2.2⟩

/-- a tree for examples -/
def exDump : List (Tree Fix) :=
  [.mk 0 (.translate [⟨100000⟩, ⟨200000⟩, ⟨0⟩]) 0x44
    [.mk 1 (.color (some [255, 0, 128, 255])) 0 [.mk 2 (.sphere ⟨250000⟩ ⟨0, ⟨200000⟩, ⟨1200000⟩⟩) 0 []],
      .mk 3 (.cube [⟨100000⟩, ⟨100000⟩, ⟨100000⟩] true) 0x23 [],
      .mk 4 (.polygon [[⟨0⟩, ⟨0⟩], [⟨100000⟩, ⟨0⟩], [⟨0⟩, ⟨50000⟩]] [[0, 1, 2]]) 0 []]]

/-- the statements of the example -/
def exStmts : List Stmt :=
  [.item (.mk (txt "translate") [⟨none, .arr [.int 1, .int 2]⟩]
    [.mk (txt "color") [⟨none, .arr [.int 1, .int 0, .float (txt "0.5")]⟩] [.mk (txt "sphere") [⟨some (txt "d"), .int 5⟩] [] 0] 0,
      .mk (txt "cube") [⟨some (txt "center"), .id (txt "true")⟩] [] 0x23,
      .mk (txt "polygon") [⟨none, .arr [.arr [.int 0, .int 0], .arr [.int 1, .int 0], .arr [.int 0, .float (txt ".5")]]⟩] [] 0] 0x44)]

example : Program (fun _ => none) []
    (txt "!translate([1,2]){color([1,0,0.5])sphere(d=5);%cube(center=true);polygon([[0,0],[1,0],[0,.5]]);}") exStmts := by
  have e : parse (fun _ => none) 300 []
      (txt "!translate([1,2]){color([1,0,0.5])sphere(d=5);%cube(center=true);polygon([[0,0],[1,0],[0,.5]]);}") = .ok exStmts :=
    eq_of_sameRes (by decide +kernel)
  exact ((C71_sound _ _ _ _).1 _ e _).mpr rfl

example : fromTree ⟨true, true, fun _ => none⟩ exStmts = .ok (exDump, some 0) := rfl

example : Tree.AllList (fun obj => obj.Dumpable ∧ obj.Exact fixPr) exDump := by
  simp only [exDump, Tree.AllList, Tree.All, Obj.Dumpable, Obj.Exact, Obj.fine, Obj.coarse, and_true, true_and, List.flatten_cons,
    List.flatten_nil, List.cons_append, List.nil_append, List.mem_cons, List.not_mem_nil, or_false, forall_eq_or_imp, forall_eq,
    List.length_cons, List.length_nil, false_imp_iff, implies_true, IsEmpty.forall_iff]
  have h : ∀ n ∈ [0, 50000, 100000, 200000, 250000, 1200000], PrintsAs (fixText 5 n) (⟨n⟩ : Fix) := by
    intro n hn
    have h : ∀ n ∈ [0, 50000, 100000, 200000, 250000, 1200000], plain (fixText 5 n) = true ∧
        (if IsFloat (fixText 5 n) then Flt.ofText (fixText 5 n) else Flt.ofInt (intValue (fixText 5 n))) = (⟨n⟩ : Fix) := by
      decide +kernel
    exact plain_prints (h n hn).1 (h n hn).2
  have a0 : PrintsAs (fixPr.ff ⟨0⟩) (⟨0⟩ : Fix) := h 0 (by simp)
  have a1 : PrintsAs (fixPr.ff ⟨50000⟩) (⟨50000⟩ : Fix) := h 50000 (by simp)
  have a2 : PrintsAs (fixPr.ff ⟨100000⟩) (⟨100000⟩ : Fix) := h 100000 (by simp)
  have a3 : PrintsAs (fixPr.ff ⟨200000⟩) (⟨200000⟩ : Fix) := h 200000 (by simp)
  have a4 : PrintsAs (fixPr.ff ⟨250000⟩) (⟨250000⟩ : Fix) := h 250000 (by simp)
  have a5 : PrintsAs (fixPr.gg ⟨200000⟩) (⟨200000⟩ : Fix) := h 200000 (by simp)
  have a6 : PrintsAs (fixPr.gg ⟨1200000⟩) (⟨1200000⟩ : Fix) := h 1200000 (by simp)
  simp [a0, a1, a2, a3, a4, a5, a6]

/-- the text of the dump -/
example : dump fixPr exDump =
    txt "!translate(v=[1,2,0]){\n  color(c=[1,0,0.502,1]){\n    sphere(r=2.5, $fn=0, $fa=12, $fs=2);\n  }\n  %cube(size=[1,1,1], center=true);\n  polygon(\n    points=[[0,0],[1,0],[0,0.5]],\n    paths=[[0,1,2]]);\n}\n" := by
  decide +kernel

example : dump fixPr
    [.mk 0 .union 0x11 [.mk 1 .difference 0x82 [], .mk 2 .intersection 0 [], .mk 3 .hull 0 [.mk 4 (.circle ⟨100000⟩ ⟨8, ⟨0⟩, ⟨0⟩⟩) 0 []]],
      .mk 5 (.multmatrix [[⟨100000⟩, ⟨0⟩, ⟨0⟩, ⟨700000⟩], [⟨0⟩, ⟨100000⟩, ⟨0⟩, ⟨0⟩], [⟨0⟩, ⟨0⟩, ⟨100000⟩, ⟨0⟩]]) 0
        [.mk 6 (.square [⟨100000⟩, ⟨200000⟩] false) 0 []],
      .mk 7 (.rotate true [⟨0⟩, ⟨0⟩, ⟨100000⟩] ⟨4500000⟩) 0 [.mk 8 (.rotate false [⟨0⟩, ⟨0⟩, ⟨100000⟩] ⟨0⟩) 0 []],
      .mk 9 (.linext ⟨100000⟩ ⟨200000⟩ [⟨300000⟩, ⟨400000⟩] 5 true ⟨6, ⟨700000⟩, ⟨800000⟩⟩) 0 [],
      .mk 10 (.cylinder ⟨100000⟩ ⟨200000⟩ ⟨300000⟩ false ⟨6, ⟨700000⟩, ⟨800000⟩⟩) 0 []] =
    txt ("#union(){\n  *difference(){\n  }\n  intersection(){\n  }\n  hull(){\n    circle(r=1, $fn=8, $fa=0, $fs=0);\n  }\n}\n" ++
      "multmatrix(m=[[1,0,0,7],[0,1,0,0],[0,0,1,0],[0,0,0,1]]) {\n  square(size=[1,2], center=false);\n}\n" ++
      "rotate(a=45, v=[0,0,1]){\n  rotate(a=[0,0,1]){\n  }\n}\n" ++
      "linear_extrude(height=1, scale=[3,4], twist=2, slices=5, center=true, $fn=6, $fa=8, $fs=7){\n}\n" ++
      "cylinder(h=1, r1=2, r2=3, center=false, $fn=6, $fa=8, $fs=7);\n") := by
  decide +kernel

/-- the hypotheses of the theorems about objects that are not read back can be met -/
example : StrBody (txt "a.stl") ∧ PrintsAs (fixPr.gg ⟨1200000⟩) (⟨1200000⟩ : Fix) ∧ fixPr.ff (con 0) = txt "0" ∧
    fixPr.ff (con 1) = txt "1" := by
  refine ⟨?_, plain_prints (by decide +kernel) (by decide +kernel), by decide +kernel, by decide +kernel⟩
  rw [show txt "a.stl" = [97, 46, 115, 116, 108] by decide +kernel]
  exact .plain (by decide) (by decide) (by decide) (.plain (by decide) (by decide) (by decide) (.plain (by decide) (by decide) (by decide)
    (.plain (by decide) (by decide) (by decide) (.plain (by decide) (by decide) (by decide) .nil))))

end Hob3l.Args
