import Verif.Import.Model
import Verif.Stl.Props

/-!
# C133: import reads the file that is named, in the format it has
-/

namespace Hob3l.Import

open Hob3l.Stl (Words MadeOf encodeFile Bytes Fits IsText)

section
variable {V F S : Type} (eq : V → V → Bool) (strtod : Str → F) (vec : F → F → F → V) (conv : Words → V)

/-- **C133** A relative name is looked up in the directory of the file with the `import`; an absolute one is used as it is. -/
theorem C133_name (dir base fn : Str) (hb : 0x2f ∉ base) (hd : dir = [] ∨ ∃ d, dir = d ++ [0x2f]) :
    ((∀ t, fn ≠ 0x2f :: t) → resolve (dir ++ base) fn = dir ++ fn) ∧ (∀ t, fn = 0x2f :: t → resolve (dir ++ base) fn = fn) := by
  have hdir : dirOf (dir ++ base) = dir := by
    unfold dirOf
    have h1 : ∀ c ∈ base.reverse, (!isSep c) = true := by
      intro c hc
      have : c ≠ 0x2f := by rintro rfl; exact hb (List.mem_reverse.1 hc)
      simp [isSep, this]
    rw [List.reverse_append, List.dropWhile_append_of_pos h1]
    rcases hd with rfl | ⟨d, rfl⟩
    · simp
    · simp [isSep]
  constructor
  · intro h
    have : isAbsolute fn = false := by
      cases fn with
      | nil => rfl
      | cons c t =>
        have : c ≠ 0x2f := by rintro rfl; exact h t rfl
        simp [isAbsolute, isSep, this]
    simp [resolve, this, hdir]
  · rintro t rfl
    simp [resolve, isAbsolute, isSep]

/-- **C133** A file that does not look like XML is an STL file: in 3D, it is an error if it cannot be read; otherwise the solid has its points,
moved, and its triangles, reversed if the transformation mirrors.  Outside of 3D, it is refused or skipped as the options say.  A file
that cannot be opened is an error. -/
theorem C133_stl (env : Env S) (files : Str → Option Str) (inc : Str) (move : V → V) (neg : Bool) (fn : Str) :
    (files (resolve inc fn) = none → importName eq strtod vec conv env files inc move neg fn = .fail) ∧
    ∀ file, files (resolve inc fn) = some file →
      (∀ x ∈ [[0x3c, 0x3f], [0x3c, 0x21], [0x3c, 0x73, 0x76, 0x67]], ¬ x <+: file ∧ ¬ [0xef, 0xbb, 0xbf] ++ x <+: file) →
      (env.ctx = .in3d → ∀ p, Stl.stlParse eq strtod vec conv file = .ok p →
        importName eq strtod vec conv env files inc move neg fn =
          .solid (p.points.map move) (if neg then p.faces.map List.reverse else p.faces)) ∧
      (env.ctx = .in3d → (∀ p, Stl.stlParse eq strtod vec conv file ≠ .ok p) →
        importName eq strtod vec conv env files inc move neg fn = .fail) ∧
      (env.ctx ≠ .in3d → importName eq strtod vec conv env files inc move neg fn = if env.outside3 then .fail else .nothing) := by
  refine ⟨fun h => by simp [importName, h], fun file hf hx => ?_⟩
  have hn : isXml file = false := by
    by_cases hb : pref file bom = true
    · obtain ⟨t, rfl⟩ := List.isPrefixOf_iff_prefix.1 hb
      have e : (bom ++ t).drop 3 = t := rfl
      have k : ∀ x ∈ [[0x3c, 0x3f], [0x3c, 0x21], [0x3c, 0x73, 0x76, 0x67]], pref t x = false := by
        intro x hx'
        rw [Bool.eq_false_iff]
        intro h
        obtain ⟨u, rfl⟩ := List.isPrefixOf_iff_prefix.1 h
        exact (hx x hx').2 ⟨u, by simp [bom]⟩
      simp only [isXml, hb, if_true, e, k _ (by simp : [0x3c, 0x3f] ∈ _), k _ (by simp : [0x3c, 0x21] ∈ _),
        k _ (by simp : [0x3c, 0x73, 0x76, 0x67] ∈ _), Bool.or_false]
    · have k : ∀ x ∈ [[0x3c, 0x3f], [0x3c, 0x21], [0x3c, 0x73, 0x76, 0x67]], pref file x = false := by
        intro x hx'
        rw [Bool.eq_false_iff]
        intro h
        exact (hx x hx').1 (List.isPrefixOf_iff_prefix.1 h)
      simp only [isXml, if_neg hb, k _ (by simp : [0x3c, 0x3f] ∈ _), k _ (by simp : [0x3c, 0x21] ∈ _),
        k _ (by simp : [0x3c, 0x73, 0x76, 0x67] ∈ _), Bool.or_false]
  refine ⟨fun h3 p hp => ?_, fun h3 hp => ?_, fun h3 => ?_⟩
  · cases neg <;> simp [importName, hf, importFile, hn, h3, hp]
  · cases hs : Stl.stlParse eq strtod vec conv file with
    | ok p => exact absurd hs (hp p)
    | error e => simp [importName, hf, importFile, hn, h3, hs]
  · simp [importName, hf, importFile, hn, h3, msg]

/-- **C133** A binary STL file, with any header that looks neither like a text file nor like XML, is imported with exactly its triangles. -/
theorem C133_binary (env : Env S) (files : Str → Option Str) (inc : Str) (move : V → V) (fn : Str) (h3 : env.ctx = .in3d)
    (header : List Nat) (ts : List (Words × Words × Words × Words)) (hh : header.length = 80)
    (hhb : Bytes header) (hht : ¬ IsText header) (hx : ∀ t, header ≠ 0x3c :: t) (hx' : ∀ t, header ≠ 0xef :: t) (hn : ts.length < 2 ^ 32)
    (hf : ∀ t ∈ ts, Fits t.2.1 ∧ Fits t.2.2.1 ∧ Fits t.2.2.2) (hfile : files (resolve inc fn) = some (encodeFile header ts)) :
    ∃ p : Stl.Poly V, MadeOf eq p (ts.map fun t => (conv t.2.1, conv t.2.2.1, conv t.2.2.2)) ∧ ∀ neg,
      importName eq strtod vec conv env files inc move neg fn =
        .solid (p.points.map move) (if neg then p.faces.map List.reverse else p.faces) := by
  obtain ⟨p, hp, hm⟩ := Stl.C44_roundtrip eq strtod vec conv header ts hh hhb hht hn hf
  refine ⟨p, hm, fun neg => ?_⟩
  refine ((C133_stl eq strtod vec conv env files inc move neg fn).2 _ hfile ?_).1 h3 p hp
  cases header with
  | nil => simp at hh
  | cons c t =>
    have h1 : c ≠ 0x3c := by rintro rfl; exact hx t rfl
    have h2 : c ≠ 0xef := by rintro rfl; exact hx' t rfl
    intro x hx0
    simp only [List.mem_cons, List.not_mem_nil, or_false] at hx0
    rcases hx0 with rfl | rfl | rfl <;> constructor <;> rintro ⟨u, hu⟩ <;>
      simp only [encodeFile, List.cons_append, List.append_assoc, List.cons.injEq] at hu
    · exact h1 hu.1.symm
    · exact h2 hu.1.symm
    · exact h1 hu.1.symm
    · exact h2 hu.1.symm
    · exact h1 hu.1.symm
    · exact h2 hu.1.symm

/-- **C133** (partial: the file must begin with `<?`, `<!` or `<svg`, after an optional byte order mark, see `C133_svg_wrong`).  An XML file
with the element `svg`, without namespace or with that of SVG, is drawn in 2D; outside of 2D it is refused or skipped as the options
say.  Other XML files are errors. -/
theorem C133_svg_partial (env : Env S) (files : Str → Option Str) (inc : Str) (move : V → V) (neg : Bool) (fn file x t : Str)
    (hx : x ∈ [[0x3c, 0x3f], [0x3c, 0x21], [0x3c, 0x73, 0x76, 0x67]]) (ht : file = x ++ t ∨ file = [0xef, 0xbb, 0xbf] ++ (x ++ t))
    (hf : files (resolve inc fn) = some file) :
    (∀ ns, env.xml file = some (svgName, ns) → ns = none ∨ ns = some svgNs →
      (env.ctx = .in2d → ∀ s, env.svg file = some s → importName eq strtod vec conv env files inc move neg fn = .svg s) ∧
      (env.ctx = .in2d → env.svg file = none → importName eq strtod vec conv env files inc move neg fn = .fail) ∧
      (env.ctx ≠ .in2d → importName eq strtod vec conv env files inc move neg fn = if env.outside2 then .fail else .nothing)) ∧
    (∀ name ns, env.xml file = some (name, ns) → name ≠ svgName ∨ (∃ n, ns = some n ∧ n ≠ svgNs) →
      importName eq strtod vec conv env files inc move neg fn = .fail) ∧
    (env.xml file = none → importName eq strtod vec conv env files inc move neg fn = .fail) := by
  have hp : pref (x ++ t) x = true := List.isPrefixOf_iff_prefix.2 ⟨t, rfl⟩
  have hi : isXml file = true := by
    have key : ∀ cd, cd = x ++ t → (pref cd [0x3c, 0x3f] || pref cd [0x3c, 0x21] || pref cd [0x3c, 0x73, 0x76, 0x67]) = true := by
      rintro cd rfl
      simp only [List.mem_cons, List.not_mem_nil, or_false] at hx
      rcases hx with rfl | rfl | rfl <;> simp only [hp, Bool.true_or, Bool.or_true]
    unfold isXml
    apply key
    rcases ht with rfl | rfl
    · have : pref (x ++ t) bom = false := by
        simp only [List.mem_cons, List.not_mem_nil, or_false] at hx
        rcases hx with rfl | rfl | rfl <;> simp [pref, bom, List.isPrefixOf]
      rw [this]; rfl
    · have : pref ([0xef, 0xbb, 0xbf] ++ (x ++ t)) bom = true := List.isPrefixOf_iff_prefix.2 ⟨x ++ t, rfl⟩
      rw [this]; rfl
  have he : importName eq strtod vec conv env files inc move neg fn = importXml env file := by
    simp [importName, hf, importFile, hi]
  rw [he]
  refine ⟨fun ns hns hn => ?_, fun name ns hns hn => ?_, fun hns => by simp [importXml, hns]⟩
  · rcases hn with rfl | rfl
    · exact ⟨fun h2 s hs => by simp [importXml, hns, h2, hs], fun h2 hs => by simp [importXml, hns, h2, hs],
        fun h2 => by simp [importXml, hns, h2, msg]⟩
    · exact ⟨fun h2 s hs => by simp [importXml, hns, h2, hs], fun h2 hs => by simp [importXml, hns, h2, hs],
        fun h2 => by simp [importXml, hns, h2, msg]⟩
  · by_cases h1 : name = svgName
    · obtain ⟨n, rfl, hn2⟩ := hn.resolve_left (fun h => h h1)
      simp [importXml, hns, h1, hn2]
    · simp [importXml, hns, h1]

/-- **C133** (the code is wrong here).  An SVG file that begins with white space, or whose element has a prefix (`<s:svg`), is taken for an STL
file although the readers for XML and SVG might accept it: in 2D it is refused as an STL file or skipped, whatever its contents. -/
theorem C133_svg_wrong (env : Env S) (files : Str → Option Str) (inc : Str) (move : V → V) (neg : Bool) (fn t : Str) (h2 : env.ctx = .in2d)
    (c : Nat) (hc : c = 0x20 ∨ c = 10 ∨ c = 13 ∨ c = 9) :
    (files (resolve inc fn) = some (c :: [0x3c, 0x73, 0x76, 0x67] ++ t) →
      importName eq strtod vec conv env files inc move neg fn = if env.outside3 then .fail else .nothing) ∧
    (files (resolve inc fn) = some ([0x3c, 0x73, 0x3a, 0x73, 0x76, 0x67] ++ t) →
      importName eq strtod vec conv env files inc move neg fn = if env.outside3 then .fail else .nothing) := by
  constructor
  · intro hf
    refine ((C133_stl eq strtod vec conv env files inc move neg fn).2 _ hf ?_).2.2 (by rw [h2]; decide)
    intro x hx
    simp only [List.mem_cons, List.not_mem_nil, or_false] at hx
    rcases hc with rfl | rfl | rfl | rfl <;> rcases hx with rfl | rfl | rfl <;> simp
  · intro hf
    refine ((C133_stl eq strtod vec conv env files inc move neg fn).2 _ hf ?_).2.2 (by rw [h2]; decide)
    intro x hx
    simp only [List.mem_cons, List.not_mem_nil, or_false] at hx
    rcases hx with rfl | rfl | rfl <;> simp

end

/-! ### examples -/

/-- `import("a.stl")` in `d/m.scad` -/
example : resolve [0x64, 0x2f, 0x6d] [0x61] = [0x64, 0x2f, 0x61] := by decide

/-- a header of spaces -/
example : ¬ IsText (List.replicate 80 0x20) ∧ (List.replicate 80 0x20).length = 80 ∧ Bytes (List.replicate 80 0x20) ∧
    (∀ t, List.replicate 80 0x20 ≠ 0x3c :: t) := by
  refine ⟨by unfold IsText; decide, by decide, by unfold Bytes; decide, ?_⟩
  intro t h
  have := congrArg List.head? h
  simp at this

/-- readers that accept everything -/
def exEnv : Env Nat := ⟨.in2d, true, true, fun _ => some (svgName, none), fun f => some f.length⟩

example : importName (V := Nat) (F := Nat) (fun a b => a == b) (fun _ => 0) (fun a _ _ => a) (fun w => w.1) exEnv
    (fun _ => some [0x3c, 0x73, 0x76, 0x67]) [] id false [0x61] = .svg 4 := by decide

example : importName (V := Nat) (F := Nat) (fun a b => a == b) (fun _ => 0) (fun a _ _ => a) (fun w => w.1) exEnv
    (fun _ => some [0x20, 0x3c, 0x73, 0x76, 0x67]) [] id false [0x61] = .fail := by decide

end Hob3l.Import
