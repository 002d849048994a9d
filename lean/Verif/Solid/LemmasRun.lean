import Verif.Solid.LemmasSides

/-
Running the tower construction: the faces as an explicit list.
-/

namespace Hob3l.Solid

theorem bind_some' {σ : Type} (o : Option σ) : o.bind some = o := by cases o <;> rfl

theorem loop_append {α σ : Type} (f : α → σ → Option σ) (l m : List α) (s : σ) :
    loop f (l ++ m) s = (loop f l s).bind (loop f m) := by
  induction l generalizing s with
  | nil => rfl
  | cons a l ih =>
    simp only [List.cons_append, loop, Option.bind_eq_bind]
    cases h : f a s with
    | none => rfl
    | some s' => simp only [Option.bind_some, ih]

theorem loop_flatMap {α β σ : Type} (f : β → σ → Option σ) (g : α → List β) (l : List α) (s : σ) :
    loop (fun a s => loop f (g a) s) l s = loop f (l.flatMap g) s := by
  induction l generalizing s with
  | nil => rfl
  | cons a l ih =>
    rw [List.flatMap_cons, loop_append]
    simp only [loop, Option.bind_eq_bind]
    cases h : loop f (g a) s with
    | none => rfl
    | some s' => simp only [Option.bind_some, ih]

theorem loop_congr {α σ : Type} {f g : α → σ → Option σ} (l : List α) (h : ∀ a ∈ l, ∀ s, f a s = g a s) (s : σ) :
    loop f l s = loop g l s := by
  induction l generalizing s with
  | nil => rfl
  | cons a l ih =>
    simp only [loop]
    rw [h a (by simp)]
    congr 1
    funext s'
    exact ih (fun b hb => h b (by simp [hb])) s'

/-- one call of `initFace` -/
abbrev Cmd := List Nat × Bool

def exec (size cap : Nat) (c : Cmd) (fs : List (List Nat)) : Option (List (List Nat)) := initFace size cap c.1 c.2 fs

def Cmd.face (c : Cmd) : List Nat := revPerhaps c.2 c.1

theorem exec_loop (size cap : Nat) (cs : List Cmd) (fs : List (List Nat))
    (hc : fs.length + cs.length ≤ cap) (h : ∀ c ∈ cs, 3 ≤ c.1.length ∧ ∀ i ∈ c.1, i < size) :
    loop (exec size cap) cs fs = some (fs ++ cs.map Cmd.face) := by
  induction cs generalizing fs with
  | nil => simp [loop]
  | cons c cs ih =>
    have h1 := h c (by simp)
    simp only [List.length_cons] at hc
    have e : exec size cap c fs = some (fs ++ [c.face]) := by
      unfold exec initFace
      have a1 : (c.1.all fun i => decide (i < size)) = true := by
        rw [List.all_eq_true]; intro i hi; simpa using h1.2 i hi
      simp only [a1, ass, show fs.length < cap by omega, h1.1, decide_true, if_true, Option.bind_eq_bind,
        Option.bind_some, Option.pure_def]
      rfl
    simp only [loop, e, Option.bind_eq_bind, Option.bind_some]
    rw [ih _ (by simp; omega) (fun c' hc' => h c' (by simp [hc']))]
    simp

/-- the calls made for one side -/
def sideCmds (fn : Nat) (rev : Bool) (tri : Tri) (i j : Nat) : List Cmd :=
  match tri with
  | .left => [([i * fn - fn + j, i * fn - fn + wrapAdd1 j fn, i * fn + j], !rev),
      ([i * fn + wrapAdd1 j fn, i * fn + j, i * fn - fn + wrapAdd1 j fn], !rev)]
  | .right => [([i * fn - fn + j, i * fn - fn + wrapAdd1 j fn, i * fn + wrapAdd1 j fn], !rev),
      ([i * fn + wrapAdd1 j fn, i * fn + j, i * fn - fn + j], !rev)]
  | .none => [([i * fn - fn + j, i * fn - fn + wrapAdd1 j fn, i * fn + wrapAdd1 j fn, i * fn + j], !rev)]

theorem sideStep_cmds (size cap fn : Nat) (rev : Bool) (tri : Tri) (i j : Nat) (fs) :
    sideStep size cap fn rev tri i j fs = loop (exec size cap) (sideCmds fn rev tri i j) fs := by
  cases tri <;> simp only [sideStep, sideCmds, loop, exec, Option.bind_eq_bind, Option.bind_some]
  · exact (bind_some' _).symm
  · congr 1; funext s; exact (bind_some' _).symm
  · congr 1; funext s; exact (bind_some' _).symm

/-- number of layers with `fn` points -/
def layers (fnz : Nat) (hasTop : Bool) : Nat := if hasTop then fnz else fnz - 1

/-- number of points of a tower -/
def towerSize (fn fnz : Nat) (hasTop : Bool) : Nat := fn * layers fnz hasTop + (!hasTop).toNat

/-- all calls -/
def towerCmds (size fn fnz : Nat) (hasTop rev : Bool) (tri : Tri) : List Cmd :=
  [(((List.range fn).map (· + 0)), rev)] ++
  (if hasTop then [((List.range fn).map (· + (size - fn)), !rev)] else []) ++
  ((sizeEach fnz 1 (!hasTop).toNat).flatMap fun i => (List.range fn).flatMap fun j => sideCmds fn rev tri i j) ++
  (if hasTop then [] else (List.range fn).map fun j => ([size - 1 - fn + j, size - 1 - fn + wrapAdd1 j fn, size - 1], !rev))

theorem sizeEach_zero (n : Nat) : sizeEach n 0 0 = List.range n := by simp [sizeEach]

theorem mem_sizeEach {n a z i : Nat} : i ∈ sizeEach n a z ↔ a ≤ i ∧ i < n - z := by
  unfold sizeEach
  rw [List.mem_iff_getElem]
  constructor
  · rintro ⟨k, hk, e⟩
    simp at hk e
    omega
  · rintro ⟨h1, h2⟩
    exact ⟨i - a, by simp; omega, by simp; omega⟩

theorem length_sizeEach (n a z : Nat) : (sizeEach n a z).length = n - z - a := by simp [sizeEach]

theorem sizeEach_succ (n : Nat) (z : Nat) : sizeEach n 1 z = (List.range (n - z - 1)).map (· + 1) := by
  unfold sizeEach
  apply List.ext_getElem
  · simp
  · intro i h1 h2
    simp
    omega

theorem wrapAdd1_lt {j n : Nat} (h : j < n) : wrapAdd1 j n < n := by
  unfold wrapAdd1; split_ifs <;> omega

theorem towerCmds_length (fn fnz : Nat) (hasTop rev : Bool) (tri : Tri) (hz : 2 ≤ fnz) (size : Nat) :
    (towerCmds size fn fnz hasTop rev tri).length = towerCap fn fnz hasTop tri := by
  obtain ⟨z, rfl⟩ : ∃ z, fnz = z + 2 := ⟨fnz - 2, by omega⟩
  unfold towerCmds towerCap
  simp only [List.length_append, List.length_flatMap]
  have h2 : ∀ i, ((List.range fn).map fun j => (sideCmds fn rev tri i j).length).sum = fn * (1 + (tri != .none).toNat) := by
    intro i
    have : (fun j => (sideCmds fn rev tri i j).length) = fun _ => (1 + (tri != .none).toNat) := by
      funext j
      cases tri <;> rfl
    rw [this]
    simp
  simp only [h2]
  cases hasTop
  · simp [length_sizeEach]
    ring
  · have : (tri != Tri.none && true) = (tri != Tri.none) := by simp
    rw [this]
    simp [length_sizeEach]
    ring

theorem towerCmds_ok (fn fnz : Nat) (hasTop rev : Bool) (tri : Tri) (hf : 3 ≤ fn) (hz : 2 ≤ fnz) :
    ∀ c ∈ towerCmds (towerSize fn fnz hasTop) fn fnz hasTop rev tri,
      3 ≤ c.1.length ∧ ∀ i ∈ c.1, i < towerSize fn fnz hasTop := by
  obtain ⟨z, rfl⟩ : ∃ z, fnz = z + 2 := ⟨fnz - 2, by omega⟩
  have hsz : fn ≤ towerSize fn (z + 2) hasTop := by
    unfold towerSize layers
    cases hasTop
    · simp; nlinarith
    · simp; nlinarith
  intro c hc
  unfold towerCmds at hc
  simp only [List.mem_append] at hc
  rcases hc with ((hc | hc) | hc) | hc
  · simp only [List.mem_singleton] at hc
    subst hc
    refine ⟨by simpa using hf, ?_⟩
    intro i hi
    simp at hi
    omega
  · split at hc
    · simp only [List.mem_singleton] at hc
      subst hc
      refine ⟨by simpa using hf, ?_⟩
      intro i hi
      simp at hi
      omega
    · simp at hc
  · simp only [List.mem_flatMap, mem_sizeEach, List.mem_range] at hc
    obtain ⟨i, ⟨hi1, hi2⟩, j, hj, hc⟩ := hc
    have hw := wrapAdd1_lt hj
    have hk : i * fn + fn ≤ towerSize fn (z + 2) hasTop := by
      unfold towerSize layers
      cases hasTop
      · simp at hi2 ⊢
        nlinarith
      · simp at hi2 ⊢
        nlinarith
    cases tri <;> simp only [sideCmds, List.mem_cons, List.not_mem_nil, or_false] at hc
    · subst hc
      refine ⟨by simp, ?_⟩
      intro x hx
      simp at hx
      omega
    all_goals
      rcases hc with rfl | rfl
      all_goals
        refine ⟨by simp, ?_⟩
        intro x hx
        simp at hx
        omega
  · split at hc
    · simp at hc
    · simp only [List.mem_map, List.mem_range] at hc
      obtain ⟨j, hj, rfl⟩ := hc
      have hw := wrapAdd1_lt hj
      refine ⟨by simp, ?_⟩
      have : fn + 1 ≤ towerSize fn (z + 2) hasTop := by
        unfold towerSize layers
        have h0 : hasTop = false := by simpa using ‹¬ hasTop = true›
        subst h0
        simp
        nlinarith
      intro x hx
      simp at hx
      omega

theorem towerSize_top (fn fnz : Nat) (hasTop : Bool) (hf : 3 ≤ fn) (hz : 2 ≤ fnz) :
    (towerSize fn fnz hasTop == fn * fnz) = hasTop := by
  obtain ⟨z, rfl⟩ : ∃ z, fnz = z + 1 := ⟨fnz - 1, by omega⟩
  unfold towerSize layers
  cases hasTop
  · simp
    intro h
    have : fn * (z + 1) = fn * z + fn := by ring
    omega
  · simp

/-- the run of the tower construction -/
theorem towerFaces_run (fn fnz : Nat) (hasTop neg rev : Bool) (tri : Tri) (hf : 3 ≤ fn) (hz : 2 ≤ fnz) :
    towerFaces (towerSize fn fnz hasTop) fn fnz neg rev tri =
      some ((towerCmds (towerSize fn fnz hasTop) fn fnz hasTop (rev ^^ neg) tri).map Cmd.face) := by
  have hr : (if neg = true then !rev else rev) = (rev ^^ neg) := by cases neg <;> cases rev <;> rfl
  have ht := towerSize_top fn fnz hasTop hf hz
  have hs : (hasTop || (towerSize fn fnz hasTop == 1 + fn * (fnz - 1))) = true := by
    cases hasTop
    · simp [towerSize, layers]; omega
    · rfl
  have hrun := exec_loop (towerSize fn fnz hasTop) (towerCap fn fnz hasTop tri)
    (towerCmds (towerSize fn fnz hasTop) fn fnz hasTop (rev ^^ neg) tri) []
    (by rw [towerCmds_length fn fnz hasTop _ tri hz]; simp) (towerCmds_ok fn fnz hasTop _ tri hf hz)
  have hlen := towerCmds_length fn fnz hasTop (rev ^^ neg) tri hz (towerSize fn fnz hasTop)
  unfold towerFaces
  simp only [hr, ht, hs, hf, decide_true, ass, if_true, Option.bind_eq_bind, Option.bind_some]
  generalize hS : towerSize fn fnz hasTop = S at *
  generalize hC : towerCap fn fnz hasTop tri = C at *
  generalize hR : (rev ^^ neg) = R at *
  -- the loops as one loop
  have key : (do
      let fs ← lid S C fn R false []
      let fs ← topLid S C fn R hasTop fs
      let fs ← loop (fun i fs => loop (sideStep S C fn R tri i) (sizeEach fn 0 0) fs) (sizeEach fnz 1 (!hasTop).toNat) fs
      roof S C fn R hasTop fs) =
      loop (exec S C) (towerCmds S fn fnz hasTop R tri) [] := by
    unfold towerCmds
    rw [loop_append, loop_append, loop_append]
    have e1 : lid S C fn R false [] = loop (exec S C) [(((List.range fn).map (· + 0)), R)] [] := by
      simp only [lid, loop, exec, hf, ass, decide_true, if_true, Option.bind_eq_bind, Option.bind_some, Bool.xor_false]
      exact (bind_some' _).symm
    have e2 : ∀ fs, topLid S C fn R hasTop fs =
        loop (exec S C) (if hasTop = true then [((List.range fn).map (· + (S - fn)), !R)] else []) fs := by
      intro fs
      unfold topLid
      cases hasTop
      · rfl
      · simp only [lid, loop, exec, hf, ass, decide_true, if_true, Option.bind_eq_bind, Option.bind_some, Bool.xor_true]
        exact (bind_some' _).symm
    have e3 : ∀ fs, loop (fun i fs => loop (sideStep S C fn R tri i) (sizeEach fn 0 0) fs) (sizeEach fnz 1 (!hasTop).toNat) fs =
        loop (exec S C) ((sizeEach fnz 1 (!hasTop).toNat).flatMap fun i => (List.range fn).flatMap fun j =>
          sideCmds fn R tri i j) fs := by
      intro fs
      rw [← loop_flatMap]
      apply loop_congr
      intro i _ s
      rw [sizeEach_zero, ← loop_flatMap]
      apply loop_congr
      intro j _ s
      exact sideStep_cmds S C fn R tri i j s
    have e4 : ∀ fs, roof S C fn R hasTop fs =
        loop (exec S C) (if hasTop = true then [] else (List.range fn).map fun j =>
          ([S - 1 - fn + j, S - 1 - fn + wrapAdd1 j fn, S - 1], !R)) fs := by
      intro fs
      unfold roof
      cases hasTop
      · simp only [Bool.false_eq_true, if_false]
        rw [sizeEach_zero, ← List.flatMap_pure_eq_map, ← loop_flatMap]
        apply loop_congr
        intro j _ s
        simp only [pure, loop, exec, roofStep, Option.bind_eq_bind]
        exact (bind_some' _).symm
      · rfl
    simp only [e1, e2, e3, e4, Option.bind_eq_bind, Option.bind_assoc]
  rw [hrun] at key
  simp only [List.nil_append, Option.bind_eq_bind] at key
  generalize h1 : lid S C fn R false [] = o1 at key ⊢
  cases o1 with
  | none => simp at key
  | some f1 =>
  simp only [Option.bind_some] at key ⊢
  generalize h2 : topLid S C fn R hasTop f1 = o2 at key ⊢
  cases o2 with
  | none => simp at key
  | some f2 =>
  simp only [Option.bind_some] at key ⊢
  generalize h3 : loop (fun i fs => loop (sideStep S C fn R tri i) (sizeEach fn 0 0) fs) (sizeEach fnz 1 (!hasTop).toNat) f2 = o3 at key ⊢
  cases o3 with
  | none => simp at key
  | some f3 =>
  simp only [Option.bind_some] at key ⊢
  rw [key]
  simp [hlen]

end Hob3l.Solid
