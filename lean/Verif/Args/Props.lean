import Verif.Args.LemmasProps

/-!
# Theorems about the arguments of functors and the tree of objects (C78 to C85)
-/
namespace Hob3l.Args

open Hob3l.Syn (Text txt Value Arg Item Stmt)

variable {F : Type} [Flt F]

/-- a positional argument, for examples -/
def pos (v : Value) : Arg := ⟨none, v⟩
/-- a named argument, for examples -/
def named (n : String) (v : Value) : Arg := ⟨some (txt n), v⟩
/-- a vector of integers, for examples -/
def ints (l : List Int) : Value := .arr (l.map .int)
/-- arithmetic for examples: all fractions are cut -/
instance intFlt : Flt Int := ⟨fun _ => 0, id, 3, (· / 2), fun x => x == 0 || x == 1, fun x => (x * 255).toNat, (· == ·)⟩

/-! ## C78: which value a parameter gets -/

/-- C78: the arguments are accepted if and only if they are proper, every mandatory parameter is given, and every value given can be
converted. -/
theorem C78_accepted (strict : Bool) (f : Fn) (args : List Arg) :
    (∃ s : List (Slot F), getArg strict (posParams f) (nameParams f) args = .ok ⟨s, false⟩) ↔
      ProperFor F f args ∧
      (∀ p ∈ (params f : List (Param F)), p.mandatory = true → valuesFor F f p.name args ≠ []) ∧
      ∀ p ∈ (params f : List (Param F)), ∀ v ∈ valuesFor F f p.name args, Accepts F p.kind v := by
  rw [← stored_iff]
  constructor
  · rintro ⟨s, h⟩
    rw [getArg_fn] at h
    exact ⟨h.1, h.2.2, s, h.2.1⟩
  · rintro ⟨h1, h2, s, h3⟩
    exact ⟨s, (getArg_fn strict f args s).mpr ⟨h1, h3, h2⟩⟩

/-- C78: a parameter that is not given has its default, and otherwise the last value that is given for it. -/
theorem C78_value (strict : Bool) (f : Fn) (args : List Arg) (s : List (Slot F))
    (h : getArg strict (posParams f) (nameParams f) args = .ok ⟨s, false⟩) (k : Nat) (p : Param F)
    (hp : (params f : List (Param F))[k]? = some p) :
    ∃ o, s[k]? = some o ∧ (o.have_ = true ↔ valuesFor F f p.name args ≠ []) ∧
      (valuesFor F f p.name args = [] → o.val = p.init) ∧
      (p.kind ≠ .vec23 ∧ p.kind ≠ .vec23Float → ∀ v, (valuesFor F f p.name args).getLast? = some v →
        ∃ x, get p.kind none v = .ok x ∧ o.val = some x) := by
  obtain ⟨o, h1, h2, h3⟩ := ((getArg_fn strict f args s).mp h).2.1.2 k p hp
  refine ⟨o, h1, ?_, ?_, ?_⟩
  · rw [h3]; simp
  · intro e
    unfold valuesFor at e
    rw [e] at h2
    simp only [convAll, Out.ok.injEq] at h2
    exact h2.symm
  · intro hk v hv
    obtain ⟨l, e⟩ := List.getLast?_eq_some_iff.mp hv
    unfold valuesFor at e
    rw [e] at h2
    exact convAll_last p.kind hk l v _ _ h2

/-- C78: the vectors of translate, mirror and scale that are given once: with three numbers, these; with two numbers, the third is 0
(1 for scale). -/
theorem C78_vector (strict : Bool) (colors : Colors) (v : List Value) (l : List F) (f : Fn) (z : Int)
    (mk : List F → Obj F) (hf : f = .translate ∧ z = 0 ∧ mk = .translate ∨ f = .mirror ∧ z = 0 ∧ mk = .mirror ∨
      f = .scale ∧ z = 1 ∧ mk = .scale) (hv : List.Forall₂ (fun x y => tryFloat x = some y) v l) (key : Option Text)
    (hk : key = none ∨ key = some (txt "v")) :
    (v.length = 3 → fromArgs strict colors f [⟨key, .arr v⟩] = .ok (mk l)) ∧
    (v.length = 2 → fromArgs strict colors f [⟨key, .arr v⟩] = .ok (mk (l ++ [con z]))) := by
  have ta : ∀ l, tryFloat (F := F) (.arr l) = none := fun _ => rfl
  constructor
  · intro h3
    match v, l, h3, hv with
    | [a, b, c], [x, y, w], _, .cons h1 (.cons h2 (.cons h4 .nil)) =>
      rcases hf with ⟨rfl, rfl, rfl⟩ | ⟨rfl, rfl, rfl⟩ | ⟨rfl, rfl, rfl⟩ <;> rcases hk with rfl | rfl <;>
      simp [fromArgs, reads, getArg, getLoop, target, posParams, nameParams, man, start, store, get, getVec23, getVec23Float,
        getVec3Float, getVec3, getVec, h1, h2, h4, Out.orFail, Out.orCrash, Bind.bind, Out.bind, missing, build, Got.vec,
        Got.val, ta]
  · intro h3
    match v, l, h3, hv with
    | [a, b], [x, y], _, .cons h1 (.cons h2 .nil) =>
      rcases hf with ⟨rfl, rfl, rfl⟩ | ⟨rfl, rfl, rfl⟩ | ⟨rfl, rfl, rfl⟩ <;> rcases hk with rfl | rfl <;>
      simp [fromArgs, reads, getArg, getLoop, target, posParams, nameParams, man, start, store, get, getVec23, getVec23Float,
        getXY, zOf, getVec, h1, h2, Out.orFail, Out.orCrash, Bind.bind, Out.bind, missing, build, Got.vec, Got.val]

/-- C78: the order of named arguments is irrelevant if no name is given twice. -/
theorem C78_order (strict : Bool) (colors : Colors) (f : Fn) (u l l' : List Arg) (hp : l.Perm l') (hn : ∀ a ∈ l, a.key ≠ none)
    (hd : (l.map (·.key)).Nodup) (hk : ProperFor F f (u ++ l)) (o : Obj F) :
    fromArgs strict colors f (u ++ l) = .ok o → fromArgs strict colors f (u ++ l') = .ok o := by
  unfold fromArgs
  split
  · simp only [Out.bind_ok]
    rintro ⟨⟨s, e⟩, h1, h2⟩
    have he := getArg_fn_early strict f _ _ hk h1
    simp only at he
    subst he
    rw [getArg_fn] at h1
    refine ⟨⟨s, false⟩, (getArg_fn strict f _ _).mpr ⟨proper_perm hp hn hk, ?_, ?_⟩, h2⟩
    · refine ⟨h1.2.1.1, ?_⟩
      intro k p hkp
      rw [← values_perm _ p.name u l l' hp hn hd]
      exact h1.2.1.2 k p hkp
    · intro p hpm hm
      rw [valuesFor, ← values_perm _ p.name u l l' hp hn hd]
      exact h1.2.2 p hpm hm
  · exact id

/-- cylinder(h=5, 2) is rejected, cylinder(5, r2=2) is proper, and its parameters are found -/
example : fromArgs (F := Int) true (fun _ => none) .cylinder [pos (.int 5), named "r2" (.int 2), named "r2" (.int 3)] =
    .ok (.cylinder 5 1 3 false ⟨0, 2, 12⟩) := rfl
example : fromArgs (F := Int) true (fun _ => none) .cylinder [named "h" (.int 5), pos (.int 2)] = .fail := rfl
example : fromArgs (F := Int) true (fun _ => none) .translate [pos (ints [1, 2, 3]), named "v" (ints [4, 5])] =
    .ok (.translate [4, 5, 3]) := rfl
example : ProperFor Int .cylinder [pos (.int 5), named "r2" (.int 2), named "center" (.id (txt "true"))] := by
  refine ⟨?_, by simp [pos, named, namesOf, params, posParams, nameParams, opt, detailParams]⟩
  intro i a ha hk
  match i, ha with
  | 0, _ => simp [namesOf, posParams]
  | 1, ha => simp [named] at ha; subst ha; simp at hk
  | 2, ha => simp [named] at ha; subst ha; simp at hk

/-! ## C79: unknown parameters -/

/-- C79: with the option that unknown parameters are an error, they are. -/
theorem C79_strict_partial (f : Fn) (colors : Colors) (l rest : List Arg) (a : Arg) (n : Text) (hk : a.key = some n)
    (hn : n ∉ namesOf (params f : List (Param F))) (hf : reads f = true) (s : List (Slot F))
    (h : getLoop true (posParams f) (nameParams f) false 0 l (start (params f)) = .ok ⟨s, false⟩) :
    fromArgs (F := F) true colors f (l ++ a :: rest) = .fail := by
  unfold fromArgs getArg
  rw [if_pos hf]
  have := getLoop_unknown (posParams f) (nameParams f : List (Param F)) l rest a n hk hn true false 0 _ s h
  unfold params at this
  rw [this]
  rfl

/-- C79: otherwise, all arguments after the unknown one are ignored, whatever they are, and mandatory parameters are not checked. -/
theorem C79_ignored_partial (f : Fn) (colors : Colors) (l rest rest' : List Arg) (a : Arg) (n : Text) (hk : a.key = some n)
    (hn : n ∉ namesOf (params f : List (Param F))) (s : List (Slot F))
    (h : getLoop false (posParams f) (nameParams f) false 0 l (start (params f)) = .ok ⟨s, false⟩) :
    fromArgs (F := F) false colors f (l ++ a :: rest) = fromArgs false colors f (l ++ a :: rest') ∧
    getArg false (posParams f) (nameParams f) (l ++ a :: rest) = .ok ⟨s, true⟩ := by
  have h1 := getLoop_unknown (posParams f) (nameParams f : List (Param F)) l rest a n hk hn false false 0 _ s h
  have h2 := getLoop_unknown (posParams f) (nameParams f : List (Param F)) l rest' a n hk hn false false 0 _ s h
  unfold params at h1 h2
  have e1 : getArg false (posParams f) (nameParams f) (l ++ a :: rest) = .ok ⟨s, true⟩ := by
    unfold getArg; rw [h1]; rfl
  have e2 : getArg false (posParams f) (nameParams f) (l ++ a :: rest') = .ok ⟨s, true⟩ := by
    unfold getArg; rw [h2]; rfl
  refine ⟨?_, e1⟩
  unfold fromArgs
  rw [e1, e2]

/-- C79: false: `cube(foo=1, size=5)` is accepted with a warning (the default) and gives a cube of size 1, while `cube(size=5)`
gives one of size 5; `sphere(d=6, foo=1)` has radius 1, `sphere(d=6)` has radius 3; a missing mandatory parameter is not
noticed. -/
theorem C79_wrong (colors : Colors) :
    fromArgs false colors .cube [named "foo" (.int 1), named "size" (.int 5)] = .ok (.cube [(1 : Int), 1, 1] false) ∧
    fromArgs false colors .cube [named "size" (.int 5)] = .ok (.cube [(5 : Int), 5, 5] false) ∧
    fromArgs false colors .sphere [named "d" (.int 6), named "foo" (.int 1)] = .ok (.sphere (1 : Int) ⟨0, 2, 12⟩) ∧
    fromArgs false colors .sphere [named "d" (.int 6)] = .ok (.sphere (3 : Int) ⟨0, 2, 12⟩) ∧
    fromArgs false colors .translate [named "foo" (.int 1)] = .ok (.translate [(0 : Int), 0, 0]) ∧
    fromArgs (F := Int) false colors .translate [] = .fail :=
  ⟨rfl, rfl, rfl, rfl, rfl, rfl⟩

example : fromArgs (F := Int) true (fun _ => none) .cube [named "foo" (.int 1), named "size" (.int 5)] = .fail :=
  C79_strict_partial .cube _ [] _ _ _ rfl (by decide) rfl _ rfl
example : fromArgs (F := Int) false (fun _ => none) .cube ([named "center" (.id (txt "true"))] ++ named "foo" (.int 1) :: [named "size" (.int 5)])
    = fromArgs (F := Int) false (fun _ => none) .cube ([named "center" (.id (txt "true"))] ++ named "foo" (.int 1) :: []) :=
  (C79_ignored_partial .cube _ _ _ _ _ _ rfl (by decide) _ rfl).1

/-! ## C80: radius and diameter -/

/-- C80: cylinder: the radius at the bottom is given by at most one of `r`, `r1`, `d`, `d1`, that at the top by at most one of
`r`, `r2`, `d`, `d2`; a missing one is 1; anything else is rejected. -/
theorem C80_cylinder (strict : Bool) (colors : Colors) (args : List Arg) (h r1 r2 : F) (c : Bool) (d : Detail F)
    (hp : ProperFor F .cylinder args) :
    fromArgs strict colors .cylinder args = .ok (.cylinder h r1 r2 c d) →
      OneOf [numFor .cylinder "r" args, numFor .cylinder "r1" args, (numFor .cylinder "d" args).map Flt.half,
        (numFor .cylinder "d1" args).map Flt.half] (con 1) r1 ∧
      OneOf [numFor .cylinder "r" args, numFor .cylinder "r2" args, (numFor .cylinder "d" args).map Flt.half,
        (numFor .cylinder "d2" args).map Flt.half] (con 1) r2 ∧
      h = (numFor .cylinder "h" args).getD (con 1) := by
  intro e
  simp only [fromArgs, reads, if_true, Out.bind_ok, build] at e
  obtain ⟨⟨s, b⟩, h1, ⟨a1, a2⟩, h2, x, h3, y, h4, z, h5, h6⟩ := e
  have he := getArg_fn_early strict .cylinder _ _ hp h1
  simp only at he
  subst he
  have hs := ((getArg_fn strict .cylinder args s).mp h1).2.1
  simp only [Out.ok.injEq, Obj.cylinder.injEq] at h6
  obtain ⟨rfl, rfl, rfl, rfl, rfl⟩ := h6
  have := (radii_eq hs a1 a2).mp h2
  refine ⟨this.1, this.2, ?_⟩
  have n0 := num_default hs (k := 0) (p := opt "h" .float (.num (con 1))) rfl rfl _ rfl
  rw [n0] at h3
  simp only [Out.ok.injEq] at h3
  exact h3.symm

/-- C80: conversely, a cylinder is accepted if all values have the right type and the sources of the radii are unique. -/
theorem C80_cylinder_accepted (strict : Bool) (colors : Colors) (args : List Arg) (r1 r2 : F)
    (hp : ProperFor F .cylinder args)
    (hv : ∀ p ∈ (params .cylinder : List (Param F)), ∀ v ∈ valuesFor F .cylinder p.name args, Accepts F p.kind v)
    (h1 : OneOf [numFor .cylinder "r" args, numFor .cylinder "r1" args, (numFor .cylinder "d" args).map Flt.half,
        (numFor .cylinder "d1" args).map Flt.half] (con 1) r1)
    (h2 : OneOf [numFor .cylinder "r" args, numFor .cylinder "r2" args, (numFor .cylinder "d" args).map Flt.half,
        (numFor .cylinder "d2" args).map Flt.half] (con 1) r2) :
    ∃ h c d, fromArgs strict colors .cylinder args = .ok (.cylinder h r1 r2 c d) := by
  obtain ⟨s, hs⟩ := (C78_accepted strict .cylinder args).mpr
    ⟨hp, by simp [params, posParams, nameParams, opt, optU, detailParams], hv⟩
  have hst := ((getArg_fn strict .cylinder args s).mp hs).2.1
  have hr := (radii_eq hst r1 r2).mpr ⟨h1, h2⟩
  obtain ⟨a, ha⟩ := num_ok hst 0 (n := "h") rfl
  obtain ⟨b, hb⟩ := bool_ok hst 3 (n := "center") rfl
  obtain ⟨x, hx⟩ := detail_ok hst 8 rfl rfl rfl
  refine ⟨a, b, x, ?_⟩
  simp only [fromArgs, reads, if_true, hs, build, Bind.bind, Out.bind, hr, ha, hb, hx]

/-- C80: sphere and circle: at most one of `r` and `d`. -/
theorem C80_sphere (strict : Bool) (colors : Colors) (args : List Arg) (r : F) (d : Detail F)
    (hp : ProperFor F .sphere args) (h : fromArgs strict colors .sphere args = .ok (.sphere r d)) :
    OneOf [numFor .sphere "r" args, (numFor .sphere "d" args).map Flt.half] (con 1) r := by
  simp only [fromArgs, reads, if_true, Out.bind_ok, build] at h
  obtain ⟨⟨s, b⟩, h1, a, h2, x, h3, h6⟩ := h
  have he := getArg_fn_early strict .sphere _ _ hp h1
  simp only at he
  subst he
  simp only [Out.ok.injEq, Obj.sphere.injEq] at h6
  obtain ⟨rfl, rfl⟩ := h6
  exact (radius_eq .sphere (.inl rfl) ((getArg_fn strict .sphere args s).mp h1).2.1 a).mp h2

/-- C80: circle. -/
theorem C80_circle (strict : Bool) (colors : Colors) (args : List Arg) (r : F) (d : Detail F)
    (hp : ProperFor F .circle args) (h : fromArgs strict colors .circle args = .ok (.circle r d)) :
    OneOf [numFor .circle "r" args, (numFor .circle "d" args).map Flt.half] (con 1) r := by
  simp only [fromArgs, reads, if_true, Out.bind_ok, build] at h
  obtain ⟨⟨s, b⟩, h1, a, h2, x, h3, h6⟩ := h
  have he := getArg_fn_early strict .circle _ _ hp h1
  simp only at he
  subst he
  simp only [Out.ok.injEq, Obj.circle.injEq] at h6
  obtain ⟨rfl, rfl⟩ := h6
  exact (radius_eq .circle (.inr rfl) ((getArg_fn strict .circle args s).mp h1).2.1 a).mp h2

/-- C80: sphere and circle are accepted whenever all values have the right type and not both `r` and `d` are given. -/
theorem C80_round_accepted (strict : Bool) (colors : Colors) (f : Fn) (mk : F → Detail F → Obj F) (args : List Arg) (r : F)
    (hf : f = .sphere ∧ mk = .sphere ∨ f = .circle ∧ mk = .circle) (hp : ProperFor F f args)
    (hv : ∀ p ∈ (params f : List (Param F)), ∀ v ∈ valuesFor F f p.name args, Accepts F p.kind v)
    (h : OneOf [numFor f "r" args, (numFor f "d" args).map Flt.half] (con 1) r) :
    ∃ d, fromArgs strict colors f args = .ok (mk r d) := by
  obtain ⟨s, hs⟩ := (C78_accepted strict f args).mpr
    ⟨hp, by rcases hf with ⟨rfl, -⟩ | ⟨rfl, -⟩ <;> simp [params, posParams, nameParams, opt, optU, detailParams], hv⟩
  have hst := ((getArg_fn strict f args s).mp hs).2.1
  rcases hf with ⟨rfl, rfl⟩ | ⟨rfl, rfl⟩
  · have hr := (radius_eq .sphere (.inl rfl) hst r).mpr h
    obtain ⟨x, hx⟩ := detail_ok hst 2 rfl rfl rfl
    exact ⟨x, by simp only [fromArgs, reads, if_true, hs, build, Bind.bind, Out.bind, hr, hx]⟩
  · have hr := (radius_eq .circle (.inr rfl) hst r).mpr h
    obtain ⟨x, hx⟩ := detail_ok hst 2 rfl rfl rfl
    exact ⟨x, by simp only [fromArgs, reads, if_true, hs, build, Bind.bind, Out.bind, hr, hx]⟩

example : fromArgs (F := Int) false (fun _ => none) .cylinder [named "d1" (.int 6), named "r2" (.int 2)] =
    .ok (.cylinder 1 3 2 false ⟨0, 2, 12⟩) := rfl
example : fromArgs (F := Int) false (fun _ => none) .cylinder [named "d1" (.int 6), named "r" (.int 2)] = .fail := rfl
example : OneOf [none, some (2 : Int), none] 1 2 ∧ OneOf [none, (none : Option Int)] 1 1 ∧ ¬ OneOf [some (1 : Int), some 1] 1 1 := by
  refine ⟨.inl rfl, .inr ⟨rfl, rfl⟩, ?_⟩
  rintro (h | ⟨h, -⟩) <;> simp at h

/-! ## C81: points and faces -/

/-- C81: polyhedron: if it is accepted, then points and faces are exactly those given, faces are given by one of `faces` and
`triangles`, each face has at least three corners, and each corner is one of the points.  Conversely, this is accepted. -/
theorem C81_polyhedron (strict : Bool) (colors : Colors) (args : List Arg) (pts : List (List F)) (faces : List (List Nat))
    (s : List (Slot F)) (h : getArg strict (posParams .polyhedron) (nameParams .polyhedron) args = .ok ⟨s, false⟩) :
    fromArgs strict colors .polyhedron args = .ok (.polyhedron pts faces) ↔
      (∃ v, lastFor F .polyhedron "points" args = some v ∧ Points 3 v pts) ∧
      (∃ v, (lastFor F .polyhedron "faces" args = some v ∧ lastFor F .polyhedron "triangles" args = none ∨
          lastFor F .polyhedron "faces" args = none ∧ lastFor F .polyhedron "triangles" args = some v) ∧ Faces v faces) ∧
      FacesOk pts.length faces := by
  have hst := ((getArg_fn strict .polyhedron args s).mp h).2.1
  have hm := ((getArg_fn strict .polyhedron args s).mp h).2.2
  have e0 := raw_eq hst (k := 0) (p := man "points" .raw none) rfl rfl rfl
  have e1 := raw_eq hst (k := 1) (p := optU "faces" .raw (some false)) rfl rfl rfl
  have e2 := raw_eq hst (k := 2) (p := optU "triangles" .raw (some false)) rfl rfl rfl
  obtain ⟨v, hv⟩ := raw_ok hst 0 (n := "points") rfl (hm (man "points" .raw none) (by simp [params, posParams]) rfl)
  rw [e0] at hv
  simp only [fromArgs, reads, if_true, h, Bind.bind, Out.bind, build]
  simp only [polyhedron, Out.bind_ok, Out.orFail_ok, Out.ok.injEq, e0, e1, e2, Obj.polyhedron.injEq]
  simp only [man, optU] at hv ⊢
  simp only [lastFor, hv, points_iff, faces_iff]
  generalize (values (namesOf (posParams .polyhedron : List (Param F))) (txt "faces") 0 args).getLast? = o1
  generalize (values (namesOf (posParams .polyhedron : List (Param F))) (txt "triangles") 0 args).getLast? = o2
  constructor
  · rintro ⟨fv, h1, p, h2, fs, ⟨h3, h4⟩, rfl, rfl⟩
    refine ⟨⟨v, rfl, h2⟩, ⟨fv, ?_, h3⟩, h4⟩
    cases o1 <;> cases o2 <;> simp [pickFaces] at h1 ⊢ <;> exact h1
  · rintro ⟨⟨w, e, h1⟩, ⟨fv, h2, h3⟩, h4⟩
    simp only [Option.some.injEq] at e
    subst e
    refine ⟨fv, ?_, pts, h1, faces, ⟨h3, h4⟩, rfl, rfl⟩
    rcases h2 with ⟨rfl, rfl⟩ | ⟨rfl, rfl⟩ <;> rfl

/-- C81: polygon: likewise; without `paths` (or if it is `undef`), all points in order are the only path. -/
theorem C81_polygon (strict : Bool) (colors : Colors) (args : List Arg) (pts : List (List F)) (paths : List (List Nat))
    (s : List (Slot F)) (h : getArg strict (posParams .polygon) (nameParams .polygon) args = .ok ⟨s, false⟩) :
    fromArgs strict colors .polygon args = .ok (.polygon pts paths) ↔
      (∃ v, lastFor F .polygon "points" args = some v ∧ Points 2 v pts) ∧
      (match lastFor F .polygon "paths" args with
        | none => paths = [List.range pts.length]
        | some v => if evaluate v = some .undef then paths = [List.range pts.length]
          else Faces v paths ∧ FacesOk pts.length paths) := by
  have hst := ((getArg_fn strict .polygon args s).mp h).2.1
  have hm := ((getArg_fn strict .polygon args s).mp h).2.2
  have e0 := raw_eq hst (k := 0) (p := man "points" .raw none) rfl rfl rfl
  have e1 := raw_eq hst (k := 1) (p := optU "paths" .raw (some false)) rfl rfl rfl
  obtain ⟨v, hv⟩ := raw_ok hst 0 (n := "points") rfl (hm (man "points" .raw none) (by simp [params, posParams]) rfl)
  rw [e0] at hv
  simp only [fromArgs, reads, if_true, h, Bind.bind, Out.bind, build]
  simp only [polygon, Out.bind_ok, Out.ok.injEq, e0, e1, Obj.polygon.injEq]
  simp only [man, optU] at hv ⊢
  simp only [lastFor, hv, points_iff]
  generalize (values (namesOf (posParams .polygon : List (Param F))) (txt "paths") 0 args).getLast? = o1
  have key : ∀ n, getPaths n o1 = .ok paths ↔ (match o1 with
        | none => paths = [List.range n]
        | some v => if evaluate v = some .undef then paths = [List.range n] else Faces v paths ∧ FacesOk n paths) := by
    intro n
    cases o1 with
    | none => simp only [getPaths, Out.ok.injEq]; exact eq_comm
    | some w =>
      simp only [getPaths]
      split
      · simp only [Out.ok.injEq]; exact eq_comm
      · rw [Out.orFail_ok, faces_iff]
  constructor
  · rintro ⟨p, h1, q, h2, rfl, rfl⟩
    exact ⟨⟨v, rfl, h1⟩, (key _).mp h2⟩
  · rintro ⟨⟨w, e, h1⟩, h2⟩
    simp only [Option.some.injEq] at e
    subst e
    exact ⟨pts, h1, paths, (key _).mpr h2, rfl, rfl⟩

example : fromArgs (F := Int) true (fun _ => none) .polyhedron
    [pos (.arr [ints [0, 0, 0], ints [1, 0, 0], ints [0, 1, 0], ints [0, 0, 1]]),
      named "faces" (.arr [ints [0, 1, 2], ints [0, 3, 1], ints [0, 2, 3], ints [1, 3, 2]])] =
    .ok (.polyhedron [[0, 0, 0], [1, 0, 0], [0, 1, 0], [0, 0, 1]] [[0, 1, 2], [0, 3, 1], [0, 2, 3], [1, 3, 2]]) := rfl
example : fromArgs (F := Int) true (fun _ => none) .polygon
    [pos (.arr [ints [0, 0], ints [1, 0], ints [0, 1]]), pos (.arr [ints [0, 1, 3]])] = .fail := rfl
example : fromArgs (F := Int) true (fun _ => none) .polygon
    [pos (.arr [ints [0, 0], ints [1, 0], ints [0, 1]]), pos (.id (txt "undef"))] =
    .ok (.polygon [[0, 0], [1, 0], [0, 1]] [[0, 1, 2]]) := rfl

/-! ## C82: wrong arguments lead to an error message -/

/-- C82: for all functors but multmatrix, no arguments lead to a failed assertion or an access via a NULL pointer, provided that
unknown parameters are errors or there are none. -/
theorem C82_no_crash_partial (strict : Bool) (colors : Colors) (f : Fn) (args : List Arg) (hf : f ≠ .multmatrix)
    (h : strict = true ∨ ProperFor F f args) : fromArgs (F := F) strict colors f args ≠ .crash :=
  fromArgs_ne_crash strict colors f args hf h

/-- C82: the same for a whole program. -/
theorem C82_program_partial (o : Opts) (hs : o.param = true) (p : List Stmt) (hu : ∀ f, Stmt.use f ∉ p)
    (hm : Fn.multmatrix ∉ fnsOf (shapeStmts p)) : fromTree (F := F) o p ≠ .crash :=
  fromTree_ne_crash o hs p hu hm

/-- C82: false in general: `multmatrix(5)`, `polygon(foo=1)`, `rotate(foo=1)`, `rotate([1,2,3], foo=1)`, `import(foo=1)`, and
`use <x>` do not lead to an error message. -/
theorem C82_wrong (strict : Bool) (colors : Colors) :
    fromArgs (F := F) strict colors .multmatrix [pos (.int 5)] = .crash ∧
    fromArgs (F := F) false colors .polygon [named "foo" (.int 1)] = .crash ∧
    fromArgs (F := F) false colors .rotate [named "foo" (.int 1)] = .crash ∧
    fromArgs (F := F) false colors .rotate [pos (ints [1, 2, 3]), named "foo" (.int 1)] = .crash ∧
    fromArgs (F := F) false colors .import_ [named "foo" (.int 1)] = .crash ∧
    fromTree (F := F) ⟨strict, strict, colors⟩ [.use (txt "x")] = .crash :=
  ⟨rfl, rfl, rfl, rfl, rfl, rfl⟩

example : fromArgs (F := Int) true (fun _ => none) .polygon [named "foo" (.int 1)] = .fail := rfl
example : Fn.multmatrix ∉ fnsOf (shapeStmts [.item (.mk (txt "translate") [pos (.int 5)] [.mk (txt "cube") [] [] 0] 0)]) := by
  rw [show shapeStmts [.item (.mk (txt "translate") [pos (.int 5)] [.mk (txt "cube") [] [] 0] 0)] =
    [.mk .translate 0 [.mk .cube 0 []]] from rfl]
  simp [fnsOf, Shape.fns]

/-! ## C83: root modifier -/

/-- C83: if the program is accepted, then at most one object has the modifier `!`, and the root is that object, if there is one.
Objects have different numbers. -/
theorem C83_root (o : Opts) (p : List Stmt) (l : List (Tree F)) (r : Option Nat) (h : fromTree o p = .ok (l, r)) :
    ((allOf l).filter fun x => isRoot x.2).map (·.1) = r.toList ∧ ((allOf l).map (·.1)).Nodup ∧
      ((modsOf (shapeStmts p)).filter isRoot).length ≤ 1 := by
  obtain ⟨n, hc⟩ := fromTree_conv o p l r h
  have h1 := hc.root
  simp only [Option.toList_none, List.nil_append] at h1
  refine ⟨h1, ?_, ?_⟩
  · rw [hc.ids]; exact List.nodup_range'
  · have := hc.count
    simp only [Option.toList_none, List.length_nil, Nat.zero_add] at this
    rw [this]
    cases r <;> simp

/-- C83: conversely, a program is accepted if the arguments of all objects are and at most one object has this modifier. -/
theorem C83_accepted (o : Opts) (p : List Item) (hg : goodItems F o p)
    (hr : ((modsOf (shapeItems p)).filter isRoot).length ≤ 1) :
    ∃ (l : List (Tree F)) (r : Option Nat), fromTree o (p.map .item) = .ok (l, r) := by
  obtain ⟨l, s, h⟩ := fromItems_exists o p ⟨0, none⟩ hg (by simpa using hr)
  have hi : itemsOf (p.map .item) = p := by
    clear h hg hr
    induction p with
    | nil => rfl
    | cons a p ih => simp [itemsOf, ih]
  refine ⟨l, s.root, ?_⟩
  unfold fromTree
  rw [fromStmts_items o _ _ (by simp), hi, h]
  rfl

/-- an item without body, for examples -/
def leaf (n : String) (m : Nat) : Item := .mk (txt n) [] [] m

example : fromTree (F := Int) ⟨true, true, fun _ => none⟩ [.item (leaf "cube" 0), .item (leaf "sphere" 4)] =
    .ok ([.mk 0 (.cube [1, 1, 1] false) 0 [], .mk 1 (.sphere 1 ⟨0, 2, 12⟩) 4 []], some 1) := rfl
example : fromTree (F := Int) ⟨true, true, fun _ => none⟩ [.item (leaf "cube" 4), .item (leaf "sphere" 4)] = .fail := rfl
example : goodItems Int ⟨true, true, fun _ => none⟩ [.mk (txt "union") [] [leaf "cube" 0] 4] := by
  simp only [goodItems, goodItem, leaf]
  exact ⟨⟨⟨_, rfl⟩, fun _ => ⟨⟨⟨_, rfl⟩, fun h => absurd h (by decide)⟩, trivial⟩⟩, trivial⟩

/-! ## C84: escape sequences -/

/-- C84: a text is accepted if and only if it consists of characters and the five escape sequences, and the result is what these
mean. -/
theorem C84_unquote (s t : Text) : unquote s = some t ↔ Esc s t :=
  ⟨unquote_sound s t, unquote_complete s t⟩

/-- C84: every text can be written. -/
theorem C84_every_text (s : Text) : unquote (quote s) = some s := unquote_quote s

example : unquote (txt "a\\\"b\\n") = some (txt "a\"b\n") := by decide
example : unquote (txt "a\\") = none ∧ unquote (txt "a\\x") = none := by decide

/-! ## C85: the tree of objects has the shape of the program -/

/-- C85: nothing is lost, added, or moved: the objects are those of the program, in order, with their modifiers and children,
except for functors that are not known. -/
theorem C85_shape (o : Opts) (p : List Stmt) (l : List (Tree F)) (r : Option Nat) (h : fromTree o p = .ok (l, r)) :
    shapes l = shapeStmts p := by
  obtain ⟨n, hc⟩ := fromTree_conv o p l r h
  exact hc.shape

/-- C85: if unknown functors are errors, none is left out: the functor of each item is known. -/
theorem C85_unknown_functor (o : Opts) (ho : o.functor = true) (n : Text) (args : List Arg) (body : List Item) (m : Nat)
    (hn : cmdFind n = none) (s : St) : fromItem (F := F) o (.mk n args body m) s = .fail := by
  rw [fromItem, hn]
  simp [ho]

example : shapeStmts [.item (.mk (txt "difference") [] [leaf "cube" 0, leaf "foo" 0, leaf "sphere" 2] 1)] =
    [.mk .difference 1 [.mk .cube 0 [], .mk .sphere 2 []]] := rfl
example : ∃ l r, fromTree (F := Int) ⟨false, true, fun _ => none⟩
    [.item (.mk (txt "difference") [] [leaf "cube" 0, leaf "foo" 0, leaf "sphere" 2] 1)] = .ok (l, r) := ⟨_, _, rfl⟩

end Hob3l.Args
