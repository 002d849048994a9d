import Verif.Stl.Spec
import Mathlib.Data.List.GetD

namespace Hob3l.Stl

theorem bind_ok {α β : Type} (a : α) (f : α → Except Fail β) : (Except.ok a >>= f) = f a := rfl
theorem bind_err {α β : Type} (e : Fail) (f : α → Except Fail β) : (Except.error e >>= f) = .error e := rfl

/-- reading at an offset -/
def atOff (file : List Nat) (o : Nat) : Bin := ⟨file.drop o ++ [0], file.length - o⟩

theorem skip_at (file : List Nat) (o n : Nat) (h : o ≤ file.length) :
    binSkip (atOff file o) n = if o + n ≤ file.length then .ok (atOff file (o + n)) else .error .reject := by
  unfold binSkip atOff
  by_cases c : o + n ≤ file.length
  · rw [if_neg (by simp only; omega), if_pos c]
    simp only [Except.ok.injEq, Bin.mk.injEq]
    constructor
    · rw [List.drop_append_of_le_length (by simp; omega), List.drop_drop]
    · omega
  · rw [if_pos (by simp only; omega), if_neg c]

theorem u8_at (file : List Nat) (o : Nat) (h : o ≤ file.length) :
    binU8 (atOff file o) = if o + 1 ≤ file.length then .ok (file.getD o 0, atOff file (o + 1)) else .error .reject := by
  unfold binU8
  have hs := skip_at file o 1 h
  by_cases c : o + 1 ≤ file.length
  · have e : (atOff file o).data = file[o] :: (file.drop (o + 1) ++ [0]) := by
      unfold atOff
      simp only
      rw [List.drop_eq_getElem_cons (by omega)]
      rfl
    rw [if_pos c] at hs ⊢
    rw [e]
    simp only [hs, bind_ok]
    rw [List.getD_eq_getElem _ _ (by omega)]
  · have e : (atOff file o).data = [0] := by
      unfold atOff
      simp only
      rw [List.drop_eq_nil_of_le (by omega)]
      rfl
    rw [if_neg c] at hs ⊢
    rw [e]
    simp only [hs, bind_err]

theorem getD_byte (file : List Nat) (hb : Bytes file) (o : Nat) : file.getD o 0 < 256 := by
  by_cases h : o < file.length
  · rw [List.getD_eq_getElem _ _ h]; exact hb _ (List.getElem_mem h)
  · rw [List.getD_eq_default _ _ (by omega)]; omega

theorem u16_at (file : List Nat) (hb : Bytes file) (o : Nat) (h : o ≤ file.length) :
    binU16 (atOff file o) = if o + 2 ≤ file.length then .ok (file.getD o 0 + 256 * file.getD (o + 1) 0, atOff file (o + 2))
      else .error .reject := by
  unfold binU16
  rw [u8_at file o h]
  by_cases c1 : o + 1 ≤ file.length
  · rw [if_pos c1, bind_ok, u8_at file (o + 1) c1]
    by_cases c2 : o + 1 + 1 ≤ file.length
    · rw [if_pos c2, if_pos (by omega), bind_ok]
      have h1 := getD_byte file hb o
      have h2 := getD_byte file hb (o + 1)
      rw [Nat.shiftLeft_eq]
      simp only [Except.ok.injEq, Prod.mk.injEq, and_true]
      omega
    · rw [if_neg c2, if_neg (by omega), bind_err]
  · rw [if_neg c1, if_neg (by omega), bind_err]

theorem u32_at (file : List Nat) (hb : Bytes file) (o : Nat) (h : o ≤ file.length) :
    binU32 (atOff file o) = if o + 4 ≤ file.length then .ok (word file o, atOff file (o + 4)) else .error .reject := by
  unfold binU32
  rw [u16_at file hb o h]
  by_cases c1 : o + 2 ≤ file.length
  · rw [if_pos c1, bind_ok, u16_at file hb (o + 2) c1]
    by_cases c2 : o + 2 + 2 ≤ file.length
    · rw [if_pos c2, if_pos (by omega), bind_ok]
      have h0 := getD_byte file hb o
      have h1 := getD_byte file hb (o + 1)
      have h2 := getD_byte file hb (o + 2)
      have h3 := getD_byte file hb (o + 2 + 1)
      have e : word file o = file.getD o 0 + 256 * (file.getD (o + 1) 0 + 256 * (file.getD (o + 2) 0
          + 256 * file.getD (o + 2 + 1) 0)) := by
        unfold word
        rw [List.getD_eq_getElem _ _ (by omega), List.getD_eq_getElem _ _ (by omega), List.getD_eq_getElem _ _ (by omega),
          List.getD_eq_getElem _ _ (by omega), List.drop_eq_getElem_cons (by omega), List.drop_eq_getElem_cons (by omega),
          List.drop_eq_getElem_cons (by omega), List.drop_eq_getElem_cons (i := o + 1 + 1 + 1) (by omega)]
        simp only [List.take_succ_cons, List.take_zero, le, Nat.mul_zero, Nat.add_zero]
      rw [Nat.shiftLeft_eq, e]
      simp only [Except.ok.injEq, Prod.mk.injEq, and_true]
      omega
    · rw [if_neg c2, if_neg (by omega), bind_err]
  · rw [if_neg c1, if_neg (by omega), bind_err]

theorem vec3_at (file : List Nat) (hb : Bytes file) (o : Nat) (h : o ≤ file.length) :
    binVec3 (atOff file o) = if o + 12 ≤ file.length
      then .ok ((word file o, word file (o + 4), word file (o + 8)), atOff file (o + 12)) else .error .reject := by
  unfold binVec3
  rw [u32_at file hb o h]
  by_cases c1 : o + 4 ≤ file.length
  · rw [if_pos c1, bind_ok, u32_at file hb (o + 4) c1]
    by_cases c2 : o + 4 + 4 ≤ file.length
    · rw [if_pos c2, bind_ok, u32_at file hb (o + 4 + 4) c2]
      by_cases c3 : o + 4 + 4 + 4 ≤ file.length
      · rw [if_pos c3, bind_ok, if_pos (by omega)]
      · rw [if_neg c3, bind_err, if_neg (by omega)]
    · rw [if_neg c2, if_neg (by omega), bind_err]
  · rw [if_neg c1, if_neg (by omega), bind_err]

/-- adding a triangle to the polyhedron -/
def addTri {V : Type} (eq : V → V → Bool) (poly : Poly V) (t : V × V × V) : Poly V :=
  let a := insertPoint eq poly.points t.1
  let b := insertPoint eq a.1 t.2.1
  let c := insertPoint eq b.1 t.2.2
  ⟨c.1, poly.faces ++ [[c.2, b.2, a.2]]⟩

section
variable {V : Type} (eq : V → V → Bool) (conv : Words → V)

theorem vertex_at (file : List Nat) (hb : Bytes file) (poly : Poly V) (o : Nat) (h : o ≤ file.length) :
    binVertex eq conv poly (atOff file o) = if o + 12 ≤ file.length
      then .ok ((insertPoint eq poly.points (conv (word file o, word file (o + 4), word file (o + 8)))).2,
        { poly with points := (insertPoint eq poly.points (conv (word file o, word file (o + 4), word file (o + 8)))).1 },
        atOff file (o + 12)) else .error .reject := by
  unfold binVertex
  rw [vec3_at file hb o h]
  by_cases c1 : o + 12 ≤ file.length
  · rw [if_pos c1, if_pos c1, bind_ok]
  · rw [if_neg c1, if_neg c1, bind_err]

/-- the triangle at an offset -/
def triAt (file : List Nat) (o : Nat) : V × V × V :=
  (conv (word file (o + 12), word file (o + 16), word file (o + 20)),
    conv (word file (o + 24), word file (o + 28), word file (o + 32)),
    conv (word file (o + 36), word file (o + 40), word file (o + 44)))

theorem facet_at (file : List Nat) (hb : Bytes file) (poly : Poly V) (o : Nat) (h : o ≤ file.length) :
    binFacet eq conv poly (atOff file o) = if o + 50 ≤ file.length
      then .ok (addTri eq poly (triAt conv file o), atOff file (o + 50)) else .error .reject := by
  unfold binFacet
  rw [vec3_at file hb o h]
  by_cases c1 : o + 12 ≤ file.length
  · rw [if_pos c1, bind_ok, vertex_at eq conv file hb _ _ c1]
    by_cases c2 : o + 12 + 12 ≤ file.length
    · rw [if_pos c2, bind_ok, vertex_at eq conv file hb _ _ c2]
      by_cases c3 : o + 12 + 12 + 12 ≤ file.length
      · rw [if_pos c3, bind_ok, vertex_at eq conv file hb _ _ c3]
        by_cases c4 : o + 12 + 12 + 12 + 12 ≤ file.length
        · rw [if_pos c4, bind_ok, u16_at file hb _ c4]
          by_cases c5 : o + 12 + 12 + 12 + 12 + 2 ≤ file.length
          · rw [if_pos c5, bind_ok, if_pos (by omega)]
            rfl
          · rw [if_neg c5, bind_err, if_neg (by omega)]
        · rw [if_neg c4, bind_err, if_neg (by omega)]
      · rw [if_neg c3, bind_err, if_neg (by omega)]
    · rw [if_neg c2, bind_err, if_neg (by omega)]
  · rw [if_neg c1, bind_err, if_neg (by omega)]

theorem facets_at (file : List Nat) (hb : Bytes file) : ∀ (n : Nat) (poly : Poly V) (o : Nat), o ≤ file.length →
    binFacets eq conv n poly (atOff file o) = if o + 50 * n ≤ file.length
      then .ok (((List.range n).map (fun i => triAt conv file (o + 50 * i))).foldl (addTri eq) poly, atOff file (o + 50 * n))
      else .error .reject
  | 0, poly, o, h => by
    rw [if_pos (by omega)]; rfl
  | n + 1, poly, o, h => by
    simp only [binFacets]
    rw [facet_at eq conv file hb poly o h]
    by_cases c1 : o + 50 ≤ file.length
    · rw [if_pos c1, bind_ok, facets_at file hb n _ _ c1]
      by_cases c2 : o + 50 + 50 * n ≤ file.length
      · rw [if_pos c2, if_pos (by omega), List.range_succ_eq_map, List.map_cons, List.foldl_cons, List.map_map]
        simp only [Except.ok.injEq, Prod.mk.injEq]
        refine ⟨?_, by congr 1; omega⟩
        congr 1
        apply List.map_congr_left
        intro i _
        simp only [Function.comp_apply]
        congr 1
        omega
      · rw [if_neg c2, if_neg (by omega)]
    · rw [if_neg c1, if_neg (by omega), bind_err]

/-! ### the table of points -/

theorem insert_cases (ps : List V) (v : V) :
    (insertPoint eq ps v = (ps, (insertPoint eq ps v).2) ∧ ∃ p, ps[(insertPoint eq ps v).2]? = some p ∧ eq v p = true)
    ∨ (insertPoint eq ps v = (ps ++ [v], ps.length) ∧ ∀ p ∈ ps, eq v p = false) := by
  unfold insertPoint
  cases h : ps.findIdx? (fun p => eq v p) with
  | none =>
    right
    refine ⟨rfl, ?_⟩
    rw [List.findIdx?_eq_none_iff] at h
    intro p hp
    exact h p hp
  | some i =>
    left
    refine ⟨rfl, ?_⟩
    rw [List.findIdx?_eq_some_iff_getElem] at h
    obtain ⟨hi, he, _⟩ := h
    exact ⟨ps[i], List.getElem?_eq_getElem hi, he⟩

theorem insert_stands (ps : List V) (v : V) : StandsFor eq (insertPoint eq ps v).1 (insertPoint eq ps v).2 v := by
  rcases insert_cases eq ps v with ⟨e, p, hp, hq⟩ | ⟨e, _⟩
  · rw [e]; exact ⟨p, hp, Or.inr hq⟩
  · rw [e]; exact ⟨v, by simp, Or.inl rfl⟩

theorem insert_keeps (ps : List V) (v w : V) (r : Nat) (h : StandsFor eq ps r w) :
    StandsFor eq (insertPoint eq ps v).1 r w := by
  obtain ⟨p, hp, hq⟩ := h
  rcases insert_cases eq ps v with ⟨e, _⟩ | ⟨e, _⟩
  · rw [e]; exact ⟨p, hp, hq⟩
  · rw [e]
    have hl : r < ps.length := by
      rcases Nat.lt_or_ge r ps.length with h | h
      · exact h
      · rw [List.getElem?_eq_none h] at hp; simp at hp
    exact ⟨p, by simp only; rw [List.getElem?_append_left hl]; exact hp, hq⟩

theorem insert_mem (ps : List V) (v p : V) (h : p ∈ (insertPoint eq ps v).1) : p ∈ ps ∨ p = v := by
  rcases insert_cases eq ps v with ⟨e, _⟩ | ⟨e, _⟩
  · rw [e] at h; exact Or.inl h
  · rw [e] at h; simpa using h

/-- no two points of the table are equal -/
def NoDup (ps : List V) : Prop := ∀ (i j : Nat) (p q : V), i < j → ps[i]? = some p → ps[j]? = some q → eq q p = false

theorem insert_nodup (ps : List V) (v : V) (h : NoDup eq ps) : NoDup eq (insertPoint eq ps v).1 := by
  rcases insert_cases eq ps v with ⟨e, _⟩ | ⟨e, hn⟩
  · rw [e]; exact h
  · rw [e]
    intro i j p q hij hp hq
    simp only at hp hq
    rcases Nat.lt_or_ge j ps.length with hj | hj
    · rw [List.getElem?_append_left hj] at hq
      rw [List.getElem?_append_left (by omega)] at hp
      exact h i j p q hij hp hq
    · rcases Nat.eq_or_lt_of_le hj with hj | hj
      · subst hj
        rw [List.getElem?_append_left hij] at hp
        simp at hq
        subst hq
        exact hn p (List.mem_of_getElem? hp)
      · rw [List.getElem?_eq_none (by simp; omega)] at hq
        simp at hq

theorem addTri_made (poly : Poly V) (tris : List (V × V × V)) (t : V × V × V) (h : MadeOf eq poly tris) :
    MadeOf eq (addTri eq poly t) (tris ++ [t]) := by
  obtain ⟨h1, h2, h3, h4⟩ := h
  unfold addTri
  refine ⟨by simp [h1], ?_, ?_, ?_⟩
  · intro i t' ht
    simp only
    rcases Nat.lt_or_ge i tris.length with hi | hi
    · rw [List.getElem?_append_left hi] at ht
      obtain ⟨r0, r1, r2, e, s0, s1, s2⟩ := h2 i t' ht
      refine ⟨r0, r1, r2, ?_, ?_, ?_, ?_⟩
      · rw [List.getElem?_append_left (by omega)]; exact e
      all_goals exact insert_keeps eq _ _ _ _ (insert_keeps eq _ _ _ _ (insert_keeps eq _ _ _ _ (by assumption)))
    · rcases Nat.eq_or_lt_of_le hi with hi | hi
      · subst hi
        simp only [List.getElem?_concat_length, Option.some.injEq] at ht
        subst ht
        refine ⟨(insertPoint eq poly.points t.1).2, (insertPoint eq (insertPoint eq poly.points t.1).1 t.2.1).2, _, ?_, ?_, ?_, insert_stands eq _ _⟩
        · rw [← h1]; simp only [List.getElem?_concat_length]
        · exact insert_keeps eq _ _ _ _ (insert_keeps eq _ _ _ _ (insert_stands eq _ _))
        · exact insert_keeps eq _ _ _ _ (insert_stands eq _ _)
      · rw [List.getElem?_eq_none (by simp; omega)] at ht
        simp at ht
  · intro p hp
    simp only at hp
    rcases insert_mem eq _ _ _ hp with hp | hp
    · rcases insert_mem eq _ _ _ hp with hp | hp
      · rcases insert_mem eq _ _ _ hp with hp | hp
        · obtain ⟨t', ht, hh⟩ := h3 p hp
          exact ⟨t', List.mem_append_left _ ht, hh⟩
        · exact ⟨t, by simp, Or.inl hp⟩
      · exact ⟨t, by simp, Or.inr (Or.inl hp)⟩
    · exact ⟨t, by simp, Or.inr (Or.inr hp)⟩
  · exact insert_nodup eq _ _ (insert_nodup eq _ _ (insert_nodup eq _ _ h4))

theorem addTris_made (tris' : List (V × V × V)) : ∀ (poly : Poly V) (tris : List (V × V × V)), MadeOf eq poly tris →
    MadeOf eq (tris'.foldl (addTri eq) poly) (tris ++ tris') := by
  induction tris' with
  | nil => intro poly tris h; simpa using h
  | cons t ts ih =>
    intro poly tris h
    rw [List.foldl_cons]
    have := ih _ _ (addTri_made eq poly tris t h)
    simpa using this

theorem made_nil : MadeOf eq (⟨[], []⟩ : Poly V) [] := by
  refine ⟨rfl, ?_, ?_, ?_⟩
  · intro i t h; simp at h
  · intro p h; simp at h
  · intro i j p q _ h; simp at h

theorem made_all (tris : List (V × V × V)) : MadeOf eq (tris.foldl (addTri eq) ⟨[], []⟩) tris := by
  simpa using addTris_made eq tris ⟨[], []⟩ [] (made_nil eq)

theorem parseBin_eq (file : List Nat) (hb : Bytes file) :
    parseBin eq conv ⟨file ++ [0], file.length⟩
      = if 84 + 50 * word file 80 ≤ file.length
        then .ok ((binTriangles conv file (word file 80)).foldl (addTri eq) ⟨[], []⟩) else .error .reject := by
  have e : (⟨file ++ [0], file.length⟩ : Bin) = atOff file 0 := rfl
  unfold parseBin
  rw [e, skip_at file 0 80 (by omega)]
  by_cases c1 : 0 + 80 ≤ file.length
  · rw [if_pos c1, bind_ok, u32_at file hb _ c1]
    by_cases c2 : 0 + 80 + 4 ≤ file.length
    · rw [if_pos c2, bind_ok]
      simp only
      rw [facets_at eq conv file hb _ _ _ c2]
      by_cases c3 : 0 + 80 + 4 + 50 * word file (0 + 80) ≤ file.length
      · rw [if_pos c3, bind_ok, if_pos (by simpa using c3)]
        rfl
      · rw [if_neg c3, bind_err, if_neg (by simpa using c3)]
    · rw [if_neg c2, bind_err, if_neg (by omega)]
  · rw [if_neg c1, bind_err, if_neg (by omega)]

end

end Hob3l.Stl
