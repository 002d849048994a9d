import Verif.Tri.LemmasFlush2

/-!
The flags of the triangles made from a path.
-/

namespace Hob3l.Tri

open Hob3l.Poly (P Vtx Err ass Ins cross3 vec2Cmp treeNext treePrev Small crossI cross3_eq)

/-- the triangle has a side from `i` to `j` that is flagged -/
def Fsd (t : Tri) (i j : Nat) : Prop :=
  t.f01 = true ∧ t.p0 = i ∧ t.p1 = j ∨ t.f12 = true ∧ t.p1 = i ∧ t.p2 = j ∨ t.f20 = true ∧ t.p2 = i ∧ t.p0 = j

/-- the points `a` and `b` are the ends of the edge -/
def EdgeAt (s : St) (e : Nat) (a b : P) : Prop :=
  a = s.pos e false ∧ b = s.pos e true ∨ a = s.pos e true ∧ b = s.pos e false

/-- every flagged side is an edge of the outline that is a piece of the path -/
def Snd (s : St) (U : List (Nat × Nat)) (T : List Tri) : Prop :=
  ∀ t ∈ T, ∀ i j, Fsd t i j → ∃ e a b, (e, e) ∈ U ∧ s.inner e = false ∧ s.points[i]? = some a ∧ s.points[j]? = some b ∧
    EdgeAt s e a b

/-- the edge is a flagged side -/
def Mk (s : St) (T : List Tri) (e : Nat) : Prop :=
  ∃ t ∈ T, ∃ i j a b, Fsd t i j ∧ s.points[i]? = some a ∧ s.points[j]? = some b ∧ EdgeAt s e a b

/-- every edge of the outline that is a piece of the path stays one, or becomes a flagged side -/
def Cmp (s : St) (U U' : List (Nat × Nat)) (T : List Tri) : Prop :=
  ∀ e, (e, e) ∈ U → s.inner e = false → (e, e) ∈ U' ∨ Mk s T e

theorem EdgeAt.congr {s s' : St} {e : Nat} {a b : P} (h1 : s'.pos e = s.pos e) : EdgeAt s' e a b ↔ EdgeAt s e a b := by
  unfold EdgeAt; rw [h1]

theorem EdgeAt.symm {s : St} {e : Nat} {a b : P} (h : EdgeAt s e a b) : EdgeAt s e b a := by
  unfold EdgeAt at *; tauto

theorem edgeAt_src {s : St} {e : Nat} {a b : P} (h1 : a = posOf s (src s e)) (h2 : b = posOf s (dst s e)) : EdgeAt s e a b := by
  subst h1 h2
  unfold EdgeAt src dst posOf
  cases s.back e <;> simp

theorem Snd.congr {s s' : St} {U : List (Nat × Nat)} {T : List Tri} (h : Snd s' U T) (h1 : s'.pos = s.pos)
    (h2 : s'.inner = s.inner) (h3 : s'.points = s.points) : Snd s U T := by
  intro t ht i j hf
  obtain ⟨e, a, b, g1, g2, g3, g4, g5⟩ := h t ht i j hf
  rw [h2] at g2; rw [h3] at g3 g4
  exact ⟨e, a, b, g1, g2, g3, g4, (EdgeAt.congr (by rw [h1])).1 g5⟩

theorem Mk.congr {s s' : St} {e : Nat} {T : List Tri} (h : Mk s' T e) (h1 : s'.pos = s.pos)
    (h3 : s'.points = s.points) : Mk s T e := by
  obtain ⟨t, ht, i, j, a, b, g1, g3, g4, g5⟩ := h
  rw [h3] at g3 g4
  exact ⟨t, ht, i, j, a, b, g1, g3, g4, (EdgeAt.congr (by rw [h1])).1 g5⟩

theorem Cmp.congr {s s' : St} {U U' : List (Nat × Nat)} {T : List Tri} (h : Cmp s' U U' T) (h1 : s'.pos = s.pos)
    (h2 : s'.inner = s.inner) (h3 : s'.points = s.points) : Cmp s U U' T :=
  fun e he hi => (h e he (by rw [h2]; exact hi)).imp id fun h => h.congr h1 h3

theorem Mk.mono {s : St} {e : Nat} {T T' : List Tri} (h : Mk s T e) (hs : T ⊆ T') : Mk s T' e := by
  obtain ⟨t, ht, g⟩ := h
  exact ⟨t, hs ht, g⟩

theorem snd_nil (s : St) (U : List (Nat × Nat)) : Snd s U [] := by intro t ht; simp at ht

theorem Snd.mono {s : St} {U U' : List (Nat × Nat)} {T : List Tri} (h : Snd s U T)
    (hs : ∀ e, (e, e) ∈ U → (e, e) ∈ U') : Snd s U' T := by
  intro t ht i j hf
  obtain ⟨e, a, b, g1, g⟩ := h t ht i j hf
  exact ⟨e, a, b, hs e g1, g⟩

theorem Snd.append {s : St} {U : List (Nat × Nat)} {T T' : List Tri} (h : Snd s U T) (h' : Snd s U T') : Snd s U (T ++ T') := by
  intro t ht
  rcases List.mem_append.1 ht with h1 | h1
  · exact h t h1
  · exact h' t h1

theorem cmp_refl (s : St) (U : List (Nat × Nat)) (T : List Tri) : Cmp s U U T := fun _ h _ => .inl h

theorem Cmp.trans {s : St} {U U1 U2 : List (Nat × Nat)} {T T' : List Tri} (h : Cmp s U U1 T) (h' : Cmp s U1 U2 T') :
    Cmp s U U2 (T ++ T') := by
  intro e he hi
  rcases h e he hi with h | h
  · exact (h' e h hi).imp id fun h => h.mono (List.subset_append_right _ _)
  · exact .inr (h.mono (List.subset_append_left _ _))

theorem full_iff {s : St} {u : Nat × Nat} : full s u = true ↔ u = (u.1, u.1) ∧ s.inner u.1 = false := by
  unfold full
  rw [Bool.and_eq_true, decide_eq_true_eq, Bool.not_eq_true']
  constructor
  · rintro ⟨h1, h2⟩
    exact ⟨Prod.ext rfl h1.symm, h2⟩
  · rintro ⟨h1, h2⟩
    exact ⟨(congrArg Prod.snd h1).symm, h2⟩

theorem vd_ix {s : St} {v : V} (h : Vd s v) : s.points[ix s v]? = some (posOf s v) := by
  obtain ⟨i, h1, h2⟩ := h
  have : ix s v = i := by unfold ix; rw [show s.idx v.1 v.2 = some i from h1]; rfl
  rw [this]; exact h2

/-- the sides of a triangle of a path -/
theorem fsd_mk3 {neg : Bool} {vi : Nat} {q w : Nd} {c : Bool} {i j : Nat} (h : Fsd (mk3 neg vi q w c) i j) :
    (q.fl = true ∧ (i = vi ∧ j = q.ix ∨ i = q.ix ∧ j = vi)) ∨ (w.fl = true ∧ (i = q.ix ∧ j = w.ix ∨ i = w.ix ∧ j = q.ix)) ∨
    (c = true ∧ (i = w.ix ∧ j = vi ∨ i = vi ∧ j = w.ix)) := by
  unfold Fsd mk3 at h
  cases neg <;> simp at h <;> grind

theorem mk3_q {neg : Bool} {vi : Nat} {q w : Nd} {c : Bool} (h : q.fl = true) :
    Fsd (mk3 neg vi q w c) vi q.ix ∨ Fsd (mk3 neg vi q w c) q.ix vi := by
  unfold Fsd mk3; cases neg <;> simp [h]

theorem mk3_w {neg : Bool} {vi : Nat} {q w : Nd} {c : Bool} (h : w.fl = true) :
    Fsd (mk3 neg vi q w c) q.ix w.ix ∨ Fsd (mk3 neg vi q w c) w.ix q.ix := by
  unfold Fsd mk3; cases neg <;> simp [h]

theorem mk3_c {neg : Bool} {vi : Nat} {q w : Nd} {c : Bool} (h : c = true) :
    Fsd (mk3 neg vi q w c) w.ix vi ∨ Fsd (mk3 neg vi q w c) vi w.ix := by
  unfold Fsd mk3; cases neg <;> simp [h]

theorem mk_of {s : St} {t : Tri} {e i j : Nat} {a b : P} (h : Fsd t i j ∨ Fsd t j i) (ha : s.points[i]? = some a)
    (hb : s.points[j]? = some b) (he : EdgeAt s e a b) : Mk s [t] e := by
  rcases h with h | h
  · exact ⟨t, by simp, i, j, a, b, h, ha, hb, he⟩
  · exact ⟨t, by simp, j, i, b, a, h, hb, ha, he.symm⟩

theorem go_src {s : St} {p : V} {y0 : Nat} {U : List (Nat × Nat)} {closed clo : Bool} (h : Go s p y0 U closed clo) :
    posOf s p = posOf s (src s y0) := by
  rcases h.start with ⟨rfl, -⟩ | ⟨x, rfl, hj, -⟩
  · rfl
  · exact hj.pos

theorem go_clo {s : St} {p : V} {y0 : Nat} {U : List (Nat × Nat)} {closed clo : Bool} (h : Go s p y0 U closed clo)
    (hc : clo = true) : posOf s (dst s (lastU U).2) = posOf s p ∧ full s (lastU U) = true := by
  rcases h.start with ⟨-, -, h⟩ | ⟨x, -, -, -, h, -⟩
  · rw [hc] at h
    have := h.symm
    rw [Bool.and_eq_true, decide_eq_true_eq] at this
    exact this
  · rw [h] at hc; cases hc

/-- the flags of a triangle of a path -/
theorem tri_flags {neg : Bool} {s : St} {p : V} {y0 : Nat} {u0 u1 u2 : Nat × Nat} {U : List (Nat × Nat)} {closed clo : Bool}
    (h : Go s p y0 (u0 :: u1 :: u2 :: U) closed clo) {t : Tri}
    (ht : t = mk3 neg (ix s p) (node s u0) (node s u1) ((nodes s (u2 :: U)).isEmpty && clo)) :
    Snd s (u0 :: u1 :: u2 :: U) [t] ∧
    (∀ e, (e, e) = u0 ∨ (e, e) = u1 → s.inner e = false → Mk s [t] e) ∧
    (s.points.Nodup → closed = true → U = [] → ∀ e, (e, e) = u2 → s.inner e = false → Mk s [t] e) := by
  obtain ⟨hu0, hj0, hu1, hj1, hp2⟩ := h.path
  have hd := h.head
  simp at hd
  have a0 := vd_ix h.vd
  have a1 : s.points[(node s u0).ix]? = some (posOf s (dst s u0.2)) := vd_ix hj0.vd
  have a2 : s.points[(node s u1).ix]? = some (posOf s (dst s u1.2)) := vd_ix hj1.vd
  have e0 : u0 = (u0.1, u0.1) → EdgeAt s u0.1 (posOf s p) (posOf s (dst s u0.2)) := fun he =>
    edgeAt_src (by rw [go_src h, hd]) (by rw [show u0.2 = u0.1 from congrArg Prod.snd he])
  have e1 : u1 = (u1.1, u1.1) → EdgeAt s u1.1 (posOf s (dst s u0.2)) (posOf s (dst s u1.2)) := fun he =>
    edgeAt_src hj0.pos (by rw [show u1.2 = u1.1 from congrArg Prod.snd he])
  have e2 : posOf s (dst s u2.2) = posOf s p → u2 = (u2.1, u2.1) → EdgeAt s u2.1 (posOf s (dst s u1.2)) (posOf s p) :=
    fun hp he => edgeAt_src hj1.pos (by rw [← hp, show u2.2 = u2.1 from congrArg Prod.snd he])
  refine ⟨?_, ?_, ?_⟩
  · intro t' ht' i j hf
    rw [List.mem_singleton] at ht'
    subst ht'
    rw [ht] at hf
    rcases fsd_mk3 hf with ⟨h1, h2⟩ | ⟨h1, h2⟩ | ⟨h1, h2⟩
    · obtain ⟨g1, g2⟩ := full_iff.1 (show full s u0 = true from h1)
      have hm : (u0.1, u0.1) ∈ u0 :: u1 :: u2 :: U := by rw [← g1]; simp
      rcases h2 with ⟨rfl, rfl⟩ | ⟨rfl, rfl⟩
      · exact ⟨u0.1, _, _, hm, g2, a0, a1, e0 g1⟩
      · exact ⟨u0.1, _, _, hm, g2, a1, a0, (e0 g1).symm⟩
    · obtain ⟨g1, g2⟩ := full_iff.1 (show full s u1 = true from h1)
      have hm : (u1.1, u1.1) ∈ u0 :: u1 :: u2 :: U := by rw [← g1]; simp
      rcases h2 with ⟨rfl, rfl⟩ | ⟨rfl, rfl⟩
      · exact ⟨u1.1, _, _, hm, g2, a1, a2, e1 g1⟩
      · exact ⟨u1.1, _, _, hm, g2, a2, a1, (e1 g1).symm⟩
    · rw [Bool.and_eq_true] at h1
      have hU : U = [] := by
        have := h1.1
        rcases U with _ | ⟨u3, U⟩
        · rfl
        · rw [nodes_cons] at this; simp at this
      subst hU
      obtain ⟨c1, c2⟩ := go_clo h h1.2
      have hl : lastU [u0, u1, u2] = u2 := rfl
      rw [hl] at c1 c2
      obtain ⟨g1, g2⟩ := full_iff.1 c2
      have hm : (u2.1, u2.1) ∈ [u0, u1, u2] := by rw [← g1]; simp
      rcases h2 with ⟨rfl, rfl⟩ | ⟨rfl, rfl⟩
      · exact ⟨u2.1, _, _, hm, g2, a2, a0, e2 c1 g1⟩
      · exact ⟨u2.1, _, _, hm, g2, a0, a2, (e2 c1 g1).symm⟩
  · rintro e (he | he) hi
    · have h0 : u0.1 = e := by rw [← he]
      have g1 : u0 = (u0.1, u0.1) := by rw [← he]
      have := e0 g1
      rw [h0] at this
      rw [ht]
      exact mk_of (mk3_q (full_iff.2 ⟨g1, by rw [h0]; exact hi⟩)) a0 a1 this
    · have h0 : u1.1 = e := by rw [← he]
      have g1 : u1 = (u1.1, u1.1) := by rw [← he]
      have := e1 g1
      rw [h0] at this
      rw [ht]
      exact mk_of (mk3_w (full_iff.2 ⟨g1, by rw [h0]; exact hi⟩)) a1 a2 this
  · intro hnd hcl hU e he hi
    subst hU
    have hl : lastU [u0, u1, u2] = u2 := rfl
    have h0 : u2.1 = e := by rw [← he]
    have g1 : u2 = (u2.1, u2.1) := by rw [← he]
    have hfin := h.fin
    rw [hcl] at hfin
    simp only [if_true] at hfin
    have hps : posOf s (dst s u2.2) = posOf s p := (vd_idx hnd hfin.1 h.vd).1 hfin.2.1
    have hfl : full s u2 = true := full_iff.2 ⟨g1, by rw [h0]; exact hi⟩
    have hclo : clo = true := by
      rcases h.start with ⟨-, -, h⟩ | ⟨x, -, -, -, -, h⟩
      · rw [h, hl, Bool.and_eq_true, decide_eq_true_eq]; exact ⟨hps, hfl⟩
      · rw [h] at hcl; cases hcl
    have := e2 hps g1
    rw [h0] at this
    rw [ht]
    refine mk_of (mk3_c ?_) a2 a0 this
    rw [hclo]; rfl

end Hob3l.Tri
