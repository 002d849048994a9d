import Verif.Sweep.LemmasReduceMain

/-
From the invariant of the reduction sweep to the points of the plane.
-/

namespace Hob3l.Sweep

open Hob3l.Matq

section
open Classical

theorem insideMask_filter (E : List Edge) (X : Pt) : insideMask E X = xorAll (masks (E.filter fun e => e.Under X)) := by
  induction E with
  | nil => rfl
  | cons e E ih =>
    simp only [insideMask, ih, List.filter_cons]
    by_cases h : e.Under X
    · simp only [h, if_true, decide_true, masks, List.map_cons, xorAll]
    · simp [h]

theorem loop_split {comb : Bitmap.Mem} {N : Nat} {a b : List RV} {s s1 s2 : RS} {o o1 : List RV}
    (h : reduceLoop comb N s (a ++ b) = some (s2, o)) (h1 : reduceLoop comb N s a = some (s1, o1)) :
    ∃ o2, reduceLoop comb N s1 b = some (s2, o2) := by
  induction a generalizing s o o1 with
  | nil =>
    simp only [reduceLoop, Option.some.injEq, Prod.mk.injEq] at h1
    obtain ⟨rfl, rfl⟩ := h1
    exact ⟨o, h⟩
  | cons v a ih =>
    rw [List.cons_append, reduceLoop] at h
    rw [reduceLoop] at h1
    cases hr : reduceEvent comb N s v with
    | none => rw [hr] at h1; simp at h1
    | some r =>
      rw [hr] at h1 h
      simp only [Option.bind_eq_bind, Option.bind_some, Option.pure_def] at h1 h
      obtain ⟨q, hq, h⟩ := Option.bind_eq_some_iff.mp h
      obtain ⟨q1, hq1, h1⟩ := Option.bind_eq_some_iff.mp h1
      simp only [Option.some.injEq, Prod.mk.injEq] at h h1
      exact ih (s := r.1) (o := q.2) (o1 := q1.2) (by rw [hq, ← h.1]) (by rw [hq1, ← h1.1])

/-- the state of the run when the vertices in a beginning of the sweep order are done -/
theorem at_line {comb : Bitmap.Mem} {n : Nat} (hn : n ≤ 10) {E : List Edge} {vs : List RV} (I : RIn n E vs) {sf : RS}
    {out : List RV} (hf : reduceLoop comb (2 ^ n) ⟨.leaf, fun _ => 0, fun _ => false⟩ vs = some (sf, out))
    (D : Vec2 → Prop) (hD : ∀ a b, LexLt a b → D b → D a) :
    ∃ L : List Edge, (∀ e, e ∈ L ↔ e ∈ E ∧ D e.left ∧ ¬ D e.rigt) ∧
      L.Pairwise (fun e f => e ≠ f ∧ Low e f) ∧ L.Nodup ∧ L.map (rho sf) = annot (bfun comb) 0 (masks L) := by
  classical
  have hbef := I.before
  have sp := split_sorted (fun v : RV => ¬ D v.p) vs (by
    refine List.Pairwise.imp ?_ hbef
    intro a b hab h1 h2
    rcases hab.le with h | h
    · exact h1 (h ▸ h2)
    · exact h1 (hD _ _ h h2))
  obtain ⟨d, hd⟩ : ∃ l, l = vs.filter (fun v => ¬ ¬ D v.p) := ⟨_, rfl⟩
  obtain ⟨todo, htodo⟩ : ∃ l, l = vs.filter (fun v => ¬ D v.p) := ⟨_, rfl⟩
  rw [← hd, ← htodo] at sp
  have md : ∀ v, v ∈ d ↔ v ∈ vs ∧ D v.p := by intro v; rw [hd, List.mem_filter]; simp
  have mt : ∀ v, v ∈ todo ↔ v ∈ vs ∧ ¬ D v.p := by intro v; rw [htodo, List.mem_filter]; simp
  obtain ⟨s, h1, inv⟩ := run_to (comb := comb) hn I d.length d todo rfl sp (by
    intro a ha b hb
    have a1 := ((md a).mp ha).2
    have b1 := ((mt b).mp hb).2
    rcases LexLt.total (a := a.p) (b := b.p) with h | h | h
    · exact absurd (h ▸ a1) b1
    · exact h
    · exact absurd (hD _ _ h a1) b1)
  rw [sp] at hf
  obtain ⟨o2, h2⟩ := loop_split hf h1
  obtain ⟨L, hL⟩ : ∃ L, L = Dict.toList s.tree := ⟨_, rfl⟩
  have memL : ∀ e, e ∈ L ↔ e ∈ E ∧ D e.left ∧ ¬ D e.rigt := by
    intro e
    rw [hL, inv.mem, md, md, I.mem_vs, I.mem_vs]
    simp only [RV.p, Bool.false_eq_true, if_false, if_true, not_and]
    tauto
  have hLnd : L.Nodup := by rw [hL]; exact inv.valid.2
  refine ⟨L, memL, List.Pairwise.and hLnd (by rw [hL]; exact inv.low), hLnd, ?_⟩
  rw [hL, ← inv.ann, ← hL]
  apply List.map_congr_left
  intro e he
  have hb := ((memL e).mp he).2.1
  have hno : (⟨e, false⟩ : RV) ∉ todo := by
    intro hc
    have h := ((mt _).mp hc).2
    simp only [RV.p, Bool.false_eq_true, if_false] at h
    exact h hb
  unfold rho
  rw [reduceLoop_keep h2 e hno, reduceLoop_below h2 e hno]

theorem LexLt.le_x {a b : Vec2} (h : LexLt a b) : a.x ≤ b.x := by unfold LexLt at h; omega

/-- the edges in the state that are below an edge, and its annotation -/
theorem kept_iff {comb : Bitmap.Mem} {n : Nat} (hn : n ≤ 10) {E : List Edge} {vs : List RV} (I : RIn n E vs) {sf : RS}
    {out : List RV} (hf : reduceLoop comb (2 ^ n) ⟨.leaf, fun _ => 0, fun _ => false⟩ vs = some (sf, out))
    (D : Vec2 → Prop) (hD : ∀ a b, LexLt a b → D b → D a) {e : Edge} (he : e ∈ E) (hl : D e.left) (hr : ¬ D e.rigt) (X : Pt)
    (h1 : ∀ f ∈ E, f ≠ e → D f.left → ¬ D f.rigt → ¬ Low e f → f.Under X)
    (h2 : ∀ f ∈ E, f.Under X → f ≠ e ∧ D f.left ∧ ¬ D f.rigt ∧ Low f e) :
    sf.keep e = (bfun comb (insideMask E X) != bfun comb (insideMask E X ^^^ e.member)) := by
  classical
  obtain ⟨L, memL, low, ndL, ann⟩ := at_line hn I hf D hD
  obtain ⟨P, C, hPC⟩ := List.append_of_mem ((memL e).mpr ⟨he, hl, hr⟩)
  rw [hPC] at low
  rw [List.pairwise_append, List.pairwise_cons] at low
  obtain ⟨-, ⟨lowC, -⟩, lowP⟩ := low
  have inL : ∀ f ∈ P ++ e :: C, f ∈ E ∧ D f.left ∧ ¬ D f.rigt := by
    intro f h; rw [← hPC] at h; exact (memL f).mp h
  have memP : ∀ f, f ∈ P ↔ f ∈ E ∧ f.Under X := by
    intro f
    constructor
    · intro h
      obtain ⟨a, b, c⟩ := inL f (by simp [h])
      obtain ⟨hne, hlow⟩ := lowP f h e (by simp)
      exact ⟨a, h1 f a hne b c (I.low_asymm a he hne hlow)⟩
    · rintro ⟨a, b⟩
      obtain ⟨hne, c, d, hlow⟩ := h2 f a b
      have hfL : f ∈ L := (memL f).mpr ⟨a, c, d⟩
      rw [hPC] at hfL
      rcases List.mem_append.mp hfL with h | h
      · exact h
      · rcases List.mem_cons.mp h with h | h
        · exact absurd h hne
        · exact absurd (lowC f h).2 (I.low_asymm a he hne hlow)
  have ndP : P.Nodup := by
    rw [hPC, List.nodup_append] at ndL
    exact ndL.1
  have permP : (E.filter fun e => e.Under X).Perm P := by
    refine (List.perm_ext_iff_of_nodup ((planar_nodup I.planar I.dir).filter _) ndP).mpr ?_
    intro e; rw [memP, List.mem_filter]; simp
  have hin : insideMask E X = xorAll (masks P) := by
    rw [insideMask_filter]; exact xorAll_perm (permP.map Edge.member)
  rw [hPC] at ann
  have hm := (annot_mid (A := P) (B := [e]) (C := C) (by simpa using ann)).2.1
  simp only [List.map_cons, List.map_nil, masks, annot, rho, List.cons.injEq, and_true, REdge.mk.injEq, true_and] at hm
  rw [hin, hm.2]
  rfl

/-- a point of an edge that is not vertical is determined by its position -/
theorem on_unique {e : Edge} (h : e.left.x < e.rigt.x) {x y y' : ℚ} (h1 : e.On (x, y)) (h2 : e.On (x, y')) : y = y' := by
  obtain ⟨s, s0, s1, sx, sy⟩ := h1
  obtain ⟨u, u0, u1, ux, uy⟩ := h2
  have hd : (e.rigt.pt.1 - e.left.pt.1) ≠ 0 := by
    have : (e.left.x : ℚ) < e.rigt.x := by exact_mod_cast h
    simp only [Vec2.pt]; intro hc; linarith
  have hsu : s = u := mul_right_cancel₀ hd (by simp only at sx ux; linarith)
  simp only at sy uy
  rw [sy, uy, hsu]

theorem on_bounds {e : Edge} (h : LexLt e.left e.rigt) {X : Pt} (ho : e.On X) :
    (e.left.x : ℚ) ≤ X.1 ∧ X.1 ≤ e.rigt.x := by
  obtain ⟨s, s0, s1, sx, sy⟩ := ho
  have hx : (e.left.x : ℚ) ≤ e.rigt.x := by exact_mod_cast h.le_x
  simp only [Vec2.pt] at sx
  rw [sx]
  have a := mul_nonneg s0 (sub_nonneg.mpr hx)
  have b := mul_nonneg (sub_nonneg.mpr s1) (sub_nonneg.mpr hx)
  constructor <;> nlinarith

/-- an edge is kept iff the value of the function differs below and above the edge -/
theorem edge_kept {comb : Bitmap.Mem} {n : Nat} (hn : n ≤ 10) {E : List Edge} {vs : List RV} (I : RIn n E vs) {sf : RS}
    {out : List RV} (hf : reduceLoop comb (2 ^ n) ⟨.leaf, fun _ => 0, fun _ => false⟩ vs = some (sf, out))
    {e : Edge} (he : e ∈ E) (X : Pt) (ho : e.On X) (hX : ¬ e.End X) :
    sf.keep e = (bfun comb (insideMask E X) != bfun comb (insideMask E X ^^^ e.member)) := by
  have hdir := (I.dir e he).1
  obtain ⟨b1, b2⟩ := on_bounds hdir ho
  rcases lt_or_eq_of_le hdir.le_x with hv | hv
  · -- not vertical
    have n1 : (e.left.x : ℚ) ≠ X.1 := by
      intro h
      have hy := on_unique hv (x := X.1) (y := X.2) (y' := e.left.y) ho (by rw [← h]; exact on_left e)
      exact hX (Or.inl (pt_ext h.symm hy))
    have n2 : X.1 ≠ (e.rigt.x : ℚ) := by
      intro h
      have hy := on_unique hv (x := X.1) (y := X.2) (y' := e.rigt.y) ho (by rw [h]; exact on_rigt e)
      exact hX (Or.inr (pt_ext h hy))
    have b1' := lt_of_le_of_ne b1 n1
    have b2' := lt_of_le_of_ne b2 n2
    refine kept_iff hn I hf (fun p => (p.x : ℚ) ≤ X.1) ?_ he b1 (not_le.mpr b2') X ?_ ?_
    · intro a b hab hb
      have : (a.x : ℚ) ≤ b.x := by exact_mod_cast hab.le_x
      linarith
    · intro f hfE hne d1 d2 hlow
      obtain ⟨y, hy⟩ := point_over (e := f) X.1 d1 (not_le.mp d2).le
      refine ⟨d1, not_le.mp d2, y, hy, ?_⟩
      rcases lt_trichotomy y X.2 with h | h | h
      · exact h
      · rw [h] at hy
        exact absurd (planar_pair I.planar he hfE (Ne.symm hne) X ho hy).1 hX
      · exact absurd ⟨X.1, X.2, y, ho, hy, h⟩ hlow
    · rintro f hfE ⟨u1, u2, y, hy, u3⟩
      refine ⟨?_, u1, not_le.mpr u2, ⟨X.1, y, X.2, hy, ho, u3⟩⟩
      rintro rfl
      exact u3.ne (on_unique hv hy ho)
  · -- vertical
    have hx1 : X.1 = e.left.x := by
      have : (e.left.x : ℚ) = e.rigt.x := by exact_mod_cast hv
      linarith
    have hey : e.left.y < e.rigt.y := by unfold LexLt at hdir; omega
    have heyq : (e.left.y : ℚ) < e.rigt.y := by exact_mod_cast hey
    have on_v : ∀ y : ℚ, (e.left.y : ℚ) ≤ y → y ≤ e.rigt.y → e.On (X.1, y) := by
      intro y h1 h2
      have hd : (0 : ℚ) < e.rigt.y - e.left.y := by linarith
      refine ⟨(y - e.left.y) / (e.rigt.y - e.left.y), div_nonneg (by linarith) hd.le, ?_, ?_, ?_⟩
      · rw [div_le_one hd]; linarith
      · simp only [Vec2.pt]; rw [hx1, hv]; ring
      · simp only [Vec2.pt]; field_simp; ring
    obtain ⟨y1, y2⟩ : (e.left.y : ℚ) < X.2 ∧ X.2 < e.rigt.y := by
      obtain ⟨s, s0, s1, sx, sy⟩ := ho
      simp only [Vec2.pt] at sy
      have t0 : 0 < s := lt_of_le_of_ne s0 (by
        rintro rfl
        exact hX (Or.inl (pt_ext hx1 (by rw [sy]; simp [Vec2.pt]))))
      have t1 : s < 1 := lt_of_le_of_ne s1 (by
        rintro rfl
        exact hX (Or.inr (pt_ext (by rw [hx1, hv]; rfl) (by rw [sy]; simp [Vec2.pt]))))
      have hd : (0 : ℚ) < e.rigt.y - e.left.y := by linarith
      have a := mul_pos t0 hd
      have b := mul_pos (sub_pos.mpr t1) hd
      rw [sy]
      constructor <;> nlinarith
    refine kept_iff hn I hf (fun p => ¬ LexLt e.left p) ?_ he (LexLt.irrefl _) (not_not.mpr hdir) X ?_ ?_
    · intro a b hab hb hc
      exact hb (hc.trans hab)
    · intro f hfE hne d1 d2 hlow
      have d2' : LexLt e.left f.rigt := not_not.mp d2
      have hfx : e.left.x < f.rigt.x := by
        rcases d2' with h | ⟨h, h'⟩
        · exact h
        · exfalso
          refine hlow ⟨X.1, e.left.y, f.rigt.y, on_v _ le_rfl heyq.le, ?_, by exact_mod_cast h'⟩
          rw [hx1, h]; exact on_rigt f
      have hfl : f.left.x ≤ e.left.x := by
        by_contra hc
        exact d1 (Or.inl (by omega))
      have u1 : (f.left.x : ℚ) ≤ X.1 := by rw [hx1]; exact_mod_cast hfl
      have u2 : X.1 < f.rigt.x := by rw [hx1]; exact_mod_cast hfx
      obtain ⟨y, hy⟩ := point_over (e := f) X.1 u1 u2.le
      refine ⟨u1, u2, y, hy, ?_⟩
      by_contra hc
      exact hlow ⟨X.1, e.left.y, y, on_v _ le_rfl heyq.le, hy, by linarith⟩
    · rintro f hfE ⟨u1, u2, y, hy, u3⟩
      have u1' : f.left.x ≤ e.left.x := by
        have : (f.left.x : ℚ) ≤ e.left.x := by rw [← hx1]; exact u1
        exact_mod_cast this
      have u2' : e.left.x < f.rigt.x := by
        have : (e.left.x : ℚ) < f.rigt.x := by rw [← hx1]; exact u2
        exact_mod_cast this
      have hne : f ≠ e := by rintro rfl; omega
      refine ⟨hne, ?_, not_not.mpr (Or.inl u2'), ⟨X.1, y, X.2, hy, ho, u3⟩⟩
      intro hc
      rcases hc with h | ⟨h, h'⟩
      · omega
      · have hyl : y = f.left.y := on_unique (by omega) hy (by rw [hx1, h]; exact on_left f)
        have l1 : (e.left.y : ℚ) < y := by rw [hyl]; exact_mod_cast h'
        have hone := on_v y l1.le (by linarith)
        have hend := (planar_pair I.planar he hfE (Ne.symm hne) _ hone hy).1
        rcases hend with h | h
        · have : y = e.left.y := congrArg Prod.snd h
          linarith
        · have : y = e.rigt.y := congrArg Prod.snd h
          linarith

theorem region {comb : Bitmap.Mem} {n : Nat} (hn : n ≤ 10) {E : List Edge} {vs : List RV} (I : RIn n E vs) {sf : RS}
    {out : List RV} (hf : reduceLoop comb (2 ^ n) ⟨.leaf, fun _ => 0, fun _ => false⟩ vs = some (sf, out)) (X : Pt)
    (hX : ∀ e ∈ E, ¬ e.On X) :
    oddBelow (E.filter sf.keep) X = (bfun comb (insideMask E X) != bfun comb 0) := by
  obtain ⟨L, memL', low', hLnd, annL⟩ := at_line hn I hf (fun p => (p.x : ℚ) ≤ X.1) (by
    intro a b hab hb
    have : (a.x : ℚ) ≤ b.x := by exact_mod_cast hab.le_x
    linarith)
  have memL : ∀ e, e ∈ L ↔ e ∈ E ∧ (e.left.x : ℚ) ≤ X.1 ∧ X.1 < e.rigt.x := by
    intro e; rw [memL' e]; simp only [not_le]
  have tri : ∀ e ∈ L, Blw e X ∨ Abv e X := by
    intro e he
    obtain ⟨a, b, c⟩ := (memL e).mp he
    obtain ⟨y, hy⟩ := point_over (e := e) X.1 b c.le
    rcases lt_trichotomy y X.2 with h | h | h
    · exact Or.inl ⟨y, hy, h⟩
    · rw [h] at hy; exact absurd hy (hX e a)
    · exact Or.inr ⟨y, hy, h⟩
  have s1 := split_sorted (fun e : Edge => ¬ Blw e X) L (by
    refine List.Pairwise.imp_of_mem ?_ low'
    rintro e f he hf' ⟨hne, hl⟩ h1 h2
    refine I.low_asymm ((memL e).mp he).1 ((memL f).mp hf').1 hne hl (Blw.low h2 (Or.inr ?_))
    exact (tri e he).resolve_left h1)
  obtain ⟨P, hP⟩ : ∃ P, P = L.filter (fun e => ¬ ¬ Blw e X) := ⟨_, rfl⟩
  obtain ⟨Q, hQ⟩ : ∃ P, P = L.filter (fun e => ¬ Blw e X) := ⟨_, rfl⟩
  rw [← hP, ← hQ] at s1
  have memP : ∀ e, e ∈ P ↔ e ∈ E ∧ e.Under X := by
    intro e
    rw [hP, List.mem_filter, memL]
    unfold Edge.Under Blw
    simp only [not_not, decide_eq_true_eq]
    tauto
  have ndP : P.Nodup := by rw [hP]; exact hLnd.filter _
  have ndE := planar_nodup I.planar I.dir
  have permP : (E.filter fun e => e.Under X).Perm P := by
    refine (List.perm_ext_iff_of_nodup (ndE.filter _) ndP).mpr ?_
    intro e; rw [memP, List.mem_filter]; simp
  have hin : insideMask E X = xorAll (masks P) := by
    rw [insideMask_filter]; exact xorAll_perm (permP.map Edge.member)
  have ann := annL
  rw [s1] at ann
  have annP := (annot_mid (A := P) (B := Q) (C := []) (by simpa using ann)).1
  have par := annot_parity (bfun comb) 0 (masks P)
  rw [← annP, ← kept_count] at par
  have permK : ((E.filter sf.keep).filter fun e => e.Under X).Perm (P.filter sf.keep) := by
    have := permP.filter (p := sf.keep)
    rw [List.filter_filter] at this ⊢
    refine List.Perm.trans (List.Perm.of_eq ?_) this
    apply List.filter_congr
    intro e _
    rw [Bool.and_comm]
  unfold oddBelow
  rw [permK.length_eq, par, hin]
  rw [BitVec.ofNat_eq_ofNat, BitVec.zero_xor]
  generalize bfun comb (xorAll (masks P)) = x
  generalize bfun comb 0#64 = y
  cases x <;> cases y <;> rfl

end

end Hob3l.Sweep
