import Verif.Tri.LemmasInv

/-!
The three cases keep the invariant.
-/

namespace Hob3l.Tri

open Hob3l.Poly (P Vtx Err ass Ins cross3 vec2Cmp treeNext treePrev Small crossI cross3_eq Lt Started Ended Below sg Proper Arranged
  IsSearch Seg sh sg_ok sg_apart end_at side_eq cross_sh y_left y_right mem_started tree_has before_of proper_next started_snoc ended_snoc)

section
variable {ed : Nat → Bool → P} {l : List Vtx}

theorem end_y (hl : Proper l) (ha : Arranged ed l) {f : Nat} (hf : Started l f) {v : P} (hv : ed f false = v ∨ ed f true = v) :
    (sg ed f).has (sh v).1 ∧ (sg ed f).y (sh v).1 = (sh v).2 := by
  have k := sg_ok hl ha hf
  have k' := k
  unfold Seg.ok at k'
  rcases hv with rfl | rfl
  · exact ⟨⟨le_refl _, k'.le⟩, y_left _⟩
  · exact ⟨⟨k'.le, le_refl _⟩, y_right k⟩

theorem side_cr (hl : Proper l) (ha : Arranged ed l) {e : Nat} (he : Started l e) (v : P) :
    (((sh v).2 - (sg ed e).y (sh v).1) * ((sg ed e).2.1 - (sg ed e).1.1)) = Poly.K * (cr false (ed e true) (ed e false) v : ℚ) := by
  rw [← side_eq (sg_ok hl ha he) (sh v)]
  have e1 : crossI v (ed e true) (ed e false) = crossI (ed e true) (ed e false) v := by unfold crossI; ring
  have := cross_sh v (ed e true) (ed e false)
  rw [e1] at this
  exact this

theorem vis_lo (hl : Proper l) (ha : Arranged ed l) {e f : Nat} (he : Started l e) (hf : Started l f) (hne : e ≠ f)
    (hb : Below (sg ed e) (sg ed f)) {v : P} (hsv : Small v) (hv : ed f false = v ∨ ed f true = v) (hx : (sg ed e).has (sh v).1)
    (h0 : v ≠ ed e false) (h1 : v ≠ ed e true) : 0 < cr false (ed e true) (ed e false) v := by
  obtain ⟨hy1, hy2⟩ := end_y hl ha hf hv
  have hap := sg_apart hl ha he hf hne
  have hle := hb.le hap hx hy1
  rw [hy2] at hle
  have hlt : (sg ed e).y (sh v).1 < (sh v).2 := by
    refine lt_of_le_of_ne hle fun hc => ?_
    rcases end_at hl ha he hsv (hap _ hx hy1 (by rw [hy2]; exact hc)).1 with hc | hc
    · exact h0 hc.symm
    · exact h1 hc.symm
  have hk := sg_ok hl ha he
  unfold Seg.ok at hk
  have := side_cr hl ha he v
  have hp : (0 : ℚ) < Poly.K * (cr false (ed e true) (ed e false) v : ℚ) := by
    rw [← this]; exact mul_pos (by linarith) (by linarith)
  have := pos_of_mul_pos_right hp Poly.K_pos.le
  exact_mod_cast this

theorem vis_hi (hl : Proper l) (ha : Arranged ed l) {e f : Nat} (he : Started l e) (hf : Started l f) (hne : e ≠ f)
    (hb : Below (sg ed e) (sg ed f)) {v : P} (hsv : Small v) (hv : ed e false = v ∨ ed e true = v) (hx : (sg ed f).has (sh v).1)
    (h0 : v ≠ ed f false) (h1 : v ≠ ed f true) : 0 < cr true (ed f true) (ed f false) v := by
  obtain ⟨hy1, hy2⟩ := end_y hl ha he hv
  have hap := sg_apart hl ha he hf hne
  have hle := hb.le hap hy1 hx
  rw [hy2] at hle
  have hlt : (sh v).2 < (sg ed f).y (sh v).1 := by
    refine lt_of_le_of_ne hle fun hc => ?_
    rcases end_at hl ha hf hsv (hap _ hy1 hx (by rw [hy2]; exact hc)).2 with hc | hc
    · exact h0 hc.symm
    · exact h1 hc.symm
  have hk := sg_ok hl ha hf
  unfold Seg.ok at hk
  have := side_cr hl ha hf v
  have hp : Poly.K * (cr false (ed f true) (ed f false) v : ℚ) < 0 := by
    rw [← this]; exact mul_neg_of_neg_of_pos (by linarith) (by linarith)
  have hn : (cr false (ed f true) (ed f false) v : ℚ) < 0 := by
    by_contra hc
    rw [not_lt] at hc
    have := mul_nonneg Poly.K_pos.le hc
    linarith
  have hn' : cr false (ed f true) (ed f false) v < 0 := by exact_mod_cast hn
  have e := cr_not false (ed f true) (ed f false) v
  simp only [Bool.not_false] at e
  omega

theorem started_mono {pre rest : List Vtx} (h : l = pre ++ rest) {g : Nat} (hg : Started pre g) : Started l g := by
  obtain ⟨v, hv, e1, e2⟩ := hg; exact ⟨v, by rw [h]; simp [hv], e1, e2⟩

/-- the edges in the tree start to the left of a right end -/
theorem tree_lt (hl : Proper l) (ha : Arranged ed l) {pre rest : List Vtx} {s : Vtx} (h : l = pre ++ s :: rest) (hs : s.rigt = true)
    {g : Nat} (hg : Started pre g) : Lt (ed g false) s.pos := by
  obtain ⟨w, hw, e1, e2⟩ := hg
  have hwl : w ∈ l := by rw [h]; simp [hw]
  have := before_of hl ha h hw (List.mem_cons_self : s ∈ s :: rest)
  rw [← e1, ← e2, ha.ends w hwl]
  rcases this with h1 | ⟨-, h1 | h1⟩
  · exact h1
  · rw [e2] at h1; cases h1.1
  · rw [e2, hs] at h1; cases h1.1

theorem edge_ne (hl : Proper l) (ha : Arranged ed l) {pre rest : List Vtx} {s t : Vtx} (h : l = pre ++ s :: t :: rest)
    (hpos : s.pos = t.pos) : s.edge ≠ t.edge := by
  intro hc
  have hl2 : Proper ((pre ++ [s]) ++ t :: rest) := by rw [List.append_assoc]; exact h ▸ hl
  have hsl : s ∈ l := by rw [h]; simp
  have htl : t ∈ l := by rw [h]; simp
  cases ht : t.rigt with
  | false =>
    obtain ⟨q1, q2⟩ := (proper_next hl2).1 ht
    cases hs : s.rigt with
    | false => exact q1 (started_snoc.2 (.inr ⟨hc, hs⟩))
    | true => exact q2 (ended_snoc.2 (.inr ⟨hc, hs⟩))
  | true =>
    obtain ⟨-, q2⟩ := (proper_next hl2).2 ht
    cases hs : s.rigt with
    | false =>
      have e1 := ha.ends s hsl
      have e2 := ha.ends t htl
      rw [hs] at e1
      rw [ht, ← hc] at e2
      have := sg_ok hl ha (mem_started hl hsl)
      unfold Seg.ok sg at this
      simp only at this
      rw [e1, e2, hpos] at this
      exact lt_irrefl _ this
    | true => exact q2 (ended_snoc.2 (.inr ⟨hc, hs⟩))

end

/-! ### the paths in the tree -/

theorem bt_cons (a : Arm) (X : List Arm) : bt (a :: X) = a.b :: a.t :: bt X := rfl

theorem bt_nodup {s : St} : ∀ {arms : List Arm}, (∀ a ∈ arms, AI s a) → (us arms).Nodup → (bt arms).Nodup
  | [], _, _ => by simp [bt]
  | a :: X, h, hn => by
    rw [us_cons, List.nodup_append] at hn
    rw [bt_cons]
    have ih := bt_nodup (fun x hx => h x (List.mem_cons_of_mem _ hx)) hn.2.1
    have ha := h a List.mem_cons_self
    have hX : ∀ e ∈ bt X, e ∈ us X := fun e he => mem_bt_us (fun x hx => h x (List.mem_cons_of_mem _ hx)) he
    rw [List.nodup_cons, List.nodup_cons, List.mem_cons]
    refine ⟨?_, fun hc => hn.2.2 _ ha.mem_t _ (hX _ hc) rfl, ih⟩
    rintro (hc | hc)
    · exact ha.bt_ne hc
    · exact hn.2.2 _ ha.mem_b _ (hX _ hc) rfl

theorem bt_mem {arms : List Arm} {e : Nat} (h : e ∈ bt arms) : ∃ L a R, arms = L ++ [a] ++ R ∧ (e = a.b ∨ e = a.t) := by
  obtain ⟨a, ha, h1⟩ := List.mem_flatMap.1 h
  obtain ⟨L, R, rfl⟩ := List.append_of_mem ha
  exact ⟨L, a, R, by simp, by simpa using h1⟩

theorem bt_split : ∀ {arms : List Arm} {A B : List Nat}, bt arms = A ++ B →
    (∃ L R, arms = L ++ R ∧ A = bt L ∧ B = bt R) ∨ ∃ L a R, arms = L ++ [a] ++ R ∧ A = bt L ++ [a.b] ∧ B = a.t :: bt R
  | [], A, B, h => by
    left
    have : A = [] ∧ B = [] := by simpa [bt] using h.symm
    exact ⟨[], [], rfl, this.1, this.2⟩
  | a :: arms, [], B, h => .inl ⟨[], a :: arms, rfl, rfl, h.symm⟩
  | a :: arms, [x], B, h => by
    rw [bt_cons] at h
    simp only [List.cons_append, List.nil_append, List.cons.injEq] at h
    exact .inr ⟨[], a, arms, rfl, by simp [bt, h.1], h.2.symm⟩
  | a :: arms, x :: y :: A, B, h => by
    rw [bt_cons] at h
    simp only [List.cons_append, List.cons.injEq] at h
    obtain ⟨h1, h2, h3⟩ := h
    rcases bt_split h3 with ⟨L, R, e1, e2, e3⟩ | ⟨L, a', R, e1, e2, e3⟩
    · exact .inl ⟨a :: L, R, by rw [e1]; rfl, by rw [bt_cons, ← e2, h1, h2], e3⟩
    · exact .inr ⟨a :: L, a', R, by rw [e1]; rfl, by rw [bt_cons, List.cons_append, List.cons_append, ← e2, h1, h2], e3⟩

theorem bt_pair {arms : List Arm} {A B : List Nat} {t s : Nat} (h : bt arms = A ++ t :: s :: B) :
    (∃ L a R, arms = L ++ [a] ++ R ∧ t = a.b ∧ s = a.t ∧ A = bt L ∧ B = bt R) ∨
    ∃ L a1 a2 R, arms = L ++ [a1, a2] ++ R ∧ t = a1.t ∧ s = a2.b ∧ A = bt L ++ [a1.b] ∧ B = a2.t :: bt R := by
  rcases bt_split h with ⟨L, R, e1, e2, e3⟩ | ⟨L, a, R, e1, e2, e3⟩
  · cases R with
    | nil => cases e3
    | cons a R =>
      rw [bt_cons] at e3
      simp only [List.cons.injEq] at e3
      exact .inl ⟨L, a, R, by rw [e1]; simp, e3.1, e3.2.1, e2, e3.2.2⟩
  · cases R with
    | nil => simp [bt] at e3
    | cons a' R =>
      rw [bt_cons] at e3
      simp only [List.cons.injEq] at e3
      exact .inr ⟨L, a, a', R, by rw [e1]; simp, e3.1, e3.2.1, e2, e3.2.2⟩

theorem bt_last : ∀ {L : List Arm} {er : Nat}, (bt L).getLast? = some er → ∃ a ∈ L, er = a.t
  | [], er, h => by cases h
  | [a], er, h => ⟨a, by simp, by simpa [bt] using h.symm⟩
  | a :: b :: L, er, h => by
    have : bt (a :: b :: L) = [a.b, a.t] ++ bt (b :: L) := rfl
    rw [this, List.getLast?_append] at h
    cases h2 : (bt (b :: L)).getLast? with
    | none => rw [List.getLast?_eq_none_iff, bt_cons] at h2; cases h2
    | some x =>
      rw [h2] at h
      obtain ⟨c, hc, e⟩ := bt_last h2
      refine ⟨c, by simp [List.mem_cons.1 hc], ?_⟩
      rw [← e]; simpa using h.symm

theorem replace_id {x y : Nat} {L : List Nat} (h : x ∉ L) : (L.map fun z => if z = x then y else z) = L := by
  conv_rhs => rw [← List.map_id L]
  apply List.map_congr_left
  intro z hz
  rw [if_neg (fun hc => h (by rw [← hc]; exact hz))]
  rfl

theorem len_le {L : List Nat} {n : Nat} (h : L.Nodup) (hl : ∀ e ∈ L, e < n) : L.length ≤ n := by
  have := (List.subperm_of_subset h (fun e he => List.mem_range.2 (hl e he) : L ⊆ List.range n)).length_le
  rwa [List.length_range] at this

section
variable {ed : Nat → Bool → P} {l : List Vtx}

/-- what an event keeps -/
def Keep (m s' : St) (pre : List Vtx) : Prop := (∀ e, Started pre e → s'.back e = m.back e) ∧ s'.points = m.points

theorem ch_keep {n0 : Nat} {m s' : St} {v : P} {pre : List Vtx} {arms X Y : List Arm} {F : List Nat} {c : (P → P → Int) → Int}
    (h : Inv0 ed n0 m v pre arms) (hc : Ch ed m s' v F X Y c) (hlt : ∀ e, Started pre e → e < n0)
    (hF : ∀ e ∈ F, e < n0 ∧ ¬ Started pre e) : Keep m s' pre :=
  ⟨fun e he => ((hc.old e (by have := hlt e he; have := h.new.1; omega)).2.2 (fun hf => (hF e hf).2 he)).1, hc.points⟩

theorem bend_inv (hl : Proper l) (ha : Arranged ed l) {n0 : Nat} (hn : ∀ w ∈ l, w.edge < n0) {m : St} {pre rest : List Vtx}
    {arms : List Arm} {s t : Vtx} {fuel : Nat} (h : Inv0 ed n0 m s.pos pre arms) (hpre : l = pre ++ s :: t :: rest)
    (hpos : s.pos = t.pos) (hs : s.rigt = true) (hr : t.rigt = false) (hfuel : n0 + l.length ≤ fuel)
    (he : Ev m s.pos s.edge t.edge s.rigt t.rigt) (hlast : m.last = s.pos) (hpl : m.points.getLast? = some s.pos)
    (hopen : ∀ e ∈ m.tree, (e = s.edge → s.rigt = false) → (e = t.edge → t.rigt = false) → m.idx e true = none) :
    ∃ s' arms', bend fuel m s t = .ok s' ∧ Inv ed n0 s' (pre ++ [s, t]) arms' ∧ Keep m s' pre := by
  have hsl : s ∈ l := by rw [hpre]; simp
  have htl : t ∈ l := by rw [hpre]; simp
  have hl1 : Proper (pre ++ s :: (t :: rest)) := hpre ▸ hl
  have hl2 : Proper ((pre ++ [s]) ++ t :: rest) := by rw [List.append_assoc]; exact hpre ▸ hl
  obtain ⟨sS, sE⟩ := (proper_next hl1).2 hs
  obtain ⟨tS, tE⟩ := (proper_next hl2).1 hr
  rw [started_snoc, not_or] at tS
  rw [ended_snoc, not_or] at tE
  have hst : s.edge ∈ m.tree := (h.mem _).2 ⟨sS, sE⟩
  have htt : t.edge ∉ m.tree := fun hc => tS.1 ((h.mem _).1 hc).1
  have hne := he.ne
  have sl : ∀ {g : Nat}, g ∈ m.tree → Started l g := fun hg => started_mono hpre ((h.mem _).1 hg).1
  have hlt : ∀ {g : Nat}, g ∈ m.tree → Lt (ed g false) s.pos := fun hg => tree_lt hl ha hpre hs ((h.mem _).1 hg).1
  have hhas : ∀ {g : Nat}, g ∈ m.tree → (sg ed g).has (sh s.pos).1 := fun hg => tree_has hl ha hpre ((h.mem _).1 hg).1 ((h.mem _).1 hg).2
  have hsp : Small s.pos := ha.small s hsl
  have es : ed s.edge true = s.pos := by rw [← hs]; exact ha.ends s hsl
  have et : ed t.edge false = s.pos := by rw [← hr, hpos]; exact ha.ends t htl
  have hx : s.edge ∈ bt arms := by rw [← h.tree]; exact hst
  obtain ⟨L, a, R, rfl, hab⟩ := bt_mem hx
  have hai : ∀ x ∈ L ++ [a] ++ R, AI m x := fun x hx => (h.ai x hx).1
  have hnd : (bt (L ++ [a] ++ R)).Nodup := bt_nodup hai h.dj
  obtain ⟨i1, i2⟩ := h.ai a (by simp)
  have hbt : bt (L ++ [a] ++ R) = bt L ++ a.b :: a.t :: bt R := by rw [bt_append, bt_append]; simp [bt]
  have hb1 : a.b ∈ m.tree := by rw [h.tree, hbt]; simp
  have hb2 : a.t ∈ m.tree := by rw [h.tree, hbt]; simp
  have hbel := h.below
  have hbta : Below (sg ed a.b) (sg ed a.t) := by
    rw [h.tree, hbt, List.pairwise_append] at hbel
    exact (List.pairwise_cons.1 hbel.2.1).1 _ (by simp)
  have hnu : t.edge ∉ us (L ++ [a] ++ R) := by
    intro hc
    rcases (h.own _ hc).1 with hc | hc
    · exact tS.1 hc
    · have := hn t htl; omega
  have hnua : t.edge ∉ ues a.U := fun hc => hnu (mem_us.2 ⟨a, by simp, hc⟩)
  have hlen : a.U.length ≤ fuel := by
    have h1 := len_ues a.U
    have h2 := len_le i1.nodup (fun e he => (h.own e (mem_us.2 ⟨a, by simp, he⟩)).2)
    have h3 := h.new.2
    have h4 : pre.length ≤ l.length := by rw [hpre]; simp
    omega
  have hfr := h.fresh t.edge (hn t htl) tS.1
  have hSt : ∀ e, Started (pre ++ [s, t]) e ↔ Started pre e ∨ e ∈ [t.edge] := by
    intro e
    rw [show pre ++ [s, t] = pre ++ [s] ++ [t] by simp, started_snoc, started_snoc, hs, hr]
    simp [eq_comm]
  have hEn : ∀ e, Ended (pre ++ [s, t]) e ↔ Ended pre e ∨ e = s.edge := by
    intro e
    rw [show pre ++ [s, t] = pre ++ [s] ++ [t] by simp, ended_snoc, ended_snoc, hs, hr]
    simp [eq_comm]
  have hmem : ∀ e, (e ∈ m.tree.map fun x => if x = s.edge then t.edge else x) ↔
      Started (pre ++ [s, t]) e ∧ ¬ Ended (pre ++ [s, t]) e := by
    intro e
    rw [Poly.mem_replace hst, h.mem, hSt, hEn, List.mem_singleton]
    constructor
    · rintro (⟨⟨q1, q2⟩, q3⟩ | rfl)
      · exact ⟨.inl q1, by tauto⟩
      · exact ⟨.inr rfl, by rw [not_or]; exact ⟨tE.1, hne.symm⟩⟩
    · rintro ⟨q1 | q1, q2⟩
      · rw [not_or] at q2; exact .inl ⟨⟨q1, q2.1⟩, q2.2⟩
      · exact .inr q1
  have hbel' : (m.tree.map fun x => if x = s.edge then t.edge else x).Pairwise fun e f => Below (sg ed e) (sg ed f) := by
    rw [List.pairwise_map]
    have hnd' : m.tree.Pairwise fun a b => a ≠ b := by rw [h.tree]; exact hnd
    refine List.Pairwise.imp_of_mem ?_ (h.below.and hnd')
    rintro e f he hf ⟨hef, hneq⟩
    have be := fun (x : Nat) (hx : x ∈ m.tree) (hxs : x ≠ s.edge) =>
      Poly.bend_below hl ha hpre hpos hs hr ((h.mem x).1 hx).1 ((h.mem x).1 hx).2 hxs
    by_cases h3 : e = s.edge
    · rw [if_pos h3, if_neg (fun hc => hneq (by rw [h3, hc]))]
      rw [h3] at hef
      exact (be f hf (fun hc => hneq (by rw [h3, hc]))).2 hef
    · rw [if_neg h3]
      by_cases h4 : f = s.edge
      · rw [if_pos h4]
        rw [h4] at hef
        exact (be e he h3).1 hef
      · rw [if_neg h4]; exact hef
  have hFp : ∀ e ∈ [t.edge], e < n0 ∧ ¬ Started pre e := by
    intro e he
    rw [List.mem_singleton] at he
    subst he
    exact ⟨hn t htl, tS.1⟩
  have hltn : ∀ e, Started pre e → e < n0 := by
    rintro e ⟨w, hw, rfl, -⟩
    exact hn w (by rw [hpre]; simp [hw])
  have hpreS : ∀ w ∈ pre, Started pre w.edge := by
    intro w hw
    cases hwr : w.rigt with
    | false => exact ⟨w, hw, rfl, hwr⟩
    | true =>
      obtain ⟨A, B, rfl⟩ := List.append_of_mem hw
      rw [List.append_assoc] at hl1
      obtain ⟨x, hx, q⟩ := ((proper_next hl1).2 hwr).1
      exact ⟨x, by simp [hx], q⟩
  have hop : ∀ e ∈ (m.tree.map fun x => if x = s.edge then t.edge else x), e ∉ [t.edge] → m.idx e true = none := by
    intro e he hF
    rw [Poly.mem_replace hst] at he
    rw [List.mem_singleton] at hF
    obtain ⟨q1, q2⟩ := he.resolve_right hF
    exact hopen e q1 (fun hc => absurd hc q2) (fun _ => hr)
  have hs' : s = ⟨s.edge, true, s.pos⟩ := by rw [← hs]
  have ht' : t = ⟨t.edge, false, s.pos⟩ := by rw [← hr, hpos]
  rw [hs, hr] at he
  rcases hab with hab | hab
  · -- the lower edge
    obtain ⟨s', a', q1, q2, q3, q4, q5⟩ := ch_bend_lo (fuel := fuel) i1 i2 (hab ▸ he) hnua hfr hb1 htt
      (hopen a.t hb2 (fun hc => absurd (hc.trans hab) i1.bt_ne.symm) (fun _ => hr)) h.small (by rw [← hab]; exact es) et (hlt hb1) (hlt hb2)
      (fun hv => vis_hi hl ha (sl hb1) (sl hb2) i1.bt_ne hbta hsp (.inr (by rw [← hab]; exact es)) (hhas hb2)
        (fun hc => Poly.Lt.irrefl (hc ▸ hlt hb2)) hv) hlen
    rw [← hab] at q1 q4 q5
    refine ⟨s', L ++ [a'] ++ R, ?_, ?_, ch_keep h q5 hltn hFp⟩
    · rw [hs', ht']; exact q1
    · refine inv_step h q5 hltn hFp hSt ?_ (by rw [q4]; exact hmem) (by rw [q4]; exact hbel') (by rw [q4]; exact hop) hlast hpl rfl hpos.symm hpreS ?_
      · rw [q4, h.tree, hbt, bt_append, bt_append]
        rw [hbt] at hnd
        rw [List.nodup_append] at hnd
        obtain ⟨-, n2, n3⟩ := hnd
        rw [List.nodup_cons] at n2
        rw [List.map_append, List.map_cons, if_pos hab.symm, replace_id (fun hc => n3 _ hc _ List.mem_cons_self hab),
          replace_id (by rw [hab]; exact n2.1)]
        simp [bt, q2, q3]
      · intro f _
        unfold endF
        rw [hs, hr]
        have : s'.back s.edge = true := by
          rw [((q5.old s.edge (by have := h.new.1; have := hn s hsl; omega)).2.2 (by simpa using hne)).1, hab]
          exact i1.bb
        simp only [if_true, Bool.false_eq_true, if_false, this, Bool.not_true, es]
        ring
  · obtain ⟨s', a', q1, q2, q3, q4, q5⟩ := ch_bend_hi (fuel := fuel) i1 i2 (hab ▸ he) hnua hfr hb2 htt
      (hopen a.b hb1 (fun hc => absurd (hc.trans hab) i1.bt_ne) (fun _ => hr)) h.small (by rw [← hab]; exact es) et (hlt hb2) (hlt hb1)
      (fun hv => vis_lo hl ha (sl hb1) (sl hb2) i1.bt_ne hbta hsp (.inr (by rw [← hab]; exact es)) (hhas hb1)
        (fun hc => Poly.Lt.irrefl (hc ▸ hlt hb1)) hv) hlen
    rw [← hab] at q1 q4 q5
    refine ⟨s', L ++ [a'] ++ R, ?_, ?_, ch_keep h q5 hltn hFp⟩
    · rw [hs', ht']; exact q1
    · refine inv_step h q5 hltn hFp hSt ?_ (by rw [q4]; exact hmem) (by rw [q4]; exact hbel') (by rw [q4]; exact hop) hlast hpl rfl hpos.symm hpreS ?_
      · rw [q4, h.tree, hbt, bt_append, bt_append]
        rw [hbt] at hnd
        rw [List.nodup_append] at hnd
        obtain ⟨-, n2, n3⟩ := hnd
        rw [List.nodup_cons, List.nodup_cons] at n2
        rw [List.map_append, List.map_cons, List.map_cons, if_neg (by rw [hab]; exact i1.bt_ne), if_pos hab.symm,
          replace_id (fun hc => n3 _ hc a.t (by simp) hab), replace_id (by rw [hab]; exact n2.2.1)]
        simp [bt, q2, q3]
      · intro f _
        unfold endF
        rw [hs, hr]
        have : s'.back s.edge = false := by
          rw [((q5.old s.edge (by have := h.new.1; have := hn s hsl; omega)).2.2 (by simpa using hne)).1, hab]
          exact i1.bt
        simp only [if_true, Bool.false_eq_true, if_false, this, Bool.not_false, es]
        ring

end

end Hob3l.Tri
