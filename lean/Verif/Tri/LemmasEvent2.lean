import Verif.Tri.LemmasEvent

/-!
START and END keep the invariant.
-/

namespace Hob3l.Tri

open Hob3l.Poly (P Vtx Err ass Ins cross3 vec2Cmp treeNext treePrev Small crossI cross3_eq Lt Started Ended Below sg Proper Arranged
  IsSearch Seg sh sg_ok sg_apart end_at side_eq cross_sh y_left y_right mem_started tree_has before_of proper_next started_snoc ended_snoc)

section
variable {ed : Nat → Bool → P} {l : List Vtx}

theorem pre_lt {n0 : Nat} (hn : ∀ w ∈ l, w.edge < n0) {pre rest : List Vtx} (hpre : l = pre ++ rest) :
    ∀ e, Started pre e → e < n0 := by
  rintro e ⟨w, hw, rfl, -⟩
  exact hn w (by rw [hpre]; simp [hw])

theorem pre_started (hl : Proper l) {pre rest : List Vtx} (hpre : l = pre ++ rest) : ∀ w ∈ pre, Started pre w.edge := by
  intro w hw
  cases hwr : w.rigt with
  | false => exact ⟨w, hw, rfl, hwr⟩
  | true =>
    obtain ⟨A, B, rfl⟩ := List.append_of_mem hw
    rw [hpre, List.append_assoc] at hl
    obtain ⟨x, hx, q⟩ := ((proper_next hl).2 hwr).1
    exact ⟨x, by simp [hx], q⟩

theorem start_inv (hl : Proper l) (ha : Arranged ed l) {ins : Ins} (hins : IsSearch ed ins) {n0 : Nat} (hn : ∀ w ∈ l, w.edge < n0)
    {m : St} {pre rest : List Vtx} {arms : List Arm} {s t : Vtx} {fuel : Nat} (h : Inv0 ed n0 m s.pos pre arms)
    (hpre : l = pre ++ s :: t :: rest) (hpos : s.pos = t.pos) (hs : s.rigt = false) (hr : t.rigt = false)
    (hfuel : n0 + l.length ≤ fuel) (he : Ev m s.pos s.edge t.edge s.rigt t.rigt) (hlast : m.last = s.pos)
    (hpl : m.points.getLast? = some s.pos)
    (hopen : ∀ e ∈ m.tree, (e = s.edge → s.rigt = false) → (e = t.edge → t.rigt = false) → m.idx e true = none) :
    ∃ s' arms', start ins fuel m s t = .ok s' ∧ Inv ed n0 s' (pre ++ [s, t]) arms' ∧ Keep m s' pre := by
  have hsl : s ∈ l := by rw [hpre]; simp
  have htl : t ∈ l := by rw [hpre]; simp
  have hl1 : Proper (pre ++ s :: (t :: rest)) := hpre ▸ hl
  have hl2 : Proper ((pre ++ [s]) ++ t :: rest) := by rw [List.append_assoc]; exact hpre ▸ hl
  obtain ⟨sS, sE⟩ := (proper_next hl1).1 hs
  obtain ⟨tS, tE⟩ := (proper_next hl2).1 hr
  rw [started_snoc, not_or] at tS
  rw [ended_snoc, not_or] at tE
  have hst : s.edge ∉ m.tree := fun hc => sS ((h.mem _).1 hc).1
  have htt : t.edge ∉ m.tree := fun hc => tS.1 ((h.mem _).1 hc).1
  have hne := he.ne
  have sl : ∀ {g : Nat}, g ∈ m.tree → Started l g := fun hg => started_mono hpre ((h.mem _).1 hg).1
  have hhas : ∀ {g : Nat}, g ∈ m.tree → (sg ed g).has (sh s.pos).1 := fun hg => tree_has hl ha hpre ((h.mem _).1 hg).1 ((h.mem _).1 hg).2
  have hsp : Small s.pos := ha.small s hsl
  have es : ed s.edge false = s.pos := by rw [← hs]; exact ha.ends s hsl
  have et : ed t.edge false = s.pos := by rw [← hr, hpos]; exact ha.ends t htl
  have hai : ∀ x ∈ arms, AI m x := fun x hx => (h.ai x hx).1
  have hnu : ∀ e, (e = s.edge ∨ e = t.edge) → e ∉ us arms := by
    intro e he hc
    rcases (h.own _ hc).1 with hc | hc
    · rcases he with rfl | rfl
      · exact sS hc
      · exact tS.1 hc
    · have := hn t htl; have := hn s hsl; omega
  have hfs := h.fresh s.edge (hn s hsl) sS
  have hft := h.fresh t.edge (hn t htl) tS.1
  have hSt : ∀ e, Started (pre ++ [s, t]) e ↔ Started pre e ∨ e ∈ [s.edge, t.edge] := by
    intro e
    rw [show pre ++ [s, t] = pre ++ [s] ++ [t] by simp, started_snoc, started_snoc, hs, hr]
    simp [eq_comm, or_assoc]
  have hEn : ∀ e, Ended (pre ++ [s, t]) e ↔ Ended pre e := by
    intro e
    rw [show pre ++ [s, t] = pre ++ [s] ++ [t] by simp, ended_snoc, ended_snoc, hs, hr]
    simp
  have hFp : ∀ e ∈ [s.edge, t.edge], e < n0 ∧ ¬ Started pre e := by
    intro e he
    simp only [List.mem_cons, List.not_mem_nil, or_false] at he
    rcases he with rfl | rfl
    · exact ⟨hn s hsl, sS⟩
    · exact ⟨hn t htl, tS.1⟩
  obtain ⟨A, B, eT, i1, i2, hsorted⟩ := Poly.start_place hl ha hins hpre hpos hne hs hr h.mem h.below
  have hmem : ∀ e, e ∈ A ++ s.edge :: t.edge :: B ↔ Started (pre ++ [s, t]) e ∧ ¬ Ended (pre ++ [s, t]) e := by
    intro e
    have hm := h.mem e
    rw [eT, List.mem_append] at hm
    rw [hSt, hEn]
    simp only [List.mem_append, List.mem_cons, List.not_mem_nil, or_false]
    constructor
    · rintro (q | rfl | rfl | q)
      · exact ⟨.inl (hm.1 (.inl q)).1, (hm.1 (.inl q)).2⟩
      · exact ⟨.inr (.inl rfl), sE⟩
      · exact ⟨.inr (.inr rfl), tE.1⟩
      · exact ⟨.inl (hm.1 (.inr q)).1, (hm.1 (.inr q)).2⟩
    · rintro ⟨q1 | rfl | rfl, q2⟩
      · have := hm.2 ⟨q1, q2⟩; tauto
      · simp
      · simp
  have hop : ∀ e ∈ A ++ s.edge :: t.edge :: B, e ∉ [s.edge, t.edge] → m.idx e true = none := by
    intro e he hF
    simp only [List.mem_cons, List.not_mem_nil, or_false, not_or] at hF
    refine hopen e ?_ (fun _ => hs) (fun _ => hr)
    rw [eT]
    simp only [List.mem_append, List.mem_cons] at he ⊢
    tauto
  have hs' : s = ⟨s.edge, false, s.pos⟩ := by rw [← hs]
  have ht' : t = ⟨t.edge, false, s.pos⟩ := by rw [← hr, hpos]
  have hcf : ∀ (s' : St) f, (0 : Int) = endF ed s'.back f s + endF ed s'.back f t := by
    intro s' f; unfold endF; rw [hs, hr]; simp
  rw [hs, hr] at he
  rw [eT, hs'] at i1
  rw [ht'] at i2
  rcases bt_split (h.tree.symm.trans eT) with ⟨L, R, rfl, rfl, rfl⟩ | ⟨L, a, R, rfl, rfl, rfl⟩
  · -- proper
    obtain ⟨s', a', q1, q2, q3, q4, q5⟩ := ch_start_proper (ed := ed) (fuel := fuel) eT (by rw [← eT]; exact hst) (by rw [← eT]; exact htt)
      i1 i2 (by
        intro er hq
        obtain ⟨x, hx, rfl⟩ := bt_last hq
        exact (hai x (by simp [hx])).bt) he hfs hft es et
    refine ⟨s', L ++ [a'] ++ R, ?_, ?_, ch_keep h q5 (pre_lt hn hpre) hFp⟩
    · rw [hs', ht']; exact q1
    · refine inv_step (X := []) (by simpa using h) q5 (pre_lt hn hpre) hFp hSt ?_ (by rw [q4]; exact hmem) (by rw [q4]; exact hsorted) (by rw [q4]; exact hop)
        hlast hpl rfl hpos.symm (pre_started hl hpre) (fun f _ => hcf s' f)
      rw [q4, bt_append, bt_append]
      simp [bt, q2, q3]
  · -- improper
    have haa : a ∈ L ++ [a] ++ R := by simp
    obtain ⟨j1, j2⟩ := h.ai a haa
    have eT' : m.tree = bt L ++ [a.b] ++ (a.t :: bt R) := eT
    have hb1 : a.b ∈ m.tree := by rw [eT']; simp
    have hb2 : a.t ∈ m.tree := by rw [eT']; simp
    have hbs : Below (sg ed a.b) (sg ed s.edge) := by
      rw [List.pairwise_append] at hsorted
      exact hsorted.2.2 _ (by simp) _ (by simp)
    have hbe : Below (sg ed s.edge) (sg ed a.t) := by
      rw [List.pairwise_append] at hsorted
      exact (List.pairwise_cons.1 hsorted.2.1).1 _ (by simp)
    have sSl : Started l s.edge := mem_started hl hsl
    have hvis : Vis ed s.pos a.b a.t := by
      refine ⟨fun h0 h1 => ?_, fun h0 h1 => ?_⟩
      · exact vis_lo hl ha (sl hb1) sSl (fun hc => hst (hc ▸ hb1)) hbs hsp (.inl es) (hhas hb1)
          (fun hc => Poly.Lt.irrefl (hc ▸ h0)) h1
      · exact vis_hi hl ha sSl (sl hb2) (fun hc => hst (hc.symm ▸ hb2)) hbe hsp (.inl es) (hhas hb2)
          (fun hc => Poly.Lt.irrefl (hc ▸ h0)) h1
    have hlen : a.U.length < fuel := by
      have h1 := len_ues a.U
      have h2 := len_le j1.nodup (fun e he => (h.own e (mem_us.2 ⟨a, haa, he⟩)).2)
      have h3 := h.new.2
      have h4 : pre.length + 2 ≤ l.length := by rw [hpre]; simp
      omega
    obtain ⟨s', a1, a2, q1, q2, q3, q4, q5, q6, q7⟩ := ch_start_imp (ed := ed) (fuel := fuel) eT' (by rw [← eT']; exact hst)
      (by rw [← eT']; exact htt) i1 i2 j1 j2 (fun hc => hnu _ (.inl rfl) (mem_us.2 ⟨a, haa, hc⟩))
      (fun hc => hnu _ (.inr rfl) (mem_us.2 ⟨a, haa, hc⟩)) he hfs hft
      (hopen _ hb1 (fun _ => hs) (fun _ => hr)) (hopen _ hb2 (fun _ => hs) (fun _ => hr))
      (by have := h.new.1; have := hn s hsl; omega) (by have := h.new.1; have := hn t htl; omega)
      (fun e he => (h.own e (mem_us.2 ⟨a, haa, he⟩)).2) es et h.small hvis hlen
    refine ⟨s', L ++ [a1, a2] ++ R, ?_, ?_, ch_keep h q7 (pre_lt hn hpre) hFp⟩
    · rw [hs', ht']; exact q1
    · refine inv_step h q7 (pre_lt hn hpre) hFp hSt ?_ (by rw [q6]; exact hmem) (by rw [q6]; exact hsorted) (by rw [q6]; exact hop)
        hlast hpl rfl hpos.symm (pre_started hl hpre) (fun f _ => hcf s' f)
      rw [q6, bt_append, bt_append]
      simp [bt, q2, q3, q4, q5]

theorem finish_inv (hl : Proper l) (ha : Arranged ed l) {n0 : Nat} (hn : ∀ w ∈ l, w.edge < n0)
    {m : St} {pre rest : List Vtx} {arms : List Arm} {s t : Vtx} {fuel : Nat} (h : Inv0 ed n0 m s.pos pre arms)
    (hpre : l = pre ++ s :: t :: rest) (hpos : s.pos = t.pos) (hs : s.rigt = true) (hr : t.rigt = true)
    (hfuel : n0 + l.length ≤ fuel) (he : Ev m s.pos s.edge t.edge s.rigt t.rigt) (hlast : m.last = s.pos)
    (hpl : m.points.getLast? = some s.pos)
    (hopen : ∀ e ∈ m.tree, (e = s.edge → s.rigt = false) → (e = t.edge → t.rigt = false) → m.idx e true = none) :
    ∃ s' arms', finish fuel m s t = .ok s' ∧ Inv ed n0 s' (pre ++ [s, t]) arms' ∧ Keep m s' pre := by
  have hsl : s ∈ l := by rw [hpre]; simp
  have htl : t ∈ l := by rw [hpre]; simp
  have hl1 : Proper (pre ++ s :: (t :: rest)) := hpre ▸ hl
  have hl2 : Proper ((pre ++ [s]) ++ t :: rest) := by rw [List.append_assoc]; exact hpre ▸ hl
  have hne := he.ne
  obtain ⟨sS, sE⟩ := (proper_next hl1).2 hs
  obtain ⟨tS, tE⟩ := (proper_next hl2).2 hr
  rw [started_snoc] at tS
  have tS := tS.resolve_right (fun hc => hne hc.1)
  rw [ended_snoc, not_or] at tE
  have hst : s.edge ∈ m.tree := (h.mem _).2 ⟨sS, sE⟩
  have htt : t.edge ∈ m.tree := (h.mem _).2 ⟨tS, tE.1⟩
  have sl : ∀ {g : Nat}, g ∈ m.tree → Started l g := fun hg => started_mono hpre ((h.mem _).1 hg).1
  have hlt : ∀ {g : Nat}, g ∈ m.tree → Lt (ed g false) s.pos := fun hg => tree_lt hl ha hpre hs ((h.mem _).1 hg).1
  have hhas : ∀ {g : Nat}, g ∈ m.tree → (sg ed g).has (sh s.pos).1 := fun hg => tree_has hl ha hpre ((h.mem _).1 hg).1 ((h.mem _).1 hg).2
  have hsp : Small s.pos := ha.small s hsl
  have es : ed s.edge true = s.pos := by rw [← hs]; exact ha.ends s hsl
  have et : ed t.edge true = s.pos := by rw [← hr, hpos]; exact ha.ends t htl
  have hai : ∀ x ∈ arms, AI m x := fun x hx => (h.ai x hx).1
  have hnd : m.tree.Nodup := by rw [h.tree]; exact bt_nodup hai h.dj
  have hSt : ∀ e, Started (pre ++ [s, t]) e ↔ Started pre e ∨ e ∈ ([] : List Nat) := by
    intro e
    rw [show pre ++ [s, t] = pre ++ [s] ++ [t] by simp, started_snoc, started_snoc, hs, hr]
    simp
  have hEn : ∀ e, Ended (pre ++ [s, t]) e ↔ Ended pre e ∨ e = s.edge ∨ e = t.edge := by
    intro e
    rw [show pre ++ [s, t] = pre ++ [s] ++ [t] by simp, ended_snoc, ended_snoc, hs, hr]
    simp [eq_comm, or_assoc]
  obtain ⟨A, B, eT⟩ := Poly.end_adjacent hl ha hpre hpos hne hs hr hnd h.mem h.below hst htt
  have htA : t.edge ∉ A := by
    rw [eT, List.nodup_append] at hnd
    exact fun hc => hnd.2.2 _ hc _ (List.mem_cons_self) rfl
  have hnx : treeNext m.tree t.edge = some s.edge := by rw [eT]; exact Poly.treeNext_of htA
  have her : (m.tree.erase s.edge).erase t.edge = A ++ B := by rw [eT] at hnd ⊢; exact Poly.tree_remove2 hnd
  have hAB : ∀ e, e ∈ A ++ B ↔ e ∈ m.tree ∧ e ≠ s.edge ∧ e ≠ t.edge := by
    intro e
    rw [eT] at hnd
    rw [List.nodup_append, List.nodup_cons, List.nodup_cons] at hnd
    obtain ⟨-, ⟨n1, n2, -⟩, n3⟩ := hnd
    rw [eT]
    simp only [List.mem_append, List.mem_cons]
    constructor
    · rintro (q | q)
      · exact ⟨.inl q, n3 e q _ (by simp), n3 e q _ (by simp)⟩
      · refine ⟨.inr (.inr (.inr q)), ?_, ?_⟩
        · rintro rfl; exact n2 q
        · rintro rfl; exact n1 (by simp [q])
    · tauto
  have hmem : ∀ e, e ∈ A ++ B ↔ Started (pre ++ [s, t]) e ∧ ¬ Ended (pre ++ [s, t]) e := by
    intro e
    rw [hAB, h.mem, hSt, hEn]
    simp only [List.not_mem_nil, or_false]
    tauto
  have hsub : (A ++ B).Pairwise fun e f => Below (sg ed e) (sg ed f) := by
    rw [← her]
    exact h.below.sublist (List.erase_sublist.trans List.erase_sublist)
  have hop : ∀ e ∈ A ++ B, e ∉ ([] : List Nat) → m.idx e true = none := by
    intro e he _
    obtain ⟨q1, q2, q3⟩ := (hAB e).1 he
    exact hopen e q1 (fun hc => absurd hc q2) (fun hc => absurd hc q3)
  have hs' : s = ⟨s.edge, true, s.pos⟩ := by rw [← hs]
  have ht' : t = ⟨t.edge, true, s.pos⟩ := by rw [← hr, hpos]
  have hord := before_of hl ha (A := pre ++ [s]) (B := t :: rest) (by rw [hpre]; simp) (by simp : s ∈ _) (List.mem_cons_self)
  have hcross : crossI (ed t.edge false) s.pos (ed s.edge false) < 0 := by
    rcases hord with hc | ⟨-, hc | hc⟩
    · rw [hpos] at hc; exact absurd hc Poly.Lt.irrefl
    · rw [hr] at hc; cases hc.2
    · rw [hs, hr] at hc; exact hc.2
  rw [hs, hr] at he
  rcases bt_pair (h.tree.symm.trans eT) with ⟨L, a, R, rfl, ea, eb, rfl, rfl⟩ | ⟨L, a1, a2, R, rfl, ea, eb, rfl, rfl⟩
  · -- the same path
    have haa : a ∈ L ++ [a] ++ R := by simp
    obtain ⟨j1, j2⟩ := h.ai a haa
    have hlen : (ues a.U).length ≤ fuel := by
      have h2 := len_le j1.nodup (fun e he => (h.own e (mem_us.2 ⟨a, haa, he⟩)).2)
      have h3 := h.new.2
      have h4 : pre.length ≤ l.length := by rw [hpre]; simp
      omega
    rw [ea, eb] at he hcross
    rw [ea] at et htt hnx
    rw [eb] at es hst hnx
    have hdiff : ed a.b false ≠ ed a.t false := by
      intro hc
      rw [hc] at hcross
      have : crossI (ed a.t false) s.pos (ed a.t false) = 0 := by unfold crossI; ring
      omega
    obtain ⟨s', q1, q2, q3⟩ := ch_end_proper (fuel := fuel) j1 j2 he h.small et es (hlt htt) (hlt hst) hnx hst htt hlen hdiff
    rw [ea, eb] at her
    have q2 := q2.trans her
    refine ⟨s', L ++ [] ++ R, ?_, ?_, ch_keep h q3 (pre_lt hn hpre) (by simp)⟩
    · rw [hs', ht', ea, eb]; exact q1
    · refine inv_step h q3 (pre_lt hn hpre) (by simp) hSt ?_ (by rw [q2]; exact hmem) (by rw [q2]; exact hsub) (by rw [q2]; exact hop)
        hlast hpl rfl hpos.symm (pre_started hl hpre) ?_
      · rw [q2, bt_append]; simp
      · intro f _
        have b1 : s'.back s.edge = false := by
          rw [((q3.old s.edge (by have := h.new.1; have := hn s hsl; omega)).2.2 (by simp)).1, eb]
          exact j1.bt
        have b2 : s'.back t.edge = true := by
          rw [((q3.old t.edge (by have := h.new.1; have := hn t htl; omega)).2.2 (by simp)).1, ea]
          exact j1.bb
        unfold endF
        rw [hs, hr]
        simp only [if_true, b1, b2, Bool.not_true, Bool.not_false]
        rw [ea, eb, es, et]
        ring
  · -- two paths
    have ha1 : a1 ∈ L ++ [a1, a2] ++ R := by simp
    have ha2 : a2 ∈ L ++ [a1, a2] ++ R := by simp
    obtain ⟨j1, j2⟩ := h.ai a1 ha1
    obtain ⟨j3, j4⟩ := h.ai a2 ha2
    have hlen : ∀ a ∈ L ++ [a1, a2] ++ R, a.U.length ≤ fuel := by
      intro a haa
      have h1 := len_ues a.U
      have h2 := len_le (h.ai a haa).1.nodup (fun e he => (h.own e (mem_us.2 ⟨a, haa, he⟩)).2)
      have h3 := h.new.2
      have h4 : pre.length ≤ l.length := by rw [hpre]; simp
      omega
    have hdj : ∀ e ∈ ues a1.U, e ∉ ues a2.U := by
      intro e h1 h2
      have := h.dj
      rw [us_append, us_append, us_cons, us_cons, us_nil, List.append_nil, List.nodup_append, List.nodup_append, List.nodup_append] at this
      exact this.1.2.1.2.2 e h1 e h2 rfl
    have hb1 : a1.b ∈ m.tree := by rw [eT]; simp
    have ht2 : a2.t ∈ m.tree := by rw [eT]; simp
    have hpw := h.below
    rw [eT, List.pairwise_append] at hpw
    have bel1 : Below (sg ed a1.b) (sg ed t.edge) := hpw.2.2 _ (by simp) _ (by simp)
    have bel2 : Below (sg ed s.edge) (sg ed a2.t) := by
      have := (List.pairwise_cons.1 hpw.2.1).2
      exact (List.pairwise_cons.1 this).1 _ (by simp)
    have ob1 : m.idx a1.b true = none := by
      have := (hAB a1.b).1 (by simp)
      exact hopen _ hb1 (fun hc => absurd hc this.2.1) (fun hc => absurd hc this.2.2)
    have ot2 : m.idx a2.t true = none := by
      have := (hAB a2.t).1 (by simp)
      exact hopen _ ht2 (fun hc => absurd hc this.2.1) (fun hc => absurd hc this.2.2)
    have n1 := j1.bt_ne
    have n2 := j3.bt_ne
    rw [ea, eb] at he hcross her
    rw [ea] at et htt hnx bel1
    rw [eb] at es hst hnx bel2
    have v1 : Vis ed s.pos a1.b a1.t := by
      refine ⟨fun h0 h1 => ?_, fun _ h1 => absurd et.symm h1⟩
      exact vis_lo hl ha (sl hb1) (sl htt) n1 bel1 hsp (.inr et) (hhas hb1) (fun hc => Poly.Lt.irrefl (hc ▸ h0)) h1
    have v2 : Vis ed s.pos a2.b a2.t := by
      refine ⟨fun _ h1 => absurd es.symm h1, fun h0 h1 => ?_⟩
      exact vis_hi hl ha (sl hst) (sl ht2) n2 bel2 hsp (.inr es) (hhas ht2) (fun hc => Poly.Lt.irrefl (hc ▸ h0)) h1
    have hbel : 0 ≤ cr false s.pos (ed a1.t false) (ed a2.b false) := by
      unfold cr
      simp only [Bool.false_eq_true, if_false]
      have : crossI s.pos (ed a1.t false) (ed a2.b false) = -crossI (ed a1.t false) s.pos (ed a2.b false) := by unfold crossI; ring
      omega
    obtain ⟨s', a', q1, q2, q3, q4, q5⟩ := ch_end_imp (fuel := fuel) j1 j2 j3 j4 hdj he ob1 ot2 h.small et es (hlt hb1) (hlt htt) (hlt hst) (hlt ht2)
      v1 v2 hbel hnx hst htt (hlen a1 ha1) (hlen a2 ha2)
    have q4 := q4.trans her
    refine ⟨s', L ++ [a'] ++ R, ?_, ?_, ch_keep h q5 (pre_lt hn hpre) (by simp)⟩
    · rw [hs', ht', ea, eb]; exact q1
    · refine inv_step h q5 (pre_lt hn hpre) (by simp) hSt ?_ (by rw [q4]; exact hmem) (by rw [q4]; exact hsub) (by rw [q4]; exact hop)
        hlast hpl rfl hpos.symm (pre_started hl hpre) ?_
      · rw [q4, bt_append, bt_append]; simp [bt, q2, q3]
      · intro f _
        have b1 : s'.back s.edge = true := by
          rw [((q5.old s.edge (by have := h.new.1; have := hn s hsl; omega)).2.2 (by simp)).1, eb]
          exact j3.bb
        have b2 : s'.back t.edge = false := by
          rw [((q5.old t.edge (by have := h.new.1; have := hn t htl; omega)).2.2 (by simp)).1, ea]
          exact j1.bt
        unfold endF
        rw [hs, hr]
        simp only [if_true, b1, b2, Bool.not_true, Bool.not_false]
        rw [ea, eb, es, et]

/-- an event -/
theorem event_inv (hl : Proper l) (ha : Arranged ed l) {ins : Ins} (hins : IsSearch ed ins) {n0 : Nat} (hn : ∀ w ∈ l, w.edge < n0)
    {st : St} {pre rest : List Vtx} {arms : List Arm} {s t : Vtx} {fuel : Nat} (h : Inv ed n0 st pre arms)
    (hpre : l = pre ++ s :: t :: rest) (hpos : s.pos = t.pos) (hfuel : n0 + l.length ≤ fuel) :
    ∃ s' arms', event ins fuel (getPt (getPt st s) t) s t = .ok s' ∧ Inv ed n0 s' (pre ++ [s, t]) arms' ∧
      Keep (getPt (getPt st s) t) s' pre := by
  have hne := edge_ne hl ha hpre hpos
  obtain ⟨m, e1, h0, hlast, hpl, -, -, he, hopen⟩ := inv_getPt hl ha hn h hpre rfl hpos.symm hne
  rw [e1]
  have hl1 : Proper (pre ++ s :: (t :: rest)) := hpre ▸ hl
  have hl2 : Proper ((pre ++ [s]) ++ t :: rest) := by rw [List.append_assoc]; exact hpre ▸ hl
  have a1 : (s.rigt = false) ↔ s.edge ∉ m.tree := by
    rw [h0.mem]
    cases hs : s.rigt with
    | false => simp [((proper_next hl1).1 hs).1]
    | true => simp [((proper_next hl1).2 hs)]
  have a2 : (t.rigt = false) ↔ t.edge ∉ m.tree := by
    rw [h0.mem]
    cases ht : t.rigt with
    | false =>
      have := ((proper_next hl2).1 ht).1
      rw [started_snoc, not_or] at this
      simp [this.1]
    | true =>
      obtain ⟨q1, q2⟩ := (proper_next hl2).2 ht
      rw [started_snoc] at q1
      rw [ended_snoc, not_or] at q2
      simp [q1.resolve_right (fun hc => hne hc.1), q2.1]
  have hord := before_of hl ha (A := pre ++ [s]) (B := t :: rest) (by rw [hpre]; simp) (by simp : s ∈ _) (List.mem_cons_self)
  unfold event
  rw [ass_ok _ a2, bind_okE, ass_ok _ a1, bind_okE]
  by_cases c1 : s.rigt ≠ t.rigt
  · rw [if_pos c1]
    have hsr : s.rigt = true ∧ t.rigt = false := by
      rcases hord with hc | ⟨-, hc | hc⟩
      · rw [hpos] at hc; exact absurd hc Poly.Lt.irrefl
      · exact hc
      · exact absurd hc.1 c1
    exact bend_inv hl ha hn h0 hpre hpos hsr.1 hsr.2 hfuel he hlast hpl hopen
  · rw [if_neg c1]
    rw [not_not] at c1
    by_cases c2 : s.rigt = false
    · rw [if_pos c2]
      exact start_inv hl ha hins hn h0 hpre hpos c2 (c1 ▸ c2) hfuel he hlast hpl hopen
    · rw [if_neg c2]
      have c2 : s.rigt = true := by simpa using c2
      exact finish_inv hl ha hn h0 hpre hpos c2 (c1 ▸ c2) hfuel he hlast hpl hopen

end

end Hob3l.Tri
