import Verif.Tri.LemmasLoop
import Verif.Tri.LemmasRay

/-!
The triangles cover the area.
-/

namespace Hob3l.Tri

open Hob3l.Poly (P Vtx Err ass Ins Small Lt Le Started Ended Below sg Proper Arranged IsSearch Crosses heightAt numBelow degree)

section
variable {ed : Nat → Bool → P} {l : List Vtx}

/-- the run of the loop -/
theorem run_ok (ring : Ring.St) (back : Nat → Bool) (idx : Nat → Bool → Option Nat) (rm : Nat → V) (hl : Proper l) (ha : Arranged ed l)
    {ins : Ins} (hins : IsSearch ed ins) {n0 : Nat} (hn : ∀ w ∈ l, w.edge < n0) {fuel : Nat} (hfuel : n0 + l.length ≤ fuel) :
    ∃ ok st, trianglify ring back idx rm ed n0 ins fuel l = .ok (ok, st) ∧ (ok = true ↔ ∀ p, degree l p % 2 = 0) ∧
      (∀ t ∈ st.tris, TriOk st.points t) ∧ (ok = true → Inv ed n0 st l [] ∧ ∀ p, p ∈ st.points ↔ ∃ v ∈ l, v.pos = p) := by
  obtain ⟨ok, st, h1, h2, h3, h4⟩ := loop_inv (suf := []) hl ha hins hn hfuel (rest := l) (by simp) (Poly.proper_even hl)
    (init_inv (ed := ed) ring back idx rm n0)
  refine ⟨ok, st, h1, ⟨fun h => (h3 h).2.2.1, fun h => ?_⟩, h2, fun h => ?_⟩
  · cases ok with
    | true => rfl
    | false =>
      obtain ⟨p, hp⟩ := h4 rfl
      have := h p
      unfold degree at this
      omega
  · obtain ⟨⟨a, i1⟩, -, -, i4⟩ := h3 h
    rw [List.nil_append] at i1
    rw [inv_end hl i1] at i1
    refine ⟨i1, fun p => ?_⟩
    rw [i4]
    simp [init]

/-- the edges on a vertical line -/
theorem at_line {ring : Ring.St} {back : Nat → Bool} {idx : Nat → Bool → Option Nat} {rm : Nat → V} (hl : Proper l) (ha : Arranged ed l)
    {ins : Ins} (hins : IsSearch ed ins) {n0 : Nat} (hn : ∀ w ∈ l, w.edge < n0) {fuel : Nat} (hfuel : n0 + l.length ≤ fuel) {st : St}
    (h : trianglify ring back idx rm ed n0 ins fuel l = .ok (true, st)) {x : ℚ} (hx : ∀ v ∈ l, (v.pos.1 : ℚ) ≠ x) :
    ∃ arms, (bt arms).Nodup ∧ (∀ f, f ∈ bt arms ↔ Started l f ∧ Crosses ed x f) ∧
      (bt arms).Pairwise (fun e f => Below (sg ed e) (sg ed f)) ∧ ∀ a ∈ arms, st.back a.b = true ∧ st.back a.t = false := by
  have hdeg : ∀ p, degree l p % 2 = 0 := by
    obtain ⟨ok, st', h1, h2, -⟩ := run_ok ring back idx rm hl ha hins hn hfuel
    rw [h] at h1
    cases h1
    exact h2.1 rfl
  obtain ⟨A, B, rfl, hA, hB⟩ := Poly.split_of (T := l) (p := fun w => decide ((w.pos.1 : ℚ) < x) = true)
    (q := fun w => decide ((w.pos.1 : ℚ) < x) = false) (fun w _ => by cases decide ((w.pos.1 : ℚ) < x) <;> simp) (by
      refine (Poly.arranged_le hl ha).imp ?_
      intro a b hab hb
      rw [decide_eq_true_eq] at hb ⊢
      have : a.pos.1 ≤ b.pos.1 := by unfold Le at hab; omega
      have : (a.pos.1 : ℚ) ≤ b.pos.1 := by exact_mod_cast this
      linarith)
  have hA' : ∀ w ∈ A, (w.pos.1 : ℚ) < x := fun w hw => of_decide_eq_true (hA w hw)
  have hB' : ∀ w ∈ B, x < (w.pos.1 : ℚ) := fun w hw => by
    have h1 := of_decide_eq_false (hB w hw)
    have h2 := hx w (List.mem_append_right _ hw)
    rcases lt_trichotomy (w.pos.1 : ℚ) x with h | h | h
    · exact absurd h h1
    · exact absurd h h2
    · exact h
  have hev : A.length % 2 = 0 := by
    have := Poly.even_count hdeg fun p => decide ((p.1 : ℚ) < x)
    rw [List.filter_append, List.filter_eq_self.2 hA, List.filter_eq_nil_iff.2 (fun w hw => by rw [hB w hw]; simp),
      List.append_nil] at this
    exact this
  have hevB : B.length % 2 = 0 := by
    have := Poly.proper_even hl
    rw [List.length_append] at this; omega
  -- the first part
  obtain ⟨ok, st1, h1, -, h3, h4⟩ := loop_inv (suf := B) hl ha hins hn hfuel (rest := A) (by simp) hev
    (init_inv (ed := ed) ring back idx rm n0)
  have hok : ok = true := by
    cases ok with
    | true => rfl
    | false =>
      obtain ⟨p, hp⟩ := h4 rfl
      have := hdeg p
      unfold degree at this
      rw [List.countP_append] at this
      have hex : ∃ v ∈ A, v.pos = p := by
        by_contra hc
        rw [List.countP_eq_zero.2 (by simpa using hc)] at hp
        omega
      obtain ⟨v, hv, rfl⟩ := hex
      have : (B.countP fun w => w.pos = v.pos) = 0 := by
        rw [List.countP_eq_zero]
        intro w hw
        simp only [decide_eq_true_eq]
        intro hc
        have q1 := hA' v hv
        have q2 := hB' w hw
        rw [hc] at q2
        linarith
      omega
  subst hok
  obtain ⟨⟨arms, i1⟩, -⟩ := h3 rfl
  rw [List.nil_append] at i1
  -- the second part
  obtain ⟨ok, st2, g1, -, g3, -⟩ := loop_inv (suf := []) hl ha hins hn hfuel (rest := B) (by simp) hevB i1
  unfold trianglify at h
  rw [loop_append hev h1, g1] at h
  cases h
  obtain ⟨-, g4, -⟩ := g3 rfl
  have hin : ∀ w, w ∈ A ++ B → ((w.pos.1 : ℚ) < x ↔ w ∈ A) := by
    intro w hw
    refine ⟨fun hlt => ?_, fun h => hA' w h⟩
    rcases List.mem_append.1 hw with h | h
    · exact h
    · have := hB' w h; linarith
  have ht := i1.tree
  have hai : ∀ a ∈ arms, AI st1 a := fun a ha => (i1.ai a ha).1
  refine ⟨arms, bt_nodup hai i1.dj, fun f => ?_, by rw [← ht]; exact i1.below, fun a haa => ?_⟩
  · rw [← ht, i1.mem]
    constructor
    · rintro ⟨⟨w, hw, e1, e2⟩, hno⟩
      have hwl : w ∈ A ++ B := List.mem_append_left _ hw
      have hS : Started (A ++ B) f := ⟨w, hwl, e1, e2⟩
      refine ⟨hS, ?_⟩
      obtain ⟨r, hr, e3, e4⟩ := Poly.proper_end hl hS
      have q1 : ed f false = w.pos := by rw [← e1, ← e2]; exact ha.ends w hwl
      have q2 : ed f true = r.pos := by rw [← e3, ← e4]; exact ha.ends r hr
      unfold Crosses
      rw [q1, q2]
      refine ⟨hA' w hw, ?_⟩
      rcases List.mem_append.1 hr with hrA | hrB
      · exact absurd ⟨r, hrA, e3, e4⟩ hno
      · exact hB' r hrB
    · rintro ⟨hS, hc1, hc2⟩
      obtain ⟨w, hw, e1, e2⟩ := hS
      have q1 : ed f false = w.pos := by rw [← e1, ← e2]; exact ha.ends w hw
      rw [q1] at hc1
      refine ⟨⟨w, (hin w hw).1 hc1, e1, e2⟩, ?_⟩
      rintro ⟨r, hr, e3, e4⟩
      have q2 : ed f true = r.pos := by rw [← e3, ← e4]; exact ha.ends r (List.mem_append_left _ hr)
      rw [q2] at hc2
      have := hA' r hr
      linarith
  · have hb : a.b ∈ st1.tree := by rw [ht]; exact List.mem_flatMap.2 ⟨a, haa, by simp⟩
    have hc : a.t ∈ st1.tree := by rw [ht]; exact List.mem_flatMap.2 ⟨a, haa, by simp⟩
    rw [g4 _ ((i1.mem _).1 hb).1, g4 _ ((i1.mem _).1 hc).1]
    exact ⟨(hai a haa).bb, (hai a haa).bt⟩

/-- the sum of the directions of the first edges on a line -/
theorem alt_sum {g : Nat → Int} : ∀ {arms : List Arm} {C D : List Nat}, (∀ a ∈ arms, g a.b = 1 ∧ g a.t = -1) → bt arms = C ++ D →
    (C.map g).sum = (C.length % 2 : Nat)
  | _, [], _, _, _ => rfl
  | [], c :: C, D, _, h => by simp [bt] at h
  | a :: arms, [c], D, hg, h => by
    rw [bt_cons] at h
    simp only [List.cons_append, List.nil_append, List.cons.injEq] at h
    simp [← h.1, (hg a (by simp)).1]
  | a :: arms, c :: d :: C, D, hg, h => by
    rw [bt_cons] at h
    simp only [List.cons_append, List.nil_append, List.cons.injEq] at h
    have := alt_sum (g := g) (arms := arms) (C := C) (D := D) (fun x hx => hg x (by simp [hx])) h.2.2
    obtain ⟨h1, h2⟩ := hg a (by simp)
    rw [List.map_cons, List.map_cons, List.sum_cons, List.sum_cons, this, ← h.1, ← h.2.1, h1, h2, List.length_cons, List.length_cons,
      show (C.length + 1 + 1) % 2 = C.length % 2 by omega]
    omega

theorem sum_ite {α : Type} (p : α → Prop) [DecidablePred p] (g : α → Int) : ∀ L : List α,
    (L.map fun v => if p v then g v else 0).sum = ((L.filter fun v => p v).map g).sum
  | [] => rfl
  | a :: L => by
    rw [List.map_cons, List.sum_cons, sum_ite p g L, List.filter_cons]
    by_cases h : p a <;> simp [h]

theorem edges_nodup (hl : Proper l) (b : Bool) (q : Vtx → Prop) [DecidablePred q] :
    ((l.filter fun v => v.rigt = b ∧ q v).map (·.edge)).Nodup := by
  have h2 : ((l.filter fun v => v.rigt = b).map (·.edge)).Nodup := by
    rw [List.nodup_iff_count_le_one]
    intro e
    rw [List.count_eq_length_filter, List.filter_map, List.length_map, List.filter_filter]
    have : l.filter (fun a => ((fun x => x == e) ∘ fun x => x.edge) a && decide (a.rigt = b)) =
        (l.filter fun v => v.edge = e).filter fun v => v.rigt = b := by
      rw [List.filter_filter]
      apply List.filter_congr
      intro v _
      simp [Bool.and_comm, beq_eq_decide]
    rw [this]
    rcases hl e with h | ⟨a, c, -, h⟩
    · rw [h]; simp
    · rw [h]; cases b <;> simp
  refine h2.sublist (List.Sublist.map _ (List.monotone_filter_right _ ?_))
  intro w hw
  rw [decide_eq_true_eq] at hw ⊢
  exact hw.1

/-- the crossing of the ray with an edge -/
theorem ray_edge (hl : Proper l) (ha : Arranged ed l) {e : Nat} (he : Started l e) (p : ℚ × ℚ) (b : Bool) :
    ray p (ed e b) (ed e !b) = if Crosses ed p.1 e ∧ heightAt ed e p.1 < p.2 then (if b then 1 else -1) else 0 := by
  have hlr : ((ed e false).1 : ℚ) ≤ (ed e true).1 := by
    have := Poly.sg_ok hl ha he
    unfold Poly.Seg.ok sg at this
    simp only at this
    rw [Poly.sh_lt (Poly.end_small hl ha he _) (Poly.end_small hl ha he _)] at this
    unfold Lt at this
    have : (ed e false).1 ≤ (ed e true).1 := by omega
    exact_mod_cast this
  have key : ray p (ed e true) (ed e false) = if Crosses ed p.1 e ∧ heightAt ed e p.1 < p.2 then 1 else 0 := by
    unfold ray
    have h2 : ¬ (((ed e true).1 : ℚ) < p.1 ∧ p.1 < (ed e false).1 ∧ 0 < crossQ (ed e true) (ed e false) p) := by
      rintro ⟨q1, q2, -⟩; linarith
    rw [if_neg h2]
    refine if_congr ?_ rfl rfl
    unfold Crosses
    constructor
    · rintro ⟨q1, q2, q3⟩
      refine ⟨⟨q1, q2⟩, ?_⟩
      have hd : (0 : ℚ) < (ed e true).1 - (ed e false).1 := by linarith
      unfold heightAt
      unfold crossQ at q3
      rw [← sub_pos]
      have : p.2 - ((ed e false).2 + (p.1 - (ed e false).1) * ((((ed e true).2 : ℚ) - (ed e false).2) / ((ed e true).1 - (ed e false).1))) =
          ((((ed e true).1 : ℚ) - (ed e false).1) * (p.2 - (ed e false).2) - ((ed e true).2 - (ed e false).2) * (p.1 - (ed e false).1)) /
            ((ed e true).1 - (ed e false).1) := by
        rw [eq_div_iff hd.ne']
        have h := div_mul_cancel₀ (((ed e true).2 : ℚ) - (ed e false).2) hd.ne'
        linear_combination (-(p.1 - (ed e false).1)) * h
      rw [this]
      exact div_pos q3 hd
    · rintro ⟨⟨q1, q2⟩, q3⟩
      refine ⟨q1, q2, ?_⟩
      have hd : (0 : ℚ) < (ed e true).1 - (ed e false).1 := by linarith
      unfold heightAt at q3
      unfold crossQ
      have h := div_mul_cancel₀ (((ed e true).2 : ℚ) - (ed e false).2) hd.ne'
      have := mul_pos hd (sub_pos.2 q3)
      have e1 : (((ed e true).1 : ℚ) - (ed e false).1) * (p.2 - ((ed e false).2 + (p.1 - (ed e false).1) * ((((ed e true).2 : ℚ) - (ed e false).2) / ((ed e true).1 - (ed e false).1)))) =
          (((ed e true).1 : ℚ) - (ed e false).1) * (p.2 - (ed e false).2) - ((ed e true).2 - (ed e false).2) * (p.1 - (ed e false).1) := by
        linear_combination (-(p.1 - (ed e false).1)) * h
      rw [e1] at this
      exact this
  cases b with
  | true => rw [Bool.not_true, key]; simp
  | false =>
    rw [Bool.not_false, ray_anti, key]
    split <;> simp

/-- the sum of the crossings over the edges -/
theorem ray_total {ring : Ring.St} {back : Nat → Bool} {idx : Nat → Bool → Option Nat} {rm : Nat → V} (hl : Proper l) (ha : Arranged ed l)
    {ins : Ins} (hins : IsSearch ed ins) {n0 : Nat} (hn : ∀ w ∈ l, w.edge < n0) {fuel : Nat} (hfuel : n0 + l.length ≤ fuel) {st : St}
    (h : trianglify ring back idx rm ed n0 ins fuel l = .ok (true, st)) {p : ℚ × ℚ} (hx : ∀ v ∈ l, (v.pos.1 : ℚ) ≠ p.1) :
    (l.map (endF ed st.back (ray p))).sum = (numBelow ed l p.1 p.2 % 2 : Nat) := by
  obtain ⟨arms, hnd, hmem, hsort, hback⟩ := at_line hl ha hins hn hfuel h hx
  -- the edges below the point
  obtain ⟨C, D, hCD, hC, hD⟩ := Poly.split_of (T := bt arms) (p := fun e => heightAt ed e p.1 < p.2)
    (q := fun e => ¬ heightAt ed e p.1 < p.2) (fun e _ => em _) (by
      have hboth := hsort.and (show (bt arms).Pairwise fun a b => a ≠ b from hnd)
      refine List.Pairwise.imp_of_mem ?_ hboth
      rintro a b ha' hb' ⟨hab, hne⟩ hlt
      have qa := (hmem a).1 ha'
      have qb := (hmem b).1 hb'
      exact lt_trans (Poly.below_at hl ha qa.1 qb.1 hne hab qa.2 qb.2) hlt)
  have hlt : ∀ f ∈ bt arms, (heightAt ed f p.1 < p.2 ↔ f ∈ C) := by
    intro f hf
    rw [hCD, List.mem_append] at hf
    refine ⟨fun h => hf.resolve_right fun hd => hD f hd h, fun h => hC f h⟩
  have hperm : ∀ b, ((l.filter fun v => v.rigt = b ∧ (Crosses ed p.1 v.edge ∧ heightAt ed v.edge p.1 < p.2)).map (·.edge)).Perm C := by
    intro b
    rw [List.perm_ext_iff_of_nodup (edges_nodup hl b _) (by rw [hCD] at hnd; exact (List.nodup_append.1 hnd).1)]
    intro f
    rw [List.mem_map]
    constructor
    · rintro ⟨w, hw, rfl⟩
      rw [List.mem_filter, decide_eq_true_eq] at hw
      exact (hlt w.edge ((hmem _).2 ⟨Poly.mem_started hl hw.1, hw.2.2.1⟩)).1 hw.2.2.2
    · intro hf
      have hft : f ∈ bt arms := by rw [hCD]; exact List.mem_append_left _ hf
      obtain ⟨hS, hcr⟩ := (hmem f).1 hft
      cases b with
      | false =>
        obtain ⟨w, hw, e1, e2⟩ := hS
        refine ⟨w, ?_, e1⟩
        rw [List.mem_filter, decide_eq_true_eq, e1]
        exact ⟨hw, e2, hcr, (hlt f hft).2 hf⟩
      | true =>
        obtain ⟨w, hw, e1, e2⟩ := Poly.proper_end hl hS
        refine ⟨w, ?_, e1⟩
        rw [List.mem_filter, decide_eq_true_eq, e1]
        exact ⟨hw, e2, hcr, (hlt f hft).2 hf⟩
  have e1 : l.map (endF ed st.back (ray p)) = l.map fun v =>
      if v.rigt = true ∧ (Crosses ed p.1 v.edge ∧ heightAt ed v.edge p.1 < p.2) then (if st.back v.edge then (1 : Int) else -1) else 0 := by
    apply List.map_congr_left
    intro v hv
    unfold endF
    by_cases hr : v.rigt = true
    · rw [if_pos hr, ray_edge hl ha (Poly.mem_started hl hv)]
      simp [hr]
    · simp [hr]
  have e2 := ((hperm true).map fun e => if st.back e then (1 : Int) else -1).sum_eq
  rw [List.map_map] at e2
  rw [e1, sum_ite]
  refine e2.trans ?_
  rw [alt_sum (D := D) (fun a haa => by simp [hback a haa]) hCD]
  have hlen := (hperm false).length_eq
  rw [List.length_map] at hlen
  rw [← hlen]
  rfl

/-- the sum of the crossings over a triangle -/
theorem ray_tri {pts : List P} {t : Tri} {p : ℚ × ℚ} (ht : TriOk pts t) (hx : ∀ q ∈ pts, (q.1 : ℚ) ≠ p.1) (hs : ¬ OnSide pts t p)
    [Decidable (Inside pts t p)] : sides (ray p) pts t = if Inside pts t p then 1 else 0 := by
  obtain ⟨h0, h1, h2, h3⟩ := ht
  have hm : ∀ i, i < pts.length → at' pts i ∈ pts := by
    intro i hi
    unfold at'
    rw [List.getElem?_eq_getElem hi]
    exact List.getElem_mem hi
  unfold OnSide at hs
  rw [not_or, not_or] at hs
  unfold sides
  letI : Decidable (InTri (at' pts t.p0) (at' pts t.p1) (at' pts t.p2) p) := ‹Decidable (Inside pts t p)›
  exact tri_ray h3 (hx _ (hm _ h0)) (hx _ (hm _ h1)) (hx _ (hm _ h2)) hs.1 hs.2.1 hs.2.2

/-- the number of triangles around a point -/
theorem cover {ring : Ring.St} {back : Nat → Bool} {idx : Nat → Bool → Option Nat} {rm : Nat → V} (hl : Proper l) (ha : Arranged ed l)
    {ins : Ins} (hins : IsSearch ed ins) {n0 : Nat} (hn : ∀ w ∈ l, w.edge < n0) {fuel : Nat} (hfuel : n0 + l.length ≤ fuel) {st : St}
    (h : trianglify ring back idx rm ed n0 ins fuel l = .ok (true, st)) {p : ℚ × ℚ} (hx : ∀ v ∈ l, (v.pos.1 : ℚ) ≠ p.1)
    (hs : ∀ t ∈ st.tris, ¬ OnSide st.points t p) [DecidablePred fun t => Inside st.points t p] :
    (st.tris.filter fun t => Inside st.points t p).length = numBelow ed l p.1 p.2 % 2 := by
  obtain ⟨ok, st', h1, -, h3, h4⟩ := run_ok ring back idx rm hl ha hins hn hfuel
  rw [h] at h1
  cases h1
  obtain ⟨hi, hp⟩ := h4 rfl
  have hsum := hi.sum (ray p) (ray_anti p)
  rw [ray_total hl ha hins hn hfuel h hx] at hsum
  have e1 : st.tris.map (sides (ray p) st.points) = st.tris.map fun t => if Inside st.points t p then (1 : Int) else 0 := by
    apply List.map_congr_left
    intro t ht
    refine ray_tri (h3 t ht) ?_ (hs t ht)
    intro q hq
    obtain ⟨v, hv, rfl⟩ := (hp q).1 hq
    exact hx v hv
  rw [e1, sum_ite (fun t => Inside st.points t p) (fun _ => (1 : Int))] at hsum
  simp only [List.map_nil, List.sum_nil, add_zero, List.map_const', List.sum_replicate, nsmul_eq_mul, mul_one] at hsum
  exact_mod_cast hsum

end

end Hob3l.Tri
