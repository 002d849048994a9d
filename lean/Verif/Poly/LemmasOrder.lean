import Verif.Poly.LemmasShear
import Mathlib.Tactic.SplitIfs

/-!
The order of the vertices and of the edges in the plane.
-/

namespace Hob3l.Poly

/-- an edge in sheared coordinates -/
def sg (ed : Nat → Bool → P) (e : Nat) : Seg := (sh (ed e false), sh (ed e true))

theorem cpCmp_lt {a b : Int} : cpCmp a b < 0 ↔ a < b := by unfold cpCmp; split_ifs <;> omega
theorem cpCmp_eq {a b : Int} : cpCmp a b = 0 ↔ a = b := by unfold cpCmp; split_ifs <;> simp <;> omega
theorem cpSign_lt {a : Int} : cpSign a < 0 ↔ a < 0 := by unfold cpSign; split_ifs <;> omega
theorem cpSign_eq {a : Int} : cpSign a = 0 ↔ a = 0 := by unfold cpSign; split_ifs <;> simp <;> omega
theorem vec2Cmp_lt {a b : P} : vec2Cmp a b < 0 ↔ Lt a b := by
  unfold vec2Cmp Lt
  simp only
  split_ifs with h
  · rw [cpCmp_lt]
    rw [ne_eq, cpCmp_eq] at h
    omega
  · rw [not_not, cpCmp_eq] at h
    rw [cpCmp_lt]
    omega
theorem vec2Cmp_eq {a b : P} : vec2Cmp a b = 0 ↔ a = b := by
  unfold vec2Cmp
  simp only
  rw [Prod.ext_iff]
  split_ifs with h
  · rw [ne_eq, cpCmp_eq] at h
    rw [cpCmp_eq]
    omega
  · rw [not_not, cpCmp_eq] at h
    rw [cpCmp_eq]
    omega

/-- the cases of `resultCmp` -/
theorem before_cases {ed : Nat → Bool → P} {v w : Vtx} (h : ∃ c, resultCmp ed v w = some c ∧ c < 0)
    (hv : Small v.pos) (hov : Small (ed v.edge (!v.rigt))) (how : Small (ed w.edge (!w.rigt))) :
    Lt v.pos w.pos ∨ (v.pos = w.pos ∧ ((v.rigt = true ∧ w.rigt = false) ∨
      (v.rigt = w.rigt ∧ crossI (ed w.edge (!w.rigt)) v.pos (ed v.edge (!v.rigt)) < 0))) := by
  obtain ⟨c, h, hc⟩ := h
  unfold resultCmp at h
  simp only at h
  rw [cross3_eq how hv hov] at h
  simp only [Option.pure_def, Option.bind_eq_bind, Option.bind_some] at h
  split_ifs at h with h1 h2 h3 h4
  · cases h
    exact .inl (vec2Cmp_lt.1 hc)
  · cases h
    rw [not_not, vec2Cmp_eq] at h1
    refine .inr ⟨h1, .inl ?_⟩
    rw [cpCmp_lt] at hc
    cases hv : v.rigt <;> cases hw : w.rigt <;> rw [hv, hw] at hc <;> simp [sideNum] at hc ⊢
  · cases h
    rw [not_not, vec2Cmp_eq] at h1
    rw [not_not, cpCmp_eq] at h2
    refine .inr ⟨h1, .inr ⟨?_, cpSign_lt.1 hc⟩⟩
    cases hv : v.rigt <;> cases hw : w.rigt <;> rw [hv, hw] at h2 <;> simp [sideNum] at h2 ⊢
  · cases h
  · cases h
    omega

section
variable {ed : Nat → Bool → P} {l : List Vtx}

theorem Lt.irrefl {p : P} : ¬ Lt p p := by unfold Lt; omega

theorem Started.both (hl : Proper l) {e : Nat} (h : Started l e) :
    (∃ v ∈ l, v.edge = e ∧ v.rigt = false) ∧ ∃ v ∈ l, v.edge = e ∧ v.rigt = true := ⟨h, proper_end hl h⟩

theorem mem_started (hl : Proper l) {v : Vtx} (hv : v ∈ l) : Started l v.edge := by
  rcases hl v.edge with h | ⟨a, b, -, h⟩
  · have : v ∈ l.filter (fun w => w.edge = v.edge) := by simp [hv]
    rw [h] at this; simp at this
  · have : (⟨v.edge, false, a⟩ : Vtx) ∈ l.filter (fun w => w.edge = v.edge) := by rw [h]; simp
    exact ⟨_, (List.mem_filter.1 this).1, rfl, rfl⟩

theorem end_small (hl : Proper l) (ha : Arranged ed l) {e : Nat} (h : Started l e) (b : Bool) : Small (ed e b) := by
  obtain ⟨⟨v, hv, e1, e2⟩, w, hw, e3, e4⟩ := h.both hl
  cases b with
  | false => rw [← e1, ← e2, ha.ends v hv]; exact ha.small v hv
  | true => rw [← e3, ← e4, ha.ends w hw]; exact ha.small w hw

/-- for two vertices, one before the other in the list -/
theorem before_of (hl : Proper l) (ha : Arranged ed l) {A B : List Vtx} {v w : Vtx} (h : l = A ++ B) (hv : v ∈ A) (hw : w ∈ B) :
    Lt v.pos w.pos ∨ (v.pos = w.pos ∧ ((v.rigt = true ∧ w.rigt = false) ∨
      (v.rigt = w.rigt ∧ crossI (ed w.edge (!w.rigt)) v.pos (ed v.edge (!v.rigt)) < 0))) := by
  have hs := ha.sorted
  rw [h, List.pairwise_append] at hs
  have hvl : v ∈ l := by rw [h]; exact List.mem_append_left _ hv
  have hwl : w ∈ l := by rw [h]; exact List.mem_append_right _ hw
  exact before_cases (hs.2.2 v hv w hw) (ha.small v hvl) (end_small hl ha (mem_started hl hvl) _)
    (end_small hl ha (mem_started hl hwl) _)

theorem sg_ok (hl : Proper l) (ha : Arranged ed l) {e : Nat} (h : Started l e) : (sg ed e).ok := by
  unfold Seg.ok sg
  simp only
  rw [sh_lt (end_small hl ha h _) (end_small hl ha h _)]
  -- the vertices in the list
  rcases hl e with h1 | ⟨a, b, hab, h1⟩
  · obtain ⟨v, hv, e1, -⟩ := h
    have : v ∈ l.filter (fun w => w.edge = e) := by simp [hv, e1]
    rw [h1] at this; simp at this
  · have hm1 : (⟨e, false, a⟩ : Vtx) ∈ l := (List.mem_filter.1 (by rw [h1]; simp : (⟨e, false, a⟩ : Vtx) ∈ l.filter (fun v => v.edge = e))).1
    have hm2 : (⟨e, true, b⟩ : Vtx) ∈ l := (List.mem_filter.1 (by rw [h1]; simp : (⟨e, true, b⟩ : Vtx) ∈ l.filter (fun v => v.edge = e))).1
    have hs : (l.filter (fun v => v.edge = e)).Pairwise fun v w => ∃ c, resultCmp ed v w = some c ∧ c < 0 :=
      ha.sorted.sublist List.filter_sublist
    rw [h1] at hs
    simp only [List.pairwise_cons, List.mem_singleton, forall_eq] at hs
    have e1 := ha.ends _ hm1
    have e2 := ha.ends _ hm2
    simp only at e1 e2
    have hc := before_cases hs.1 (ha.small _ hm1) (end_small hl ha h _) (end_small hl ha h _)
    rw [e1, e2]
    simp only at hc
    rcases hc with h | ⟨h, -⟩
    · exact h
    · exact absurd h hab

theorem sg_apart (hl : Proper l) (ha : Arranged ed l) {e f : Nat} (he : Started l e) (hf : Started l f) (hne : e ≠ f) :
    Apart (sg ed e) (sg ed f) := by
  have h1 := sg_ok hl ha he
  have h2 := sg_ok hl ha hf
  obtain ⟨v, hv, e1, -⟩ := he
  obtain ⟨w, hw, e2, -⟩ := hf
  have := ha.apart v hv w hw (by rw [e1, e2]; exact hne)
  rw [e1, e2] at this
  exact apart_sh h1 h2 this

/-- two edges with the same right end -/
theorem rigt_below (hl : Proper l) (ha : Arranged ed l) {s t : Nat} (hs : Started l s) (ht : Started l t)
    (hpos : ed s true = ed t true) (h : crossI (ed t false) (ed s true) (ed s false) < 0) : Below (sg ed t) (sg ed s) := by
  have k1 := sg_ok hl ha hs
  have k2 := sg_ok hl ha ht
  apply below_right k2 k1 (by unfold sg; simp only; rw [hpos])
  apply slope_lt k1 k2
  have := cross_neg_sh h
  unfold sg
  simp only
  rw [← hpos]
  nlinarith

/-- two edges with the same left end -/
theorem left_below (hl : Proper l) (ha : Arranged ed l) {s t : Nat} (hs : Started l s) (ht : Started l t)
    (hpos : ed s false = ed t false) (h : crossI (ed t true) (ed s false) (ed s true) < 0) : Below (sg ed s) (sg ed t) := by
  have k1 := sg_ok hl ha hs
  have k2 := sg_ok hl ha ht
  apply below_left k1 k2 (by unfold sg; simp only; rw [hpos])
  apply slope_lt k1 k2
  have := cross_neg_sh h
  unfold sg
  simp only
  rw [← hpos]
  nlinarith

/-- the edges of the tree reach the sweep line -/
theorem tree_has (hl : Proper l) (ha : Arranged ed l) {pre rest : List Vtx} {s : Vtx} (h : l = pre ++ s :: rest) {g : Nat}
    (hg : Started pre g) (hng : ¬ Ended pre g) : (sg ed g).has (sh s.pos).1 := by
  have hgl : Started l g := by obtain ⟨v, hv, e1, e2⟩ := hg; exact ⟨v, by rw [h]; simp [hv], e1, e2⟩
  have hsl : s ∈ l := by rw [h]; simp
  obtain ⟨v, hv, e1, e2⟩ := hg
  obtain ⟨w, hw, e3, e4⟩ := proper_end hl hgl
  have hwr : w ∈ s :: rest := by
    rw [h] at hw
    rcases List.mem_append.1 hw with hw | hw
    · exact absurd ⟨w, hw, e3, e4⟩ hng
    · exact hw
  have hvl : v ∈ l := by rw [h]; simp [hv]
  have hle : ∀ {p q : P}, Small p → Small q → (Lt p q ∨ p = q) → (sh p).1 ≤ (sh q).1 := by
    intro p q hp hq hpq
    rcases hpq with hpq | rfl
    · exact ((sh_lt hp hq).2 hpq).le
    · exact le_rfl
  unfold Seg.has sg
  simp only
  constructor
  · rw [show ed g false = v.pos by rw [← e1, ← e2]; exact ha.ends v hvl]
    apply hle (ha.small v hvl) (ha.small s hsl)
    rcases before_of hl ha h hv (List.mem_cons_self) with hb | ⟨hb, -⟩
    · exact .inl hb
    · exact .inr hb
  · rw [show ed g true = w.pos by rw [← e3, ← e4]; exact ha.ends w hw]
    apply hle (ha.small s hsl) (ha.small w hw)
    rcases List.mem_cons.1 hwr with rfl | hwr
    · exact .inr rfl
    · rcases before_of hl ha (A := pre ++ [s]) (B := rest) (by rw [h]; simp) (by simp : s ∈ _) hwr with hb | ⟨hb, -⟩
      · exact .inl hb
      · exact .inr hb

/-- an end of an edge at `p` -/
theorem end_at (hl : Proper l) (ha : Arranged ed l) {g : Nat} (hg : Started l g) {p : P} (hp : Small p)
    (h : (sh p).1 = (sg ed g).1.1 ∨ (sh p).1 = (sg ed g).2.1) : ed g false = p ∨ ed g true = p := by
  rcases h with h | h
  · exact .inl (sh_fst_inj (end_small hl ha hg _) hp h.symm)
  · exact .inr (sh_fst_inj (end_small hl ha hg _) hp h.symm)

/-- END: the edges are adjacent -/
theorem end_adjacent (hl : Proper l) (ha : Arranged ed l) {pre rest : List Vtx} {s t : Vtx} (h : l = pre ++ s :: t :: rest)
    (hpos : s.pos = t.pos) (hne : s.edge ≠ t.edge) (hs : s.rigt = true) (hr : t.rigt = true) {tree : List Nat}
    (hnd : tree.Nodup) (htree : ∀ e, e ∈ tree ↔ Started pre e ∧ ¬ Ended pre e)
    (hb : tree.Pairwise fun e f => Below (sg ed e) (sg ed f)) (hst : s.edge ∈ tree) (htt : t.edge ∈ tree) :
    ∃ A B, tree = A ++ t.edge :: s.edge :: B := by
  have hsl : s ∈ l := by rw [h]; simp
  have htl : t ∈ l := by rw [h]; simp
  have sS := mem_started hl hsl
  have tS := mem_started hl htl
  have es : ed s.edge true = s.pos := by rw [← hs]; exact ha.ends s hsl
  have et : ed t.edge true = s.pos := by rw [← hr, hpos]; exact ha.ends t htl
  -- t is below s
  have hbel : Below (sg ed t.edge) (sg ed s.edge) := by
    rcases before_of hl ha (A := pre ++ [s]) (B := t :: rest) (by rw [h]; simp) (by simp : s ∈ _) (List.mem_cons_self) with hc | ⟨-, hc⟩
    · rw [hpos] at hc; exact absurd hc Lt.irrefl
    · rcases hc with hc | ⟨-, hc⟩
      · rw [hr] at hc; simp at hc
      · rw [hs, hr] at hc
        exact rigt_below hl ha sS tS (by rw [es, et]) (by rw [es]; exact hc)
  obtain ⟨A, B, rfl⟩ := List.append_of_mem htt
  have hsA : s.edge ∉ A := by
    intro hc
    have := (List.pairwise_append.1 hb).2.2 s.edge hc t.edge (List.mem_cons_self)
    exact hbel.asymm (sg_apart hl ha tS sS (Ne.symm hne)) this
  have hsB : s.edge ∈ B := by
    rcases List.mem_append.1 hst with hc | hc
    · exact absurd hc hsA
    · rcases List.mem_cons.1 hc with hc | hc
      · exact absurd hc hne
      · exact hc
  obtain ⟨M, C, rfl⟩ := List.append_of_mem hsB
  cases M with
  | nil => exact ⟨A, C, rfl⟩
  | cons g M =>
    exfalso
    have hgt : g ∈ A ++ t.edge :: (g :: M ++ s.edge :: C) := by simp
    have hb2 := (List.pairwise_append.1 hb).2.1
    rw [List.pairwise_cons] at hb2
    have b1 : Below (sg ed t.edge) (sg ed g) := hb2.1 g (by simp)
    have hb3 := hb2.2
    rw [List.cons_append, List.pairwise_cons] at hb3
    have b2 : Below (sg ed g) (sg ed s.edge) := hb3.1 s.edge (by simp)
    have hnd2 := (List.nodup_append.1 hnd).2.1
    rw [List.nodup_cons] at hnd2
    have hgt' : g ≠ t.edge := fun hc => hnd2.1 (by rw [hc]; simp)
    have hgs : g ≠ s.edge := by
      have := hnd2.2
      rw [List.cons_append, List.nodup_cons] at this
      exact fun hc => this.1 (by rw [hc]; simp)
    obtain ⟨gS0, gE⟩ := (htree g).1 hgt
    have gS : Started l g := by obtain ⟨v, hv, e1, e2⟩ := gS0; exact ⟨v, by rw [h]; simp [hv], e1, e2⟩
    have hg := tree_has hl ha h gS0 gE
    have hsp : Small s.pos := ha.small s hsl
    have kt := sg_ok hl ha tS
    have ks := sg_ok hl ha sS
    have et1 : (sg ed t.edge).2 = sh s.pos := by unfold sg; simp only; rw [et]
    have es1 : (sg ed s.edge).2 = sh s.pos := by unfold sg; simp only; rw [es]
    have hht : (sg ed t.edge).has (sh s.pos).1 := by
      have := kt; unfold Seg.ok at this
      rw [et1] at this
      exact ⟨this.le, by rw [et1]⟩
    have hhs : (sg ed s.edge).has (sh s.pos).1 := by
      have := ks; unfold Seg.ok at this
      rw [es1] at this
      exact ⟨this.le, by rw [es1]⟩
    have l1 := b1.le (sg_apart hl ha tS gS (Ne.symm hgt')) hht hg
    have l2 := b2.le (sg_apart hl ha gS sS hgs) hg hhs
    have y1 : (sg ed t.edge).y (sh s.pos).1 = (sh s.pos).2 := by have := y_right kt; rw [et1] at this; exact this
    have y2 : (sg ed s.edge).y (sh s.pos).1 = (sh s.pos).2 := by have := y_right ks; rw [es1] at this; exact this
    have heq : (sg ed g).y (sh s.pos).1 = (sg ed s.edge).y (sh s.pos).1 := by rw [y2]; rw [y1] at l1; rw [y2] at l2; linarith
    rcases end_at hl ha gS hsp ((sg_apart hl ha gS sS hgs) _ hg hhs heq).1 with hc | hc
    · obtain ⟨v, hv, e1, e2⟩ := gS0
      have hvp : v.pos = s.pos := by rw [← hc, ← e1, ← e2]; exact (ha.ends v (by rw [h]; simp [hv])).symm
      rcases before_of hl ha h hv (List.mem_cons_self) with hx | ⟨-, hx⟩
      · rw [hvp] at hx; exact Lt.irrefl hx
      · rcases hx with hx | hx
        · rw [e2] at hx; simp at hx
        · rw [e2, hs] at hx; simp at hx
    · obtain ⟨w, hw, e3, e4⟩ := proper_end hl gS
      have hwp : w.pos = s.pos := by rw [← hc, ← e3, ← e4]; exact (ha.ends w hw).symm
      have hwr : w ∈ rest := by
        rw [h] at hw
        rcases List.mem_append.1 hw with hw | hw
        · exact absurd ⟨w, hw, e3, e4⟩ gE
        · rcases List.mem_cons.1 hw with rfl | hw
          · exact absurd e3.symm hgs
          · rcases List.mem_cons.1 hw with rfl | hw
            · exact absurd e3.symm hgt'
            · exact hw
      rcases before_of hl ha (A := pre ++ [s, t]) (B := rest) (by rw [h]; simp) (by simp : t ∈ _) hwr with hx | ⟨-, hx⟩
      · rw [hwp, ← hpos] at hx; exact Lt.irrefl hx
      · rcases hx with hx | ⟨-, hx⟩
        · rw [e4] at hx; simp at hx
        · rw [e3, e4, hr] at hx
          have := rigt_below hl ha tS gS (by rw [et, hc]) (by rw [et, hpos]; exact hx)
          exact this.asymm (sg_apart hl ha gS tS hgt') b1

/-- BEND: the other edges do not touch the point -/
theorem bend_below (hl : Proper l) (ha : Arranged ed l) {pre rest : List Vtx} {s t : Vtx} (h : l = pre ++ s :: t :: rest)
    (hpos : s.pos = t.pos) (hs : s.rigt = true) (hr : t.rigt = false) {g : Nat}
    (gS0 : Started pre g) (gE : ¬ Ended pre g) (hgs : g ≠ s.edge) :
    (Below (sg ed g) (sg ed s.edge) → Below (sg ed g) (sg ed t.edge)) ∧
    (Below (sg ed s.edge) (sg ed g) → Below (sg ed t.edge) (sg ed g)) := by
  have hsl : s ∈ l := by rw [h]; simp
  have htl : t ∈ l := by rw [h]; simp
  have sS := mem_started hl hsl
  have tS := mem_started hl htl
  have es : ed s.edge true = s.pos := by rw [← hs]; exact ha.ends s hsl
  have et : ed t.edge false = s.pos := by rw [← hr, hpos]; exact ha.ends t htl
  have gS : Started l g := by obtain ⟨v, hv, e1, e2⟩ := gS0; exact ⟨v, by rw [h]; simp [hv], e1, e2⟩
  have hg := tree_has hl ha h gS0 gE
  have hsp : Small s.pos := ha.small s hsl
  have kt := sg_ok hl ha tS
  have ks := sg_ok hl ha sS
  have et1 : (sg ed t.edge).1 = sh s.pos := by unfold sg; simp only; rw [et]
  have es1 : (sg ed s.edge).2 = sh s.pos := by unfold sg; simp only; rw [es]
  have hht : (sg ed t.edge).has (sh s.pos).1 := by
    have := kt; unfold Seg.ok at this
    rw [et1] at this
    exact ⟨by rw [et1], this.le⟩
  have hhs : (sg ed s.edge).has (sh s.pos).1 := by
    have := ks; unfold Seg.ok at this
    rw [es1] at this
    exact ⟨this.le, by rw [es1]⟩
  have y1 : (sg ed t.edge).y (sh s.pos).1 = (sh s.pos).2 := by have := y_left (sg ed t.edge); rw [et1] at this; exact this
  have y2 : (sg ed s.edge).y (sh s.pos).1 = (sh s.pos).2 := by have := y_right ks; rw [es1] at this; exact this
  have hne : (sg ed g).y (sh s.pos).1 ≠ (sh s.pos).2 := by
    intro hc
    rcases end_at hl ha gS hsp ((sg_apart hl ha gS sS hgs) _ hg hhs (by rw [y2, hc])).1 with hc | hc
    · obtain ⟨v, hv, e1, e2⟩ := gS0
      have hvp : v.pos = s.pos := by rw [← hc, ← e1, ← e2]; exact (ha.ends v (by rw [h]; simp [hv])).symm
      rcases before_of hl ha h hv (List.mem_cons_self) with hx | ⟨-, hx⟩
      · rw [hvp] at hx; exact Lt.irrefl hx
      · rcases hx with hx | hx
        · rw [e2] at hx; simp at hx
        · rw [e2, hs] at hx; simp at hx
    · obtain ⟨w, hw, e3, e4⟩ := proper_end hl gS
      have hwp : w.pos = s.pos := by rw [← hc, ← e3, ← e4]; exact (ha.ends w hw).symm
      have hwr : w ∈ rest := by
        rw [h] at hw
        rcases List.mem_append.1 hw with hw | hw
        · exact absurd ⟨w, hw, e3, e4⟩ gE
        · rcases List.mem_cons.1 hw with rfl | hw
          · exact absurd e3.symm hgs
          · rcases List.mem_cons.1 hw with rfl | hw
            · rw [hr] at e4; simp at e4
            · exact hw
      rcases before_of hl ha (A := pre ++ [s, t]) (B := rest) (by rw [h]; simp) (by simp : t ∈ _) hwr with hx | ⟨-, hx⟩
      · rw [hwp, ← hpos] at hx; exact Lt.irrefl hx
      · rw [hr, e4] at hx; simp at hx
  constructor
  · intro hb
    have := hb.le (sg_apart hl ha gS sS hgs) hg hhs
    rw [y2] at this
    exact ⟨_, hg, hht, by rw [y1]; exact lt_of_le_of_ne this hne⟩
  · intro hb
    have := hb.le (sg_apart hl ha sS gS (Ne.symm hgs)) hhs hg
    rw [y2] at this
    exact ⟨_, hht, hg, by rw [y1]; exact lt_of_le_of_ne this (Ne.symm hne)⟩

/-- START: comparison of the new edge with an edge that starts earlier in the list and ends later -/
theorem start_cmp (hl : Proper l) (ha : Arranged ed l) {pre rest : List Vtx} {v : Vtx} (h : l = pre ++ v :: rest)
    (hv : v.rigt = false) {g : Nat} (gS0 : Started pre g) (gE : ¬ Ended pre g) :
    (treeCmp ed v g = some 1 ∧ Below (sg ed g) (sg ed v.edge)) ∨
    (treeCmp ed v g = some (-1) ∧ (sh v.pos).2 < (sg ed g).y (sh v.pos).1 ∧ Below (sg ed v.edge) (sg ed g)) := by
  have hvl : v ∈ l := by rw [h]; simp
  have vS := mem_started hl hvl
  have gS : Started l g := by obtain ⟨v, hv, e1, e2⟩ := gS0; exact ⟨v, by rw [h]; simp [hv], e1, e2⟩
  have hgv : g ≠ v.edge := by
    intro hc
    rw [h] at hl
    exact ((proper_next hl).1 hv).1 (hc ▸ gS0)
  have ev : ed v.edge false = v.pos := by rw [← hv]; exact ha.ends v hvl
  have hvp : Small v.pos := ha.small v hvl
  have hg := tree_has hl ha h gS0 gE
  have kg := sg_ok hl ha gS
  have kv := sg_ok hl ha vS
  have ev1 : (sg ed v.edge).1 = sh v.pos := by unfold sg; simp only; rw [ev]
  have hhv : (sg ed v.edge).has (sh v.pos).1 := by
    have := kv; unfold Seg.ok at this
    rw [ev1] at this
    exact ⟨by rw [ev1], this.le⟩
  have yv : (sg ed v.edge).y (sh v.pos).1 = (sh v.pos).2 := by have := y_left (sg ed v.edge); rw [ev1] at this; exact this
  -- the side
  have hside := side_eq kg (sh v.pos)
  have hcr : K * (crossI v.pos (ed g true) (ed g false) : ℚ) =
      ((sh v.pos).2 - (sg ed g).y (sh v.pos).1) * ((sg ed g).2.1 - (sg ed g).1.1) := by
    rw [← hside, ← cross_sh]; rfl
  have hwid : 0 < (sg ed g).2.1 - (sg ed g).1.1 := by unfold Seg.ok at kg; linarith
  have hc1 := cross3_eq hvp (end_small hl ha gS true) (end_small hl ha gS false)
  have hc2 := cross3_eq (end_small hl ha gS true) hvp (end_small hl ha vS true)
  have htc : treeCmp ed v g = if cpSign (crossI v.pos (ed g true) (ed g false)) ≠ 0 then
        some (cpSign (crossI v.pos (ed g true) (ed g false)))
      else if cpSign (crossI (ed g true) v.pos (ed v.edge true)) ≠ 0 then
        some (cpSign (crossI (ed g true) v.pos (ed v.edge true)))
      else if vec2Cmp v.pos (ed g true) = 0 then some (-1) else some 0 := by
    unfold treeCmp
    rw [hc1, hc2, hv]
    rfl
  rcases lt_trichotomy ((sg ed g).y (sh v.pos).1) (sh v.pos).2 with hy | hy | hy
  · left
    have hpos : 0 < crossI v.pos (ed g true) (ed g false) := by
      have : 0 < K * (crossI v.pos (ed g true) (ed g false) : ℚ) := by
        rw [hcr]; exact mul_pos (by linarith) hwid
      have := pos_of_mul_pos_right this K_pos.le
      exact_mod_cast this
    refine ⟨?_, _, hg, hhv, by rw [yv]; exact hy⟩
    have : cpSign (crossI v.pos (ed g true) (ed g false)) = 1 := by unfold cpSign; rw [if_neg (by omega), if_pos hpos]
    rw [htc, this]; rfl
  · left
    have h0 : crossI v.pos (ed g true) (ed g false) = 0 := by
      have : K * (crossI v.pos (ed g true) (ed g false) : ℚ) = 0 := by rw [hcr, hy]; ring
      rcases mul_eq_zero.1 this with h1 | h1
      · exact absurd h1 K_pos.ne'
      · exact_mod_cast h1
    rcases end_at hl ha gS hvp ((sg_apart hl ha gS vS hgv) _ hg hhv (by rw [yv, hy])).1 with hc | hc
    · obtain ⟨w, hw, e1, e2⟩ := gS0
      have hwl : w ∈ l := by rw [h]; simp [hw]
      have hwp : w.pos = v.pos := by rw [← hc, ← e1, ← e2]; exact (ha.ends w hwl).symm
      rcases before_of hl ha h hw (List.mem_cons_self) with hx | ⟨-, hx⟩
      · rw [hwp] at hx; exact absurd hx Lt.irrefl
      · rcases hx with hx | ⟨-, hx⟩
        · rw [e2] at hx; simp at hx
        · rw [e1, e2, hv, hwp] at hx
          have hb : Below (sg ed g) (sg ed v.edge) := left_below hl ha gS vS (by rw [hc, ev]) (by rw [hc]; exact hx)
          refine ⟨?_, hb⟩
          have hx' : 0 < crossI (ed g true) v.pos (ed v.edge true) := by
            unfold crossI at hx ⊢
            simp only [Bool.not_false] at hx
            linarith
          have h1 : cpSign (crossI v.pos (ed g true) (ed g false)) = 0 := cpSign_eq.2 h0
          have h2 : cpSign (crossI (ed g true) v.pos (ed v.edge true)) = 1 := by unfold cpSign; rw [if_neg (by omega), if_pos hx']
          rw [htc, h1, h2]; rfl
    · exfalso
      obtain ⟨w, hw, e3, e4⟩ := proper_end hl gS
      have hwp : w.pos = v.pos := by rw [← hc, ← e3, ← e4]; exact (ha.ends w hw).symm
      have hwr : w ∈ rest := by
        rw [h] at hw
        rcases List.mem_append.1 hw with hw | hw
        · exact absurd ⟨w, hw, e3, e4⟩ gE
        · rcases List.mem_cons.1 hw with rfl | hw
          · exact absurd e3.symm hgv
          · exact hw
      rcases before_of hl ha (A := pre ++ [v]) (B := rest) (by rw [h]; simp) (by simp : v ∈ _) hwr with hx | ⟨-, hx⟩
      · rw [hwp] at hx; exact Lt.irrefl hx
      · rw [hv, e4] at hx; simp at hx
  · right
    have hneg : crossI v.pos (ed g true) (ed g false) < 0 := by
      have : K * (crossI v.pos (ed g true) (ed g false) : ℚ) < 0 := by
        rw [hcr]; exact mul_neg_of_neg_of_pos (by linarith) hwid
      by_contra hc
      rw [not_lt] at hc
      have hc' : (0 : ℚ) ≤ (crossI v.pos (ed g true) (ed g false) : ℚ) := by exact_mod_cast hc
      have := mul_nonneg K_pos.le hc'
      linarith
    refine ⟨?_, hy, _, hhv, hg, by rw [yv]; exact hy⟩
    have : cpSign (crossI v.pos (ed g true) (ed g false)) = -1 := by unfold cpSign; rw [if_pos hneg]
    rw [htc, this]; rfl

/-- a sorted tree is split by the place of the new edge -/
theorem split_of {α : Type} {T : List α} {p q : α → Prop} (h : ∀ x ∈ T, p x ∨ q x) (hT : T.Pairwise fun x y => p y → p x) :
    ∃ A B, T = A ++ B ∧ (∀ x ∈ A, p x) ∧ ∀ x ∈ B, q x := by
  induction T with
  | nil => exact ⟨[], [], rfl, by simp, by simp⟩
  | cons a T ih =>
    rw [List.pairwise_cons] at hT
    obtain ⟨A, B, e, hA, hB⟩ := ih (fun x hx => h x (List.mem_cons_of_mem _ hx)) hT.2
    by_cases hp : p a
    · exact ⟨a :: A, B, by rw [e]; rfl, by simpa using ⟨hp, hA⟩, hB⟩
    · have hno : ∀ x ∈ T, ¬ p x := fun x hx hc => hp (hT.1 x hx hc)
      refine ⟨[], a :: T, rfl, by simp, ?_⟩
      intro x hx
      rcases h x hx with hc | hc
      · rcases List.mem_cons.1 hx with rfl | hx
        · exact absurd hc hp
        · exact absurd hc (hno x hx)
      · exact hc

/-- START: where the two edges are inserted -/
theorem start_place (hl : Proper l) (ha : Arranged ed l) {ins : Ins} (hins : IsSearch ed ins) {pre rest : List Vtx} {s t : Vtx}
    (h : l = pre ++ s :: t :: rest) (hpos : s.pos = t.pos) (hne : s.edge ≠ t.edge) (hs : s.rigt = false) (hr : t.rigt = false)
    {tree : List Nat} (htree : ∀ e, e ∈ tree ↔ Started pre e ∧ ¬ Ended pre e)
    (hb : tree.Pairwise fun e f => Below (sg ed e) (sg ed f)) :
    ∃ A B, tree = A ++ B ∧ ins tree s = some A.length ∧ ins (A ++ s.edge :: B) t = some (A.length + 1) ∧
      (A ++ s.edge :: t.edge :: B).Pairwise fun e f => Below (sg ed e) (sg ed f) := by
  have h2 : l = (pre ++ [s]) ++ t :: rest := by rw [h]; simp
  have hsl : s ∈ l := by rw [h]; simp
  have htl : t ∈ l := by rw [h]; simp
  have sS := mem_started hl hsl
  have tS := mem_started hl htl
  have hl1 : Proper (pre ++ s :: (t :: rest)) := h ▸ hl
  have hs0 : Started (pre ++ [s]) s.edge := ⟨s, by simp, rfl, hs⟩
  have hsE : ¬ Ended (pre ++ [s]) s.edge := by
    rw [ended_snoc, not_or]
    refine ⟨((proper_next hl1).1 hs).2, ?_⟩
    rw [hs]; simp
  have start1 : ∀ g, g ∈ tree → Started (pre ++ [s]) g ∧ ¬ Ended (pre ++ [s]) g := by
    intro g hg
    obtain ⟨g1, g2⟩ := (htree g).1 hg
    refine ⟨started_snoc.2 (.inl g1), ?_⟩
    rw [ended_snoc, not_or]
    refine ⟨g2, ?_⟩
    rw [hs]; simp
  have dich := fun g (hg : g ∈ tree) => start_cmp hl ha h hs ((htree g).1 hg).1 ((htree g).1 hg).2
  have hgl : ∀ g ∈ tree, Started l g := by
    intro g hg
    obtain ⟨v, hv, e1, e2⟩ := ((htree g).1 hg).1
    exact ⟨v, by rw [h]; simp [hv], e1, e2⟩
  have hgs : ∀ g ∈ tree, g ≠ s.edge := fun g hg hc => by
    have := ((proper_next hl1).1 hs).1
    exact this (hc ▸ ((htree g).1 hg).1)
  have hsv : (sg ed s.edge).has (sh s.pos).1 ∧ (sg ed s.edge).y (sh s.pos).1 = (sh s.pos).2 := by
    have ks := sg_ok hl ha sS
    have e1 : (sg ed s.edge).1 = sh s.pos := by unfold sg; simp only; rw [← hs, ha.ends s hsl]
    unfold Seg.ok at ks
    rw [e1] at ks
    refine ⟨⟨by rw [e1], ks.le⟩, ?_⟩
    have := y_left (sg ed s.edge); rw [e1] at this; exact this
  obtain ⟨A, B, e, hA, hB⟩ := split_of (T := tree)
    (p := fun g => treeCmp ed s g = some 1 ∧ Below (sg ed g) (sg ed s.edge))
    (q := fun g => treeCmp ed s g = some (-1) ∧ (sh s.pos).2 < (sg ed g).y (sh s.pos).1 ∧ Below (sg ed s.edge) (sg ed g))
    dich (by
      have := hb
      refine List.Pairwise.imp_of_mem ?_ this
      rintro g f hg hf hgf ⟨-, hfs⟩
      rcases dich g hg with hd | ⟨-, hd, -⟩
      · exact hd
      · exfalso
        have g1 := tree_has hl ha h ((htree g).1 hg).1 ((htree g).1 hg).2
        have f1 := tree_has hl ha h ((htree f).1 hf).1 ((htree f).1 hf).2
        have k1 := hfs.le (sg_apart hl ha (hgl f hf) sS (hgs f hf)) f1 hsv.1
        have hne : g ≠ f := by
          rintro rfl
          obtain ⟨u, _, _, hu⟩ := hgf
          exact lt_irrefl _ hu
        have k2 := hgf.le (sg_apart hl ha (hgl g hg) (hgl f hf) hne) g1 f1
        rw [hsv.2] at k1
        linarith)
  have hmA : ∀ g ∈ A, g ∈ tree := fun g hg => by rw [e]; exact List.mem_append_left _ hg
  have hmB : ∀ g ∈ B, g ∈ tree := fun g hg => by rw [e]; exact List.mem_append_right _ hg
  -- the second edge
  have tA : ∀ g ∈ A, treeCmp ed t g = some 1 ∧ Below (sg ed g) (sg ed t.edge) := by
    intro g hg
    rcases start_cmp hl ha h2 hr (start1 g (hmA g hg)).1 (start1 g (hmA g hg)).2 with hd | ⟨-, hd, -⟩
    · exact hd
    · exfalso
      have g1 := tree_has hl ha h ((htree g).1 (hmA g hg)).1 ((htree g).1 (hmA g hg)).2
      have k1 := (hA g hg).2.le (sg_apart hl ha (hgl g (hmA g hg)) sS (hgs g (hmA g hg))) g1 hsv.1
      rw [hsv.2] at k1
      rw [← hpos] at hd
      linarith
  have tB : ∀ g ∈ B, treeCmp ed t g = some (-1) ∧ Below (sg ed t.edge) (sg ed g) := by
    intro g hg
    rcases start_cmp hl ha h2 hr (start1 g (hmB g hg)).1 (start1 g (hmB g hg)).2 with ⟨-, hd⟩ | ⟨hd, -, hd2⟩
    · exfalso
      have k1 := (hB g hg).2.1
      have g1 := tree_has hl ha h ((htree g).1 (hmB g hg)).1 ((htree g).1 (hmB g hg)).2
      have kt := sg_ok hl ha tS
      have e1 : (sg ed t.edge).1 = sh s.pos := by unfold sg; simp only; rw [← hr, ha.ends t htl, hpos]
      unfold Seg.ok at kt
      rw [e1] at kt
      have h3 : (sg ed t.edge).has (sh s.pos).1 := ⟨by rw [e1], kt.le⟩
      have h4 : (sg ed t.edge).y (sh s.pos).1 = (sh s.pos).2 := by
        have := y_left (sg ed t.edge); rw [e1] at this; exact this
      have hgt : g ≠ t.edge := by
        intro hc
        have hl2 : Proper ((pre ++ [s]) ++ t :: rest) := h2 ▸ hl
        exact ((proper_next hl2).1 hr).1 (hc ▸ (start1 g (hmB g hg)).1)
      have k2 := hd.le (sg_apart hl ha (hgl g (hmB g hg)) tS hgt) g1 h3
      rw [h4] at k2
      linarith
    · exact ⟨hd, hd2⟩
  have ts : treeCmp ed t s.edge = some 1 ∧ Below (sg ed s.edge) (sg ed t.edge) := by
    rcases start_cmp hl ha h2 hr hs0 hsE with hd | ⟨-, hd, -⟩
    · exact hd
    · rw [← hpos, hsv.2] at hd
      exact absurd hd (lt_irrefl _)
  refine ⟨A, B, e, ?_, ?_, ?_⟩
  · rw [e]; exact hins s A B (fun g hg => (hA g hg).1) (fun g hg => (hB g hg).1)
  · have := hins t (A ++ [s.edge]) B (by
      intro g hg
      rcases List.mem_append.1 hg with hg | hg
      · exact (tA g hg).1
      · rw [List.mem_singleton] at hg; subst hg; exact ts.1) (fun g hg => (tB g hg).1)
    simpa using this
  · rw [e, List.pairwise_append] at hb
    rw [List.pairwise_append, List.pairwise_cons, List.pairwise_cons]
    refine ⟨hb.1, ⟨?_, fun g hg => (tB g hg).2, hb.2.1⟩, ?_⟩
    · intro g hg
      rcases List.mem_cons.1 hg with rfl | hg
      · exact ts.2
      · exact (hB g hg).2.2
    · intro g hg f hf
      rcases List.mem_cons.1 hf with rfl | hf
      · exact (hA g hg).2
      · rcases List.mem_cons.1 hf with rfl | hf
        · exact (tA g hg).2
        · exact hb.2.2 g hg f hf

end

end Hob3l.Poly
