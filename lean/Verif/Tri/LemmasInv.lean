import Verif.Tri.LemmasCh
import Verif.Tri.SpecFlag
import Verif.Poly.LemmasBelow

/-!
The invariant of the loop.
-/

namespace Hob3l.Tri

open Hob3l.Poly (P Vtx Err ass Ins cross3 vec2Cmp treeNext treePrev Small crossI cross3_eq Lt Started Ended Below sg Proper Arranged)

/-- the edges of the paths in the tree -/
def bt (arms : List Arm) : List Nat := arms.flatMap fun a => [a.b, a.t]

/-- the sum over an edge that ends -/
def endF (ed : Nat → Bool → P) (back : Nat → Bool) (f : P → P → Int) (v : Vtx) : Int :=
  if v.rigt then f (ed v.edge (back v.edge)) (ed v.edge (!back v.edge)) else 0

/-- every flagged side is an edge that has started -/
def FlagS (ed : Nat → Bool → P) (pts : List P) (T : List Tri) (pre : List Vtx) : Prop :=
  ∀ t ∈ T, ∀ i j, Flagged t i j → ∃ e a b, Started pre e ∧ pts[i]? = some a ∧ pts[j]? = some b ∧ EndsOf (ed e) a b

/-- the edge is a flagged side -/
def FlagC (ed : Nat → Bool → P) (pts : List P) (T : List Tri) (e : Nat) : Prop :=
  ∃ t ∈ T, ∃ i j a b, Flagged t i j ∧ pts[i]? = some a ∧ pts[j]? = some b ∧ EndsOf (ed e) a b

theorem get_append {pts X : List P} {i : Nat} {a : P} (h : pts[i]? = some a) : (pts ++ X)[i]? = some a := by
  rw [List.getElem?_append_left (List.getElem?_eq_some_iff.1 h).1]; exact h

theorem FlagS.append {ed : Nat → Bool → P} {pts X : List P} {T : List Tri} {pre : List Vtx} (h : FlagS ed pts T pre) :
    FlagS ed (pts ++ X) T pre := by
  intro t ht i j hf
  obtain ⟨e, a, b, g1, g2, g3, g4⟩ := h t ht i j hf
  exact ⟨e, a, b, g1, get_append g2, get_append g3, g4⟩

theorem FlagC.append {ed : Nat → Bool → P} {pts X : List P} {T : List Tri} {e : Nat} (h : FlagC ed pts T e) :
    FlagC ed (pts ++ X) T e := by
  obtain ⟨t, ht, i, j, a, b, g1, g2, g3, g4⟩ := h
  exact ⟨t, ht, i, j, a, b, g1, get_append g2, get_append g3, g4⟩

theorem FlagC.mono {ed : Nat → Bool → P} {pts : List P} {T T' : List Tri} {e : Nat} (h : FlagC ed pts T e) (hs : T ⊆ T') :
    FlagC ed pts T' e := by
  obtain ⟨t, ht, g⟩ := h
  exact ⟨t, hs ht, g⟩

theorem arm_pts {s : St} {a : Arm} (h : AI s a) : ∀ q ∈ lowP s a ++ highP s a, q ∈ s.points := by
  intro q hq
  rw [← pts_arm h.ne1 h.ne2] at hq
  obtain ⟨n, hn, rfl⟩ := List.mem_map.1 hq
  exact List.mem_of_getElem? (path_num h.path n hn)

theorem once_fresh {pre : List Vtx} {v1 v2 : Vtx} {v : P} (h : Once (pre ++ [v1, v2])) (h1 : v1.pos = v) (h2 : v2.pos = v) :
    Once pre ∧ ∀ w ∈ pre, w.pos ≠ v := by
  refine ⟨fun p => ?_, fun w hw hc => ?_⟩
  · have := h p
    rw [List.countP_append] at this
    omega
  · have := h v
    rw [List.countP_append] at this
    have h3 : 0 < pre.countP fun w => w.pos = v := List.countP_pos_iff.2 ⟨w, hw, by simpa using hc⟩
    have h4 : ([v1, v2].countP fun w => w.pos = v) = 2 := by simp [h1, h2]
    omega

/-- the invariant without the numbers of the points -/
structure Inv0 (ed : Nat → Bool → P) (n0 : Nat) (s : St) (v : P) (pre : List Vtx) (arms : List Arm) : Prop where
  ai : ∀ a ∈ arms, AI s a ∧ AG ed s v a
  dj : (us arms).Nodup
  tree : s.tree = bt arms
  mem : ∀ e, e ∈ s.tree ↔ Started pre e ∧ ¬ Ended pre e
  below : s.tree.Pairwise fun e f => Below (sg ed e) (sg ed f)
  own : ∀ e ∈ us arms, (Started pre e ∨ n0 ≤ e) ∧ e < s.new
  new : n0 ≤ s.new ∧ s.new ≤ n0 + pre.length
  pos : ∀ e, e < n0 → s.pos e = ed e
  fresh : ∀ e, e < n0 → ¬ Started pre e → s.dis e = fun _ => false
  pts : s.points.Pairwise Lt
  small : ∀ p ∈ s.points, Small p
  tris : ∀ t ∈ s.tris, TriOk s.points t
  inn : ∀ e, e < n0 → s.inner e = false
  innN : ∀ e ∈ us arms, n0 ≤ e → s.inner e = true
  ptp : ∀ p ∈ s.points, p = v ∨ ∃ w ∈ pre, w.pos = p
  apt : ∀ a ∈ arms, ∀ q ∈ lowP s a ++ highP s a, ∃ w ∈ pre, w.pos = q
  snd : FlagS ed s.points s.tris pre
  cmp : Once pre → ∀ e, Started pre e → (∃ a ∈ arms, (e, e) ∈ a.U) ∨ FlagC ed s.points s.tris e
  sum : ∀ f, (∀ a b, f a b = -f b a) →
    (s.tris.map (sides f s.points)).sum + (arms.map (asum f s)).sum = (pre.map (endF ed s.back f)).sum

/-- the invariant -/
structure Inv (ed : Nat → Bool → P) (n0 : Nat) (s : St) (pre : List Vtx) (arms : List Arm) : Prop extends
    Inv0 ed n0 s s.last pre arms where
  open' : ∀ e ∈ s.tree, s.idx e true = none
  lastp : s.points.getLast? = pre.getLast?.map (·.pos)
  lastv : ∀ p, s.points.getLast? = some p → s.last = p

theorem nodup_lt {L : List P} (h : L.Pairwise Lt) : L.Nodup := by
  refine List.Pairwise.imp ?_ h
  rintro a b hab rfl
  exact Poly.Lt.irrefl hab

theorem at_append {pts X : List P} {i : Nat} (h : i < pts.length) : at' (pts ++ X) i = at' pts i := by
  unfold at'; rw [List.getElem?_append_left h]

theorem TriOk.append {pts X : List P} {t : Tri} (h : TriOk pts t) : TriOk (pts ++ X) t := by
  obtain ⟨h1, h2, h3, h4⟩ := h
  refine ⟨by simp; omega, by simp; omega, by simp; omega, ?_⟩
  rw [at_append h1, at_append h2, at_append h3]; exact h4

theorem sides_append {f : P → P → Int} {pts X : List P} {t : Tri} (h : TriOk pts t) : sides f (pts ++ X) t = sides f pts t := by
  obtain ⟨h1, h2, h3, h4⟩ := h
  unfold sides
  rw [at_append h1, at_append h2, at_append h3]

theorem bt_append (X Y : List Arm) : bt (X ++ Y) = bt X ++ bt Y := List.flatMap_append

theorem mem_bt_us {s : St} {X : List Arm} (h : ∀ a ∈ X, AI s a) {e : Nat} (he : e ∈ bt X) : e ∈ us X := by
  obtain ⟨a, ha, h1⟩ := List.mem_flatMap.1 he
  refine mem_us.2 ⟨a, ha, ?_⟩
  simp only [List.mem_cons, List.not_mem_nil, or_false] at h1
  rcases h1 with rfl | rfl
  · exact (h a ha).mem_b
  · exact (h a ha).mem_t

theorem asum_loc {f : P → P → Int} {s s' : St} {a : Arm} (h : AI s a) (hl : Loc s s' a.U) : asum f s' a = asum f s a := by
  unfold asum
  rw [← pts_arm h.ne1 h.ne2, ← pts_arm h.ne1 h.ne2, nodes_loc h.path hl]

/-- the step of the invariant -/
theorem inv_step {ed : Nat → Bool → P} {n0 : Nat} {m s' : St} {v : P} {pre : List Vtx} {L X Y R : List Arm} {v1 v2 : Vtx} {F : List Nat}
    {c : (P → P → Int) → Int} (h : Inv0 ed n0 m v pre (L ++ X ++ R)) (hc : Ch ed m s' v F X Y c)
    (hlt : ∀ e, Started pre e → e < n0) (hF : ∀ e ∈ F, e < n0 ∧ ¬ Started pre e)
    (hF' : ∀ e, Started (pre ++ [v1, v2]) e ↔ Started pre e ∨ e ∈ F)
    (htree : s'.tree = bt (L ++ Y ++ R)) (hmem : ∀ e, e ∈ s'.tree ↔ Started (pre ++ [v1, v2]) e ∧ ¬ Ended (pre ++ [v1, v2]) e)
    (hbel : s'.tree.Pairwise fun e f => Below (sg ed e) (sg ed f)) (hopen : ∀ e ∈ s'.tree, e ∉ F → m.idx e true = none)
    (hlast : m.last = v) (hpl : m.points.getLast? = some v) (hv1 : v1.pos = v) (hv2 : v2.pos = v)
    (hpre : ∀ w ∈ pre, Started pre w.edge)
    (hcf : ∀ f, (∀ a b, f a b = -f b a) → c f = endF ed s'.back f v1 + endF ed s'.back f v2) :
    Inv ed n0 s' (pre ++ [v1, v2]) (L ++ Y ++ R) := by
  have hL : ∀ a ∈ L ++ R, a ∈ L ++ X ++ R := by
    intro a ha
    rw [List.mem_append] at ha
    simp only [List.mem_append]; tauto
  have hdj := h.dj
  rw [us_append, us_append, List.nodup_append, List.nodup_append] at hdj
  obtain ⟨⟨dL, dX, dLX⟩, dR, dLR⟩ := hdj
  -- the edges of the other paths
  have hout : ∀ e ∈ us (L ++ R), e ∉ F ∧ e ∉ us X ∧ e < m.new := by
    intro e he
    rw [us_append, List.mem_append] at he
    have h1 : e ∈ us (L ++ X ++ R) := by rw [us_append, us_append]; simp only [List.mem_append]; tauto
    obtain ⟨o1, o2⟩ := h.own e h1
    refine ⟨fun hc => ?_, fun hx => ?_, o2⟩
    · obtain ⟨w1, w2⟩ := hF e hc
      rcases o1 with o1 | o1
      · exact w2 o1
      · omega
    · rcases he with he | he
      · exact dLX e he e hx rfl
      · exact dLR e (List.mem_append_right _ hx) e he rfl
  have hall : ∀ e ∈ us (L ++ R), s'.back e = m.back e ∧ s'.pos e = m.pos e ∧ s'.dis e = m.dis e ∧ s'.inner e = m.inner e ∧
      s'.idx e = m.idx e ∧ s'.ring.nxt e = m.ring.nxt e ∧ s'.ring.prv e = m.ring.prv e ∧ s'.rm e = m.rm e := by
    intro e he
    obtain ⟨o1, o2, o3⟩ := hout e he
    obtain ⟨k1, k2, k3, k4⟩ := hc.eq e o1 o2 o3
    obtain ⟨j1, j2, j3⟩ := hc.old e o3
    exact ⟨(j3 o1).1, j1, k1, j2, (j3 o1).2, k2, k3, k4⟩
  have hloc : ∀ a ∈ L ++ R, Loc m s' a.U := by
    intro a ha
    have hm : ∀ e ∈ ues a.U, e ∈ us (L ++ R) := fun e he => mem_us.2 ⟨a, ha, he⟩
    exact ⟨fun e he => (hall e (hm e he)).1, fun e he => (hall e (hm e he)).2.1, fun e he => (hall e (hm e he)).2.2.1,
      fun e he => (hall e (hm e he)).2.2.2.1, fun e he b _ => by rw [(hall e (hm e he)).2.2.2.2.1],
      fun e he _ => (hall e (hm e he)).2.2.2.2.2.1, fun e he _ => (hall e (hm e he)).2.2.2.2.2.2.1, [], by rw [hc.points]; simp⟩
  have haL : ∀ a ∈ L ++ R, AI s' a ∧ AG ed s' v a := by
    intro a ha
    obtain ⟨i1, i2⟩ := h.ai a (hL a ha)
    have hm : ∀ e ∈ ues a.U, e ∈ us (L ++ R) := fun e he => mem_us.2 ⟨a, ha, he⟩
    exact ⟨i1.loc (hloc a ha) (hall _ (hm _ i1.mem_t)).2.2.2.2.2.1 (hall _ (hm _ i1.mem_b)).2.2.2.2.2.2.1
      (hall _ (hm _ i1.mem_b)).2.2.2.2.2.2.2, i2.loc (hloc a ha) i1.ne1 (.inr rfl)⟩
  have hsl : s'.last = v := hc.last.trans hlast
  have hown : ∀ e ∈ us Y, (Started (pre ++ [v1, v2]) e ∨ n0 ≤ e) ∧ e < s'.new := by
    intro e he
    rcases hc.own e he with w | w | w
    · exact ⟨.inl ((hF' e).2 (.inr w)), by have := (hF e w).1; have := h.new.1; have := hc.new.1; omega⟩
    · obtain ⟨o1, o2⟩ := h.own e (by rw [us_append, us_append]; simp [w])
      exact ⟨o1.imp (fun o => (hF' e).2 (.inl o)) id, by have := hc.new.1; omega⟩
    · exact ⟨.inr (by have := h.new.1; omega), w.2⟩
  refine { ai := ?_, dj := ?_, tree := htree, mem := hmem, below := hbel, own := ?_, new := ?_, pos := ?_, fresh := ?_, pts := ?_,
           small := ?_, tris := ?_, inn := ?_, innN := ?_, ptp := ?_, apt := ?_, snd := ?_, cmp := ?_, sum := ?_, open' := ?_, lastp := ?_, lastv := ?_ }
  · intro a ha
    rw [hsl]
    simp only [List.mem_append] at ha
    rcases ha with (ha | ha) | ha
    · exact haL a (by simp [ha])
    · exact hc.ai a ha
    · exact haL a (by simp [ha])
  · rw [us_append, us_append, List.nodup_append, List.nodup_append]
    have hY : ∀ e ∈ us Y, ∀ b ∈ us (L ++ R), e ≠ b := by
      rintro e he b hb rfl
      obtain ⟨o1, o2, o3⟩ := hout e hb
      rcases hc.own e he with w | w | w
      · exact o1 w
      · exact o2 w
      · omega
    refine ⟨⟨dL, hc.dj, fun a ha b hb => ?_⟩, dR, fun a ha b hb => ?_⟩
    · exact (hY b hb a (by rw [us_append]; simp [ha])).symm
    · rcases List.mem_append.1 ha with ha | ha
      · exact dLR a (by simp [ha]) b hb
      · exact hY a ha b (by rw [us_append]; simp [hb])
  · intro e he
    rw [us_append, us_append] at he
    simp only [List.mem_append] at he
    have hlr : e ∈ us (L ++ R) → (Started (pre ++ [v1, v2]) e ∨ n0 ≤ e) ∧ e < s'.new := by
      intro he
      have h1 : e ∈ us (L ++ X ++ R) := by
        rw [us_append, List.mem_append] at he
        rw [us_append, us_append]; simp only [List.mem_append]; tauto
      obtain ⟨o1, o2⟩ := h.own e h1
      exact ⟨o1.imp (fun o => (hF' e).2 (.inl o)) id, by have := hc.new.1; omega⟩
    rcases he with (he | he) | he
    · exact hlr (by rw [us_append]; simp [he])
    · exact hown e he
    · exact hlr (by rw [us_append]; simp [he])
  · have := h.new; have := hc.new
    simp only [List.length_append, List.length_cons, List.length_nil]
    omega
  · intro e he
    rw [(hc.old e (by have := h.new.1; omega)).1]
    exact h.pos e he
  · intro e he hns
    rw [hF', not_or] at hns
    have hx : e ∉ us X := by
      intro hx
      obtain ⟨o1, -⟩ := h.own e (by rw [us_append, us_append]; simp [hx])
      rcases o1 with o1 | o1
      · exact hns.1 o1
      · omega
    rw [(hc.eq e hns.2 hx (by have := h.new.1; omega)).1]
    exact h.fresh e he hns.1
  · rw [hc.points]; exact h.pts
  · rw [hc.points]; exact h.small
  · obtain ⟨T, t1, t2, -⟩ := hc.tris
    rw [hc.points, t1]
    exact tri_mem h.tris t2
  · intro e he
    rw [(hc.old e (by have := h.new.1; omega)).2.1]
    exact h.inn e he
  · intro e he hn
    have hlr : e ∈ us (L ++ R) → s'.inner e = true := by
      intro he
      rw [(hall e he).2.2.2.1]
      refine h.innN e ?_ hn
      rw [us_append, List.mem_append] at he
      rw [us_append, us_append]; simp only [List.mem_append]; tauto
    rw [us_append, us_append] at he
    simp only [List.mem_append] at he
    rcases he with (he | he) | he
    · exact hlr (by rw [us_append]; simp [he])
    · by_cases hFe : e ∈ F
      · have := (hF e hFe).1; omega
      · by_cases hX : e ∈ us X
        · have hX' : e ∈ us (L ++ X ++ R) := by rw [us_append, us_append]; simp [hX]
          rw [(hc.old e (h.own e hX').2).2.1]
          exact h.innN e hX' hn
        · exact hc.inn e he hFe hX
    · exact hlr (by rw [us_append]; simp [he])
  · intro p hp
    rw [hc.points] at hp
    rw [hsl]
    exact (h.ptp p hp).imp id fun ⟨w, hw, e⟩ => ⟨w, by simp [hw], e⟩
  · intro a ha q hq
    have hai : AI s' a := by
      simp only [List.mem_append] at ha
      rcases ha with (ha | ha) | ha
      · exact (haL a (by simp [ha])).1
      · exact (hc.ai a ha).1
      · exact (haL a (by simp [ha])).1
    have := arm_pts hai q hq
    rw [hc.points] at this
    rcases h.ptp q this with rfl | ⟨w, hw, e⟩
    · exact ⟨v2, by simp, hv2⟩
    · exact ⟨w, by simp [hw], e⟩
  · obtain ⟨T, t1, -⟩ := hc.tris
    obtain ⟨f1, -⟩ := hc.flag T t1
    rw [hc.points, t1]
    intro t ht i j hf
    rcases List.mem_append.1 ht with ht | ht
    · obtain ⟨e, a, b, g1, g⟩ := h.snd t ht i j hf
      exact ⟨e, a, b, (hF' e).2 (.inl g1), g⟩
    · obtain ⟨e, a, b, g1, g2, g3, g4, g5⟩ := f1 t ht i j hf
      obtain ⟨x, hx, g1⟩ := List.mem_flatMap.1 g1
      have hu : e ∈ us (L ++ X ++ R) := mem_us.2 ⟨x, by simp [hx], mem_ues1 g1⟩
      obtain ⟨o1, -⟩ := h.own e hu
      have hS : Started pre e := by
        rcases o1 with o1 | o1
        · exact o1
        · rw [h.innN e hu o1] at g2; cases g2
      refine ⟨e, a, b, (hF' e).2 (.inl hS), g3, g4, ?_⟩
      unfold EdgeAt at g5
      rw [h.pos e (hlt e hS)] at g5
      exact g5
  · intro ho e hS
    obtain ⟨ho1, ho2⟩ := once_fresh ho hv1 hv2
    obtain ⟨T, t1, -⟩ := hc.tris
    obtain ⟨-, f2⟩ := hc.flag T t1
    have f2 := f2 (by
      intro a ha q hq hcv
      obtain ⟨w, hw, e1⟩ := h.apt a (by simp [ha]) q hq
      exact ho2 w hw (e1.trans hcv))
    rw [hc.points, t1]
    rcases (hF' e).1 hS with hS | hS
    · rcases h.cmp ho1 e hS with ⟨a, ha, g⟩ | g
      · simp only [List.mem_append] at ha
        rcases ha with (ha | ha) | ha
        · exact .inl ⟨a, by simp [ha], g⟩
        · rcases f2 e (List.mem_flatMap.2 ⟨a, ha, g⟩) (h.inn e (hlt e hS)) with w | ⟨t, ht, i, j, p, q, g1, g2, g3, g4⟩
          · obtain ⟨y, hy, w⟩ := List.mem_flatMap.1 w
            exact .inl ⟨y, by simp [hy], w⟩
          · right
            unfold EdgeAt at g4
            rw [h.pos e (hlt e hS)] at g4
            exact ⟨t, by simp [ht], i, j, p, q, g1, g2, g3, g4⟩
        · exact .inl ⟨a, by simp [ha], g⟩
      · exact .inr (g.mono (by simp))
    · obtain ⟨y, hy, g⟩ := hc.beg e hS
      have hai := (hc.ai y hy).1
      refine .inl ⟨y, by simp [hy], ?_⟩
      rcases g with rfl | rfl
      · rw [← hai.hdU]; exact hdU_mem (by unfold Arm.U; simp [hai.ne1])
      · rw [← hai.lastU]; exact lastU_mem' (by unfold Arm.U; simp [hai.ne1])
  · intro f hf
    obtain ⟨T, t1, t2, t3⟩ := hc.tris
    have hs := h.sum f hf
    have e1 : ∀ M : List Arm, (∀ a ∈ M, a ∈ L ++ R) → M.map (asum f s') = M.map (asum f m) := by
      intro M hM
      exact List.map_congr_left fun a ha => asum_loc (h.ai a (hL a (hM a ha))).1 (hloc a (hM a ha))
    have e2 : pre.map (endF ed s'.back f) = pre.map (endF ed m.back f) := by
      apply List.map_congr_left
      intro w hw
      have hS := hpre w hw
      have : w.edge ∉ F := fun hc => (hF _ hc).2 hS
      unfold endF
      rw [((hc.old w.edge (by have := h.new.1; have := hlt _ hS; omega)).2.2 this).1]
    rw [hc.points, t1, List.map_append, List.sum_append, t3 f hf]
    simp only [List.map_append, List.sum_append] at hs ⊢
    rw [e1 L (fun a ha => by simp [ha]), e1 R (fun a ha => by simp [ha]), e2]
    simp only [List.map_cons, List.map_nil, List.sum_cons, List.sum_nil]
    rw [hcf f hf]
    omega
  · intro e he
    by_cases hFe : e ∈ F
    · exact hc.open' e hFe
    · have hS := ((hmem e).1 he).1
      rw [hF'] at hS
      have hS := hS.resolve_right hFe
      rw [((hc.old e (by have := h.new.1; have := hlt _ hS; omega)).2.2 hFe).2]
      exact hopen e he hFe
  · rw [hc.points, hpl]
    simp [hv2]
  · intro p hp
    rw [hc.points, hpl] at hp
    rw [hsl]
    exact Option.some.inj hp

/-- the numbers of the points -/
theorem inv_getPt {ed : Nat → Bool → P} {l : List Vtx} (hl : Proper l) (ha : Arranged ed l) {n0 : Nat} (hn : ∀ w ∈ l, w.edge < n0) {s : St}
    {pre rest : List Vtx} {arms : List Arm} {v1 v2 : Vtx} {v : P} (h : Inv ed n0 s pre arms) (hpre : l = pre ++ v1 :: v2 :: rest)
    (h1 : v1.pos = v) (h2 : v2.pos = v) (hne : v1.edge ≠ v2.edge) :
    ∃ m, getPt (getPt s v1) v2 = m ∧ Inv0 ed n0 m v pre arms ∧ m.last = v ∧ m.points.getLast? = some v ∧ m.tree = s.tree ∧
      m.back = s.back ∧
      Ev m v v1.edge v2.edge v1.rigt v2.rigt ∧
      ∀ e ∈ m.tree, (e = v1.edge → v1.rigt = false) → (e = v2.edge → v2.rigt = false) → m.idx e true = none := by
  have hl1 : Proper (pre ++ v1 :: (v2 :: rest)) := hpre ▸ hl
  have hl2 : Proper ((pre ++ [v1]) ++ v2 :: rest) := by rw [List.append_assoc]; exact hpre ▸ hl
  have hsm : Small v := by rw [← h1]; exact ha.small v1 (by rw [hpre]; simp)
  -- the points
  have key : ∃ Q, (if s.points.length = 0 ∨ s.last ≠ v then s.points ++ [v] else s.points) = Q ∧ Q.getLast? = some v ∧ Q.Pairwise Lt ∧
      (∃ X, Q = s.points ++ X) ∧ (∀ p ∈ Q, Small p) ∧ (s.points ≠ [] → Lt s.last v ∨ s.last = v) := by
    have hord : s.points ≠ [] → Lt s.last v ∨ s.last = v := by
      intro hne
      have hl := h.lastp
      rw [List.getLast?_eq_getLast_of_ne_nil hne] at hl
      cases hw : pre.getLast? with
      | none => rw [hw] at hl; cases hl
      | some w =>
        rw [hw] at hl
        have e1 := h.lastv _ (List.getLast?_eq_getLast_of_ne_nil hne)
        have e2 : s.last = w.pos := by rw [e1]; exact Option.some.inj hl
        have := Poly.before_of hl1 (hpre ▸ ha) rfl (List.mem_of_getLast? hw) (List.mem_cons_self : v1 ∈ v1 :: v2 :: rest)
        rw [e2, ← h1]
        exact this.imp id And.left
    have hle : ∀ p ∈ s.points, Lt p s.last ∨ p = s.last := by
      intro p hp
      have hne : s.points ≠ [] := List.ne_nil_of_mem hp
      have e1 := h.lastv _ (List.getLast?_eq_getLast_of_ne_nil hne)
      have hp' := hp
      have hpw := h.pts
      rw [← List.dropLast_append_getLast hne] at hp' hpw
      rw [List.pairwise_append] at hpw
      rcases List.mem_append.1 hp' with hq | hq
      · left; rw [e1]; exact hpw.2.2 p hq _ (by simp)
      · right; rw [e1]; simpa using hq
    refine ⟨_, rfl, ?_⟩
    by_cases hc : s.points.length = 0 ∨ s.last ≠ v
    · rw [if_pos hc]
      refine ⟨by simp, ?_, ⟨_, rfl⟩, ?_, hord⟩
      · rw [List.pairwise_append]
        refine ⟨h.pts, by simp, ?_⟩
        intro p hp q hq
        rw [List.mem_singleton] at hq
        subst hq
        have hne : s.points ≠ [] := List.ne_nil_of_mem hp
        have hlt : Lt s.last q := by
          rcases hc with hc | hc
          · exact absurd (List.length_eq_zero_iff.1 hc) hne
          · exact (hord hne).resolve_right hc
        rcases hle p hp with hw | rfl
        · exact lt_trans' hw hlt
        · exact hlt
      · intro p hp
        rcases List.mem_append.1 hp with hp | hp
        · exact h.small p hp
        · rw [List.mem_singleton] at hp; exact hp ▸ hsm
    · rw [if_neg hc]
      rw [not_or, not_not] at hc
      have hne : s.points ≠ [] := fun h => hc.1 (by rw [h]; rfl)
      refine ⟨?_, h.pts, ⟨[], by simp⟩, h.small, hord⟩
      rw [List.getLast?_eq_getLast_of_ne_nil hne]
      congr 1
      rw [← h.lastv _ (List.getLast?_eq_getLast_of_ne_nil hne)]; exact hc.2
  obtain ⟨Q, q1, q2, q3, ⟨X, q4⟩, q5, q6⟩ := key
  have hQ : Q ≠ [] := by rintro rfl; cases q2
  obtain ⟨m, hm⟩ : ∃ m : St, m = { s with last := v, points := Q
                                          idx := upd (upd s.idx (v1.edge, v1.rigt) (some (Q.length - 1))) (v2.edge, v2.rigt)
                                            (some (Q.length - 1)) } := ⟨_, rfl⟩
  have hget : getPt (getPt s v1) v2 = m := by
    have g1 : getPt s v1 = { s with last := v, points := Q, idx := upd s.idx (v1.edge, v1.rigt) (some (Q.length - 1)) } := by
      unfold getPt
      rw [h1]
      simp only
      by_cases hc : s.points.length = 0 ∨ s.last ≠ v
      · rw [if_pos hc] at q1 ⊢
        rw [← q1]
      · rw [if_neg hc] at q1 ⊢
        rw [← q1]
        rw [not_or, not_not] at hc
        rw [← hc.2]
    rw [g1]
    unfold getPt
    rw [h2]
    have hc : ¬ (Q.length = 0 ∨ v ≠ v) := by
      rw [not_or]
      exact ⟨fun hc => hQ (List.length_eq_zero_iff.1 hc), by simp⟩
    simp only
    rw [if_neg hc, hm]
  -- the edges of the tree
  have hnot : ∀ w, (w = v1 ∨ w = v2) → w.rigt = false → ¬ Started pre w.edge := by
    rintro w (rfl | rfl) hw
    · exact ((Poly.proper_next hl1).1 hw).1
    · exact fun hc => ((Poly.proper_next hl2).1 hw).1 (Poly.started_snoc.2 (.inl hc))
  have hn1 : v1.edge < n0 := hn v1 (by rw [hpre]; simp)
  have hn2 : v2.edge < n0 := hn v2 (by rw [hpre]; simp)
  have hrig : ∀ w, (w = v1 ∨ w = v2) → w.rigt = true → w.edge ∈ s.tree := by
    rintro w (rfl | rfl) hw
    · exact (h.mem _).2 ((Poly.proper_next hl1).2 hw)
    · obtain ⟨tS, tE⟩ := (Poly.proper_next hl2).2 hw
      rw [Poly.ended_snoc, not_or] at tE
      rw [Poly.started_snoc] at tS
      exact (h.mem _).2 ⟨tS.resolve_right (fun hc => hne hc.1), tE.1⟩
  have hidx : ∀ e b, m.idx e b = if e = v2.edge ∧ b = v2.rigt then some (Q.length - 1) else if e = v1.edge ∧ b = v1.rigt then
      some (Q.length - 1) else s.idx e b := by
    intro e b; rw [hm]; rfl
  have hkeep : ∀ a ∈ arms, ∀ e ∈ ues a.U, ∀ b, s.idx e b ≠ none → m.idx e b = s.idx e b := by
    intro a haa e he b hb
    have ho := (h.own e (mem_us.2 ⟨a, haa, he⟩)).1
    have hk : ∀ w, (w = v1 ∨ w = v2) → ¬ (e = w.edge ∧ b = w.rigt) := by
      rintro w hw ⟨c1, c2⟩
      cases hr : w.rigt with
      | true =>
        apply hb
        rw [c2, hr]
        exact h.open' e (c1 ▸ hrig w hw hr)
      | false =>
        rcases ho with ho | ho
        · exact hnot w hw hr (c1 ▸ ho)
        · rcases hw with rfl | rfl <;> omega
    rw [hidx, if_neg (hk v2 (.inr rfl)), if_neg (hk v1 (.inl rfl))]
  have hloc : ∀ a ∈ arms, Loc s m a.U := by
    intro a haa
    refine ⟨fun e he => by rw [hm], fun e he => by rw [hm], fun e he => by rw [hm], fun e he => by rw [hm], hkeep a haa,
      fun e he _ => by rw [hm], fun e he _ => by rw [hm], X, by rw [hm]; exact q4⟩
  have hmp : m.points = Q := by rw [hm]
  have hQv : ∀ p ∈ Q, p ∈ s.points ∨ p = v := by
    intro p hp
    rw [← q1] at hp
    split at hp
    · simpa using hp
    · exact .inl hp
  have hptp : ∀ p ∈ s.points, ∃ w ∈ pre, w.pos = p := by
    intro p hp
    rcases h.ptp p hp with hc | hc
    · have hne : s.points ≠ [] := List.ne_nil_of_mem hp
      have e1 := h.lastv _ (List.getLast?_eq_getLast_of_ne_nil hne)
      have e2 := h.lastp
      rw [List.getLast?_eq_getLast_of_ne_nil hne] at e2
      obtain ⟨w, hw, e3⟩ := Option.map_eq_some_iff.1 e2.symm
      exact ⟨w, List.mem_of_getLast? hw, by rw [e3, hc, e1]⟩
    · exact hc
  refine ⟨m, hget, ?_, by rw [hm], by rw [hmp]; exact q2, by rw [hm], by rw [hm], ?_, ?_⟩
  · refine ⟨?_, h.dj, by rw [hm]; exact h.tree, by rw [hm]; exact h.mem, by rw [hm]; exact h.below, by rw [hm]; exact h.own,
      by rw [hm]; exact h.new, by rw [hm]; exact h.pos, by rw [hm]; exact h.fresh, by rw [hmp]; exact q3, by rw [hmp]; exact q5, ?_,
      by rw [hm]; exact h.inn, by rw [hm]; exact h.innN, ?_, ?_, ?_, ?_, ?_⟩
    · intro a haa
      obtain ⟨i1, i2⟩ := h.ai a haa
      refine ⟨i1.loc (hloc a haa) (by rw [hm]) (by rw [hm]) (by rw [hm]), i2.loc (hloc a haa) i1.ne1 (q6 ?_)⟩
      intro hc
      have : (pre.getLast?.map (·.pos)) = none := by rw [← h.lastp, hc]; rfl
      rw [Option.map_eq_none_iff, List.getLast?_eq_none_iff] at this
      have hb : a.b ∈ s.tree := by rw [h.tree]; exact List.mem_flatMap.2 ⟨a, haa, by simp⟩
      obtain ⟨⟨w, hw, -⟩, -⟩ := (h.mem _).1 hb
      rw [this] at hw
      cases hw
    · intro t ht
      rw [hmp, q4]
      exact (h.tris t (by rw [hm] at ht; exact ht)).append
    · intro p hp
      rw [hmp] at hp
      exact (hQv p hp).symm.imp id (hptp p)
    · intro a haa q hq
      have i1 := (h.ai a haa).1
      rw [← pts_arm i1.ne1 i1.ne2, nodes_loc i1.path (hloc a haa), pts_arm i1.ne1 i1.ne2] at hq
      exact h.apt a haa q hq
    · have e1 : m.tris = s.tris := by rw [hm]
      rw [hmp, q4, e1]
      exact h.snd.append
    · intro ho e he
      have e1 : m.tris = s.tris := by rw [hm]
      rw [hmp, q4, e1]
      exact (h.cmp ho e he).imp id fun g => g.append
    · intro f hf
      have e1 : m.tris.map (sides f m.points) = s.tris.map (sides f s.points) := by
        rw [hmp, q4]
        have : m.tris = s.tris := by rw [hm]
        rw [this]
        exact List.map_congr_left fun t ht => sides_append (h.tris t ht)
      have e2 : arms.map (asum f m) = arms.map (asum f s) :=
        List.map_congr_left fun a haa => asum_loc (h.ai a haa).1 (hloc a haa)
      have e3 : m.back = s.back := by rw [hm]
      rw [e1, e2, e3]
      exact h.sum f hf
  · have hp : ∀ w, (w = v1 ∨ w = v2) → m.pos w.edge w.rigt = v := by
      intro w hw
      have hwl : w ∈ l := by rw [hpre]; rcases hw with rfl | rfl <;> simp
      have : m.pos = s.pos := by rw [hm]
      rw [this, h.pos _ (hn w hwl), ha.ends w hwl]
      rcases hw with rfl | rfl
      · exact h1
      · exact h2
    have hi : ∀ w, (w = v1 ∨ w = v2) → m.idx w.edge w.rigt = some (Q.length - 1) := by
      intro w hw
      rw [hidx]
      rcases hw with rfl | rfl
      · rw [if_neg (fun hc => hne hc.1), if_pos ⟨rfl, rfl⟩]
      · rw [if_pos ⟨rfl, rfl⟩]
    have hg : Q[Q.length - 1]? = some v := by rw [← List.getLast?_eq_getElem?]; exact q2
    refine ⟨hne, ⟨_, hi v1 (.inl rfl), ?_⟩, ⟨_, hi v2 (.inr rfl), ?_⟩, hp v1 (.inl rfl), hp v2 (.inr rfl), ?_,
      by rw [hmp]; exact nodup_lt q3, hsm⟩
    · rw [hmp, hg]; show _ = some (m.pos _ _); rw [hp v1 (.inl rfl)]
    · rw [hmp, hg]; show _ = some (m.pos _ _); rw [hp v2 (.inr rfl)]
    · rw [hi v1 (.inl rfl), hi v2 (.inr rfl)]
  · intro e he k1 k2
    rw [hidx, if_neg, if_neg]
    · exact h.open' e (by rw [hm] at he; exact he)
    · rintro ⟨c1, c2⟩; rw [k1 c1] at c2; cases c2
    · rintro ⟨c1, c2⟩; rw [k2 c1] at c2; cases c2

end Hob3l.Tri
