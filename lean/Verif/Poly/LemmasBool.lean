import Verif.Poly.SpecBool
import Verif.Poly.PropsGeo
import Verif.Sweep.PropsReduce

/-!
The result of the reduction is what the tracing of paths expects.
-/

namespace Hob3l.Poly

open Sweep (Edge RV Planar Directed SweepOrder)

/-- how numbers of edges determine ends -/
structure Numbered (num : Edge → Nat) (ed : Nat → Bool → P) (E : List Edge) : Prop where
  inj : ∀ e ∈ E, ∀ f ∈ E, num e = num f → e = f
  left : ∀ e ∈ E, ed (num e) false = (e.left.x, e.left.y)
  rigt : ∀ e ∈ E, ed (num e) true = (e.rigt.x, e.rigt.y)

theorem Numbered.sub {num : Edge → Nat} {ed : Nat → Bool → P} {E K : List Edge} (h : Numbered num ed E) (hk : K.Sublist E) :
    Numbered num ed K :=
  ⟨fun e he f hf => h.inj e (hk.subset he) f (hk.subset hf), fun e he => h.left e (hk.subset he),
    fun e he => h.rigt e (hk.subset he)⟩

theorem vec2Cmp_eq' (a b : Matq.Vec2) : vec2Cmp (a.x, a.y) (b.x, b.y) = Sweep.vec2Cmp a b := rfl

theorem cpSign_eq' (a : Int) : cpSign a = Matq.cpSign a := rfl

theorem cross3_eq' (a b c : Matq.Vec2) : cross3 (a.x, a.y) (b.x, b.y) (c.x, c.y) = Sweep.cross3 a b c := rfl

/-- the two models of the comparison agree -/
theorem resultCmp_eq {num : Edge → Nat} {ed : Nat → Bool → P} {E : List Edge} (h : Numbered num ed E) {a b : RV}
    (ha : a.e ∈ E) (hb : b.e ∈ E) : resultCmp ed (toVtx num a) (toVtx num b) = Sweep.resultVertexCmp a.vertex b.vertex := by
  obtain ⟨ea, ra⟩ := a
  obtain ⟨eb, rb⟩ := b
  have core : ∀ (pa pb oa ob : Matq.Vec2) (sa sb : Bool), ed (num ea) (!sa) = (oa.x, oa.y) → ed (num eb) (!sb) = (ob.x, ob.y) →
      resultCmp ed ⟨num ea, sa, (pa.x, pa.y)⟩ ⟨num eb, sb, (pb.x, pb.y)⟩ =
        Sweep.resultVertexCmp ⟨pa, oa, if sa then 1 else 0⟩ ⟨pb, ob, if sb then 1 else 0⟩ := by
    intro pa pb oa ob sa sb h1 h2
    unfold resultCmp Sweep.resultVertexCmp
    simp only [h1, h2, vec2Cmp_eq', cpSign_eq', cross3_eq']
    have hside : cpCmp (sideNum sb) (sideNum sa) = Matq.cpCmp (if sb then 1 else 0 : Nat) (if sa then 1 else 0) := by
      cases sa <;> cases sb <;> rfl
    rw [hside]
    by_cases c1 : Sweep.vec2Cmp pa pb = 0
    · simp only [c1, ne_eq, not_true_eq_false, if_false]
      by_cases c2 : Matq.cpCmp (if sb then 1 else 0 : Nat) (if sa then 1 else 0) = 0
      · simp only [c2, ne_eq, not_true_eq_false, if_false]
        cases Sweep.cross3 ob pa oa with
        | none => rfl
        | some c =>
          simp only [Option.bind_eq_bind, Option.bind_some]
          by_cases c3 : Matq.cpSign c = 0
          · simp only [c3, ne_eq, not_true_eq_false, if_false]
            by_cases c4 : Sweep.vec2Cmp oa ob = 0
            · simp [c4, Matq.ass]
            · simp [c4, Matq.ass]
          · simp [c3]
      · simp [c2]
    · simp [c1]
  cases ra <;> cases rb
  · exact core ea.left eb.left ea.rigt eb.rigt false false (h.rigt ea ha) (h.rigt eb hb)
  · exact core ea.left eb.rigt ea.rigt eb.left false true (h.rigt ea ha) (h.left eb hb)
  · exact core ea.rigt eb.left ea.left eb.rigt true false (h.left ea ha) (h.rigt eb hb)
  · exact core ea.rigt eb.rigt ea.left eb.left true true (h.left ea ha) (h.left eb hb)

section
variable {num : Edge → Nat} {ed : Nat → Bool → P} {K : List Edge} {out : List RV} (hnum : Numbered num ed K) (hp : Planar K)
  (hd : Directed K) (ho : SweepOrder K out)
include hnum hp hd ho

omit hnum hp hd in
theorem mem_out (v : RV) : v ∈ out ↔ v.e ∈ K := by
  rw [ho.1.mem_iff, List.mem_flatMap]
  constructor
  · rintro ⟨e, he, hv⟩
    simp only [List.mem_cons, List.not_mem_nil, or_false] at hv
    rcases hv with rfl | rfl <;> exact he
  · intro h
    refine ⟨v.e, h, ?_⟩
    obtain ⟨e, r⟩ := v
    cases r <;> simp

/-- the vertices of one edge -/
theorem filter_edge {e : Edge} (he : e ∈ K) : out.filter (fun v => v.e = e) = [⟨e, false⟩, ⟨e, true⟩] := by
  have hnd := Sweep.planar_nodup hp hd
  have h1 : ∀ L : List Edge, e ∉ L →
      (L.flatMap fun e => [(⟨e, false⟩ : RV), ⟨e, true⟩]).filter (fun v => v.e = e) = [] := by
    intro L hL
    rw [List.filter_eq_nil_iff]
    intro v hv
    obtain ⟨f, hf, hv⟩ := List.mem_flatMap.mp hv
    simp only [List.mem_cons, List.not_mem_nil, or_false] at hv
    have hne : f ≠ e := by rintro rfl; exact hL hf
    rcases hv with rfl | rfl <;> simpa using hne
  have hperm : (out.filter (fun v => v.e = e)).Perm [⟨e, false⟩, ⟨e, true⟩] := by
    refine (ho.1.filter _).trans (List.Perm.of_eq ?_)
    obtain ⟨A, B, rfl⟩ := List.append_of_mem he
    have hnd' := List.nodup_cons.mp (List.nodup_middle.mp hnd)
    have hA : e ∉ A := fun h => hnd'.1 (by simp [h])
    have hB : e ∉ B := fun h => hnd'.1 (by simp [h])
    rw [List.flatMap_append, List.flatMap_cons, List.filter_append, List.filter_append, h1 A hA, h1 B hB]
    simp
  have hpw := ho.2.filter (fun v => v.e = e)
  have hlen := hperm.length_eq
  generalize out.filter (fun v => v.e = e) = F at hperm hpw hlen
  match F, hperm, hpw, hlen with
  | [a, b], hperm, hpw, _ =>
    have ha : a ∈ [(⟨e, false⟩ : RV), ⟨e, true⟩] := hperm.mem_iff.mp (by simp)
    have hb : b ∈ [(⟨e, false⟩ : RV), ⟨e, true⟩] := hperm.mem_iff.mp (by simp)
    have hne : a ≠ b := by
      have := hperm.nodup_iff.mpr (by simp)
      simpa using this
    simp only [List.mem_cons, List.not_mem_nil, or_false] at ha hb
    rcases ha with rfl | rfl <;> rcases hb with rfl | rfl
    · exact absurd rfl hne
    · rfl
    · exfalso
      rw [List.pairwise_cons] at hpw
      obtain ⟨i, hi, hlt⟩ := hpw.1 ⟨e, false⟩ (by simp)
      have hlex := (hd e he).1
      have hv : Sweep.vec2Cmp e.rigt e.left = 1 := by
        unfold Sweep.vec2Cmp Matq.cpCmp
        unfold Sweep.LexLt at hlex
        rcases hlex with h | ⟨h, h'⟩
        · rw [if_neg (show ¬ e.rigt.x < e.left.x by omega), if_pos h]; rfl
        · rw [if_neg (show ¬ e.rigt.x < e.left.x by omega), if_neg (show ¬ e.left.x < e.rigt.x by omega)]
          simp only [ne_eq, not_true_eq_false, if_false]
          rw [if_neg (show ¬ e.rigt.y < e.left.y by omega), if_pos h']
      unfold Sweep.resultVertexCmp RV.vertex at hi
      simp only [if_true, Bool.false_eq_true, if_false, hv, ne_eq, one_ne_zero, not_false_eq_true, Option.some.injEq] at hi
      omega
    · exact absurd rfl hne

theorem filter_num {e : Edge} (he : e ∈ K) :
    (out.map (toVtx num)).filter (fun v => v.edge = num e) =
      [⟨num e, false, (e.left.x, e.left.y)⟩, ⟨num e, true, (e.rigt.x, e.rigt.y)⟩] := by
  rw [List.filter_map]
  have : out.filter ((fun v : Vtx => decide (v.edge = num e)) ∘ toVtx num) = out.filter (fun v => v.e = e) := by
    apply List.filter_congr
    intro v hv
    show decide (num v.e = num e) = decide (v.e = e)
    refine decide_eq_decide.mpr ?_
    exact ⟨fun h => hnum.inj _ ((mem_out ho v).mp hv) e he h, fun h => congrArg num h⟩
  rw [this, filter_edge hnum hp hd ho he]
  rfl

theorem proper_out : Proper (out.map (toVtx num)) := by
  intro k
  by_cases h : ∃ e ∈ K, num e = k
  · obtain ⟨e, he, rfl⟩ := h
    right
    refine ⟨(e.left.x, e.left.y), (e.rigt.x, e.rigt.y), ?_, filter_num hnum hp hd ho he⟩
    have := (hd e he).1
    unfold Sweep.LexLt at this
    intro hc
    simp only [Prod.mk.injEq] at hc
    omega
  · left
    rw [List.filter_eq_nil_iff]
    intro v hv
    obtain ⟨r, hr, rfl⟩ := List.mem_map.mp hv
    intro hk
    exact h ⟨r.e, (mem_out ho r).mp hr, of_decide_eq_true hk⟩

theorem arranged_out : Arranged ed (out.map (toVtx num)) := by
  refine ⟨?_, ?_, ?_, ?_⟩
  · intro v hv
    obtain ⟨r, hr, rfl⟩ := List.mem_map.mp hv
    have he := (mem_out ho r).mp hr
    obtain ⟨e, b⟩ := r
    cases b
    · exact hnum.left e he
    · exact hnum.rigt e he
  · intro v hv
    obtain ⟨r, hr, rfl⟩ := List.mem_map.mp hv
    have he := (mem_out ho r).mp hr
    obtain ⟨-, h1, h2⟩ := hd _ he
    obtain ⟨e, b⟩ := r
    unfold Matq.Vec2.InRange at h1 h2
    dsimp only at h1 h2
    cases b <;> simp only [toVtx, Bool.false_eq_true, if_false, if_true, Small] <;> omega
  · rw [List.pairwise_map]
    refine List.Pairwise.imp_of_mem ?_ ho.2
    intro a b ha hb h
    rw [resultCmp_eq hnum ((mem_out ho a).mp ha) ((mem_out ho b).mp hb)]
    exact h
  · intro v hv w hw hne
    obtain ⟨a, ha, rfl⟩ := List.mem_map.mp hv
    obtain ⟨b, hb, rfl⟩ := List.mem_map.mp hw
    have ea := (mem_out ho a).mp ha
    have eb := (mem_out ho b).mp hb
    have hab : a.e ≠ b.e := by rintro h; exact hne (by simp only [toVtx, h])
    show NonCrossing (ed (num a.e) false) (ed (num a.e) true) (ed (num b.e) false) (ed (num b.e) true)
    rw [hnum.left _ ea, hnum.rigt _ ea, hnum.left _ eb, hnum.rigt _ eb]
    intro s t s0 s1 t0 t1 hst
    have pp := Sweep.planar_pair hp ea eb hab
    have on1 : a.e.On (pointAt (a.e.left.x, a.e.left.y) (a.e.rigt.x, a.e.rigt.y) s) := ⟨s, s0, s1, rfl, rfl⟩
    have on2 : b.e.On (pointAt (a.e.left.x, a.e.left.y) (a.e.rigt.x, a.e.rigt.y) s) := by
      rw [hst]; exact ⟨t, t0, t1, rfl, rfl⟩
    obtain ⟨x1, x2⟩ := pp _ on1 on2
    have key : ∀ (e : Edge) (s : ℚ), e ∈ K → e.End (pointAt (e.left.x, e.left.y) (e.rigt.x, e.rigt.y) s) → s = 0 ∨ s = 1 := by
      intro e s he h
      have hlex := (hd e he).1
      have hdif : ((e.rigt.x : ℚ) - e.left.x) ≠ 0 ∨ ((e.rigt.y : ℚ) - e.left.y) ≠ 0 := by
        rcases hlex with h | ⟨-, h⟩
        · left
          have : (e.left.x : ℚ) < e.rigt.x := by exact_mod_cast h
          intro hc; linarith
        · right
          have : (e.left.y : ℚ) < e.rigt.y := by exact_mod_cast h
          intro hc; linarith
      rcases h with h | h
      · left
        have h1 := congrArg Prod.fst h
        have h2 := congrArg Prod.snd h
        simp only [pointAt, Matq.Vec2.pt] at h1 h2
        rcases hdif with hc | hc
        · exact (mul_eq_zero.mp (show s * ((e.rigt.x : ℚ) - e.left.x) = 0 by linarith)).resolve_right hc
        · exact (mul_eq_zero.mp (show s * ((e.rigt.y : ℚ) - e.left.y) = 0 by linarith)).resolve_right hc
      · right
        have h1 := congrArg Prod.fst h
        have h2 := congrArg Prod.snd h
        simp only [pointAt, Matq.Vec2.pt] at h1 h2
        rcases hdif with hc | hc
        · have := (mul_eq_zero.mp (show (s - 1) * ((e.rigt.x : ℚ) - e.left.x) = 0 by linarith)).resolve_right hc
          linarith
        · have := (mul_eq_zero.mp (show (s - 1) * ((e.rigt.y : ℚ) - e.left.y) = 0 by linarith)).resolve_right hc
          linarith
    refine ⟨key a.e s ea x1, key b.e t eb ?_⟩
    rw [← hst]; exact x2

omit hnum hp hd in
theorem degree_out (p : P) : degree (out.map (toVtx num)) p = Sweep.ends ⟨p.1, p.2⟩ K := by
  unfold degree
  rw [List.countP_map, ho.1.countP_eq]
  clear ho
  induction K with
  | nil => rfl
  | cons e K ih =>
    rw [List.flatMap_cons, List.countP_append, ih, Sweep.ends]
    have h1 : ((e.left.x, e.left.y) = p) ↔ e.left = ⟨p.1, p.2⟩ := by
      obtain ⟨⟨lx, ly⟩, -, -, -, -, -⟩ := e
      obtain ⟨px, py⟩ := p
      simp
    have h2 : ((e.rigt.x, e.rigt.y) = p) ↔ e.rigt = ⟨p.1, p.2⟩ := by
      obtain ⟨-, ⟨lx, ly⟩, -, -, -, -⟩ := e
      obtain ⟨px, py⟩ := p
      simp
    simp only [List.countP_cons, List.countP_nil, Function.comp, toVtx, Bool.false_eq_true, if_false, if_true,
      decide_eq_true_eq, h1, h2]
    omega

theorem segs_out : (segs (out.map (toVtx num))).Perm
    (K.map fun e => (num e, (e.left.x, e.left.y), (e.rigt.x, e.rigt.y))) := by
  have h1 : segs (out.map (toVtx num)) = (out.filter (fun v => !v.rigt)).map
      (fun v => (num v.e, (v.e.left.x, v.e.left.y), (v.e.rigt.x, v.e.rigt.y))) := by
    unfold segs
    rw [List.filterMap_map, ← List.filterMap_eq_map
      (f := fun v : RV => (num v.e, (v.e.left.x, v.e.left.y), (v.e.rigt.x, v.e.rigt.y))), List.filterMap_filter]
    apply List.filterMap_congr
    intro v hv
    have he := (mem_out ho v).mp hv
    have hf := filter_num hnum hp hd ho he
    have hfind : (out.map (toVtx num)).find? (fun w => decide (w.edge = num v.e ∧ w.rigt = true)) =
        some ⟨num v.e, true, (v.e.rigt.x, v.e.rigt.y)⟩ := by
      have : (out.map (toVtx num)).find? (fun w => decide (w.edge = num v.e ∧ w.rigt = true)) =
          ((out.map (toVtx num)).filter (fun w => w.edge = num v.e)).find? (fun w => w.rigt) := by
        rw [List.find?_filter]
        congr 1
        funext w
        simp
      rw [this, hf]
      rfl
    obtain ⟨e, r⟩ := v
    cases r
    · simp only [Function.comp, toVtx, Bool.false_eq_true, if_false, Bool.not_false, if_true]
      simp only [toVtx] at hfind
      rw [hfind]
      rfl
    · simp [toVtx]
  rw [h1]
  have h2 : (out.filter (fun v => !v.rigt)).Perm (K.map fun e => (⟨e, false⟩ : RV)) := by
    refine (ho.1.filter _).trans (List.Perm.of_eq ?_)
    clear h1 ho hd hp hnum
    induction K with
    | nil => rfl
    | cons e K ih => rw [List.flatMap_cons, List.filter_append, ih]; simp
  refine (h2.map _).trans (List.Perm.of_eq ?_)
  rw [List.map_map]
  rfl

end

theorem segUnder_swap (a b : P) (X : ℚ × ℚ) : SegUnder (a, b) X ↔ SegUnder (b, a) X := by
  have one : ∀ a b : P, SegUnder (a, b) X → SegUnder (b, a) X := by
    rintro a b ⟨h, t, y, t0, t1, hp, hy⟩
    refine ⟨h.symm, 1 - t, y, by linarith, by linarith, ?_, hy⟩
    rw [← hp]
    unfold pointAt
    simp only [Prod.mk.injEq]
    constructor <;> ring
  exact ⟨one a b, one b a⟩

theorem segUnder_edge {e : Edge} (he : Sweep.LexLt e.left e.rigt) (X : ℚ × ℚ) :
    SegUnder ((e.left.x, e.left.y), (e.rigt.x, e.rigt.y)) X ↔ e.Under X := by
  have hx : (e.left.x : ℚ) ≤ e.rigt.x := by exact_mod_cast he.le_x
  constructor
  · rintro ⟨h, t, y, t0, t1, hp, hy⟩
    have hb : (e.left.x : ℚ) ≤ X.1 ∧ X.1 < e.rigt.x := by
      rcases h with h | h
      · exact h
      · exfalso
        have h1 : (e.rigt.x : ℚ) ≤ X.1 := h.1
        have h2 : X.1 < (e.left.x : ℚ) := h.2
        linarith
    refine ⟨hb.1, hb.2, y, ⟨t, t0, t1, ?_, ?_⟩, hy⟩
    · exact (congrArg Prod.fst hp).symm
    · exact (congrArg Prod.snd hp).symm
  · rintro ⟨h1, h2, y, ⟨t, t0, t1, hx, hy⟩, h3⟩
    exact ⟨Or.inl ⟨h1, h2⟩, t, y, t0, t1, Prod.ext hx.symm hy.symm, h3⟩

/-- the sides of the paths that are traced are the edges -/
theorem sides_perm {l : List Vtx} {st : St}
    (h : ((st.res.paths.flatMap cyc).map fun e => (st.res.points[e.1]?, st.res.points[e.2]?)).Perm
        ((segs l).map fun x => (some (directed st.back x).1, some (directed st.back x).2))) :
    (sides st.res).Perm ((segs l).map (directed st.back)) := by
  obtain ⟨g, hg⟩ : ∃ g : Option P × Option P → Option (P × P), g = fun e =>
    match e.1, e.2 with
    | some a, some b => some (a, b)
    | _, _ => none := ⟨_, rfl⟩
  have h1 := h.filterMap g
  rw [List.filterMap_map, List.filterMap_map] at h1
  have e1 : sides st.res = (st.res.paths.flatMap cyc).filterMap
      (g ∘ fun e => (st.res.points[e.1]?, st.res.points[e.2]?)) := by
    unfold sides; rw [hg]; rfl
  have e2 : (segs l).map (directed st.back) = (segs l).filterMap
      (g ∘ fun x => (some (directed st.back x).1, some (directed st.back x).2)) := by
    rw [← List.filterMap_eq_map]
    apply List.filterMap_congr
    intro x _
    rw [hg]; rfl
  rw [e1, e2]
  exact h1

theorem inside_paths {num : Edge → Nat} {ed : Nat → Bool → P} {K : List Edge} {out : List RV} (hnum : Numbered num ed K)
    (hp : Planar K) (hd : Directed K) (ho : SweepOrder K out) {st : St}
    (h : ((st.res.paths.flatMap cyc).map fun e => (st.res.points[e.1]?, st.res.points[e.2]?)).Perm
        ((segs (out.map (toVtx num))).map fun x => (some (directed st.back x).1, some (directed st.back x).2)))
    (X : ℚ × ℚ) : insidePaths st.res X = Sweep.oddBelow K X := by
  classical
  have h1 := (sides_perm h).trans ((segs_out hnum hp hd ho).map _)
  rw [List.map_map] at h1
  unfold insidePaths Sweep.oddBelow
  have h2 : ((sides st.res).filter fun s => SegUnder s X).length = (K.filter fun e => e.Under X).length := by
    rw [(h1.filter _).length_eq, List.filter_map, List.length_map]
    congr 1
    apply List.filter_congr
    intro e he
    simp only [Function.comp, directed, decide_eq_decide]
    split_ifs
    · rw [segUnder_swap, segUnder_edge (hd e he).1]
    · exact segUnder_edge (hd e he).1 X
  have h2' : ((sides st.res).filter fun s => decide (SegUnder s X)).length = (K.filter fun e => decide (e.Under X)).length := by
    convert h2
  rw [h2']

theorem path_index {st : St} {l : List Vtx}
    (h : ((st.res.paths.flatMap cyc).map fun e => (st.res.points[e.1]?, st.res.points[e.2]?)).Perm
        ((segs l).map fun x => (some (directed st.back x).1, some (directed st.back x).2)))
    {p : List Nat} (hp : p ∈ st.res.paths) {i : Nat} (hi : i ∈ p) : i < st.res.points.length := by
  have hc : ∃ j, (i, j) ∈ cyc p := by
    have hlen : p.length = (p.tail ++ p.head?.toList).length := by
      cases p with
      | nil => rfl
      | cons a r => simp
    have hm : (cyc p).map Prod.fst = p := by
      unfold cyc
      exact List.map_fst_zip (by omega)
    rw [← hm] at hi
    obtain ⟨e, he, rfl⟩ := List.mem_map.mp hi
    exact ⟨e.2, he⟩
  obtain ⟨j, hj⟩ := hc
  have hmem : (st.res.points[i]?, st.res.points[j]?) ∈
      (st.res.paths.flatMap cyc).map fun e => (st.res.points[e.1]?, st.res.points[e.2]?) :=
    List.mem_map.mpr ⟨(i, j), List.mem_flatMap.mpr ⟨p, hp, hj⟩, rfl⟩
  obtain ⟨x, -, hx⟩ := List.mem_map.mp (h.mem_iff.mp hmem)
  have := congrArg Prod.fst hx
  simp only at this
  by_contra hc
  rw [List.getElem?_eq_none (by omega)] at this
  simp at this

end Hob3l.Poly
