import Verif.Sweep.LemmasPair
import Verif.Sweep.LemmasAdd
import Verif.Sweep.LemmasTree
import Verif.Sweep.LemmasReduce

/-
Properties C20-C23 of the plane sweep.
-/

namespace Hob3l.Sweep

open Hob3l.Matq

/-! ## C20 overlapping and crossing edges -/

/-- C20: resolving an overlap.  `o` is an active edge, `e` a new edge on the same line that starts on `o`.
The resolution succeeds (no assertion fails, no overflow); the resulting edges cover every point of the plane with the
same memberships as before, are non-empty, left-to-right and pairwise disjoint, and each one is properly registered:
finished, active, or waiting for both of its events. -/
theorem C20_overlap (e o : Edge)
    (r1 : e.left.InRange) (r2 : e.rigt.InRange) (r3 : o.rigt.InRange)
    (he : LexLt e.left e.rigt) (ho : LexLt o.left o.rigt)
    (hpar : Parallel o.left.pt o.rigt.pt e.left.pt e.rigt.pt) (hon : o.Has e.left.pt)
    (fo : o.inState = true ∧ o.agL = false ∧ o.agR = true) (fe : e.inState = false ∧ e.agL = false ∧ e.agR = true) :
    ∃ L, overlap e o = some L ∧
      (∀ X, coverAll L X = e.cover X ^^^ o.cover X) ∧
      (∀ x ∈ L, LexLt x.left x.rigt) ∧ Disjoint L ∧
      (∀ x ∈ L, x.Done e.left ∨ x.Active e.left ∨ x.Pending e.left) := by
  obtain ⟨hd, hol⟩ := line_of o ho
  obtain ⟨s, t, hel, h0, h1⟩ := onLine_of ho he hpar hon
  obtain ⟨L, hL, g⟩ := overlap_core hd hel hol h0 h1 r1 r2 r3 fo fe
  obtain ⟨g1, g2, g3, g4⟩ := g.out hd hel hol
  exact ⟨L.map Prod.fst, hL, g1, g2, g3, g4⟩

/-- the case "overlap o-n": `o` = (0,0)-(6,3), `e` = (2,1)-(8,4) -/
example : let o : Edge := ⟨⟨0, 0⟩, ⟨6, 3⟩, 1, true, false, true⟩
    let e : Edge := ⟨⟨2, 1⟩, ⟨8, 4⟩, 2, false, false, true⟩
    e.left.InRange ∧ e.rigt.InRange ∧ o.rigt.InRange ∧ LexLt e.left e.rigt ∧ LexLt o.left o.rigt ∧
    Parallel o.left.pt o.rigt.pt e.left.pt e.rigt.pt ∧ o.Has e.left.pt ∧
    overlap e o = some [⟨⟨0, 0⟩, ⟨2, 1⟩, 1, false, false, false⟩, ⟨⟨2, 1⟩, ⟨6, 3⟩, 3, true, false, true⟩,
      ⟨⟨6, 3⟩, ⟨8, 4⟩, 2, false, true, true⟩] := by
  refine ⟨by unfold Vec2.InRange; decide, by unfold Vec2.InRange; decide, by unfold Vec2.InRange; decide, by decide,
    by decide, by unfold Parallel Vec2.pt; norm_num, ⟨⟨1 / 3, ?_, ?_, ?_, ?_⟩, ?_⟩, by decide⟩ <;>
  norm_num [Vec2.pt]

/-- C20: splitting an edge at an interior point conserves coverage; the left part keeps its registration, the right part
waits for both of its events. -/
theorem C20_split (i : Vec2) (o : Edge) (ho : LexLt o.left o.rigt)
    (hi : OnSeg o.left.pt o.rigt.pt i.pt) (hl : i ≠ o.left) (hr : i ≠ o.rigt) (fo : o.agR = true) :
    ∃ a b, split i o = some [a, b] ∧ (∀ X, coverAll [a, b] X = o.cover X) ∧
      a.left = o.left ∧ a.rigt = i ∧ b.left = i ∧ b.rigt = o.rigt ∧ LexLt o.left i ∧ LexLt i o.rigt ∧ Disjoint [a, b] ∧
      a.inState = o.inState ∧ a.agL = o.agL ∧ a.agR = true ∧ b.inState = false ∧ b.agL = true ∧ b.agR = true := by
  obtain ⟨h1, h2, h3, h4, h5⟩ := split_spec ho hi (fun h => hl (pt_inj h)) (fun h => hr (pt_inj h)) fo
  exact ⟨_, _, h1, h2, rfl, rfl, rfl, rfl, h3, h4, h5, rfl, rfl, fo, rfl, rfl, rfl⟩

example : let o : Edge := ⟨⟨0, 0⟩, ⟨6, 3⟩, 1, true, false, true⟩
    LexLt o.left o.rigt ∧ OnSeg o.left.pt o.rigt.pt (Vec2.pt ⟨2, 1⟩) := by
  refine ⟨by decide, 1 / 3, ?_, ?_, ?_, ?_⟩ <;> norm_num [Vec2.pt]

/-- C20: checking two neighbouring edges for an intersection conserves the coverage of both.  Parallel edges are left
alone.  Otherwise afterwards the pieces of one edge meet the pieces of the other one only at common end points, or the
edges are unchanged, cross at an interior point, and that crossing is scheduled exactly if it is still ahead of the
sweep position `cur`. -/
theorem C20_pair (debug : Bool) (cur : Vec2if) (prev next : Edge) (hc : cur.Valid)
    (r1 : prev.left.InRange) (r2 : prev.rigt.InRange) (r3 : next.left.InRange) (r4 : next.rigt.InRange)
    (hp : LexLt prev.left prev.rigt) (hn : LexLt next.left next.rigt) (fp : prev.agR = true) (fn : next.agR = true) :
    ∃ r, pair debug cur prev next = some r ∧
      (∀ X, coverAll r.prev X = prev.cover X) ∧ (∀ X, coverAll r.next X = next.cover X) ∧
      (∀ x ∈ r.prev ++ r.next, LexLt x.left x.rigt) ∧ Disjoint r.prev ∧ Disjoint r.next ∧
      (Parallel prev.left.pt prev.rigt.pt next.left.pt next.rigt.pt → r.prev = [prev] ∧ r.next = [next] ∧ r.xing = none) ∧
      (¬ Parallel prev.left.pt prev.rigt.pt next.left.pt next.rigt.pt →
        (r.xing = none ∧ ∀ a ∈ r.prev, ∀ b ∈ r.next, ∀ X, OnSeg a.left.pt a.rigt.pt X → OnSeg b.left.pt b.rigt.pt X →
          (X = a.left.pt ∨ X = a.rigt.pt) ∧ (X = b.left.pt ∨ X = b.rigt.pt)) ∨
        (∃ P : Vec2if, (∀ X, OnSeg prev.left.pt prev.rigt.pt X ∧ OnSeg next.left.pt next.rigt.pt X ↔ X = P.pt) ∧
          r.prev = [prev] ∧ r.next = [next] ∧
          ((0 < cmpPt P.pt cur.pt ∧ r.xing = some P) ∨ (cmpPt P.pt cur.pt ≤ 0 ∧ r.xing = none)))) :=
  pair_spec debug cur prev next hc r1 r2 r3 r4 hp hn fp fn

/-- an integer crossing ahead: both edges are split -/
example : (pair true ⟨⟨0, 0, 1⟩, ⟨0, 0, 1⟩⟩ ⟨⟨0, 0⟩, ⟨4, 4⟩, 1, true, false, true⟩ ⟨⟨0, 4⟩, ⟨4, 0⟩, 2, true, false, true⟩).map
      (fun r => (r.prev.length, r.next.length, r.xing.isSome)) = some (2, 2, false) := by decide +kernel

/-- a fractional crossing ahead: scheduled -/
example : (pair true ⟨⟨0, 0, 1⟩, ⟨0, 0, 1⟩⟩ ⟨⟨0, 0⟩, ⟨3, 3⟩, 1, true, false, true⟩ ⟨⟨0, 3⟩, ⟨3, 0⟩, 2, true, false, true⟩).map
      (fun r => (r.prev.length, r.next.length, r.xing.isSome)) = some (1, 1, true) := by decide +kernel

/-! ## C21 adding edges -/

/-- C21: exactly zero-length edges are dropped; any other edge is stored once, with the same two end points, oriented
left to right, with the given membership and both events scheduled; the order of the end points does not matter. -/
theorem C21_add_edge (a b : Vec2) (m : BitVec 64) :
    addEdge a b m = addEdge b a m ∧
    (a = b → addEdge a b m = some []) ∧
    (a ≠ b → ∃ x, addEdge a b m = some [x] ∧ LexLt x.left x.rigt ∧ x.member = m ∧
      ((x.left = a ∧ x.rigt = b) ∨ (x.left = b ∧ x.rigt = a)) ∧ x.inState = false ∧ x.agL = true ∧ x.agR = true) := by
  rw [addEdge_spec, addEdge_spec]
  refine ⟨?_, ?_, ?_⟩
  · rcases LexLt.total (a := a) (b := b) with h | h | h
    · simp [h]
    · simp [h, h.ne, h.ne.symm, h.asymm]
    · simp [h, h.ne, h.ne.symm, h.asymm]
  · intro h; rw [if_pos h]
  · intro h
    rw [if_neg h]
    rcases LexLt.total (a := a) (b := b) with h' | h' | h'
    · exact absurd h' h
    · exact ⟨_, by rw [if_pos h'], h', rfl, Or.inl ⟨rfl, rfl⟩, rfl, rfl, rfl⟩
    · exact ⟨_, by rw [if_neg h'.asymm], h', rfl, Or.inr ⟨rfl, rfl⟩, rfl, rfl, rfl⟩

example : addEdge ⟨3, 1⟩ ⟨-2, 5⟩ 4 = some [⟨⟨-2, 5⟩, ⟨3, 1⟩, 4, false, true, true⟩] := by decide

/-- C21: a polygon outline is added as a closed curve: whatever the points (repeated points allowed), every point of the
plane is the end of an even number of the edges added.  Likewise for a triangle. -/
theorem C21_add_path (pts : List Vec2) (m : BitVec 64) :
    ∃ L, addPath pts m = some L ∧ (∀ x ∈ L, LexLt x.left x.rigt ∧ x.member = m) ∧ ∀ v, ends v L % 2 = 0 :=
  addPath_spec pts m

theorem C21_add_tri (a b c : Vec2) (m : BitVec 64) :
    ∃ L, addTri a b c m = some L ∧ (∀ x ∈ L, LexLt x.left x.rigt ∧ x.member = m) ∧ ∀ v, ends v L % 2 = 0 :=
  addTri_spec a b c m

/-- a list of lines is added line by line -/
theorem C21_add_lines (m : BitVec 64) (ls : List (Vec2 × Vec2)) :
    ∃ L, addLines m ls = some L ∧ L.length = (ls.filter fun l => l.1 ≠ l.2).length ∧
      ∀ x ∈ L, LexLt x.left x.rigt ∧ x.member = m ∧ ((x.left, x.rigt) ∈ ls ∨ (x.rigt, x.left) ∈ ls) := by
  induction ls with
  | nil => exact ⟨[], rfl, rfl, by simp⟩
  | cons l ls ih =>
    obtain ⟨L, h1, h2, h3⟩ := ih
    obtain ⟨-, z, nz⟩ := C21_add_edge l.1 l.2 m
    by_cases h : l.1 = l.2
    · refine ⟨L, ?_, ?_, ?_⟩
      · unfold addLines; simp only [z h, h1, Option.bind_eq_bind, Option.bind_some, Option.pure_def, List.nil_append]
      · rw [h2, List.filter_cons]; simp [h]
      · intro x hx
        obtain ⟨a, b, c⟩ := h3 x hx
        exact ⟨a, b, c.imp (List.mem_cons_of_mem _) (List.mem_cons_of_mem _)⟩
    · obtain ⟨x, e1, e2, e3, e4, -⟩ := nz h
      refine ⟨x :: L, ?_, ?_, ?_⟩
      · unfold addLines; simp only [e1, h1, Option.bind_eq_bind, Option.bind_some, Option.pure_def]; rfl
      · rw [List.length_cons, h2, List.filter_cons]; simp [h]
      · intro y hy
        rcases List.mem_cons.mp hy with rfl | hy
        · refine ⟨e2, e3, ?_⟩
          rcases e4 with ⟨a, b⟩ | ⟨a, b⟩
          · left; rw [a, b]; exact List.mem_cons_self ..
          · right; rw [a, b]; exact List.mem_cons_self ..
        · obtain ⟨a, b, c⟩ := h3 y hy
          exact ⟨a, b, c.imp (List.mem_cons_of_mem _) (List.mem_cons_of_mem _)⟩

example : ∃ L, addPath [⟨0, 0⟩, ⟨4, 0⟩, ⟨4, 0⟩, ⟨0, 3⟩] 1 = some L ∧ L.length = 3 := by decide

/-! ## C22 reduction -/

/-- bit `j` of the XOR of masks tells whether an odd number of edges of polygon `j` are in the list, i.e., by even-odd
counting, whether the gap above these edges is inside of polygon `j` -/
theorem C22_containment_bits (l : List (BitVec 64)) (j : Nat) :
    (xorAll l).getLsbD j = decide ((l.filter fun m => m.getLsbD j).length % 2 = 1) := by
  induction l with
  | nil => simp [xorAll]
  | cons m ms ih =>
    simp only [xorAll, BitVec.getLsbD_xor, ih, List.filter_cons]
    cases m.getLsbD j
    · simp
    · simp only [Bool.true_bne, if_true, List.length_cons]
      by_cases h : (ms.filter fun m => m.getLsbD j).length % 2 = 1
      · rw [decide_eq_true h, Bool.not_true, eq_comm, decide_eq_false_iff_not]; omega
      · rw [decide_eq_false h, Bool.not_false, eq_comm, decide_eq_true_iff]; omega

/-- C22: for every Boolean function (given as a table of `2^n` bits) and every sequence of vertices of closed outlines,
after processing any number of vertices: no assertion failed; the state holds the edges along the scan line; each one
knows the containment bits of the gap below it; it is kept iff the function differs between the gap below and the gap
above; and, if the outside is not part of the result, the parity of kept edges below a gap is the value of the function
in that gap. -/
theorem C22_reduce (comb : Bitmap.Mem) (n : Nat) (hn : n ≤ 10) (vs : List RVertex) (hv : RunOk n [] vs) :
    ∃ st, reduceRun comb (2 ^ n) [] vs = some st ∧ st.map REdge.member = runMasks [] vs ∧
      (∀ i (h : i < st.length),
        st[i].below = xorAll ((runMasks [] vs).take i) ∧
        (st[i].keep = true ↔ comb.getLsbD (xorAll ((runMasks [] vs).take i)).toNat ≠
          comb.getLsbD (xorAll ((runMasks [] vs).take (i + 1))).toNat)) ∧
      (comb.getLsbD 0 = false → ∀ i,
        ((st.take i).filter (·.keep)).length % 2 = (comb.getLsbD (xorAll ((runMasks [] vs).take i)).toNat).toNat) := by
  have h := reduceRun_some (comb := comb) hn vs [] (by simp) hv
  refine ⟨_, h, ?_, ?_, ?_⟩
  · generalize runMasks [] vs = l
    generalize (0 : BitVec 64) = b
    induction l generalizing b with
    | nil => rfl
    | cons m ms ih => simp [annot, ih]
  · intro i hi
    rw [annot_length] at hi
    have := annot_get (fun i => comb.getLsbD i.toNat) 0 (runMasks [] vs) i hi
    rw [List.getElem?_eq_getElem (by rw [annot_length]; exact hi)] at this
    rw [Option.some.inj this]
    simp
  · intro h0 i
    have hsplit : (annot (fun i => comb.getLsbD i.toNat) 0 (runMasks [] vs)).take i =
        annot (fun i => comb.getLsbD i.toNat) 0 ((runMasks [] vs).take i) := by
      generalize runMasks [] vs = l
      generalize (0 : BitVec 64) = b
      induction l generalizing b i with
      | nil => simp [annot]
      | cons m ms ih => cases i <;> simp [annot, ih]
    rw [hsplit, annot_parity]
    have h0' : comb.getLsbD (0 : BitVec 64).toNat = false := h0
    rw [h0', Bool.false_xor, BitVec.ofNat_eq_ofNat, BitVec.zero_xor]

/-- two overlapping squares, union (bits 1, 2, 3 of the table): start of the first, of the second, end of the first -/
example : RunOk 2 [] [⟨0, 0, [1, 1]⟩, ⟨1, 0, [2, 2]⟩] ∧
    reduceRun 14 4 [] [⟨0, 0, [1, 1]⟩, ⟨1, 0, [2, 2]⟩] =
      some [⟨1, 0, true⟩, ⟨2, 1, false⟩, ⟨2, 3, false⟩, ⟨1, 1, true⟩] := by
  refine ⟨⟨⟨by decide, by decide, by simp⟩, ⟨by decide, by decide, by simp⟩, trivial⟩, by decide +kernel⟩

/-! ## C23 comparators -/

/-- C23: comparison of points is a total order -/
theorem C23_vec2_cmp : Consistent (fun a b => some (vec2Cmp a b)) (fun _ => True) (fun a b => a = b) where
  total := fun a b _ _ => ⟨_, rfl, by rw [vec2Cmp_swap a b], vec2Cmp_eq⟩
  trans := fun a b c i j _ _ _ hi hj h1 h2 => by
    obtain rfl := Option.some.inj hi
    obtain rfl := Option.some.inj hj
    have := ord3_vec2 (fun x : Vec2 => x) a b c
    exact ⟨_, rfl, this.le h1 h2, this.lt h1 h2⟩

/-- C23: phase 1 event order: never fails, consistent; equal are only events of one point, one side and one direction -/
theorem C23_phase1 : Consistent phase1Cmp Vertex.Ok
    (fun a b => a.p = b.p ∧ a.side = b.side ∧ side a.other a.p b.other = 0) where
  total := fun a b ha hb => ⟨_, phase1Cmp_some ha hb, by rw [phase1Cmp_some hb ha, p1Fun_swap], by
    unfold p1Fun
    rw [lexThen_zero, lexThen_zero, vec2Cmp_eq, (cpCmp_nat_sign _ _).2.2, (cpCmp_int_sign _ _).2.2, eq_comm (a := b.side)]⟩
  trans := fun a b c i j ha hb hc hi hj h1 h2 => by
    rw [phase1Cmp_some ha hb] at hi
    rw [phase1Cmp_some hb hc] at hj
    obtain rfl := Option.some.inj hi
    obtain rfl := Option.some.inj hj
    have := p1Fun_ord3 ha hb hc
    exact ⟨_, phase1Cmp_some ha hc, this.le h1 h2, this.lt h1 h2⟩

/-- C23: phase 2 event order, for both passes -/
theorem C23_phase2 (south : Bool) : Consistent (phase2Cmp south) Vertex.Ok
    (fun a b => a.p = b.p ∧ a.side = b.side ∧ side a.other a.p b.other = 0) where
  total := fun a b ha hb => ⟨_, phase2Cmp_some ha hb, by rw [phase2Cmp_some hb ha, p2Fun_swap], by
    unfold p2Fun
    rw [lexThen_zero, lexThen_zero, lexThen_zero, yFun_zero, (cpCmp_nat_sign _ _).2.2, (cpCmp_int_sign _ _).2.2,
      (cpCmp_int_sign _ _).2.2, eq_comm (a := b.side)]
    constructor
    · rintro ⟨h1, h2, h3⟩; exact ⟨vec2_ext h1 h2, h3⟩
    · rintro ⟨h1, h3⟩; rw [h1] at h3 ⊢; exact ⟨rfl, rfl, h3⟩⟩
  trans := fun a b c i j ha hb hc hi hj h1 h2 => by
    rw [phase2Cmp_some ha hb] at hi
    rw [phase2Cmp_some hb hc] at hj
    obtain rfl := Option.some.inj hi
    obtain rfl := Option.some.inj hj
    have := p2Fun_ord3 (s := south) ha hb hc
    exact ⟨_, phase2Cmp_some ha hc, this.le h1 h2, this.lt h1 h2⟩

/-- C23: order of crossings in phase 1 -/
theorem C23_xing_phase1 : Consistent (fun a b => some (vec2ifCmp a b)) Vec2if.Valid (fun a b => a.pt = b.pt) where
  total := fun a b ha hb => ⟨_, rfl, by rw [vec2ifCmp_eq a b ha hb, vec2ifCmp_eq b a hb ha, cmpPt_swap], by
    rw [vec2ifCmp_eq a b ha hb]; exact cmpPt_eq_zero⟩
  trans := fun a b c i j ha hb hc hi hj h1 h2 => by
    rw [vec2ifCmp_eq a b ha hb] at hi
    rw [vec2ifCmp_eq b c hb hc] at hj
    obtain rfl := Option.some.inj hi
    obtain rfl := Option.some.inj hj
    have := (ord3_q (fun x : Vec2if => x.pt.1) a b c).lex
      (fun _ _ _ => ord3_q (fun x : Vec2if => x.pt.2) a b c)
    exact ⟨_, by rw [vec2ifCmp_eq a c ha hc]; rfl, this.le h1 h2, this.lt h1 h2⟩

/-- C23: order of crossings in phase 2: pixel by pixel, exact within a pixel -/
theorem C23_xing_phase2 (south : Bool) : Consistent (xingPhase2Cmp south) XOk (fun a b => a.pt = b.pt) where
  total := fun a b ha hb => ⟨_, xingPhase2Cmp_some ha hb, by rw [xingPhase2Cmp_some hb ha, x2Fun_swap], x2Fun_eq⟩
  trans := fun a b c i j ha hb hc hi hj h1 h2 => by
    rw [xingPhase2Cmp_some ha hb] at hi
    rw [xingPhase2Cmp_some hb hc] at hj
    obtain rfl := Option.some.inj hi
    obtain rfl := Option.some.inj hj
    have := x2Fun_ord3 (s := south) a b c
    exact ⟨_, xingPhase2Cmp_some ha hc, this.le h1 h2, this.lt h1 h2⟩

/-- C23: the order of the result, for non-overlapping edges: its assertion holds, and only equal ends compare equal -/
theorem C23_result (S : Vertex → Prop) (hS : ∀ a, S a → a.Ok)
    (hn : ∀ a b, S a → S b → a.p = b.p → a.side = b.side → side a.other a.p b.other = 0 → a.other = b.other) :
    Consistent resultVertexCmp S (fun a b => a = b) where
  total := fun a b ha hb => ⟨_, resultVertexCmp_some (hS a ha) (hS b hb) (hn a b ha hb),
    by rw [resultVertexCmp_some (hS b hb) (hS a ha) (hn b a hb ha), resFun_swap], resFun_eq (hn a b ha hb)⟩
  trans := fun a b c i j ha hb hc hi hj h1 h2 => by
    rw [resultVertexCmp_some (hS a ha) (hS b hb) (hn a b ha hb)] at hi
    rw [resultVertexCmp_some (hS b hb) (hS c hc) (hn b c hb hc)] at hj
    obtain rfl := Option.some.inj hi
    obtain rfl := Option.some.inj hj
    have := resFun_ord3 (hS a ha) (hS b hb) (hS c hc)
    exact ⟨_, resultVertexCmp_some (hS a ha) (hS c hc) (hn a c ha hc), this.le h1 h2, this.lt h1 h2⟩

/-- C23: search in the tree of active edges compares by the height of the edge at the sweep position and then by slope
(vertical edges last). -/
theorem C23_tree (v w l r : Vec2) (hv : v.InRange) (hw : w.InRange) (hl : l.InRange) (hr : r.InRange)
    (hvw : LexLt v w) (hlv : ¬ LexLt v l) (hvr : LexLt v r) :
    ∃ i, treeVertexEdgeCmp v w l r = some i ∧
      (i < 0 ↔ BelowKey v.y (slope v w) (heightAt l r v) (slope l r)) ∧
      (i > 0 ↔ BelowKey (heightAt l r v) (slope l r) v.y (slope v w)) :=
  tree_spec hv hw hl hr hvw hlv hvr

/-- C23: an edge that starts where an active edge ends is put below that edge. -/
theorem C23_tree_end (v w l : Vec2) (hv : v.InRange) (hw : w.InRange) (hl : l.InRange) :
    treeVertexEdgeCmp v w l v = some (-1) := by
  have h1 : side v v l = 0 := by unfold side; ring
  have h2 : side v v w = 0 := by unfold side; ring
  have h3 : vec2Cmp v v = 0 := by simp [vec2Cmp, cpCmp]
  simp [treeVertexEdgeCmp, cross3_some hv hv hl, cross3_some hv hv hw, h1, h2, h3, cpSign, cpCmp]

example : treeVertexEdgeCmp ⟨5, 5⟩ ⟨9, 0⟩ ⟨0, 0⟩ ⟨5, 5⟩ = some (-1) := by decide

/-- C23: hence the search is sound: if one active edge is below another, and the new edge is above the upper one, then
it is above the lower one, too (and vice versa) -/
theorem C23_tree_monotone (v w l r l' r' : Vec2) (hv : v.InRange) (hw : w.InRange)
    (hl : l.InRange) (hr : r.InRange) (hl' : l'.InRange) (hr' : r'.InRange)
    (hvw : LexLt v w) (hlv : ¬ LexLt v l) (hvr : LexLt v r) (hlv' : ¬ LexLt v l') (hvr' : LexLt v r')
    (hb : BelowKey (heightAt l r v) (slope l r) (heightAt l' r' v) (slope l' r')) :
    ∃ i j, treeVertexEdgeCmp v w l r = some i ∧ treeVertexEdgeCmp v w l' r' = some j ∧
      (0 ≤ j → 0 < i) ∧ (i ≤ 0 → j < 0) := by
  obtain ⟨i, e1, e2, e3⟩ := tree_spec hv hw hl hr hvw hlv hvr
  obtain ⟨j, f1, f2, f3⟩ := tree_spec hv hw hl' hr' hvw hlv' hvr'
  have key : ¬ j < 0 → i > 0 := by
    intro hj
    rw [f2] at hj
    rw [e3]
    unfold BelowKey at *
    push Not at hj
    rcases hb with hb | ⟨hb, hb'⟩
    · left; linarith
    · rcases hj.1.lt_or_eq with h | h
      · left; linarith
      · right; exact ⟨by linarith, lt_of_lt_of_le hb' (hj.2 h.symm)⟩
  exact ⟨i, j, e1, f1, fun h => key (by omega), fun h => by by_contra hc; have := key hc; omega⟩

example : let v : Vec2 := ⟨1, 1⟩
    Vertex.Ok ⟨v, ⟨4, 2⟩, 0⟩ ∧ Vertex.Ok ⟨v, ⟨0, 2⟩, 1⟩ ∧ phase1Cmp ⟨v, ⟨4, 2⟩, 0⟩ ⟨v, ⟨4, 3⟩, 0⟩ = some 1 ∧
    resultVertexCmp ⟨v, ⟨4, 2⟩, 0⟩ ⟨v, ⟨4, 3⟩, 0⟩ = some (-1) ∧ phase1Cmp ⟨v, ⟨4, 2⟩, 0⟩ ⟨v, ⟨0, 2⟩, 1⟩ = some 1 ∧
    treeVertexEdgeCmp v ⟨4, 2⟩ ⟨0, 0⟩ ⟨5, 5⟩ = some (-1) := by
  refine ⟨⟨?_, ?_, ?_⟩, ⟨?_, ?_, ?_⟩, ?_, ?_, ?_, ?_⟩ <;> first | (unfold Vec2.InRange; decide) | decide

example : XOk ⟨⟨3, 1, 2⟩, ⟨-7, 2, 5⟩⟩ := by
  constructor
  · constructor <;> unfold Dimif.Valid <;> decide
  · decide
  · decide

end Hob3l.Sweep
