import Verif.Sweep.LemmasLoop
import Verif.Sweep.LemmasOrder
import Verif.Matq.Props

namespace Hob3l.Sweep

open Hob3l.Matq

/-! ### Phase 2: the XOR balance at every point -/

/-- XOR of `f` over a list -/
def xorMap {α : Type} (f : α → BitVec 64) : List α → BitVec 64
  | [] => 0
  | x :: xs => f x ^^^ xorMap f xs

theorem xorMap_append {α : Type} (f : α → BitVec 64) (a b : List α) : xorMap f (a ++ b) = xorMap f a ^^^ xorMap f b := by
  induction a with
  | nil => simp [xorMap]
  | cons x xs ih => simp only [List.cons_append, xorMap, ih, BitVec.xor_assoc]

theorem xorMap_perm {α : Type} (f : α → BitVec 64) {a b : List α} (h : a.Perm b) : xorMap f a = xorMap f b := by
  induction h with
  | nil => rfl
  | cons x _ ih => simp only [xorMap, ih]
  | swap x y l => simp only [xorMap]; ac_rfl
  | trans _ _ ih1 ih2 => exact ih1.trans ih2

theorem sumMember_eq (l : List Edge) : sumMember l = xorMap Edge.member l := by
  induction l with
  | nil => rfl
  | cons x xs ih => simp only [sumMember, xorMap, ih]

theorem sumMember_append (a b : List Edge) : sumMember (a ++ b) = sumMember a ^^^ sumMember b := by
  simp only [sumMember_eq, xorMap_append]

theorem sumMember_perm {a b : List Edge} (h : a.Perm b) : sumMember a = sumMember b := by
  simp only [sumMember_eq, xorMap_perm _ h]

/-- `m` at the point `u`, seen from `v` -/
def at' (u v : Vec2) (m : BitVec 64) : BitVec 64 := if u = v then m else 0

theorem at'_xor (u v : Vec2) (a b : BitVec 64) : at' u v (a ^^^ b) = at' u v a ^^^ at' u v b := by
  unfold at'; split_ifs <;> simp

theorem at'_zero (u v : Vec2) : at' u v 0#64 = 0#64 := by unfold at'; split_ifs <;> rfl

def bmask (v : Vec2) (bs : List Bundle) : BitVec 64 := xorMap (fun b => at' b.pos v (sumMember b.edges)) bs

/-- left ends waiting in this pass -/
def lmask (south : Bool) (v : Vec2) (l : List Edge) : BitVec 64 :=
  xorMap (fun e => if e.south = south then at' e.left v e.member else 0) l
def rmask (south : Bool) (v : Vec2) (l : List Edge) : BitVec 64 :=
  xorMap (fun e => if e.south = south then at' e.rigt v e.member else 0) l

theorem endMask_eq (v : Vec2) (x : Edge) : endMask v x = at' x.left v x.member ^^^ at' x.rigt v x.member := rfl

theorem lrmask (south : Bool) (v : Vec2) (E : List Edge) :
    lmask south v E ^^^ rmask south v E = endXor v (E.filter fun e => e.south = south) := by
  induction E with
  | nil => simp [lmask, rmask, xorMap, endXor]
  | cons x xs ih =>
    have hl : lmask south v (x :: xs) = (if x.south = south then at' x.left v x.member else 0) ^^^ lmask south v xs := rfl
    have hr : rmask south v (x :: xs) = (if x.south = south then at' x.rigt v x.member else 0) ^^^ rmask south v xs := rfl
    rw [hl, hr, List.filter_cons]
    by_cases h : x.south = south
    · simp only [h, if_true, decide_true, endXor, endMask_eq, ← ih]; ac_rfl
    · simp only [h, if_false, decide_false, Bool.false_eq_true, ← ih, BitVec.ofNat_eq_ofNat, BitVec.zero_xor]

/-! result edges -/

theorem resultVertexCmp_zero {n r : Edge} (h : resultVertexCmp ⟨n.left, n.rigt, 0⟩ ⟨r.left, r.rigt, 0⟩ = some 0) :
    n.left = r.left ∧ n.rigt = r.rigt := by
  unfold resultVertexCmp at h
  simp only at h
  by_cases h1 : vec2Cmp n.left r.left = 0
  · rw [if_neg (by simpa using h1), if_neg (by simp [cpCmp])] at h
    refine ⟨vec2Cmp_eq.mp h1, ?_⟩
    simp only [Option.bind_eq_bind, Option.pure_def, Option.bind_eq_some_iff] at h
    obtain ⟨c, -, h⟩ := h
    by_cases h2 : cpSign c = 0
    · rw [if_neg (by simpa using h2), Option.bind_eq_some_iff] at h
      obtain ⟨_, h, _⟩ := h
      exact vec2Cmp_eq.mp (ass_some h)
    · rw [if_pos h2] at h; exact absurd (Option.some.inj h) h2
  · rw [if_pos h1] at h; exact absurd (Option.some.inj h) h1

theorem resultInsert_ends (v : Vec2) (n : Edge) {R R' : List Edge} (h : resultInsert n R = some R') :
    endXor v R' = endXor v R ^^^ endMask v n := by
  induction R generalizing R' with
  | nil =>
    simp only [resultInsert, Option.some.injEq] at h
    subst h; simp [endXor]
  | cons r rs ih =>
    simp only [resultInsert, Option.bind_eq_bind, Option.pure_def, Option.bind_eq_some_iff] at h
    obtain ⟨i, hi, h⟩ := h
    by_cases c : i = 0
    · rw [if_pos c, Option.some.injEq] at h
      subst h; subst c
      obtain ⟨e1, e2⟩ := resultVertexCmp_zero hi
      simp only [endXor, endMask_eq, e1, e2, at'_xor]
      ac_rfl
    · rw [if_neg c, Option.bind_eq_some_iff] at h
      obtain ⟨rs', h1, h2⟩ := h
      obtain rfl := Option.some.inj h2
      simp only [endXor, ih h1]; ac_rfl

/-- edges with the same ends as `R`, plus possibly `n` -/
theorem resultInsert_mem (n : Edge) {R R' : List Edge} (h : resultInsert n R = some R') :
    ∀ x ∈ R', (x.left = n.left ∧ x.rigt = n.rigt) ∨ ∃ y ∈ R, x.left = y.left ∧ x.rigt = y.rigt := by
  induction R generalizing R' with
  | nil =>
    simp only [resultInsert, Option.some.injEq] at h
    subst h; intro x hx; rw [List.mem_singleton] at hx; rw [hx]; exact Or.inl ⟨rfl, rfl⟩
  | cons r rs ih =>
    simp only [resultInsert, Option.bind_eq_bind, Option.pure_def, Option.bind_eq_some_iff] at h
    obtain ⟨i, hi, h⟩ := h
    by_cases c : i = 0
    · rw [if_pos c, Option.some.injEq] at h
      subst h
      intro x hx
      rcases List.mem_cons.mp hx with rfl | hx
      · exact Or.inr ⟨r, by simp, rfl, rfl⟩
      · exact Or.inr ⟨x, List.mem_cons_of_mem _ hx, rfl, rfl⟩
    · rw [if_neg c, Option.bind_eq_some_iff] at h
      obtain ⟨rs', h1, h2⟩ := h
      obtain rfl := Option.some.inj h2
      intro x hx
      rcases List.mem_cons.mp hx with rfl | hx
      · exact Or.inr ⟨x, by simp, rfl, rfl⟩
      · rcases ih h1 x hx with k | ⟨y, hy, k⟩
        · exact Or.inl k
        · exact Or.inr ⟨y, List.mem_cons_of_mem _ hy, k⟩

theorem bundleEdgeNew_some {l r : Vec2} {t R R' : List Edge} (h : bundleEdgeNew l r t R = some R') :
    ∃ n : Edge, resultInsert n R = some R' ∧ LexLt n.left n.rigt ∧ n.member = sumMember t ∧
      ((n.left = l ∧ n.rigt = r) ∨ (n.left = r ∧ n.rigt = l)) := by
  unfold bundleEdgeNew edgeNew at h
  simp only [Option.bind_eq_bind, Option.pure_def, Option.bind_eq_some_iff] at h
  obtain ⟨_, h0, h⟩ := h
  split_ifs at h with c
  · simp only [Option.bind_eq_some_iff, Option.some.injEq] at h
    obtain ⟨n, ⟨_, ha, rfl⟩, h⟩ := h
    exact ⟨_, h, vec2Cmp_lt.mp (ass_some ha), rfl, Or.inr ⟨rfl, rfl⟩⟩
  · simp only [Option.bind_eq_some_iff, Option.some.injEq] at h
    obtain ⟨n, ⟨_, ha, rfl⟩, h⟩ := h
    exact ⟨_, h, vec2Cmp_lt.mp (ass_some ha), rfl, Or.inl ⟨rfl, rfl⟩⟩

theorem bundleEdgeNew_ends {l r : Vec2} {t R R' : List Edge} (h : bundleEdgeNew l r t R = some R') (v : Vec2) :
    endXor v R' = endXor v R ^^^ (at' l v (sumMember t) ^^^ at' r v (sumMember t)) := by
  obtain ⟨n, h1, -, h3, h4⟩ := bundleEdgeNew_some h
  rw [resultInsert_ends v n h1, endMask_eq, h3]
  rcases h4 with ⟨e1, e2⟩ | ⟨e1, e2⟩
  · rw [e1, e2]
  · rw [e1, e2]; ac_rfl

/-! routing through a pixel -/

def bedges (bs : List Bundle) : List Edge := bs.flatMap Bundle.edges

theorem bmask_cons (v : Vec2) (b : Bundle) (bs : List Bundle) :
    bmask v (b :: bs) = at' b.pos v (sumMember b.edges) ^^^ bmask v bs := rfl

theorem bmask_append (v : Vec2) (a b : List Bundle) : bmask v (a ++ b) = bmask v a ^^^ bmask v b := xorMap_append _ _ _

theorem bmask_opt (v p : Vec2) (l : List Edge) : bmask v (if l = [] then [] else [⟨p, l⟩]) = at' p v (sumMember l) := by
  by_cases h : l = []
  · rw [if_pos h, h]; simp [bmask, xorMap, sumMember, at'_zero]
  · rw [if_neg h]; simp [bmask, xorMap]

theorem bedges_opt (p : Vec2) (l : List Edge) : bedges (if l = [] then [] else [⟨p, l⟩]) = l := by
  by_cases h : l = []
  · rw [if_pos h, h]; rfl
  · rw [if_neg h]; simp [bedges]

theorem bedges_append (a b : List Bundle) : bedges (a ++ b) = bedges a ++ bedges b := by simp [bedges]
theorem bedges_cons (a : Bundle) (b : List Bundle) : bedges (a :: b) = a.edges ++ bedges b := by simp [bedges]

theorem xor4 (a b c d e : BitVec 64) : a ^^^ (b ^^^ c) ^^^ (b ^^^ d) ^^^ (e ^^^ c) = a ^^^ d ^^^ e := by
  ext i hi
  simp only [BitVec.getElem_xor]
  cases a[i] <;> cases b[i] <;> cases c[i] <;> cases d[i] <;> cases e[i] <;> rfl

theorem Consume.bal {sel : Edge → Prop} {p : Vec2} {bs bs' : List Bundle} {q q' R R' : List Edge}
    (h : Consume sel p bs q R bs' q' R') (v : Vec2) :
    endXor v R' ^^^ bmask v bs' ^^^ at' p v (sumMember q') = endXor v R ^^^ bmask v bs ^^^ at' p v (sumMember q) := by
  induction h with
  | nil => rfl
  | stop => rfl
  | last b bs q R R' tmp hi e1 _ _ _ hn =>
    rw [bundleEdgeNew_ends hn, bmask_cons, bmask_cons, e1, sumMember_append, sumMember_append, at'_xor, at'_xor]
    generalize endXor v R = a
    generalize at' b.pos v (sumMember tmp) = c
    generalize at' p v (sumMember tmp) = d
    generalize at' b.pos v (sumMember hi) = e
    generalize bmask v bs = f
    generalize at' p v (sumMember q) = g
    ext i hi
    simp only [BitVec.getElem_xor]
    cases a[i] <;> cases c[i] <;> cases d[i] <;> cases e[i] <;> cases f[i] <;> cases g[i] <;> rfl
  | next b bs bs' q q' R R' R'' _ _ hn _ ih =>
    rw [ih, bundleEdgeNew_ends hn, bmask_cons, sumMember_append, at'_xor]
    generalize endXor v R = a
    generalize at' b.pos v (sumMember b.edges) = c
    generalize at' p v (sumMember b.edges) = d
    generalize bmask v bs = f
    generalize at' p v (sumMember q) = g
    ext i hi
    simp only [BitVec.getElem_xor]
    cases a[i] <;> cases c[i] <;> cases d[i] <;> cases f[i] <;> cases g[i] <;> rfl

theorem Consume.perm {sel : Edge → Prop} {p : Vec2} {bs bs' : List Bundle} {q q' R R' : List Edge}
    (h : Consume sel p bs q R bs' q' R') : (bedges bs' ++ q').Perm (bedges bs ++ q) := by
  induction h with
  | nil => exact List.Perm.refl _
  | stop => exact List.Perm.refl _
  | last b bs q R R' tmp hi e1 _ _ _ hn =>
    rw [bedges_cons, bedges_cons, e1]
    classical
    rw [List.perm_iff_count]
    intro a
    simp only [List.count_append]; omega
  | next b bs bs' q q' R R' R'' _ _ hn _ ih =>
    refine ih.trans ?_
    rw [bedges_cons]
    classical
    rw [List.perm_iff_count]
    intro a
    simp only [List.count_append]; omega

theorem Advance.bal {sel : Edge → Prop} {p : Vec2} {bs bs' : List Bundle} {q R R' : List Edge}
    (h : Advance sel p bs R bs' q R') (v : Vec2) :
    endXor v R' ^^^ bmask v bs' ^^^ at' p v (sumMember q) = endXor v R ^^^ bmask v bs := by
  cases h with
  | none => simp [sumMember, at'_zero]
  | some pre post bs1 b lo rest _ _ _ e1 _ hc =>
    have := hc.bal v
    simp only [sumMember, at'_zero, BitVec.ofNat_eq_ofNat, BitVec.xor_zero, bmask_cons] at this
    rw [bmask_append, bmask_append, bmask_append, bmask_opt, bmask_cons, e1, sumMember_append, at'_xor]
    have e : endXor v R' ^^^ (bmask v pre ^^^ (at' b.pos v (sumMember lo) ^^^ bmask v bs1)) ^^^ at' p v (sumMember q) =
        (endXor v R' ^^^ bmask v bs1 ^^^ at' p v (sumMember q)) ^^^ (bmask v pre ^^^ at' b.pos v (sumMember lo)) := by
      ac_rfl
    rw [e, this]; ac_rfl

theorem Advance.perm {sel : Edge → Prop} {p : Vec2} {bs bs' : List Bundle} {q R R' : List Edge}
    (h : Advance sel p bs R bs' q R') : (bedges bs' ++ q).Perm (bedges bs) := by
  cases h with
  | none => simp
  | some pre post bs1 b lo rest _ _ _ e1 _ hc =>
    have := hc.perm
    rw [bedges_append, bedges_append, bedges_append, bedges_opt, bedges_cons, e1]
    rw [bedges_cons] at this
    classical
    rw [List.perm_iff_count] at this ⊢
    intro a
    have := this a
    simp only [List.count_append, List.count_nil] at *; omega

/-! events in a pixel -/

theorem PixEv.bal {south : Bool} {p : Vec2} {s s' : Pix} (h : PixEv south p s s') (v : Vec2) :
    at' p v (sumMember s'.q) ^^^ lmask south v s'.evL ^^^ rmask south v s'.evR =
      at' p v (sumMember s.q) ^^^ lmask south v s.evL ^^^ rmask south v s.evR := by
  cases h with
  | insert e evL' a b hp he hs hq =>
    have hl : lmask south v s.evL = at' p v e.member ^^^ lmask south v evL' := by
      unfold lmask; rw [xorMap_perm _ hp]; simp only [xorMap, hs, if_true, he]
    rw [hl, hq]
    simp only [sumMember_append, sumMember, at'_xor]; ac_rfl
  | skipL e evL' hp he hs =>
    have hl : lmask south v s.evL = lmask south v evL' := by
      unfold lmask; rw [xorMap_perm _ hp]; simp only [xorMap, hs, if_false, BitVec.ofNat_eq_ofNat, BitVec.zero_xor]
    rw [hl]
  | remove e evR' a b hp he hs hq =>
    have hl : rmask south v s.evR = at' p v e.member ^^^ rmask south v evR' := by
      unfold rmask; rw [xorMap_perm _ hp]; simp only [xorMap, hs, if_true, he]
    rw [hl, hq]
    simp only [sumMember_append, sumMember, at'_xor]
    generalize at' p v (sumMember a) = x1
    generalize at' p v (sumMember b) = x2
    generalize at' p v e.member = x3
    generalize lmask south v s.evL = x4
    generalize rmask south v evR' = x5
    ext i hi
    simp only [BitVec.getElem_xor]
    cases x1[i] <;> cases x2[i] <;> cases x3[i] <;> cases x4[i] <;> cases x5[i] <;> rfl
  | skipR e evR' hp he hs =>
    have hl : rmask south v s.evR = rmask south v evR' := by
      unfold rmask; rw [xorMap_perm _ hp]; simp only [xorMap, hs, if_false, BitVec.ofNat_eq_ofNat, BitVec.zero_xor]
    rw [hl]
  | reverse x xs a m b hp h1 h2 hq =>
    rw [hq]
    simp only [sumMember_append, sumMember_perm m.reverse_perm]

/-- edges of this pass -/
def mine (south : Bool) (l : List Edge) : List Edge := l.filter fun e => e.south = south

theorem PixEv.perm {south : Bool} {p : Vec2} {s s' : Pix} (h : PixEv south p s s') (B : List Edge)
    (hb : (B ++ s.q ++ mine south s.evL).Perm (mine south s.evR)) :
    (B ++ s'.q ++ mine south s'.evL).Perm (mine south s'.evR) := by
  classical
  cases h with
  | insert e evL' a b hp he hs hq =>
    refine List.Perm.trans ?_ hb
    have : (mine south s.evL).Perm (e :: mine south evL') := by
      have := hp.filter (fun e => decide (e.south = south))
      rw [List.filter_cons, if_pos (by simpa using hs)] at this
      exact this
    rw [List.perm_iff_count] at this ⊢
    intro x
    have := this x
    simp only [List.count_append, List.count_cons, hq] at *; omega
  | skipL e evL' hp he hs =>
    refine List.Perm.trans ?_ hb
    have : (mine south s.evL).Perm (mine south evL') := by
      have := hp.filter (fun e => decide (e.south = south))
      rw [List.filter_cons, if_neg (by simpa using hs)] at this
      exact this
    exact (List.Perm.append_left _ this.symm)
  | remove e evR' a b hp he hs hq =>
    have : (mine south s.evR).Perm (e :: mine south evR') := by
      have := hp.filter (fun e => decide (e.south = south))
      rw [List.filter_cons, if_pos (by simpa using hs)] at this
      exact this
    have := hb.trans this
    rw [List.perm_iff_count] at this ⊢
    intro x
    have := this x
    simp only [List.count_append, List.count_cons, hq] at *; omega
  | skipR e evR' hp he hs =>
    have : (mine south s.evR).Perm (mine south evR') := by
      have := hp.filter (fun e => decide (e.south = south))
      rw [List.filter_cons, if_neg (by simpa using hs)] at this
      exact this
    exact hb.trans this
  | reverse x xs a m b hp h1 h2 hq =>
    refine List.Perm.trans ?_ hb
    rw [List.perm_iff_count]
    intro x
    simp only [List.count_append, List.count_reverse, hq]

theorem PixRun.bal {south : Bool} {p : Vec2} {s s' : Pix} (h : PixRun south p s s') (v : Vec2) :
    at' p v (sumMember s'.q) ^^^ lmask south v s'.evL ^^^ rmask south v s'.evR =
      at' p v (sumMember s.q) ^^^ lmask south v s.evL ^^^ rmask south v s.evR := by
  induction h with
  | done => rfl
  | step _ _ _ h _ ih => rw [ih, h.bal v]

theorem PixRun.perm {south : Bool} {p : Vec2} {s s' : Pix} (h : PixRun south p s s') (B : List Edge)
    (hb : (B ++ s.q ++ mine south s.evL).Perm (mine south s.evR)) :
    (B ++ s'.q ++ mine south s'.evL).Perm (mine south s'.evR) := by
  induction h with
  | done => exact hb
  | step _ _ _ h _ ih => exact ih (h.perm B hb)

/-- the balance at `v` -/
def bal (south : Bool) (v : Vec2) (s : S2) : BitVec 64 :=
  endXor v s.result ^^^ bmask v s.bundles ^^^ lmask south v s.evL ^^^ rmask south v s.evR

/-- the edges of this pass in the bundles and still to come have their right ends on the agenda -/
def Bound (south : Bool) (s : S2) : Prop := (bedges s.bundles ++ mine south s.evL).Perm (mine south s.evR)

theorem Step2.bal {sel : Vec2 → Edge → Prop} {south : Bool} {s s' : S2} (h : Step2 sel south s s') (v : Vec2) :
    bal south v s' = bal south v s := by
  cases h with
  | pixel p bs a b q R t _ hadv hrun hbs =>
    have h1 := hadv.bal v
    have h2 := hrun.bal v
    simp only at h2
    unfold Hob3l.Sweep.bal
    simp only [bmask_append, bmask_opt]
    rw [hbs, bmask_append] at h1
    rw [← h1]
    have e : endXor v R ^^^ (bmask v a ^^^ (at' p v (sumMember t.q) ^^^ bmask v b)) ^^^ lmask south v t.evL ^^^
        rmask south v t.evR = (endXor v R ^^^ bmask v a ^^^ bmask v b) ^^^
        (at' p v (sumMember t.q) ^^^ lmask south v t.evL ^^^ rmask south v t.evR) := by ac_rfl
    rw [e, h2]; ac_rfl

theorem Step2.bound {sel : Vec2 → Edge → Prop} {south : Bool} {s s' : S2} (h : Step2 sel south s s')
    (hb : Bound south s) : Bound south s' := by
  classical
  cases h with
  | pixel p bs a b q R t _ hadv hrun hbs =>
    have h1 := hadv.perm
    have h2 := hrun.perm (bedges bs) ((h1.append_right _).trans hb)
    unfold Bound
    simp only [bedges_append, bedges_opt]
    refine List.Perm.trans ?_ h2
    rw [hbs, bedges_append, List.perm_iff_count]
    intro x
    simp only [List.count_append]; omega

theorem Loop2.bal {sel : Vec2 → Edge → Prop} {south : Bool} {s s' : S2} (h : Loop2 sel south s s') (v : Vec2)
    (hb : Bound south s) : endXor v s'.result = Hob3l.Sweep.bal south v s ∧ bedges s'.bundles = [] := by
  induction h with
  | done s h1 h2 h3 =>
    unfold Bound at hb
    rw [h1, h2] at hb
    have hn : bedges s.bundles = [] := by
      have := hb.length_eq
      simp only [mine, List.filter_nil, List.append_nil, List.length_nil] at this
      exact List.length_eq_zero_iff.mp this
    refine ⟨?_, hn⟩
    have hm : bmask v s.bundles = 0 := by
      have : ∀ bs : List Bundle, bedges bs = [] → bmask v bs = 0 := by
        intro bs
        induction bs with
        | nil => intro _; rfl
        | cons b bs ih =>
          intro h
          rw [bedges_cons, List.append_eq_nil_iff] at h
          rw [bmask_cons, h.1, ih h.2]; simp [sumMember, at'_zero]
      exact this _ hn
    unfold Hob3l.Sweep.bal
    rw [hm, h1, h2]; simp [lmask, rmask, xorMap]
  | step s s1 s2 st _ ih =>
    have := ih (st.bound hb)
    rw [st.bal v] at this
    exact this

theorem bound_init {south : Bool} {B : List Bundle} {E : List Edge} {X : List Vec2if} {R : List Edge}
    (hB : bedges B = []) : Bound south ⟨B, E, E, X, R⟩ := by
  unfold Bound; simp only [hB, List.nil_append]; exact List.Perm.refl _

theorem bmask_nil {v : Vec2} {B : List Bundle} (hB : bedges B = []) : bmask v B = 0 := by
  induction B with
  | nil => rfl
  | cons b bs ih =>
    rw [bedges_cons, List.append_eq_nil_iff] at hB
    rw [bmask_cons, hB.1, ih hB.2]; simp [sumMember, at'_zero]

theorem Pass2.ends {sel : Vec2 → Edge → Prop} {south : Bool} {E : List Edge} {X : List Vec2if} {B B' : List Bundle}
    {R R' : List Edge} (h : Pass2 sel south E X B R B' R') (hB : bedges B = []) (v : Vec2) :
    endXor v R' = endXor v R ^^^ endXor v (mine south E) ∧ bedges B' = [] := by
  cases h with
  | run _ _ _ s hl hb hr =>
    obtain ⟨h1, h2⟩ := hl.bal v (bound_init hB)
    rw [← hr, ← hb]
    refine ⟨?_, h2⟩
    rw [h1]
    unfold Hob3l.Sweep.bal
    simp only [bmask_nil hB]
    have := lrmask south v E
    unfold mine
    rw [← this]
    simp only [BitVec.ofNat_eq_ofNat, BitVec.xor_zero]; ac_rfl

theorem mine_both (v : Vec2) (E : List Edge) : endXor v (mine false E) ^^^ endXor v (mine true E) = endXor v E := by
  induction E with
  | nil => simp [mine, endXor]
  | cons x xs ih =>
    unfold mine at *
    rw [List.filter_cons, List.filter_cons]
    cases hs : x.south
    · simp only [decide_true, if_true, endXor, ← ih, reduceCtorEq, decide_false, Bool.false_eq_true, if_false]; ac_rfl
    · simp only [decide_true, if_true, endXor, ← ih, reduceCtorEq, decide_false, Bool.false_eq_true, if_false]; ac_rfl

/-! ### Phase 2: result edges are proper edges, no two alike -/

theorem chk32_inv {x y : Int} (h : chk32 x = some y) : y = x := by
  unfold chk32 at h; split_ifs at h; exact (Option.some.inj h).symm
theorem chk64_inv {x y : Int} (h : chk64 x = some y) : y = x := by
  unfold chk64 at h; split_ifs at h; exact (Option.some.inj h).symm

theorem cross3_inv {a o b : Vec2} {c : Int} (h : cross3 a o b = some c) : c = side a o b := by
  unfold cross3 rightCross3Z crossZ dimSub dimMul dimwSub at h
  simp only [Option.bind_eq_bind, Option.bind_eq_some_iff] at h
  obtain ⟨x1, h1, x2, h2, x3, h3, x4, h4, x5, h5, x6, h6, h7⟩ := h
  rw [chk64_inv h7, chk64_inv h6, chk64_inv h5, chk32_inv h1, chk32_inv h2, chk32_inv h3, chk32_inv h4]
  rfl

/-- proper edges, of which no two start at the same point in the same direction -/
structure ResOk (R : List Edge) : Prop where
  lt : ∀ x ∈ R, LexLt x.left x.rigt
  apart : R.Pairwise fun x y => x.left = y.left → side x.rigt x.left y.rigt ≠ 0

theorem cmp_apart {n x : Edge} {i : Int} (h : resultVertexCmp ⟨n.left, n.rigt, 0⟩ ⟨x.left, x.rigt, 0⟩ = some i)
    (hi : i ≠ 0) (hl : n.left = x.left) : side x.rigt x.left n.rigt ≠ 0 := by
  unfold resultVertexCmp at h
  simp only at h
  rw [if_neg (by rw [hl]; simp [vec2Cmp, cpCmp]), if_neg (by simp [cpCmp])] at h
  simp only [Option.bind_eq_bind, Option.pure_def, Option.bind_eq_some_iff] at h
  obtain ⟨c, hc, h⟩ := h
  have := cross3_inv hc
  rw [hl] at this
  rw [← this]
  rintro rfl
  rw [if_neg (by simp [cpSign, cpCmp]), Option.bind_eq_some_iff] at h
  obtain ⟨_, _, h⟩ := h
  exact hi (Option.some.inj h).symm

theorem left_swap {x y : Edge} (hl : x.left = y.left) : side x.rigt x.left y.rigt = - side y.rigt y.left x.rigt := by
  unfold side; rw [hl]; ring

theorem resultInsert_ok (n : Edge) (hn : LexLt n.left n.rigt) {R R' : List Edge} (h : resultInsert n R = some R')
    (hR : ResOk R) : ResOk R' := by
  induction R generalizing R' with
  | nil =>
    simp only [resultInsert, Option.some.injEq] at h
    subst h
    exact ⟨by intro x hx; rw [List.mem_singleton] at hx; rw [hx]; exact hn, by simp⟩
  | cons r rs ih =>
    have hlt := hR.lt
    have hap := List.pairwise_cons.mp hR.apart
    simp only [resultInsert, Option.bind_eq_bind, Option.pure_def, Option.bind_eq_some_iff] at h
    obtain ⟨i, hi, h⟩ := h
    by_cases c : i = 0
    · rw [if_pos c, Option.some.injEq] at h
      subst h
      refine ⟨?_, List.pairwise_cons.mpr hap⟩
      intro x hx
      rcases List.mem_cons.mp hx with rfl | hx
      · exact hlt r (by simp)
      · exact hlt x (List.mem_cons_of_mem _ hx)
    · rw [if_neg c, Option.bind_eq_some_iff] at h
      obtain ⟨rs', h1, h2⟩ := h
      obtain rfl := Option.some.inj h2
      have ok := ih h1 ⟨fun x hx => hlt x (List.mem_cons_of_mem _ hx), hap.2⟩
      refine ⟨?_, List.pairwise_cons.mpr ⟨?_, ok.apart⟩⟩
      · intro x hx
        rcases List.mem_cons.mp hx with rfl | hx
        · exact hlt x (by simp)
        · exact ok.lt x hx
      · intro x hx hl
        rcases resultInsert_mem n h1 x hx with ⟨e1, e2⟩ | ⟨y, hy, e1, e2⟩
        · rw [e2]; exact cmp_apart hi c (e1.symm.trans hl.symm)
        · rw [e2]; exact hap.1 y hy (hl.trans e1)

/-! ### Phase 2: where the result is -/

/-- invariant of the places: `P` holds for the pixels, `M` for a pixel and an edge routed through it -/
structure Place (P : Vec2 → Prop) (M : Vec2 → Edge → Prop) (E : List Edge) (B : List Bundle) (R : List Edge) : Prop where
  bun : ∀ b ∈ B, P b.pos ∧ ∀ e ∈ b.edges, e ∈ E ∧ M b.pos e
  res : ∀ r ∈ R, P r.left ∧ P r.rigt ∧ ∃ e ∈ E, M r.left e ∧ M r.rigt e
  ok : ResOk R

theorem Place.new {P : Vec2 → Prop} {M : Vec2 → Edge → Prop} {E : List Edge} {B : List Bundle} {R R' : List Edge}
    (h : Place P M E B R) {l r : Vec2} {t : List Edge} (hn : bundleEdgeNew l r t R = some R') (hl : P l) (hr : P r)
    (ht : ∃ e ∈ E, M l e ∧ M r e) : Place P M E B R' := by
  obtain ⟨n, h1, h2, -, h4⟩ := bundleEdgeNew_some hn
  refine ⟨h.bun, ?_, resultInsert_ok n h2 h1 h.ok⟩
  intro x hx
  rcases resultInsert_mem n h1 x hx with ⟨e1, e2⟩ | ⟨y, hy, e1, e2⟩
  · rw [e1, e2]
    obtain ⟨e, he, m1, m2⟩ := ht
    rcases h4 with ⟨k1, k2⟩ | ⟨k1, k2⟩
    · rw [k1, k2]; exact ⟨hl, hr, e, he, m1, m2⟩
    · rw [k1, k2]; exact ⟨hr, hl, e, he, m2, m1⟩
  · rw [e1, e2]; exact h.res y hy

theorem Place.sub {P : Vec2 → Prop} {M : Vec2 → Edge → Prop} {E : List Edge} {B B' : List Bundle} {R : List Edge}
    (h : Place P M E B R) (hB : ∀ b ∈ B', P b.pos ∧ ∀ e ∈ b.edges, e ∈ E ∧ M b.pos e) : Place P M E B' R :=
  ⟨hB, h.res, h.ok⟩

theorem Consume.place {P : Vec2 → Prop} {M : Vec2 → Edge → Prop} {E : List Edge} {sel : Edge → Prop} {p : Vec2}
    {bs bs' : List Bundle} {q q' R R' : List Edge} (h : Consume sel p bs q R bs' q' R') (hp : P p)
    (hsel : ∀ e ∈ E, sel e → M p e) (hpl : Place P M E bs R) (hq : ∀ e ∈ q, e ∈ E ∧ M p e) :
    Place P M E bs' R' ∧ ∀ e ∈ q', e ∈ E ∧ M p e := by
  induction h with
  | nil => exact ⟨hpl, hq⟩
  | stop => exact ⟨hpl, hq⟩
  | last b bs q R R' tmp hi e1 ht hh hs hn =>
    obtain ⟨pb, eb⟩ := hpl.bun b (by simp)
    obtain ⟨e, he⟩ := List.exists_mem_of_ne_nil _ ht
    have ke := eb e (by rw [e1]; exact List.mem_append_left _ he)
    have h' := hpl.new hn pb hp ⟨e, ke.1, ke.2, hsel e ke.1 (hs e he)⟩
    refine ⟨h'.sub ?_, ?_⟩
    · intro c hc
      rcases List.mem_cons.mp hc with rfl | hc
      · exact ⟨pb, fun e he => eb e (by rw [e1]; exact List.mem_append_right _ he)⟩
      · exact hpl.bun c (List.mem_cons_of_mem _ hc)
    · intro x hx
      rcases List.mem_append.mp hx with hx | hx
      · exact hq x hx
      · have := (eb x (by rw [e1]; exact List.mem_append_left _ hx)).1
        exact ⟨this, hsel x this (hs x hx)⟩
  | next b bs bs' q q' R R' R'' hne hs hn _ ih =>
    obtain ⟨pb, eb⟩ := hpl.bun b (by simp)
    obtain ⟨e, he⟩ := List.exists_mem_of_ne_nil _ hne
    have h' := hpl.new hn pb hp ⟨e, (eb e he).1, (eb e he).2, hsel e (eb e he).1 (hs e he)⟩
    refine ih (h'.sub fun c hc => hpl.bun c (List.mem_cons_of_mem _ hc)) ?_
    intro x hx
    rcases List.mem_append.mp hx with hx | hx
    · exact hq x hx
    · exact ⟨(eb x hx).1, hsel x (eb x hx).1 (hs x hx)⟩

theorem Advance.place {P : Vec2 → Prop} {M : Vec2 → Edge → Prop} {E : List Edge} {sel : Edge → Prop} {p : Vec2}
    {bs bs' : List Bundle} {q R R' : List Edge} (h : Advance sel p bs R bs' q R') (hp : P p)
    (hsel : ∀ e ∈ E, sel e → M p e) (hpl : Place P M E bs R) : Place P M E bs' R' ∧ ∀ e ∈ q, e ∈ E ∧ M p e := by
  cases h with
  | none => exact ⟨hpl, by simp⟩
  | some pre post bs1 b lo rest _ _ _ e1 _ hc =>
    obtain ⟨pb, eb⟩ := hpl.bun b (by simp)
    obtain ⟨h1, h2⟩ := hc.place (P := P) (M := M) (E := E) hp hsel (hpl.sub (B' := ⟨b.pos, rest⟩ :: post) (by
      intro c hc
      rcases List.mem_cons.mp hc with rfl | hc
      · exact ⟨pb, fun e he => eb e (by rw [e1]; exact List.mem_append_right _ he)⟩
      · exact hpl.bun c (List.mem_append_right _ (List.mem_cons_of_mem _ hc)))) (by simp)
    refine ⟨h1.sub ?_, h2⟩
    intro c hc
    rcases List.mem_append.mp hc with hc | hc
    · exact hpl.bun c (List.mem_append_left _ hc)
    · rcases List.mem_append.mp hc with hc | hc
      · split_ifs at hc with hlo
        · exact absurd hc (by simp)
        · rw [List.mem_singleton] at hc
          subst hc
          exact ⟨pb, fun e he => eb e (by rw [e1]; exact List.mem_append_left _ he)⟩
      · exact h1.bun c hc

theorem PixEv.place {M : Vec2 → Edge → Prop} {E : List Edge} {X : List Vec2if} {south : Bool} {p : Vec2} {s s' : Pix}
    (h : PixEv south p s s') (hM : ∀ e ∈ E, M e.left e) (hq : ∀ e ∈ s.q, e ∈ E ∧ M p e) (hl : ∀ e ∈ s.evL, e ∈ E)
    (hr : ∀ e ∈ s.evR, e ∈ E) (hx : ∀ x ∈ s.xings, x ∈ X) :
    (∀ e ∈ s'.q, e ∈ E ∧ M p e) ∧ (∀ e ∈ s'.evL, e ∈ E) ∧ (∀ e ∈ s'.evR, e ∈ E) ∧ ∀ x ∈ s'.xings, x ∈ X := by
  cases h with
  | insert e evL' a b hp he hs hqe =>
    have hE := hl e (hp.mem_iff.mpr (by simp))
    refine ⟨?_, fun x hx => hl x (hp.mem_iff.mpr (List.mem_cons_of_mem _ hx)), hr, hx⟩
    intro x hx
    simp only [List.mem_append, List.mem_cons] at hx
    rcases hx with hx | rfl | hx
    · exact hq x (by rw [hqe]; exact List.mem_append_left _ hx)
    · exact ⟨hE, he ▸ hM x hE⟩
    · exact hq x (by rw [hqe]; exact List.mem_append_right _ hx)
  | skipL e evL' hp he hs =>
    exact ⟨hq, fun x hx => hl x (hp.mem_iff.mpr (List.mem_cons_of_mem _ hx)), hr, hx⟩
  | remove e evR' a b hp he hs hqe =>
    refine ⟨?_, hl, fun x hx => hr x (hp.mem_iff.mpr (List.mem_cons_of_mem _ hx)), hx⟩
    intro x hx
    refine hq x ?_
    rw [hqe]
    simp only [List.mem_append, List.mem_cons] at hx ⊢
    rcases hx with hx | hx
    · exact Or.inl hx
    · exact Or.inr (Or.inr hx)
  | skipR e evR' hp he hs =>
    exact ⟨hq, hl, fun x hx => hr x (hp.mem_iff.mpr (List.mem_cons_of_mem _ hx)), hx⟩
  | reverse x xs a m b hp h1 h2 hqe =>
    refine ⟨?_, hl, hr, fun y hy => hx y (hp.mem_iff.mpr (List.mem_cons_of_mem _ hy))⟩
    intro y hy
    refine hq y ?_
    rw [hqe]
    simpa only [List.mem_append, List.mem_reverse] using hy

theorem PixRun.place {M : Vec2 → Edge → Prop} {E : List Edge} {X : List Vec2if} {south : Bool} {p : Vec2} {s s' : Pix}
    (h : PixRun south p s s') (hM : ∀ e ∈ E, M e.left e) (hq : ∀ e ∈ s.q, e ∈ E ∧ M p e) (hl : ∀ e ∈ s.evL, e ∈ E)
    (hr : ∀ e ∈ s.evR, e ∈ E) (hx : ∀ x ∈ s.xings, x ∈ X) :
    (∀ e ∈ s'.q, e ∈ E ∧ M p e) ∧ (∀ e ∈ s'.evL, e ∈ E) ∧ (∀ e ∈ s'.evR, e ∈ E) ∧ ∀ x ∈ s'.xings, x ∈ X := by
  induction h with
  | done => exact ⟨hq, hl, hr, hx⟩
  | step _ _ _ h _ ih =>
    obtain ⟨k1, k2, k3, k4⟩ := h.place hM hq hl hr hx
    exact ih k1 k2 k3 k4

theorem Loop2.place {P : Vec2 → Prop} {M : Vec2 → Edge → Prop} {E : List Edge} {X : List Vec2if}
    {sel : Vec2 → Edge → Prop} {south : Bool} {s s' : S2} (h : Loop2 sel south s s')
    (hM : ∀ e ∈ E, M e.left e) (hPl : ∀ e ∈ E, P e.left) (hPr : ∀ e ∈ E, P e.rigt)
    (hPx : ∀ x ∈ X, ∀ p : Vec2, round x.x = some p.x → round x.y = some p.y → P p)
    (hsel : ∀ p, P p → ∀ e ∈ E, sel p e → M p e) (hpl : Place P M E s.bundles s.result)
    (hl : ∀ e ∈ s.evL, e ∈ E) (hr : ∀ e ∈ s.evR, e ∈ E) (hx : ∀ x ∈ s.xings, x ∈ X) :
    Place P M E s'.bundles s'.result := by
  induction h with
  | done => exact hpl
  | step s s1 s2 st _ ih =>
    cases st with
    | pixel p bs a b q R t hpix hadv hrun hbs =>
      have hp : P p := by
        rcases hpix with ⟨e, he, rfl⟩ | ⟨e, he, rfl⟩ | ⟨x, hxx, h1, h2⟩
        · exact hPl e (hl e he)
        · exact hPr e (hr e he)
        · exact hPx x (hx x hxx) p h1 h2
      obtain ⟨k1, k2⟩ := hadv.place hp (hsel p hp) hpl
      obtain ⟨j1, j2, j3, j4⟩ := hrun.place (X := X) hM k2 hl hr hx
      refine ih (k1.sub ?_) j2 j3 j4
      intro c hc
      simp only [List.mem_append] at hc
      rcases hc with hc | hc | hc
      · exact k1.bun c (by rw [hbs]; exact List.mem_append_left _ hc)
      · split_ifs at hc with hlo
        · exact absurd hc (by simp)
        · rw [List.mem_singleton] at hc
          subst hc
          exact ⟨hp, j1⟩
      · exact k1.bun c (by rw [hbs]; exact List.mem_append_right _ hc)

theorem Pass2.place {P : Vec2 → Prop} {M : Vec2 → Edge → Prop} {E : List Edge} {X : List Vec2if}
    {sel : Vec2 → Edge → Prop} {south : Bool} {B B' : List Bundle} {R R' : List Edge} (h : Pass2 sel south E X B R B' R')
    (hM : ∀ e ∈ E, M e.left e) (hPl : ∀ e ∈ E, P e.left) (hPr : ∀ e ∈ E, P e.rigt)
    (hPx : ∀ x ∈ X, ∀ p : Vec2, round x.x = some p.x → round x.y = some p.y → P p)
    (hsel : ∀ p, P p → ∀ e ∈ E, sel p e → M p e) (hpl : Place P M E B R) : Place P M E B' R' := by
  cases h with
  | run _ _ _ s hl hb hr =>
    have := hl.place (E := E) (X := X) hM hPl hPr hPx hsel hpl (fun _ h => h) (fun _ h => h) (fun _ h => h)
    rw [hb, hr] at this
    exact this

theorem Intersect.place {P : Vec2 → Prop} {M : Vec2 → Edge → Prop} {debug : Bool} {sel : Vec2 → Edge → Prop}
    {E R : List Edge} (h : Intersect debug sel E R) (hE : Fresh E)
    (hP : ∀ s, Inv1 E s → (∀ e ∈ s.edges, P e.left ∧ P e.rigt ∧ M e.left e) ∧
      (∀ x ∈ s.found, ∀ p : Vec2, round x.x = some p.x → round x.y = some p.y → P p) ∧
      (∀ p, P p → ∀ e ∈ s.edges, sel p e → M p e)) :
    ∃ F : List Edge, (∀ f ∈ F, EdgeOk E f) ∧ Place P M F [] R := by
  cases h with
  | run R1 _ B B' s h1 h2 h3 =>
    have inv := (h1.inv (inv1_init hE)).1
    obtain ⟨p1, p2, p3⟩ := hP s inv
    have k0 : Place P M s.edges [] [] := ⟨by simp, by simp, ⟨by simp, by simp⟩⟩
    have k1 := h2.place (fun e he => (p1 e he).2.2) (fun e he => (p1 e he).1) (fun e he => (p1 e he).2.1) p2 p3 k0
    have k2 := h3.place (fun e he => (p1 e he).2.2) (fun e he => (p1 e he).1) (fun e he => (p1 e he).2.1) p2 p3 k1
    exact ⟨s.edges, inv.ok, k2.sub (by simp)⟩

theorem Intersect.ends {debug : Bool} {sel : Vec2 → Edge → Prop} {E R : List Edge} (h : Intersect debug sel E R)
    (hE : Fresh E) (v : Vec2) : endXor v R = endXor v E := by
  cases h with
  | run R1 _ B B' s h1 h2 h3 =>
    have inv := (h1.inv (inv1_init hE)).1
    obtain ⟨k1, k2⟩ := h2.ends rfl v
    obtain ⟨k3, -⟩ := h3.ends k2 v
    rw [k3, k1, ← inv.ends v, ← mine_both v s.edges]
    simp [endXor]

/-! geometry of pixels -/

theorem inPixel_self (v : Vec2) : InPixel v v.pt := by
  unfold InPixel Vec2.pt
  refine ⟨?_, ?_, ?_, ?_⟩ <;> simp only <;> linarith

theorem near_of_pixel {v : Vec2} {X : Pt} (h : InPixel v X) : Near v.pt X := by
  obtain ⟨h1, h2, h3, h4⟩ := h
  unfold Near Vec2.pt
  simp only
  constructor <;> rw [abs_le] <;> constructor <;> linarith

/-- a point on the segment between two pixel centres is near the segment between points of the pixels -/
theorem near_seg {a b X A B : Pt} (h1 : Near a A) (h2 : Near b B) (hX : OnSeg a b X) :
    ∃ Y, OnSeg A B Y ∧ Near X Y := by
  obtain ⟨s, s0, s1, hx, hy⟩ := hX
  refine ⟨(A.1 + s * (B.1 - A.1), A.2 + s * (B.2 - A.2)), ⟨s, s0, s1, rfl, rfl⟩, ?_⟩
  obtain ⟨p1, p2⟩ := h1
  obtain ⟨p3, p4⟩ := h2
  rw [abs_le] at p1 p2 p3 p4
  unfold Near
  simp only
  rw [hx, hy]
  constructor <;> rw [abs_le] <;> constructor <;> nlinarith

theorem onSeg_convex {a b A B Y : Pt} (hA : OnSeg a b A) (hB : OnSeg a b B) (hY : OnSeg A B Y) : OnSeg a b Y := by
  obtain ⟨s, s0, s1, sx, sy⟩ := hA
  obtain ⟨t, t0, t1, tx, ty⟩ := hB
  obtain ⟨u, u0, u1, ux, uy⟩ := hY
  refine ⟨s + u * (t - s), by nlinarith, by nlinarith, ?_, ?_⟩
  · rw [ux, sx, tx]; ring
  · rw [uy, sy, ty]; ring

theorem i32_of_valid {x : Dimif} (hx : x.Valid) (h1 : (-1073741824 : ℚ) ≤ x.val) (h2 : x.val ≤ 1073741823) : I32 x.i := by
  have f := frac_lt_one hx
  have hd : (0 : ℚ) < x.d := by exact_mod_cast hx.dpos
  have f0 : (0 : ℚ) ≤ (x.n : ℚ) / x.d := by positivity
  have hv : x.val = x.i + (x.n : ℚ) / x.d := rfl
  unfold I32
  constructor
  · have : (-1073741825 : ℚ) < x.i := by linarith
    have : (-1073741825 : ℤ) < x.i := by exact_mod_cast this
    omega
  · have : (x.i : ℚ) ≤ 1073741823 := by linarith
    have : x.i ≤ (1073741823 : ℤ) := by exact_mod_cast this
    omega

/-- rounding a crossing on an edge gives a pixel that contains it -/
theorem round_pixel {a b p : Vec2} {P : Vec2if} (hv : P.Valid) (ha : a.InRange) (hb : b.InRange)
    (hs : OnSeg a.pt b.pt P.pt) (h1 : round P.x = some p.x) (h2 : round P.y = some p.y) :
    InPixel p P.pt ∧ p.InRange := by
  obtain ⟨s, s0, s1, hx, hy⟩ := hs
  obtain ⟨⟨a1, a2⟩, a3, a4⟩ := ha
  obtain ⟨⟨b1, b2⟩, b3, b4⟩ := hb
  simp only [Vec2.pt, Vec2if.pt] at hx hy
  have q : ∀ {u w : ℤ} {m : ℚ}, -1073741824 ≤ u → u ≤ 1073741823 → -1073741824 ≤ w → w ≤ 1073741823 →
      m = u + s * (w - u) → (-1073741824 : ℚ) ≤ m ∧ m ≤ 1073741823 := by
    intro u w m h1 h2 h3 h4 e
    have h1 : (-1073741824 : ℚ) ≤ u := by exact_mod_cast h1
    have h2 : (u : ℚ) ≤ 1073741823 := by exact_mod_cast h2
    have h3 : (-1073741824 : ℚ) ≤ w := by exact_mod_cast h3
    have h4 : (w : ℚ) ≤ 1073741823 := by exact_mod_cast h4
    constructor
    · rw [e]; nlinarith
    · rw [e]; nlinarith
  have kx := q a1 a2 b1 b2 hx
  have ky := q a3 a4 b3 b4 hy
  have ix := i32_of_valid hv.1 kx.1 kx.2
  have iy := i32_of_valid hv.2 ky.1 ky.2
  have rx := (C10_round_props P.x P.x hv.1 hv.1 ix ix _ _ h1 h1).1
  have ry := (C10_round_props P.y P.y hv.2 hv.2 iy iy _ _ h2 h2).1
  refine ⟨⟨rx.1, rx.2, ry.1, ry.2⟩, ?_⟩
  have z : ∀ {n : ℤ} {m : ℚ}, (n : ℚ) - 1 / 2 ≤ m → m < n + 1 / 2 → (-1073741824 : ℚ) ≤ m → m ≤ 1073741823 →
      -1073741824 ≤ n ∧ n ≤ 1073741823 := by
    intro n m h1 h2 h3 h4
    constructor
    · have : (-1073741825 : ℚ) < n := by linarith
      have : (-1073741825 : ℤ) < n := by exact_mod_cast this
      omega
    · have : (n : ℚ) < 1073741824 := by linarith
      have : n < (1073741824 : ℤ) := by exact_mod_cast this
      omega
  exact ⟨z rx.1 rx.2 kx.1 kx.2, z ry.1 ry.2 ky.1 ky.2⟩

end Hob3l.Sweep
