import Verif.Sweep.Lemmas
import Verif.Matq.LemmasEdge

namespace Hob3l.Sweep

open Hob3l.Matq

/-- lexicographic combination of comparison results -/
def lexThen (i j : Int) : Int := if i ≠ 0 then i else j

theorem lexThen_zero {i j : Int} : lexThen i j = 0 ↔ i = 0 ∧ j = 0 := by
  unfold lexThen; by_cases h : i = 0 <;> simp [h]

/-- three-way preorder facts for three given elements -/
structure Ord3 {α} (f : α → α → Int) (a b c : α) : Prop where
  le : f a b ≤ 0 → f b c ≤ 0 → f a c ≤ 0
  lt : f a b ≤ 0 → f b c ≤ 0 → (f a b < 0 ∨ f b c < 0) → f a c < 0

theorem Ord3.lex {α} {f g : α → α → Int} {a b c : α} (hf : Ord3 f a b c)
    (hg : f a b = 0 → f b c = 0 → f a c = 0 → Ord3 g a b c) :
    Ord3 (fun x y => lexThen (f x y) (g x y)) a b c := by
  have l1 := hf.le
  have l2 := hf.lt
  have key : f a b = 0 → f b c = 0 → f a c = 0 → (g a b ≤ 0 → g b c ≤ 0 → g a c ≤ 0) ∧
      (g a b ≤ 0 → g b c ≤ 0 → (g a b < 0 ∨ g b c < 0) → g a c < 0) :=
    fun h1 h2 h3 => ⟨(hg h1 h2 h3).le, (hg h1 h2 h3).lt⟩
  clear hf hg
  unfold lexThen
  constructor <;>
    generalize f a b = x at * <;>
    generalize f b c = y at * <;>
    generalize f a c = z at * <;>
    generalize g a b = x' at * <;>
    generalize g b c = y' at * <;>
    generalize g a c = z' at *
  · intro h h'
    split_ifs at * <;> omega
  · intro h h' h''
    split_ifs at * <;> omega

theorem cpCmp_int_sign (a b : Int) :
    (cpCmp a b < 0 ↔ a < b) ∧ (cpCmp a b ≤ 0 ↔ a ≤ b) ∧ (cpCmp a b = 0 ↔ a = b) := by
  unfold cpCmp; split_ifs <;> simp <;> omega

theorem cpCmp_nat_sign (a b : Nat) :
    (cpCmp a b < 0 ↔ a < b) ∧ (cpCmp a b ≤ 0 ↔ a ≤ b) ∧ (cpCmp a b = 0 ↔ a = b) := by
  unfold cpCmp; split_ifs <;> simp <;> omega

theorem cpCmp_int_swap (a b : Int) : cpCmp b a = -cpCmp a b := by unfold cpCmp; split_ifs <;> omega
theorem cpCmp_nat_swap (a b : Nat) : cpCmp b a = -cpCmp a b := by unfold cpCmp; split_ifs <;> omega

theorem lexThen_swap (i j : Int) : lexThen (-i) (-j) = -lexThen i j := by
  unfold lexThen; by_cases h : i = 0 <;> simp [h]

theorem ord3_int {α} (k : α → Int) (a b c : α) : Ord3 (fun x y => cpCmp (k x) (k y)) a b c := by
  constructor
  · intro h h'; rw [(cpCmp_int_sign _ _).2.1] at *; omega
  · intro h h' h''; simp only [(cpCmp_int_sign _ _).2.1, (cpCmp_int_sign _ _).1] at *; omega

theorem ord3_neg_int {α} (k : α → Int) (a b c : α) : Ord3 (fun x y => -cpCmp (k x) (k y)) a b c := by
  simp only [← cpCmp_int_swap]
  constructor
  · intro h h'; rw [(cpCmp_int_sign _ _).2.1] at *; omega
  · intro h h' h''; simp only [(cpCmp_int_sign _ _).2.1, (cpCmp_int_sign _ _).1] at *; omega

theorem ord3_nat_rev {α} (k : α → Nat) (a b c : α) : Ord3 (fun x y => cpCmp (k y) (k x)) a b c := by
  constructor
  · intro h h'; rw [(cpCmp_nat_sign _ _).2.1] at *; omega
  · intro h h' h''; simp only [(cpCmp_nat_sign _ _).2.1, (cpCmp_nat_sign _ _).1] at *; omega

theorem cmpQ_sign (a b : ℚ) : (cmpQ a b < 0 ↔ a < b) ∧ (cmpQ a b ≤ 0 ↔ a ≤ b) ∧ (cmpQ a b = 0 ↔ a = b) := by
  unfold cmpQ
  rcases lt_trichotomy a b with h | h | h
  · simp [h, h.le, h.ne]
  · simp [h]
  · simp [h.not_gt, h.ne', h.not_ge]

theorem ord3_q {α} (k : α → ℚ) (a b c : α) : Ord3 (fun x y => cmpQ (k x) (k y)) a b c := by
  constructor
  · intro h h'; rw [(cmpQ_sign _ _).2.1] at *; linarith
  · intro h h' h''; simp only [(cmpQ_sign _ _).2.1, (cmpQ_sign _ _).1] at *
    rcases h'' with h'' | h'' <;> linarith

theorem ord3_neg_q {α} (k : α → ℚ) (a b c : α) : Ord3 (fun x y => -cmpQ (k x) (k y)) a b c := by
  simp only [← cmpQ_swap]
  constructor
  · intro h h'; rw [(cmpQ_sign _ _).2.1] at *; linarith
  · intro h h' h''; simp only [(cmpQ_sign _ _).2.1, (cmpQ_sign _ _).1] at *
    rcases h'' with h'' | h'' <;> linarith

/-! angles in a half plane -/

/-- lexicographically positive integer vector -/
def VPos (x y : Int) : Prop := 0 < x ∨ x = 0 ∧ 0 < y

theorem cross_trans {ux uy vx vy wx wy : Int} (hu : VPos ux uy) (hv : VPos vx vy) (hw : VPos wx wy)
    (h1 : ux * vy - uy * vx ≤ 0) (h2 : vx * wy - vy * wx ≤ 0) :
    ux * wy - uy * wx ≤ 0 ∧ ((ux * vy - uy * vx < 0 ∨ vx * wy - vy * wx < 0) → ux * wy - uy * wx < 0) := by
  have ix : (ux * vy - uy * vx) * wx + (vx * wy - vy * wx) * ux = (ux * wy - uy * wx) * vx := by ring
  have iy : (ux * vy - uy * vx) * wy + (vx * wy - vy * wx) * uy = (ux * wy - uy * wx) * vy := by ring
  generalize ux * vy - uy * vx = A at *
  generalize vx * wy - vy * wx = B at *
  generalize ux * wy - uy * wx = C at *
  unfold VPos at *
  constructor
  · by_contra hC
    push Not at hC
    rcases hv with hv | ⟨hv0, hv⟩
    · have : 0 < C * vx := mul_pos hC hv
      have a1 : A * wx ≤ 0 := mul_nonpos_of_nonpos_of_nonneg h1 (by omega)
      have a2 : B * ux ≤ 0 := mul_nonpos_of_nonpos_of_nonneg h2 (by omega)
      omega
    · have : 0 < C * vy := mul_pos hC hv
      rw [hv0, mul_zero] at ix
      have a1 : A * wx ≤ 0 := mul_nonpos_of_nonpos_of_nonneg h1 (by omega)
      have a2 : B * ux ≤ 0 := mul_nonpos_of_nonpos_of_nonneg h2 (by omega)
      have b1 : A * wy ≤ 0 := by
        rcases hw with hw | ⟨hw0, hw⟩
        · have : A = 0 := by
            have : A * wx = 0 := by omega
            rcases mul_eq_zero.mp this with h | h <;> omega
          rw [this]; simp
        · exact mul_nonpos_of_nonpos_of_nonneg h1 hw.le
      have b2 : B * uy ≤ 0 := by
        rcases hu with hu | ⟨hu0, hu⟩
        · have : B = 0 := by
            have : B * ux = 0 := by omega
            rcases mul_eq_zero.mp this with h | h <;> omega
          rw [this]; simp
        · exact mul_nonpos_of_nonpos_of_nonneg h2 hu.le
      omega
  · intro hs
    by_contra hC
    push Not at hC
    have hC0 : 0 ≤ C * vx := mul_nonneg hC (by omega)
    have a1 : A * wx ≤ 0 := mul_nonpos_of_nonpos_of_nonneg h1 (by omega)
    have a2 : B * ux ≤ 0 := mul_nonpos_of_nonpos_of_nonneg h2 (by omega)
    have z1 : A * wx = 0 := by omega
    have z2 : B * ux = 0 := by omega
    have z3 : C * vx = 0 := by omega
    have b1 : A * wy ≤ 0 ∧ (A < 0 → A * wy < 0) := by
      rcases hw with hw | ⟨hw0, hw⟩
      · have : A = 0 := by rcases mul_eq_zero.mp z1 with h | h <;> omega
        rw [this]; simp
      · exact ⟨mul_nonpos_of_nonpos_of_nonneg h1 hw.le, fun h => mul_neg_of_neg_of_pos h hw⟩
    have b2 : B * uy ≤ 0 ∧ (B < 0 → B * uy < 0) := by
      rcases hu with hu | ⟨hu0, hu⟩
      · have : B = 0 := by rcases mul_eq_zero.mp z2 with h | h <;> omega
        rw [this]; simp
      · exact ⟨mul_nonpos_of_nonpos_of_nonneg h2 hu.le, fun h => mul_neg_of_neg_of_pos h hu⟩
    have b3 : 0 ≤ C * vy := by
      rcases hv with hv | ⟨hv0, hv⟩
      · have : C = 0 := by rcases mul_eq_zero.mp z3 with h | h <;> omega
        rw [this]; simp
      · exact mul_nonneg hC hv.le
    rcases hs with hs | hs
    · have := b1.2 hs; omega
    · have := b2.2 hs; omega

/-- a well-formed vertex: in range, on the side it claims -/
structure Vertex.Ok (v : Vertex) : Prop where
  rp : v.p.InRange
  ro : v.other.InRange
  side : (v.side = 0 ∧ LexLt v.p v.other) ∨ (v.side = 1 ∧ LexLt v.other v.p)

theorem cross3_some {a o b : Vec2} (ha : a.InRange) (ho : o.InRange) (hb : b.InRange) :
    cross3 a o b = some (side a o b) := rightCross3Z_spec a o b ha ho hb

theorem side_swap (a o b : Vec2) : side b o a = -side a o b := by unfold side; ring

/-- angle comparison of three vertices of the same point and side -/
theorem side_trans {a b c : Vertex} (ha : a.Ok) (hb : b.Ok) (hc : c.Ok) (p1 : a.p = b.p) (p2 : b.p = c.p)
    (s1 : a.side = b.side) (s2 : b.side = c.side)
    (h1 : side a.other a.p b.other ≤ 0) (h2 : side b.other b.p c.other ≤ 0) :
    side a.other a.p c.other ≤ 0 ∧
      ((side a.other a.p b.other < 0 ∨ side b.other b.p c.other < 0) → side a.other a.p c.other < 0) := by
  obtain ⟨pa, oa, sa⟩ := a
  obtain ⟨pb, ob, sb⟩ := b
  obtain ⟨pc, oc, sc⟩ := c
  simp only at p1 p2 s1 s2
  subst p1; subst p2; subst s1; subst s2
  unfold side at *
  simp only at *
  rcases ha.side with ⟨z, la⟩ | ⟨z, la⟩
  · have lb : LexLt pa ob := by rcases hb.side with ⟨_, h⟩ | ⟨h, _⟩; · exact h
                                · exact absurd (z.symm.trans h) (by decide)
    have lc : LexLt pa oc := by rcases hc.side with ⟨_, h⟩ | ⟨h, _⟩; · exact h
                                · exact absurd (z.symm.trans h) (by decide)
    refine cross_trans ?_ ?_ ?_ h1 h2 <;> (unfold VPos; unfold LexLt at *; simp only at *; omega)
  · have lb : LexLt ob pa := by rcases hb.side with ⟨h, _⟩ | ⟨_, h⟩
                                · exact absurd (z.symm.trans h) (by decide)
                                · exact h
    have lc : LexLt oc pa := by rcases hc.side with ⟨h, _⟩ | ⟨_, h⟩
                                · exact absurd (z.symm.trans h) (by decide)
                                · exact h
    have := cross_trans (ux := pa.x - oa.x) (uy := pa.y - oa.y) (vx := pa.x - ob.x) (vy := pa.y - ob.y)
      (wx := pa.x - oc.x) (wy := pa.y - oc.y)
      (by unfold VPos; unfold LexLt at *; simp only at *; omega) (by unfold VPos; unfold LexLt at *; simp only at *; omega)
      (by unfold VPos; unfold LexLt at *; simp only at *; omega)
    have e : ∀ x y z w : Int, (x - y) * (z - w) = (y - x) * (w - z) := by intros; ring
    rw [e pa.x, e pa.y, e pa.x, e pa.y, e pa.x, e pa.y] at this
    exact this h1 h2

/-- the pure comparison functions -/
def p1Fun (a b : Vertex) : Int :=
  lexThen (vec2Cmp a.p b.p) (lexThen (cpCmp b.side a.side) (cpCmp (side a.other a.p b.other) 0))

theorem phase1Cmp_some {a b : Vertex} (ha : a.Ok) (hb : b.Ok) : phase1Cmp a b = some (p1Fun a b) := by
  unfold phase1Cmp p1Fun lexThen
  by_cases h1 : vec2Cmp a.p b.p = 0
  · by_cases h2 : cpCmp b.side a.side = 0
    · simp only [h1, h2, ne_eq, not_true_eq_false, if_false, cross3_some ha.ro ha.rp hb.ro]; rfl
    · simp only [h1, h2, ne_eq, not_true_eq_false, not_false_eq_true, if_false, if_true]
  · simp only [h1, ne_eq, not_false_eq_true, if_true]

def yFun (south : Bool) (a b : Int) : Int := if south then -cpCmp a b else cpCmp a b

def p2Fun (south : Bool) (a b : Vertex) : Int :=
  lexThen (cpCmp a.p.x b.p.x) (lexThen (yFun south a.p.y b.p.y)
    (lexThen (cpCmp b.side a.side) (cpCmp (side a.other a.p b.other) 0)))

theorem yFun_zero {s : Bool} {a b : Int} : yFun s a b = 0 ↔ a = b := by
  unfold yFun; have := (cpCmp_int_sign a b).2.2
  cases s <;> simp [this]

theorem yFun_swap (s : Bool) (a b : Int) : yFun s b a = -yFun s a b := by
  unfold yFun; rw [cpCmp_int_swap a b]; cases s <;> simp

theorem phase2Cmp_some {south : Bool} {a b : Vertex} (ha : a.Ok) (hb : b.Ok) :
    phase2Cmp south a b = some (p2Fun south a b) := by
  unfold phase2Cmp p2Fun lexThen
  by_cases h0 : cpCmp a.p.x b.p.x = 0
  · by_cases h1 : cpCmp a.p.y b.p.y = 0
    · have h1' : yFun south a.p.y b.p.y = 0 := yFun_zero.mpr ((cpCmp_int_sign _ _).2.2.mp h1)
      by_cases h2 : cpCmp b.side a.side = 0
      · simp only [h0, h1, h1', h2, ne_eq, not_true_eq_false, if_false, cross3_some ha.ro ha.rp hb.ro]; rfl
      · simp only [h0, h1, h1', h2, ne_eq, not_true_eq_false, not_false_eq_true, if_false, if_true]
    · have h1' : yFun south a.p.y b.p.y ≠ 0 := fun h => h1 ((cpCmp_int_sign _ _).2.2.mpr (yFun_zero.mp h))
      simp only [h0, h1, h1', ne_eq, not_true_eq_false, not_false_eq_true, if_false, if_true]
      rfl
  · simp only [h0, ne_eq, not_false_eq_true, if_true]

theorem vec2Cmp_lex (a b : Vec2) : vec2Cmp a b = lexThen (cpCmp a.x b.x) (cpCmp a.y b.y) := rfl

theorem vec2Cmp_swap (a b : Vec2) : vec2Cmp b a = -vec2Cmp a b := by
  rw [vec2Cmp_lex, vec2Cmp_lex, cpCmp_int_swap a.x, cpCmp_int_swap a.y, lexThen_swap]

theorem ord3_vec2 {α} (k : α → Vec2) (a b c : α) : Ord3 (fun x y => vec2Cmp (k x) (k y)) a b c := by
  simp only [vec2Cmp_lex]
  exact (ord3_int (fun x => (k x).x) a b c).lex (fun _ _ _ => ord3_int (fun x => (k x).y) a b c)

theorem angle_ord3 {a b c : Vertex} (ha : a.Ok) (hb : b.Ok) (hc : c.Ok) (p1 : a.p = b.p) (p2 : b.p = c.p)
    (s1 : a.side = b.side) (s2 : b.side = c.side) :
    Ord3 (fun x y : Vertex => cpCmp (side x.other x.p y.other) 0) a b c := by
  have key := side_trans ha hb hc p1 p2 s1 s2
  constructor
  · intro h h'
    rw [(cpCmp_int_sign _ _).2.1] at *
    exact (key h h').1
  · intro h h' h''
    simp only [(cpCmp_int_sign _ _).2.1, (cpCmp_int_sign _ _).1] at *
    exact (key h h').2 h''

theorem angle_swap {a b : Vertex} (p : a.p = b.p) :
    cpCmp (side b.other b.p a.other) 0 = -cpCmp (side a.other a.p b.other) 0 := by
  rw [← p, side_swap a.other a.p b.other]
  generalize side a.other a.p b.other = x
  unfold cpCmp; split_ifs <;> omega

theorem tail_ord3 {a b c : Vertex} (ha : a.Ok) (hb : b.Ok) (hc : c.Ok) (p1 : a.p = b.p) (p2 : b.p = c.p) :
    Ord3 (fun x y : Vertex => lexThen (cpCmp y.side x.side) (cpCmp (side x.other x.p y.other) 0)) a b c :=
  (ord3_nat_rev (fun x : Vertex => x.side) a b c).lex
    (fun h1 h2 _ => angle_ord3 ha hb hc p1 p2 ((cpCmp_nat_sign _ _).2.2.mp h1).symm ((cpCmp_nat_sign _ _).2.2.mp h2).symm)

theorem p1Fun_ord3 {a b c : Vertex} (ha : a.Ok) (hb : b.Ok) (hc : c.Ok) : Ord3 p1Fun a b c :=
  (ord3_vec2 (fun x : Vertex => x.p) a b c).lex
    (fun h1 h2 _ => tail_ord3 ha hb hc (vec2Cmp_eq.mp h1) (vec2Cmp_eq.mp h2))

theorem tail_swap {a b : Vertex} (p : a.p = b.p) :
    lexThen (cpCmp a.side b.side) (cpCmp (side b.other b.p a.other) 0) =
      -lexThen (cpCmp b.side a.side) (cpCmp (side a.other a.p b.other) 0) := by
  rw [angle_swap p, cpCmp_nat_swap b.side a.side, lexThen_swap]

theorem p1Fun_swap (a b : Vertex) : p1Fun b a = -p1Fun a b := by
  unfold p1Fun
  by_cases h : a.p = b.p
  · rw [tail_swap h, vec2Cmp_swap a.p, lexThen_swap]
  · have : vec2Cmp a.p b.p ≠ 0 := fun h' => h (vec2Cmp_eq.mp h')
    rw [vec2Cmp_swap a.p]
    unfold lexThen
    rw [if_pos (by omega), if_pos (by omega)]

theorem ord3_y {α} (s : Bool) (k : α → Int) (a b c : α) : Ord3 (fun x y => yFun s (k x) (k y)) a b c := by
  unfold yFun
  cases s
  · exact ord3_int k a b c
  · exact ord3_neg_int k a b c

theorem vec2_ext {a b : Vec2} (h1 : a.x = b.x) (h2 : a.y = b.y) : a = b := by
  rcases a with ⟨ax, ay⟩; rcases b with ⟨bx, by'⟩
  simp only at h1 h2; rw [h1, h2]

theorem p2Fun_ord3 {s : Bool} {a b c : Vertex} (ha : a.Ok) (hb : b.Ok) (hc : c.Ok) : Ord3 (p2Fun s) a b c :=
  (ord3_int (fun x : Vertex => x.p.x) a b c).lex fun h1 h2 _ =>
    (ord3_y s (fun x : Vertex => x.p.y) a b c).lex fun h3 h4 _ =>
      tail_ord3 ha hb hc (vec2_ext ((cpCmp_int_sign _ _).2.2.mp h1) (yFun_zero.mp h3))
        (vec2_ext ((cpCmp_int_sign _ _).2.2.mp h2) (yFun_zero.mp h4))

theorem p2Fun_swap (s : Bool) (a b : Vertex) : p2Fun s b a = -p2Fun s a b := by
  unfold p2Fun
  by_cases h1 : cpCmp a.p.x b.p.x = 0
  · by_cases h2 : yFun s a.p.y b.p.y = 0
    · rw [tail_swap (vec2_ext ((cpCmp_int_sign _ _).2.2.mp h1) (yFun_zero.mp h2)), cpCmp_int_swap a.p.x,
        yFun_swap s a.p.y, lexThen_swap, lexThen_swap]
    · rw [cpCmp_int_swap a.p.x, yFun_swap s a.p.y, h1]
      unfold lexThen
      simp [h2]
  · rw [cpCmp_int_swap a.p.x]
    unfold lexThen
    simp [h1]

/-- result order -/
def resFun (a b : Vertex) : Int :=
  lexThen (vec2Cmp a.p b.p) (lexThen (cpCmp b.side a.side) (cpSign (side b.other a.p a.other)))

/-- edges of two vertices do not overlap: same point, same side and same direction only for the same edge -/
def NoOverlap (a b : Vertex) : Prop :=
  a.p = b.p → a.side = b.side → side a.other a.p b.other = 0 → a.other = b.other

theorem resultVertexCmp_some {a b : Vertex} (ha : a.Ok) (hb : b.Ok) (hn : NoOverlap a b) :
    resultVertexCmp a b = some (resFun a b) := by
  unfold resultVertexCmp resFun lexThen
  by_cases h1 : vec2Cmp a.p b.p = 0
  · by_cases h2 : cpCmp b.side a.side = 0
    · by_cases h3 : cpSign (side b.other a.p a.other) = 0
      · have hz : side a.other a.p b.other = 0 := by
          rw [side_swap b.other a.p]; unfold cpSign at h3; split_ifs at h3 <;> omega
        have he := hn (vec2Cmp_eq.mp h1) ((cpCmp_nat_sign _ _).2.2.mp h2).symm hz
        simp only [h1, h2, h3, ne_eq, not_true_eq_false, if_false, cross3_some hb.ro ha.rp ha.ro,
          Option.bind_eq_bind, Option.bind_some, ass_true (vec2Cmp_eq.mpr he)]
        rfl
      · simp only [h1, h2, h3, ne_eq, not_true_eq_false, not_false_eq_true, if_false, if_true,
          cross3_some hb.ro ha.rp ha.ro, Option.bind_eq_bind, Option.bind_some]
        rfl
    · simp only [h1, h2, ne_eq, not_true_eq_false, not_false_eq_true, if_false, if_true]
  · simp only [h1, ne_eq, not_false_eq_true, if_true]

theorem resFun_eq {a b : Vertex} (h : NoOverlap a b) : resFun a b = 0 ↔ a = b := by
  unfold resFun
  rw [lexThen_zero, lexThen_zero, vec2Cmp_eq, (cpCmp_nat_sign _ _).2.2]
  constructor
  · rintro ⟨h1, h2, h3⟩
    have hz : side a.other a.p b.other = 0 := by
      rw [side_swap b.other a.p]; unfold cpSign at h3; split_ifs at h3 <;> omega
    have := h h1 h2.symm hz
    cases a; cases b; simp_all
  · rintro rfl
    refine ⟨rfl, rfl, ?_⟩
    have : side a.other a.p a.other = 0 := by unfold side; ring
    rw [this]; rfl

theorem cpSign_le {x : Int} : (cpSign x ≤ 0 ↔ x ≤ 0) ∧ (cpSign x < 0 ↔ x < 0) := by
  unfold cpSign; split_ifs <;> omega

theorem resFun_ord3 {a b c : Vertex} (ha : a.Ok) (hb : b.Ok) (hc : c.Ok) : Ord3 resFun a b c := by
  refine (ord3_vec2 (fun x : Vertex => x.p) a b c).lex fun h1 h2 _ => ?_
  refine (ord3_nat_rev (fun x : Vertex => x.side) a b c).lex fun h3 h4 _ => ?_
  have p1 : a.p = b.p := vec2Cmp_eq.mp h1
  have p2 : b.p = c.p := vec2Cmp_eq.mp h2
  have s1 : a.side = b.side := ((cpCmp_nat_sign _ _).2.2.mp h3).symm
  have s2 : b.side = c.side := ((cpCmp_nat_sign _ _).2.2.mp h4).symm
  have key := side_trans hc hb ha p2.symm p1.symm s2.symm s1.symm
  rw [show c.p = a.p from (p1.trans p2).symm, show b.p = a.p from p1.symm] at key
  constructor
  · intro h h'
    simp only [cpSign_le.1] at *
    rw [← p1] at h'
    exact (key h' h).1
  · intro h h' h''
    simp only [cpSign_le.1, cpSign_le.2] at *
    rw [← p1] at h' h''
    exact (key h' h).2 h''.symm

theorem resFun_swap (a b : Vertex) : resFun b a = -resFun a b := by
  unfold resFun
  by_cases h : a.p = b.p
  · have e : cpSign (side a.other b.p b.other) = -cpSign (side b.other a.p a.other) := by
      rw [← h, side_swap b.other a.p a.other]
      generalize side b.other a.p a.other = x
      unfold cpSign; split_ifs <;> omega
    rw [e, vec2Cmp_swap a.p, cpCmp_nat_swap b.side a.side, lexThen_swap, lexThen_swap]
  · have : vec2Cmp a.p b.p ≠ 0 := fun h' => h (vec2Cmp_eq.mp h')
    rw [vec2Cmp_swap a.p]
    unfold lexThen
    rw [if_pos (by omega), if_pos (by omega)]

/-! crossings, phase 2 -/

/-- an exact point whose rounding does not overflow -/
structure XOk (a : Vec2if) : Prop where
  v : a.Valid
  x : -2147483648 ≤ a.x.i ∧ a.x.i < 2147483647
  y : -2147483648 ≤ a.y.i ∧ a.y.i < 2147483647

def rnd (x : Dimif) : Int := ⌊x.val + 1 / 2⌋

def yQ (south : Bool) (a b : ℚ) : Int := if south then -cmpQ a b else cmpQ a b

def x2Fun (south : Bool) (a b : Vec2if) : Int :=
  lexThen (cpCmp (rnd a.x) (rnd b.x)) (lexThen (yFun south (rnd a.y) (rnd b.y))
    (lexThen (cmpQ a.x.val b.x.val) (yQ south a.y.val b.y.val)))

theorem xingPhase2Cmp_some {south : Bool} {a b : Vec2if} (ha : XOk a) (hb : XOk b) :
    xingPhase2Cmp south a b = some (x2Fun south a b) := by
  have r : ∀ x : Dimif, x.Valid → (-2147483648 ≤ x.i ∧ x.i < 2147483647) → round x = some (rnd x) := by
    intro x hx hi
    exact (round_eq x hx (by unfold I32; omega)).2 (by omega)
  unfold xingPhase2Cmp x2Fun lexThen
  simp only [r _ ha.v.1 ha.x, r _ ha.v.2 ha.y, r _ hb.v.1 hb.x, r _ hb.v.2 hb.y, dimifCmp_eq _ _ ha.v.1 hb.v.1,
    dimifCmp_eq _ _ ha.v.2 hb.v.2, Option.bind_eq_bind, Option.bind_some, Option.pure_def]
  by_cases h1 : cpCmp (rnd a.x) (rnd b.x) = 0
  · by_cases h2 : cpCmp (rnd a.y) (rnd b.y) = 0
    · have h2' : yFun south (rnd a.y) (rnd b.y) = 0 := yFun_zero.mpr ((cpCmp_int_sign _ _).2.2.mp h2)
      by_cases h3 : cmpQ a.x.val b.x.val = 0
      · by_cases h4 : cmpQ a.y.val b.y.val = 0
        · simp [h1, h2, h2', h3, h4, yQ]
        · simp [h1, h2, h2', h3, h4, yQ]
      · simp [h1, h2, h2', h3]
    · have h2' : yFun south (rnd a.y) (rnd b.y) ≠ 0 := fun h => h2 ((cpCmp_int_sign _ _).2.2.mpr (yFun_zero.mp h))
      simp only [h1, h2, h2', ne_eq, not_true_eq_false, not_false_eq_true, if_false, if_true]
      rfl
  · simp only [h1, ne_eq, not_false_eq_true, if_true]

theorem x2Fun_ord3 {s : Bool} (a b c : Vec2if) : Ord3 (x2Fun s) a b c :=
  (ord3_int (fun x : Vec2if => rnd x.x) a b c).lex fun _ _ _ =>
    (ord3_y s (fun x : Vec2if => rnd x.y) a b c).lex fun _ _ _ =>
      (ord3_q (fun x : Vec2if => x.x.val) a b c).lex fun _ _ _ => by
        unfold yQ
        cases s
        · exact ord3_q (fun x : Vec2if => x.y.val) a b c
        · exact ord3_neg_q (fun x : Vec2if => x.y.val) a b c

theorem x2Fun_swap (s : Bool) (a b : Vec2if) : x2Fun s b a = -x2Fun s a b := by
  unfold x2Fun
  have e : yQ s b.y.val a.y.val = -yQ s a.y.val b.y.val := by
    unfold yQ; rw [cmpQ_swap a.y.val]; cases s <;> simp
  rw [e, cmpQ_swap a.x.val, yFun_swap s (rnd a.y), cpCmp_int_swap (rnd a.x), lexThen_swap, lexThen_swap, lexThen_swap]

theorem x2Fun_eq {s : Bool} {a b : Vec2if} : x2Fun s a b = 0 ↔ a.pt = b.pt := by
  unfold x2Fun
  simp only [lexThen_zero, yFun_zero, (cpCmp_int_sign _ _).2.2, (cmpQ_sign _ _).2.2]
  have e : yQ s a.y.val b.y.val = 0 ↔ a.y.val = b.y.val := by
    unfold yQ; have := (cmpQ_sign a.y.val b.y.val).2.2; cases s <;> simp [this]
  rw [e]
  unfold Vec2if.pt
  rw [Prod.mk.injEq]
  constructor
  · rintro ⟨_, _, h⟩; exact h
  · rintro ⟨h1, h2⟩; unfold rnd; rw [h1, h2]; simp

end Hob3l.Sweep
