import Verif.Sweep.Spec
import Verif.Matq.LemmasOrder
import Mathlib.Tactic.Linarith
import Mathlib.Tactic.Ring
import Mathlib.Tactic.FieldSimp
import Mathlib.Tactic.LinearCombination
import Mathlib.Tactic.Positivity

namespace Hob3l.Sweep

open Hob3l.Matq

theorem ass_true {c : Prop} [Decidable c] (h : c) : ass c = some () := by simp [ass, h]

theorem vec2Cmp_lt {a b : Vec2} : vec2Cmp a b < 0 ↔ LexLt a b := by
  unfold vec2Cmp cpCmp LexLt
  split_ifs <;> simp_all <;> omega

theorem vec2Cmp_eq {a b : Vec2} : vec2Cmp a b = 0 ↔ a = b := by
  rcases a with ⟨ax, ay⟩; rcases b with ⟨bx, by'⟩
  unfold vec2Cmp cpCmp
  simp only [Vec2.mk.injEq]
  split_ifs <;> simp_all <;> omega

theorem vec2Cmp_gt {a b : Vec2} : vec2Cmp a b > 0 ↔ LexLt b a := by
  unfold vec2Cmp cpCmp LexLt
  split_ifs <;> simp_all <;> omega

theorem LexLt.irrefl (a : Vec2) : ¬ LexLt a a := by unfold LexLt; omega
theorem LexLt.trans {a b c : Vec2} (h : LexLt a b) (h' : LexLt b c) : LexLt a c := by unfold LexLt at *; omega
theorem LexLt.asymm {a b : Vec2} (h : LexLt a b) : ¬ LexLt b a := by unfold LexLt at *; omega
theorem LexLt.ne {a b : Vec2} (h : LexLt a b) : a ≠ b := by rintro rfl; exact LexLt.irrefl _ h
theorem LexLt.total {a b : Vec2} : a = b ∨ LexLt a b ∨ LexLt b a := by
  rcases a with ⟨ax, ay⟩; rcases b with ⟨bx, by'⟩
  unfold LexLt; simp only [Vec2.mk.injEq]; omega

theorem pt_inj {a b : Vec2} (h : a.pt = b.pt) : a = b := by
  rcases a with ⟨ax, ay⟩; rcases b with ⟨bx, by'⟩
  simpa [Vec2.pt] using h

/-! points of a line -/

/-- the point with parameter `r` of the line through `a` with direction `d` -/
def LP (a d : Pt) (r : ℚ) : Pt := (a.1 + r * d.1, a.2 + r * d.2)

theorem LP_inj {a d : Pt} (hd : d.1 ≠ 0 ∨ d.2 ≠ 0) {r s : ℚ} (h : LP a d r = LP a d s) : r = s := by
  unfold LP at h
  rw [Prod.mk.injEq] at h
  rcases hd with hd | hd
  · exact mul_right_cancel₀ hd (by linarith [h.1])
  · exact mul_right_cancel₀ hd (by linarith [h.2])

theorem halfOpen_LP {a d X : Pt} (hd : d.1 ≠ 0 ∨ d.2 ≠ 0) {s t : ℚ} (hst : s < t) :
    HalfOpen (LP a d s) (LP a d t) X ↔ ∃ r, X = LP a d r ∧ s ≤ r ∧ r < t := by
  constructor
  · rintro ⟨⟨u, h0, h1, hx, hy⟩, hne⟩
    have hX : X = LP a d (s + u * (t - s)) := by
      apply Prod.ext
      · rw [hx]; simp only [LP]; ring
      · rw [hy]; simp only [LP]; ring
    refine ⟨_, hX, ?_, ?_⟩
    · nlinarith
    · have : s + u * (t - s) ≤ t := by nlinarith
      rcases this.lt_or_eq with h | h
      · exact h
      · rw [h] at hX; exact absurd hX hne
  · rintro ⟨r, rfl, h0, h1⟩
    have hts : t - s ≠ 0 := by linarith
    refine ⟨⟨(r - s) / (t - s), ?_, ?_, ?_, ?_⟩, ?_⟩
    · exact div_nonneg (by linarith) (by linarith)
    · rw [div_le_one (by linarith)]; linarith
    · simp only [LP]; field_simp; ring
    · simp only [LP]; field_simp; ring
    · intro h; exact h1.ne (LP_inj hd h)

/-- lexicographically positive direction -/
def LexPos (d : Pt) : Prop := 0 < d.1 ∨ d.1 = 0 ∧ 0 < d.2

theorem LexPos.ne {d : Pt} (h : LexPos d) : d.1 ≠ 0 ∨ d.2 ≠ 0 := by
  rcases h with h | h
  · exact Or.inl h.ne'
  · exact Or.inr h.2.ne'

theorem lexLt_LP {p d : Pt} (hd : LexPos d) {a b : Vec2} {s t : ℚ} (ha : a.pt = LP p d s) (hb : b.pt = LP p d t) :
    LexLt a b ↔ s < t := by
  have h1 := congrArg Prod.fst ha
  have h2 := congrArg Prod.snd ha
  have h3 := congrArg Prod.fst hb
  have h4 := congrArg Prod.snd hb
  simp only [Vec2.pt, LP] at h1 h2 h3 h4
  have e : LexLt a b ↔ ((a.x : ℚ) < b.x ∨ (a.x : ℚ) = b.x ∧ (a.y : ℚ) < b.y) := by
    unfold LexLt; norm_cast
  rw [e, h1, h2, h3, h4]
  rcases hd with hd | ⟨hd0, hd⟩
  · constructor
    · rintro (h | ⟨h, h'⟩)
      · by_contra hc; push Not at hc; nlinarith
      · exfalso
        have : s = t := mul_right_cancel₀ hd.ne' (by linarith)
        rw [this] at h'; exact lt_irrefl _ h'
    · intro h; left; nlinarith
  · rw [hd0]
    constructor
    · rintro (h | ⟨h, h'⟩)
      · simp at h
      · by_contra hc; push Not at hc; nlinarith
    · intro h; right; exact ⟨by simp, by nlinarith⟩

theorem eq_LP {p d : Pt} (hd : LexPos d) {a b : Vec2} {s t : ℚ} (ha : a.pt = LP p d s) (hb : b.pt = LP p d t) :
    a = b ↔ s = t := by
  constructor
  · intro h; apply LP_inj hd.ne (a := p); rw [← ha, ← hb, h]
  · rintro rfl; exact pt_inj (ha.trans hb.symm)

theorem chk32_some' {x : Int} (h : I32 x) : chk32 x = some x := by unfold chk32; rw [if_pos h]
theorem chk64_some' {x : Int} (h : I64 x) : chk64 x = some x := by unfold chk64; rw [if_pos h]

theorem sqrDist_some {a b : Vec2} (ha : a.InRange) (hb : b.InRange) :
    sqrDist a b = some ((a.x - b.x) * (a.x - b.x) + (a.y - b.y) * (a.y - b.y)) := by
  obtain ⟨⟨a1, a2⟩, a3, a4⟩ := ha
  obtain ⟨⟨b1, b2⟩, b3, b4⟩ := hb
  have hx : -2147483647 ≤ a.x - b.x ∧ a.x - b.x ≤ 2147483647 := by omega
  have hy : -2147483647 ≤ a.y - b.y ∧ a.y - b.y ≤ 2147483647 := by omega
  unfold sqrDist sqrLen dimSub
  rw [chk32_some' (by unfold I32; omega), chk32_some' (by unfold I32; omega)]
  simp only [Option.bind_eq_bind, Option.bind_some]
  generalize a.x - b.x = u at *
  generalize a.y - b.y = v at *
  have hu : 0 ≤ u * u ∧ u * u ≤ 4611686014132420609 := ⟨mul_self_nonneg u, by nlinarith⟩
  have hv : 0 ≤ v * v ∧ v * v ≤ 4611686014132420609 := ⟨mul_self_nonneg v, by nlinarith⟩
  unfold dimMul dimwAdd
  first
  | (rw [chk64_some' (by unfold I64; omega), chk64_some' (by unfold I64; omega)]
     simp only [Option.bind_some]
     exact chk64_some' (by unfold I64; omega))
  | (simp only [Option.bind_some]
     exact chk64_some' (by unfold I64; omega))

theorem sqrDist_LP {p d : Pt} {a b : Vec2} {s t : ℚ} (ha : a.pt = LP p d s) (hb : b.pt = LP p d t) :
    (((a.x - b.x) * (a.x - b.x) + (a.y - b.y) * (a.y - b.y) : Int) : ℚ) =
      (t - s) * (t - s) * (d.1 * d.1 + d.2 * d.2) := by
  have h1 := congrArg Prod.fst ha
  have h2 := congrArg Prod.snd ha
  have h3 := congrArg Prod.fst hb
  have h4 := congrArg Prod.snd hb
  simp only [Vec2.pt, LP] at h1 h2 h3 h4
  push_cast
  rw [h1, h2, h3, h4]; ring

/-! covering in terms of parameters -/

/-- membership of the interval `[u, v)` at parameter `r` -/
def cov (u v : ℚ) (m : BitVec 64) (r : ℚ) : BitVec 64 := if u ≤ r ∧ r < v then m else 0

theorem cover_LP {p d : Pt} (hd : LexPos d) {x : Edge} {s t : ℚ} (hl : x.left.pt = LP p d s)
    (hr : x.rigt.pt = LP p d t) (hst : s < t) (r : ℚ) : x.cover (LP p d r) = cov s t x.member r := by
  unfold Edge.cover cov Edge.Has
  rw [hl, hr]
  have := halfOpen_LP (a := p) (X := LP p d r) hd.ne hst
  by_cases h : s ≤ r ∧ r < t
  · rw [if_pos h, if_pos (this.mpr ⟨r, rfl, h⟩)]
  · rw [if_neg h, if_neg]
    intro h'
    obtain ⟨r', e, h''⟩ := this.mp h'
    rw [LP_inj hd.ne e] at h
    exact h h''

theorem cover_off {p d : Pt} (hd : LexPos d) {x : Edge} {s t : ℚ} (hl : x.left.pt = LP p d s)
    (hr : x.rigt.pt = LP p d t) (hst : s < t) {X : Pt} (hX : ∀ r, X ≠ LP p d r) : x.cover X = 0 := by
  unfold Edge.cover Edge.Has
  rw [hl, hr, if_neg]
  intro h'
  obtain ⟨r, e, -⟩ := (halfOpen_LP (a := p) hd.ne hst).mp h'
  exact hX r e

/-- the edge occupies the parameter interval `[s, t)` of the line -/
structure OnLine (p d : Pt) (x : Edge) (s t : ℚ) : Prop where
  l : x.left.pt = LP p d s
  r : x.rigt.pt = LP p d t
  lt : s < t

theorem disjoint_LP {p d : Pt} (hd : LexPos d) {x y : Edge} {s t u v : ℚ} (hx : OnLine p d x s t)
    (hy : OnLine p d y u v) (h : t ≤ u) (X : Pt) : ¬ (x.Has X ∧ y.Has X) := by
  unfold Edge.Has
  rw [hx.l, hx.r, hy.l, hy.r, halfOpen_LP hd.ne hx.lt, halfOpen_LP hd.ne hy.lt]
  rintro ⟨⟨r, e, -, h1⟩, r', e', h2, -⟩
  have := LP_inj hd.ne (e ▸ e' : LP p d r = LP p d r')
  linarith

/-- covering of two lists of edges of one line, by parameters -/
theorem coverAll_LP {p d : Pt} (L1 L2 : List (Edge × ℚ × ℚ)) (hd : LexPos d)
    (h1 : ∀ x ∈ L1, OnLine p d x.1 x.2.1 x.2.2) (h2 : ∀ x ∈ L2, OnLine p d x.1 x.2.1 x.2.2)
    (h : ∀ r, (L1.map fun x => cov x.2.1 x.2.2 x.1.member r).foldr (· ^^^ ·) 0 =
      (L2.map fun x => cov x.2.1 x.2.2 x.1.member r).foldr (· ^^^ ·) 0) (X : Pt) :
    coverAll (L1.map Prod.fst) X = coverAll (L2.map Prod.fst) X := by
  by_cases hX : ∃ r, X = LP p d r
  · obtain ⟨r, rfl⟩ := hX
    have key : ∀ L : List (Edge × ℚ × ℚ), (∀ x ∈ L, OnLine p d x.1 x.2.1 x.2.2) →
        coverAll (L.map Prod.fst) (LP p d r) = (L.map fun x => cov x.2.1 x.2.2 x.1.member r).foldr (· ^^^ ·) 0 := by
      intro L
      induction L with
      | nil => intro _; rfl
      | cons x xs ih =>
        intro hL
        have hx := hL x (List.mem_cons_self ..)
        simp only [List.map_cons, coverAll, List.foldr_cons]
        rw [ih (fun y hy => hL y (List.mem_cons_of_mem _ hy)), cover_LP hd hx.l hx.r hx.lt]
    rw [key L1 h1, key L2 h2, h r]
  · push Not at hX
    have key : ∀ L : List (Edge × ℚ × ℚ), (∀ x ∈ L, OnLine p d x.1 x.2.1 x.2.2) → coverAll (L.map Prod.fst) X = 0 := by
      intro L
      induction L with
      | nil => intro _; rfl
      | cons x xs ih =>
        intro hL
        have hx := hL x (List.mem_cons_self ..)
        simp only [List.map_cons, coverAll]
        rw [ih (fun y hy => hL y (List.mem_cons_of_mem _ hy)), cover_off hd hx.l hx.r hx.lt hX]
        rfl
    rw [key L1 h1, key L2 h2]

theorem edgeNew_some {l r : Vec2} (m : BitVec 64) (h : LexLt l r) :
    edgeNew l r m = some ⟨l, r, m, false, false, false⟩ := by
  unfold edgeNew
  rw [ass_true (vec2Cmp_lt.mpr h)]; rfl

theorem assLR_some {l r : Vec2} (h : LexLt l r) (m : BitVec 64) (a b c : Bool) : assLR ⟨l, r, m, a, b, c⟩ = some () :=
  ass_true (vec2Cmp_lt.mpr h)

/-- the line through an edge -/
theorem line_of (o : Edge) (h : LexLt o.left o.rigt) :
    LexPos (o.rigt.pt.1 - o.left.pt.1, o.rigt.pt.2 - o.left.pt.2) ∧
    OnLine o.left.pt (o.rigt.pt.1 - o.left.pt.1, o.rigt.pt.2 - o.left.pt.2) o 0 1 := by
  refine ⟨?_, ?_, ?_, by norm_num⟩
  · unfold LexPos Vec2.pt LexLt at *
    simp only
    rcases h with h | ⟨h, h'⟩
    · left; have : (o.left.x : ℚ) < o.rigt.x := by exact_mod_cast h
      linarith
    · right; rw [h]; have : (o.left.y : ℚ) < o.rigt.y := by exact_mod_cast h'
      exact ⟨by ring, by linarith⟩
  · simp [LP]
  · simp [LP]

theorem cov_xor (u v : ℚ) (m n : BitVec 64) (r : ℚ) : cov u v (m ^^^ n) r = cov u v m r ^^^ cov u v n r := by
  unfold cov; split_ifs <;> simp

theorem cov_cut {u v w : ℚ} (h1 : u ≤ v) (h2 : v ≤ w) (m : BitVec 64) (r : ℚ) :
    cov u v m r ^^^ cov v w m r = cov u w m r := by
  unfold cov
  rcases lt_or_ge r v with h | h
  · have : ¬ v ≤ r := not_le.mpr h
    simp [this, h, h.trans_le h2]
  · have : ¬ r < v := not_lt.mpr h
    simp [this, h, h1.trans h]

end Hob3l.Sweep
