import Verif.Flatten.Spec
import Verif.Bitmap.Props

set_option linter.unusedSectionVars false

namespace Hob3l.Flatten

open Hob3l.Bitmap

section
variable {P : Type}

theorem mask_lt (rs : List (P → Bool)) (p : P) : mask rs p < 2 ^ rs.length := by
  induction rs with
  | nil => simp [mask]
  | cons r rs ih =>
    simp only [mask, List.length_cons, Nat.pow_succ]
    have : (r p).toNat ≤ 1 := Bool.toNat_le _
    omega

theorem mask_append (rs ss : List (P → Bool)) (p : P) : mask (rs ++ ss) p = pairIndex rs.length (mask rs p) (mask ss p) := by
  induction rs with
  | nil => simp [mask, pairIndex]
  | cons r rs ih =>
    simp only [List.cons_append, mask, ih, pairIndex, List.length_cons]
    ring

/-- the point set described by a lazy list -/
def eval (l : Lazy P) (p : P) : Bool := l.comb.getLsbD (mask (l.data.map Obj.reg) p)

structure Inv (opt : Opt) (l : Lazy P) : Prop where
  size_le : l.size ≤ maxSim opt
  bit0 : l.comb.getLsbD 0 = false
  one : opt.skipEmpty = true → l.size = 1 → l.comb.getLsbD 1 = true

theorem maxSim_le (opt : Opt) : maxSim opt ≤ 10 := Nat.min_le_right _ _

theorem eval_nil (l : Lazy P) (h : l.data = []) (h0 : l.comb.getLsbD 0 = false) (p : P) : eval l p = false := by
  simp only [eval, h, List.map_nil, mask]; exact h0

theorem wr2 (c : Mem) : ∃ c', wr 8 c 0 2 = some c' ∧ c'.getLsbD 0 = false ∧ c'.getLsbD 1 = true := by
  obtain ⟨c', h1, h2⟩ := wr_some (m := c) (i := 0) (2 : BitVec 8) (by decide)
  refine ⟨c', h1, ?_, ?_⟩
  · rw [h2 0 (by decide), if_pos (by decide)]; decide
  · rw [h2 1 (by decide), if_pos (by decide)]; decide

theorem eval_single (g : P → Bool) (o : Obj P) (ho : o.reg = g) (c : Mem) (h0 : c.getLsbD 0 = false) (h1 : c.getLsbD 1 = true) (p : P) :
    eval ⟨[o], c⟩ p = g p := by
  simp only [eval, List.map_cons, List.map_nil, mask, ho]
  cases g p
  · exact h0
  · exact h1

theorem sweepAll_spec (sw : Sweep P) (hsw : sw.Ok) (r : Lazy P) (h1 : 1 ≤ r.size) (h10 : r.size ≤ 10)
    (h0 : r.comb.getLsbD 0 = false) :
    ∃ r', sweepAll sw r = some r' ∧ r'.size ≤ 1 ∧ r'.comb.getLsbD 0 = false ∧
      (r'.size = 1 → r'.comb.getLsbD 1 = true) ∧ (∀ o ∈ r'.data, ∃ g, o = .sweep g) ∧ ∀ p, eval r' p = eval r p := by
  have hc := hsw (r.data.map Obj.reg) r.comb (by simpa using h1) (by simpa using h10) h0
  unfold sweepAll
  cases hr : sw.run (r.data.map Obj.reg) r.comb with
  | none =>
    rw [hr] at hc
    refine ⟨⟨[], r.comb⟩, rfl, Nat.zero_le _, h0, fun h => absurd h Nat.zero_ne_one, by simp, fun p => ?_⟩
    rw [eval_nil ⟨[], r.comb⟩ rfl h0]
    exact (hc p).symm
  | some g =>
    rw [hr] at hc
    obtain ⟨c', e, e0, e1⟩ := wr2 r.comb
    refine ⟨⟨[.sweep g], c'⟩, by simp only [e, Option.bind_eq_bind, Option.bind_some, Option.pure_def], le_rfl, e0, fun _ => e1, by simp, fun p => ?_⟩
    rw [eval_single g _ rfl c' e0 e1]
    exact hc p

theorem flattenEager_spec (sw : Sweep P) (hsw : sw.Ok) (r : Lazy P) (mode : Mode) (h10 : r.size ≤ 10)
    (h0 : r.comb.getLsbD 0 = false) :
    ∃ r', flattenEager sw r mode = some r' ∧ r'.size ≤ 1 ∧ r'.comb.getLsbD 0 = false ∧
      ((r.size = 1 → r.comb.getLsbD 1 = true) → r'.size = 1 → r'.comb.getLsbD 1 = true) ∧
      (mode ≠ .vline2 → ∀ o ∈ r'.data, ∃ g, o = .sweep g) ∧ ∀ p, eval r' p = eval r p := by
  obtain ⟨d, c⟩ := r
  have key : d ≠ [] → ∃ r', sweepAll sw ⟨d, c⟩ = some r' ∧ r'.size ≤ 1 ∧ r'.comb.getLsbD 0 = false ∧
      (((⟨d, c⟩ : Lazy P).size = 1 → c.getLsbD 1 = true) → r'.size = 1 → r'.comb.getLsbD 1 = true) ∧
      (mode ≠ .vline2 → ∀ o ∈ r'.data, ∃ g, o = .sweep g) ∧ ∀ p, eval r' p = eval ⟨d, c⟩ p := by
    intro hd
    obtain ⟨r', a, b, c, d', e, f⟩ := sweepAll_spec sw hsw ⟨d, c⟩ (List.length_pos_iff.mpr hd) h10 h0
    exact ⟨r', a, b, c, fun _ => d', fun _ => e, f⟩
  have triv : d.length ≤ 1 → (mode ≠ .vline2 → ∀ o ∈ d, ∃ g, o = .sweep g) →
      ∃ r', some (⟨d, c⟩ : Lazy P) = some r' ∧ r'.size ≤ 1 ∧ r'.comb.getLsbD 0 = false ∧
      (((⟨d, c⟩ : Lazy P).size = 1 → c.getLsbD 1 = true) → r'.size = 1 → r'.comb.getLsbD 1 = true) ∧
      (mode ≠ .vline2 → ∀ o ∈ r'.data, ∃ g, o = .sweep g) ∧ ∀ p, eval r' p = eval ⟨d, c⟩ p := by
    intro h1 h2
    exact ⟨_, rfl, h1, h0, fun h => h, h2, fun _ => rfl⟩
  match d, key, triv with
  | [], _, triv => exact triv (by simp) (by simp)
  | [.sweep g], _, triv => exact triv (by simp) (by simp)
  | [.vline2 n g], key, triv =>
    by_cases hm : mode = .vline2
    · simp only [flattenEager, hm, if_true]
      have := triv (by simp) (fun h => absurd hm h)
      rw [hm] at this; exact this
    · simp only [flattenEager, hm, if_false]
      exact key (by simp)
  | [.poly n g], key, _ => exact key (by simp)
  | a :: b :: d, key, _ =>
    have : flattenEager sw ⟨a :: b :: d, c⟩ mode = sweepAll sw ⟨a :: b :: d, c⟩ := by
      cases a <;> rfl
    rw [this]
    exact key (by simp)

theorem joinLazy_spec (op : Op) (r b : Lazy P) (h : r.size + b.size ≤ 10) (hr : r.comb.getLsbD 0 = false)
    (hb : b.comb.getLsbD 0 = false) :
    ∃ l, joinLazy op r b = some l ∧ l.data = r.data ++ b.data ∧ l.comb.getLsbD 0 = false ∧
      ∀ p, eval l p = op.fn (eval r p) (eval b p) := by
  have hpos : ∀ n : Nat, 0 < 2 ^ n := fun n => by positivity
  obtain ⟨r1, b1, r2, x, y, e1, e2, e3, e4, e5, e6⟩ := C16_joint_table r.comb b.comb r.size b.size op h 0 0 (hpos _) (hpos _)
  refine ⟨⟨r.data ++ b.data, r2⟩, ?_, rfl, ?_, ?_⟩
  · unfold joinLazy
    simp only [ass_true h, e1, e2, e3, Option.bind_eq_bind, Option.bind_some, Option.pure_def]
  · rw [get_spec _ _ (by decide)] at e4 e5
    rw [get_spec _ _ (by simp [pairIndex])] at e6
    simp only [pairIndex, Option.some.injEq, Nat.mul_zero, Nat.zero_add] at e4 e5 e6
    rw [e6, ← e4, ← e5, hr, hb]
    cases op <;> rfl
  · intro p
    have lr := mask_lt (r.data.map Obj.reg) p
    have lb := mask_lt (b.data.map Obj.reg) p
    simp only [List.length_map] at lr lb
    obtain ⟨r1', b1', r2', x, y, f1, f2, f3, f4, f5, f6⟩ := C16_joint_table r.comb b.comb r.size b.size op h _ _ lr lb
    have q1 : r1' = r1 := by rw [e1] at f1; exact (Option.some.inj f1).symm
    have q2 : b1' = b1 := by rw [e2] at f2; exact (Option.some.inj f2).symm
    subst q1 q2
    have q3 : r2' = r2 := by rw [e3] at f3; exact (Option.some.inj f3).symm
    subst q3
    have p10 : ∀ n, n ≤ 10 → 2 ^ n ≤ 1024 := fun n hn => Nat.pow_le_pow_right (n := 2) (by decide) hn
    have t1 : _ < 1024 := lt_of_lt_of_le lr (p10 r.size (by omega))
    have t2 : _ < 1024 := lt_of_lt_of_le lb (p10 b.size (by omega))
    have hj : mask ((r.data ++ b.data).map Obj.reg) p = pairIndex r.size (mask (r.data.map Obj.reg) p) (mask (b.data.map Obj.reg) p) := by
      rw [List.map_append, mask_append, List.length_map]
    have lj := mask_lt ((r.data ++ b.data).map Obj.reg) p
    rw [List.length_map, List.length_append, hj] at lj
    have t3 : _ < 1024 := lt_of_lt_of_le lj (p10 _ h)
    rw [get_spec _ _ t1] at f4
    rw [get_spec _ _ t2] at f5
    rw [get_spec _ _ t3] at f6
    simp only [eval, hj]
    rw [Option.some.inj f4, Option.some.inj f5, Option.some.inj f6]

/-- number of lists with more than one entry -/
def cnt (l : Lazy P) : Nat := if 1 < l.size then 1 else 0

theorem lazyLoop_spec (opt : Opt) (sw : Sweep P) (hsw : sw.Ok) (hopt : 2 ≤ opt.maxSimultaneous) (op : Op) :
    ∀ (n : Nat) (r b : Lazy P), Inv opt r → Inv opt b → cnt r + cnt b + 1 ≤ n →
      ∃ l l', lazyLoop opt sw op n r b = some l ∧ finishLoop op l = some l' ∧ Inv opt l' ∧
        ∀ p, eval l' p = op.fn (eval r p) (eval b p) := by
  have hm2 : 2 ≤ maxSim opt := by unfold maxSim; omega
  have hm10 := maxSim_le opt
  intro n
  induction n with
  | zero => intro r b _ _ h; omega
  | succ n ih =>
    intro r b hr hb hn
    rw [lazyLoop]
    by_cases h1 : opt.skipEmpty = true ∧ b.size = 0
    · rw [if_pos h1]
      have eb : ∀ p, eval b p = false := eval_nil b (List.length_eq_zero_iff.mp h1.2) hb.bit0
      refine ⟨_, _, rfl, rfl, ?_, ?_⟩
      · by_cases hc : op = .cut
        · rw [if_pos hc]; exact ⟨Nat.zero_le _, by simp [Lazy.zero], fun _ h => absurd h Nat.zero_ne_one⟩
        · rw [if_neg hc]; exact hr
      · intro p
        rw [eb p]
        cases op <;> simp [Op.fn, eval, Lazy.zero, mask]
    · rw [if_neg h1]
      by_cases h2 : opt.skipEmpty = true ∧ r.size = 0
      · rw [if_pos h2]
        have er : ∀ p, eval r p = false := eval_nil r (List.length_eq_zero_iff.mp h2.2) hr.bit0
        refine ⟨_, _, rfl, rfl, ?_, ?_⟩
        · by_cases hc : op = .add ∨ op = .xor
          · rw [if_pos hc]; exact hb
          · rw [if_neg hc]; exact hr
        · intro p
          cases op <;> simp [Op.fn, er p]
      · rw [if_neg h2]
        by_cases h3 : r.size + b.size ≤ maxSim opt
        · rw [if_pos h3]
          obtain ⟨l, e1, e2, e3, e4⟩ := joinLazy_spec op r b (by omega) hr.bit0 hb.bit0
          have hs : l.size = r.size + b.size := by simp [Lazy.size, e2]
          refine ⟨_, l, rfl, e1, ⟨by omega, e3, ?_⟩, e4⟩
          intro hsk h1'
          simp only [hsk, true_and] at h1 h2
          omega
        · rw [if_neg h3]
          by_cases h4 : r.size > b.size
          · have c1 : cnt r = 1 := by unfold cnt; rw [if_pos (by omega)]
            have hass : 3 - (n + 1) < 2 := by omega
            obtain ⟨r', e1, e2, e3, e4, -, e5⟩ := flattenEager_spec sw hsw r .vline2 (by have := hr.size_le; omega) hr.bit0
            have c2 : cnt r' = 0 := by unfold cnt; rw [if_neg (by omega)]
            obtain ⟨l, l', f1, f2, f3, f4⟩ := ih r' b ⟨by omega, e3, fun hs => e4 (hr.one hs)⟩ hb (by omega)
            refine ⟨l, l', ?_, f2, f3, fun p => by rw [f4, e5]⟩
            simp only [ass_true hass, if_pos h4, e1, ass_true e2, f1, Option.bind_eq_bind, Option.bind_some]
          · have c1 : cnt b = 1 := by unfold cnt; rw [if_pos (by omega)]
            have hass : 3 - (n + 1) < 2 := by omega
            obtain ⟨b', e1, e2, e3, e4, -, e5⟩ := flattenEager_spec sw hsw b .vline2 (by have := hb.size_le; omega) hb.bit0
            have c2 : cnt b' = 0 := by unfold cnt; rw [if_neg (by omega)]
            obtain ⟨l, l', f1, f2, f3, f4⟩ := ih r b' hr ⟨by omega, e3, fun hs => e4 (hb.one hs)⟩ (by omega)
            refine ⟨l, l', ?_, f2, f3, fun p => by rw [f4, e5]⟩
            simp only [ass_true hass, if_neg h4, e1, ass_true e2, f1, Option.bind_eq_bind, Option.bind_some]

theorem cnt_le (l : Lazy P) : cnt l ≤ 1 := by unfold cnt; split <;> omega

theorem flattenLazy_spec (opt : Opt) (sw : Sweep P) (hsw : sw.Ok) (hopt : 2 ≤ opt.maxSimultaneous) (op : Op)
    (r b : Lazy P) (hr : Inv opt r) (hb : Inv opt b) :
    ∃ l, flattenLazy opt sw r b op = some l ∧ Inv opt l ∧ ∀ p, eval l p = op.fn (eval r p) (eval b p) := by
  have := cnt_le r; have := cnt_le b
  obtain ⟨l, l', h1, h2, h3, h4⟩ := lazyLoop_spec opt sw hsw hopt op 3 r b hr hb (by omega)
  refine ⟨l', ?_, h3, h4⟩
  unfold flattenLazy
  simp only [ass_true hopt, h1, h2, Option.bind_eq_bind, Option.bind_some]

theorem inv_zero (opt : Opt) : Inv opt (Lazy.zero : Lazy P) :=
  ⟨Nat.zero_le _, by simp [Lazy.zero], fun _ h => absurd h Nat.zero_ne_one⟩

theorem eval_zero (p : P) : eval (Lazy.zero : Lazy P) p = false := by simp [eval, Lazy.zero, mask]

/-- the model computed a valid list describing the set `f` -/
def Good (opt : Opt) (f : P → Bool) (x : Option (Lazy P)) : Prop :=
  ∃ l, x = some l ∧ Inv opt l ∧ ∀ p, eval l p = f p

theorem good_zero (opt : Opt) (f : P → Bool) (h : ∀ p, f p = false) : Good opt f (some Lazy.zero) :=
  ⟨_, rfl, inv_zero opt, fun p => by rw [eval_zero, h p]⟩

theorem flattenLeaf_spec (opt : Opt) (hopt : 2 ≤ opt.maxSimultaneous) (n : Nat) (o : Obj P) (hn : n = 0 → ∀ p, o.reg p = false) :
    Good opt o.reg (flattenLeaf n o) := by
  unfold flattenLeaf
  by_cases h : n > 0
  · rw [if_pos h]
    obtain ⟨c', e, e0, e1⟩ := wr2 0
    refine ⟨⟨[o], c'⟩, by simp only [e, Option.bind_eq_bind, Option.bind_some, Option.pure_def], ⟨?_, e0, fun _ _ => e1⟩, fun p => eval_single _ o rfl c' e0 e1 p⟩
    show 1 ≤ maxSim opt
    unfold maxSim; omega
  · rw [if_neg h]; exact good_zero opt _ (hn (by omega))

section
variable (opt : Opt) (sw : Sweep P) (hsw : sw.Ok) (hopt : 2 ≤ opt.maxSimultaneous) (zi : Nat)
include hsw hopt

mutual
theorem flattenRec_spec : ∀ t : Csg P, t.WF → Good opt (fun p => t.has zi p) (flattenRec opt sw zi t)
  | .vline2 n reg, h => by
    rw [flattenRec]; simp only [Csg.has]; exact flattenLeaf_spec opt hopt n (.vline2 n reg) h
  | .poly n reg, h => by
    rw [flattenRec]; simp only [Csg.has]; exact flattenLeaf_spec opt hopt n (.poly n reg) h
  | .stack idx0 ls, h => by
    rw [flattenRec]; simp only [Csg.has]
    by_cases hz : idx0 ≤ zi
    · rw [if_pos hz]
      simp only [hz, decide_true, Bool.true_and]
      exact flattenStack_spec (zi - idx0) idx0 ls h (by omega)
    · rw [if_neg hz]; apply good_zero; simp [hz]
  | .add xs, h => by
    rw [flattenRec]; simp only [Csg.has]; exact flattenV_spec xs h
  | .xor xss, h => by
    rw [flattenRec]; simp only [Csg.has]
    cases xss with
    | nil => rw [flattenAdds]; apply good_zero; simp [CsgAdds.hasOdd]
    | cons x xs =>
      obtain ⟨l, h1, h2, h3⟩ := flattenV_spec x h.1
      rw [flattenAdds]
      simp only [h1, Option.bind_eq_bind, Option.bind_some]
      obtain ⟨l', e1, e2, e3⟩ := flattenXorRest_spec xs l h2 h.2
      refine ⟨l', e1, e2, fun p => ?_⟩
      simp only [e3, h3, CsgAdds.hasOdd]
  | .sub xs ys, h => by
    rw [flattenRec]; simp only [Csg.has]
    obtain ⟨l, h1, h2, h3⟩ := flattenV_spec xs h.1
    obtain ⟨l', e1, e2, e3⟩ := flattenV_spec ys h.2
    simp only [h1, e1, Option.bind_eq_bind, Option.bind_some]
    obtain ⟨l2, f1, f2, f3⟩ := flattenLazy_spec opt sw hsw hopt .sub l l' h2 e2
    exact ⟨l2, f1, f2, fun p => by simp only [f3, h3, e3]; rfl⟩
  | .cut xss, h => by
    rw [flattenRec]
    cases xss with
    | nil => rw [flattenAdds]; apply good_zero; simp [Csg.has]
    | cons x xs =>
      obtain ⟨l, h1, h2, h3⟩ := flattenV_spec x h.1
      rw [flattenAdds]
      simp only [h1, Option.bind_eq_bind, Option.bind_some, Csg.has]
      obtain ⟨l', e1, e2, e3⟩ := flattenCutRest_spec xs l h2 h.2
      refine ⟨l', e1, e2, fun p => ?_⟩
      simp only [e3, h3]

theorem flattenV_spec : ∀ xs : Csgs P, xs.WF → Good opt (fun p => xs.hasAny zi p) (flattenV opt sw zi xs)
  | .nil, _ => by rw [flattenV]; apply good_zero; simp [Csgs.hasAny]
  | .cons x xs, h => by
    obtain ⟨l, h1, h2, h3⟩ := flattenRec_spec x h.1
    rw [flattenV]
    simp only [h1, Option.bind_eq_bind, Option.bind_some]
    obtain ⟨l', e1, e2, e3⟩ := flattenVRest_spec xs l h2 h.2
    exact ⟨l', e1, e2, fun p => by simp only [e3, h3, Csgs.hasAny]⟩

theorem flattenVRest_spec : ∀ (xs : Csgs P) (o : Lazy P), Inv opt o → xs.WF →
    Good opt (fun p => eval o p || xs.hasAny zi p) (flattenVRest opt sw zi o xs)
  | .nil, o, ho, _ => ⟨o, by rw [flattenVRest], ho, fun p => by simp [Csgs.hasAny]⟩
  | .cons x xs, o, ho, h => by
    obtain ⟨l, h1, h2, h3⟩ := flattenRec_spec x h.1
    rw [flattenVRest]
    obtain ⟨l2, f1, f2, f3⟩ := flattenLazy_spec opt sw hsw hopt .add o l ho h2
    simp only [h1, f1, Option.bind_eq_bind, Option.bind_some]
    obtain ⟨l', e1, e2, e3⟩ := flattenVRest_spec xs l2 f2 h.2
    exact ⟨l', e1, e2, fun p => by simp only [e3, f3, h3, Csgs.hasAny]; simp [Op.fn, Bool.or_assoc]⟩

theorem flattenXorRest_spec : ∀ (xs : CsgAdds P) (o : Lazy P), Inv opt o → xs.WF →
    Good opt (fun p => eval o p != xs.hasOdd zi p) (flattenAddsRest opt sw zi .xor o xs)
  | .nil, o, ho, _ => ⟨o, by rw [flattenAddsRest], ho, fun p => by simp [CsgAdds.hasOdd]⟩
  | .cons x xs, o, ho, h => by
    obtain ⟨l, h1, h2, h3⟩ := flattenV_spec x h.1
    rw [flattenAddsRest]
    obtain ⟨l2, f1, f2, f3⟩ := flattenLazy_spec opt sw hsw hopt .xor o l ho h2
    simp only [h1, f1, Option.bind_eq_bind, Option.bind_some]
    obtain ⟨l', e1, e2, e3⟩ := flattenXorRest_spec xs l2 f2 h.2
    exact ⟨l', e1, e2, fun p => by simp only [e3, f3, h3, CsgAdds.hasOdd]; simp [Op.fn]⟩

theorem flattenCutRest_spec : ∀ (xs : CsgAdds P) (o : Lazy P), Inv opt o → xs.WF →
    Good opt (fun p => eval o p && xs.hasAll zi p) (flattenAddsRest opt sw zi .cut o xs)
  | .nil, o, ho, _ => ⟨o, by rw [flattenAddsRest], ho, fun p => by simp [CsgAdds.hasAll]⟩
  | .cons x xs, o, ho, h => by
    obtain ⟨l, h1, h2, h3⟩ := flattenV_spec x h.1
    rw [flattenAddsRest]
    obtain ⟨l2, f1, f2, f3⟩ := flattenLazy_spec opt sw hsw hopt .cut o l ho h2
    simp only [h1, f1, Option.bind_eq_bind, Option.bind_some]
    obtain ⟨l', e1, e2, e3⟩ := flattenCutRest_spec xs l2 f2 h.2
    exact ⟨l', e1, e2, fun p => by simp only [e3, f3, h3, CsgAdds.hasAll]; simp [Op.fn, Bool.and_assoc]⟩

theorem flattenStack_spec : ∀ (i j : Nat) (ls : Layers P), ls.WF j → zi = j + i →
    Good opt (fun p => ls.has zi p i) (flattenStack opt sw zi i ls)
  | i, _, .nil, _, _ => by
    have : flattenStack opt sw zi i (.nil : Layers P) = some Lazy.zero := by cases i <;> rw [flattenStack]
    rw [this]; apply good_zero; cases i <;> simp [Layers.has]
  | 0, j, .unset lzi ls, h, hz => by
    rw [flattenStack]
    refine ⟨Lazy.zero, ?_, inv_zero opt, fun p => by simp [eval_zero, Layers.has]⟩
    by_cases hl : zi ≠ lzi
    · have h0 : lzi = 0 := by have := h.1; omega
      simp [hl, ass_true h0]
    · simp [hl]
  | 0, j, .layer lzi root ls, h, hz => by
    rw [flattenStack]
    by_cases hl : zi ≠ lzi
    · rw [if_pos hl]
      have h0 : lzi = 0 := by have := h.1; omega
      refine ⟨Lazy.zero, ?_, inv_zero opt, fun p => by simp [eval_zero, Layers.has, hl]⟩
      simp [ass_true h0]
    · rw [if_neg hl]
      simp only [Layers.has]
      simp only [ne_eq, not_not] at hl
      simp only [hl, decide_true, Bool.true_and]
      rw [← hl]
      exact flattenV_spec root h.2.1
  | i + 1, j, .unset lzi ls, h, hz => by
    rw [flattenStack]; simp only [Layers.has]
    exact flattenStack_spec i (j + 1) ls h.2 (by omega)
  | i + 1, j, .layer lzi root ls, h, hz => by
    rw [flattenStack]; simp only [Layers.has]
    exact flattenStack_spec i (j + 1) ls h.2.2 (by omega)
end
end

/-! ### no reduction is needed for small trees -/

/-- list without intermediate results -/
structure Plain (n : Nat) (l : Lazy P) : Prop where
  size_le : l.size ≤ n
  noSweep : ∀ o ∈ l.data, ∀ g, o ≠ .sweep g

theorem lazyLoop_plain (opt : Opt) (sw : Sweep P) (op : Op) (hsk : opt.skipEmpty = false) (n m : Nat) (r b : Lazy P)
    (hr : Plain n r) (hb : Plain m b) (h : n + m ≤ maxSim opt) (hopt : 2 ≤ opt.maxSimultaneous) (l : Lazy P)
    (hl : flattenLazy opt sw r b op = some l) : Plain (n + m) l := by
  have h3 : r.size + b.size ≤ maxSim opt := by have := hr.size_le; have := hb.size_le; omega
  have h10 := maxSim_le opt
  unfold flattenLazy at hl
  simp only [ass_true hopt, lazyLoop, hsk, Bool.false_eq_true, false_and, if_false, if_pos h3, Option.bind_eq_bind,
    Option.bind_some, finishLoop, joinLazy, ass_true (show r.size + b.size ≤ 10 by omega)] at hl
  simp only [Option.bind_eq_some_iff, Option.pure_def, Option.some.injEq] at hl
  obtain ⟨_, _, _, _, _, _, rfl⟩ := hl
  refine ⟨?_, ?_⟩
  · simp only [Lazy.size, List.length_append]
    have := hr.size_le; have := hb.size_le
    simp only [Lazy.size] at *
    omega
  · intro o ho
    rcases List.mem_append.mp ho with h | h
    · exact hr.noSweep o h
    · exact hb.noSweep o h

theorem Plain.mono {n m : Nat} {l : Lazy P} (h : Plain n l) (hn : n ≤ m) : Plain m l := ⟨le_trans h.size_le hn, h.noSweep⟩

theorem plain_zero (n : Nat) : Plain n (Lazy.zero : Lazy P) := ⟨Nat.zero_le _, by simp [Lazy.zero]⟩

theorem flattenLeaf_plain (n : Nat) (o : Obj P) (ho : ∀ g, o ≠ .sweep g) (l : Lazy P) (hl : flattenLeaf n o = some l) : Plain 1 l := by
  unfold flattenLeaf at hl
  by_cases h : n > 0
  · rw [if_pos h] at hl
    simp only [Option.bind_eq_bind, Option.bind_eq_some_iff, Option.pure_def, Option.some.injEq] at hl
    obtain ⟨_, _, rfl⟩ := hl
    exact ⟨le_rfl, by simpa using ho⟩
  · rw [if_neg h] at hl
    cases hl; exact plain_zero 1

section
variable (opt : Opt) (sw : Sweep P) (hsk : opt.skipEmpty = false) (hopt : 2 ≤ opt.maxSimultaneous) (zi : Nat)
include hsk hopt

mutual
theorem flattenRec_plain : ∀ (t : Csg P) (l : Lazy P), t.leaves zi ≤ maxSim opt → flattenRec opt sw zi t = some l →
    Plain (t.leaves zi) l
  | .vline2 n reg, l, _, hl => by
    rw [flattenRec] at hl; exact flattenLeaf_plain n _ (by simp) l hl
  | .poly n reg, l, _, hl => by
    rw [flattenRec] at hl; exact flattenLeaf_plain n _ (by simp) l hl
  | .stack idx0 ls, l, h, hl => by
    rw [flattenRec] at hl
    by_cases hz : idx0 ≤ zi
    · rw [if_pos hz] at hl
      rw [Csg.leaves] at h ⊢
      exact flattenStack_plain (zi - idx0) ls l h hl
    · rw [if_neg hz] at hl; cases hl; exact plain_zero _
  | .add xs, l, h, hl => by
    rw [flattenRec] at hl; rw [Csg.leaves] at h ⊢; exact flattenV_plain xs l h hl
  | .xor xss, l, h, hl => by
    rw [flattenRec] at hl; rw [Csg.leaves] at h ⊢; exact flattenAdds_plain .xor xss l h hl
  | .sub xs ys, l, h, hl => by
    rw [flattenRec] at hl; rw [Csg.leaves] at h ⊢
    simp only [Option.bind_eq_bind, Option.bind_eq_some_iff] at hl
    obtain ⟨a, ha, b, hb, hl⟩ := hl
    exact lazyLoop_plain opt sw _ hsk _ _ a b (flattenV_plain xs a (by omega) ha) (flattenV_plain ys b (by omega) hb) h hopt l hl
  | .cut xss, l, h, hl => by
    rw [flattenRec] at hl; rw [Csg.leaves] at h ⊢; exact flattenAdds_plain .cut xss l h hl

theorem flattenV_plain : ∀ (xs : Csgs P) (l : Lazy P), xs.leaves zi ≤ maxSim opt → flattenV opt sw zi xs = some l →
    Plain (xs.leaves zi) l
  | .nil, l, _, hl => by rw [flattenV] at hl; cases hl; exact plain_zero _
  | .cons x xs, l, h, hl => by
    rw [flattenV] at hl; rw [Csgs.leaves] at h ⊢
    simp only [Option.bind_eq_bind, Option.bind_eq_some_iff] at hl
    obtain ⟨a, ha, hl⟩ := hl
    exact flattenVRest_plain xs a _ l (flattenRec_plain x a (by omega) ha) h hl

theorem flattenVRest_plain : ∀ (xs : Csgs P) (o : Lazy P) (n : Nat) (l : Lazy P), Plain n o → n + xs.leaves zi ≤ maxSim opt →
    flattenVRest opt sw zi o xs = some l → Plain (n + xs.leaves zi) l
  | .nil, o, n, l, ho, _, hl => by rw [flattenVRest] at hl; cases hl; exact ho.mono (by omega)
  | .cons x xs, o, n, l, ho, h, hl => by
    rw [flattenVRest] at hl; rw [Csgs.leaves] at h ⊢
    simp only [Option.bind_eq_bind, Option.bind_eq_some_iff] at hl
    obtain ⟨a, ha, b, hb, hl⟩ := hl
    have hb' := lazyLoop_plain opt sw _ hsk _ _ o a ho (flattenRec_plain x a (by omega) ha) (by omega) hopt b hb
    exact (flattenVRest_plain xs b _ l hb' (by omega) hl).mono (by omega)

theorem flattenAdds_plain : ∀ (op : Op) (xs : CsgAdds P) (l : Lazy P), xs.leaves zi ≤ maxSim opt →
    flattenAdds opt sw zi op xs = some l → Plain (xs.leaves zi) l
  | op, .nil, l, _, hl => by rw [flattenAdds] at hl; cases hl; exact plain_zero _
  | op, .cons x xs, l, h, hl => by
    rw [flattenAdds] at hl; rw [CsgAdds.leaves] at h ⊢
    simp only [Option.bind_eq_bind, Option.bind_eq_some_iff] at hl
    obtain ⟨a, ha, hl⟩ := hl
    exact flattenAddsRest_plain op xs a _ l (flattenV_plain x a (by omega) ha) h hl

theorem flattenAddsRest_plain : ∀ (op : Op) (xs : CsgAdds P) (o : Lazy P) (n : Nat) (l : Lazy P), Plain n o →
    n + xs.leaves zi ≤ maxSim opt → flattenAddsRest opt sw zi op o xs = some l → Plain (n + xs.leaves zi) l
  | op, .nil, o, n, l, ho, _, hl => by rw [flattenAddsRest] at hl; cases hl; exact ho.mono (by omega)
  | op, .cons x xs, o, n, l, ho, h, hl => by
    rw [flattenAddsRest] at hl; rw [CsgAdds.leaves] at h ⊢
    simp only [Option.bind_eq_bind, Option.bind_eq_some_iff] at hl
    obtain ⟨a, ha, b, hb, hl⟩ := hl
    have hb' := lazyLoop_plain opt sw _ hsk _ _ o a ho (flattenV_plain x a (by omega) ha) (by omega) hopt b hb
    exact (flattenAddsRest_plain op xs b _ l hb' (by omega) hl).mono (by omega)

theorem flattenStack_plain : ∀ (i : Nat) (ls : Layers P) (l : Lazy P), ls.leaves zi i ≤ maxSim opt →
    flattenStack opt sw zi i ls = some l → Plain (ls.leaves zi i) l
  | i, .nil, l, _, hl => by cases i <;> (rw [flattenStack] at hl; cases hl; exact plain_zero _)
  | 0, .unset lzi ls, l, _, hl => by
    rw [flattenStack] at hl
    by_cases hz : zi ≠ lzi
    · by_cases h0 : lzi = 0
      · simp [ass, h0] at hl; cases hl; exact plain_zero _
      · simp [hz, ass, h0] at hl
    · simp [hz] at hl; cases hl; exact plain_zero _
  | 0, .layer lzi root ls, l, h, hl => by
    rw [flattenStack] at hl
    by_cases hz : zi ≠ lzi
    · rw [if_pos hz] at hl
      by_cases h0 : lzi = 0
      · simp [ass, h0] at hl; cases hl; exact plain_zero _
      · simp [ass, h0] at hl
    · rw [if_neg hz] at hl
      rw [Layers.leaves] at h ⊢
      exact flattenV_plain root l h hl
  | i + 1, .unset lzi ls, l, h, hl => by
    rw [flattenStack] at hl; rw [Layers.leaves] at h ⊢; exact flattenStack_plain i ls l h hl
  | i + 1, .layer lzi root ls, l, h, hl => by
    rw [flattenStack] at hl; rw [Layers.leaves] at h ⊢; exact flattenStack_plain i ls l h hl
end
end

end

end Hob3l.Flatten
