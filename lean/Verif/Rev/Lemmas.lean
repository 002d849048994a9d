import Verif.Rev.Model
import Verif.Swap.Lemmas
import Verif.Dict.Lemmas
import Mathlib.Data.List.Chain

namespace Hob3l.Rev

open Hob3l.Matq (ass)
open Hob3l.Dict
open Hob3l.Dict.Tree
open Hob3l.Swap (rename exch toList_rename rb_rename exch_left exch_right exch_other exch_inj)

variable {α ξ : Type} [DecidableEq α] [DecidableEq ξ]

theorem stepE_false {tr : Dict.Tree α} {A B : List α} {x : α} (h : toList tr = A ++ x :: B) (hn : (toList tr).Nodup) :
    stepE false tr x = some B.head? := by
  obtain ⟨q, h1, -, h3⟩ := locate_at h hn
  simp only [stepE, h1, Option.bind_eq_bind, Option.bind_some]
  have := stepLoc_false h3
  cases e : stepLoc false q.1 q.2 with
  | none =>
    rw [e] at this
    simp [this]
  | some y =>
    rw [e] at this
    obtain ⟨-, b, B', rfl, l, s, r, h4, -⟩ := this
    simp [h4, rootId]

theorem stepE_true {tr : Dict.Tree α} {A B : List α} {x : α} (h : toList tr = A ++ x :: B) (hn : (toList tr).Nodup) :
    stepE true tr x = some A.getLast? := by
  obtain ⟨q, h1, -, h3⟩ := locate_at h hn
  simp only [stepE, h1, Option.bind_eq_bind, Option.bind_some]
  have := stepLoc_true h3
  cases e : stepLoc true q.1 q.2 with
  | none =>
    rw [e] at this
    simp [this]
  | some y =>
    rw [e] at this
    obtain ⟨-, b, A', rfl, l, s, r, h4, -⟩ := this
    simp [h4, rootId]

theorem findEnd_fwd {cont : α → α → Bool} {tr : Dict.Tree α} (hn : (toList tr).Nodup) {B : List α} :
    ∀ (M : List α) (x : α) (P : List α) (n : Nat), toList tr = P ++ x :: (M ++ B) →
      (x :: M).IsChain (fun a b => cont a b = true) → (∀ b, B.head? = some b → cont (M.getLastD x) b = false) → M.length < n →
      findEnd false cont n tr x = some (M.getLastD x, B.head?)
  | [], x, P, n + 1, h, _, hB, _ => by
    simp only [findEnd, stepE_false h hn, Option.bind_eq_bind, Option.bind_some, List.nil_append]
    cases e : B.head? with
    | none => rfl
    | some b =>
      have := hB b e
      rw [List.getLastD_nil] at this
      simp [this]
  | y :: M, x, P, n + 1, h, hc, hB, hl => by
    rw [List.isChain_cons_cons] at hc
    simp only [findEnd, stepE_false h hn, Option.bind_eq_bind, Option.bind_some, List.cons_append, List.head?_cons, hc.1, if_true]
    rw [List.getLastD_cons] at hB ⊢
    exact findEnd_fwd hn M y (P ++ [x]) n (by rw [h]; simp) hc.2 hB (by simpa using hl)

theorem findEnd_bwd {cont : α → α → Bool} {tr : Dict.Tree α} (hn : (toList tr).Nodup) {A : List α} :
    ∀ (M : List α) (x : α) (Q : List α) (n : Nat), toList tr = (A ++ M.reverse) ++ x :: Q →
      (x :: M).IsChain (fun a b => cont a b = true) → (∀ a, A.getLast? = some a → cont (M.getLastD x) a = false) → M.length < n →
      findEnd true cont n tr x = some (M.getLastD x, A.getLast?)
  | [], x, Q, n + 1, h, _, hA, _ => by
    simp only [findEnd, stepE_true h hn, Option.bind_eq_bind, Option.bind_some, List.reverse_nil, List.append_nil]
    cases e : A.getLast? with
    | none => rfl
    | some b =>
      have := hA b e
      rw [List.getLastD_nil] at this
      simp [this]
  | y :: M, x, Q, n + 1, h, hc, hA, hl => by
    rw [List.isChain_cons_cons] at hc
    have e : (A ++ (y :: M).reverse).getLast? = some y := by simp
    simp only [findEnd, stepE_true h hn, Option.bind_eq_bind, Option.bind_some, e, hc.1, if_true]
    rw [List.getLastD_cons] at hA ⊢
    exact findEnd_bwd hn M y (x :: Q) n (by rw [h]; simp) hc.2 hA (by simpa using hl)

theorem findEnd_fwd_none {cont : α → α → Bool} {tr : Dict.Tree α} (hn : (toList tr).Nodup) {B : List α} :
    ∀ (n : Nat) (M : List α) (x : α) (P : List α), toList tr = P ++ x :: (M ++ B) →
      (x :: M).IsChain (fun a b => cont a b = true) → n ≤ M.length → findEnd false cont n tr x = none
  | 0, M, x, P, _, _, _ => rfl
  | n + 1, [], x, P, _, _, hl => by simp at hl
  | n + 1, y :: M, x, P, h, hc, hl => by
    rw [List.isChain_cons_cons] at hc
    simp only [findEnd, stepE_false h hn, Option.bind_eq_bind, Option.bind_some, List.cons_append, List.head?_cons, hc.1, if_true]
    exact findEnd_fwd_none hn (B := B) n M y (P ++ [x]) (by rw [h]; simp) hc.2 (by simpa using hl)

theorem map_exch {A M B : List α} {s t : α} (hn : (A ++ s :: (M ++ t :: B)).Nodup) :
    (A ++ s :: (M ++ t :: B)).map (exch s t) = A ++ t :: (M ++ s :: B) := by
  have key : ∀ L : List α, s ∉ L → t ∉ L → L.map (exch s t) = L := fun L h1 h2 => by
    conv_rhs => rw [← List.map_id L]
    refine List.map_congr_left fun x hx => exch_other (fun e => h1 (e ▸ hx)) (fun e => h2 (e ▸ hx))
  simp only [List.nodup_append, List.nodup_cons, List.mem_append, List.mem_cons] at hn
  obtain ⟨hA, ⟨hs, hM, ⟨ht, hB⟩, hMB⟩, hAs⟩ := hn
  simp only [not_or] at hs
  rw [List.map_append, List.map_cons, List.map_append, List.map_cons, exch_left, exch_right, key A, key M, key B]
  · exact hs.2.2
  · exact ht
  · exact hs.1
  · exact fun k => hMB t k t (Or.inl rfl) rfl
  · exact fun k => hAs s k s (Or.inl rfl) rfl
  · exact fun k => hAs t k t (Or.inr (Or.inr (Or.inl rfl))) rfl

/-- what follows after a round, for the edges `M` between the two -/
def after (M : List α) : Next α :=
  match M with
  | [] => .done
  | [m] => .mid m
  | m :: x :: M => .more m (M.getLastD x)

theorem round_ok {tr : Dict.Tree α} {A M B : List α} {s t : α} (h : toList tr = A ++ s :: (M ++ t :: B)) (hn : (toList tr).Nodup) :
    round s t tr = some (rename (exch s t) tr, after M) ∧ toList (rename (exch s t) tr) = A ++ t :: (M ++ s :: B) := by
  have h' : toList (rename (exch s t) tr) = A ++ t :: (M ++ s :: B) := by rw [toList_rename, h, map_exch (h ▸ hn)]
  have hn' : (toList (rename (exch s t) tr)).Nodup := by
    rw [toList_rename]
    exact (List.nodup_map_iff fun x y e => exch_inj e).mpr hn
  refine ⟨?_, h'⟩
  have e1 : stepE true tr t = some (A ++ s :: M).getLast? := stepE_true (B := B) (by rw [h]; simp) hn
  have e2 : stepE true (rename (exch s t) tr) s = some (A ++ t :: M).getLast? := stepE_true (B := B) (by rw [h']; simp) hn'
  have e3 : stepE false (rename (exch s t) tr) t = some (M ++ s :: B).head? := stepE_false h' hn'
  have hst : s ≠ t := by
    rintro rfl
    rw [h] at hn
    simp [List.nodup_append] at hn
  have htM : t ∉ M := by
    intro k
    rw [h] at hn
    simp only [List.nodup_append, List.nodup_cons] at hn
    exact hn.2.1.2.2.2 t k t (by simp) rfl
  simp only [round, e1, e2, e3, Option.bind_eq_bind, Option.bind_some, ass, hst, ne_eq, not_false_eq_true, if_true]
  match M, htM with
  | [], _ => simp [after]
  | [m], hm =>
    have : m ≠ t := fun e => hm (by simp [e])
    simp [after, this]
  | m :: x :: M, hm =>
    have hlast : ∀ (y : α), (A ++ y :: m :: x :: M).getLast? = some (M.getLastD x) := by
      intro y
      have : A ++ y :: m :: x :: M = (A ++ [y, m]) ++ (x :: M) := by simp
      rw [this, List.getLast?_append_of_ne_nil _ (by simp), List.getLast?_cons]
      simp [List.getLastD_eq_getLast?]
    have mem : M.getLastD x ∈ x :: M := List.getLastD_mem_cons ..
    have n1 : M.getLastD x ≠ t := fun e => hm (by rw [e] at mem; exact List.mem_cons_of_mem _ mem)
    have n2 : m ≠ M.getLastD x := by
      intro e
      rw [h] at hn
      simp only [List.nodup_append, List.nodup_cons, List.cons_append] at hn
      have := hn.2.1.2.1
      rw [e] at this
      apply this
      rw [← List.cons_append]
      exact List.mem_append_left _ mem
    simp only [hlast, or_true, if_true, Option.bind_some, n1, if_false, List.cons_append, List.head?_cons, n2, after]

/-- a list is empty, has one element, or two ends -/
theorem cases_ends (M : List α) : M = [] ∨ (∃ m, M = [m]) ∨ ∃ a N b, M = a :: (N ++ [b]) := by
  match M with
  | [] => exact Or.inl rfl
  | [m] => exact Or.inr (Or.inl ⟨m, rfl⟩)
  | a :: b :: M =>
    refine Or.inr (Or.inr ⟨a, (b :: M).dropLast, (b :: M).getLast (by simp), ?_⟩)
    rw [List.dropLast_append_getLast]

theorem after_ends (a b : α) (N : List α) : after (a :: (N ++ [b])) = .more a b := by
  cases N with
  | nil => rfl
  | cons x N => simp [after, List.getLastD_eq_getLast?]

theorem revLoop2_ok : ∀ (n : Nat) (M A B : List α) (s t : α) (tr : Dict.Tree α), toList tr = A ++ s :: (M ++ t :: B) → (toList tr).Nodup →
    M.length + 1 ≤ 2 * n → ∃ tr', revLoop2 n tr s t = some tr' ∧ toList tr' = A ++ t :: (M.reverse ++ s :: B) ∧
      ∀ c h, RB tr c h → RB tr' c h
  | 0, M, A, B, s, t, tr, _, _, hl => by omega
  | n + 1, M, A, B, s, t, tr, h, hn, hl => by
    obtain ⟨r1, r2⟩ := round_ok h hn
    have hrb : ∀ c k, RB tr c k → RB (rename (exch s t) tr) c k := fun c k => rb_rename _
    simp only [revLoop2, r1, Option.bind_eq_bind, Option.bind_some]
    rcases cases_ends M with rfl | ⟨m, rfl⟩ | ⟨a, N, b, rfl⟩
    · exact ⟨_, rfl, r2, hrb⟩
    · exact ⟨_, rfl, r2, hrb⟩
    · rw [after_ends]
      dsimp only
      obtain ⟨tr', q1, q2, q3⟩ := revLoop2_ok n N (A ++ [t]) (s :: B) a b (rename (exch s t) tr) (by rw [r2]; simp)
        (by rw [toList_rename]; exact (List.nodup_map_iff fun x y e => exch_inj e).mpr hn)
        (by simp only [List.length_cons, List.length_append, List.length_nil] at hl; omega)
      refine ⟨tr', q1, ?_, fun c k hk => q3 c k (hrb c k hk)⟩
      rw [q2]
      simp

/-! ### the crossings -/

theorem splitN_spec (xs : XS α ξ) (p : Option α) :
    (∀ y, (splitN xs p).nx y = if p = some y then none else xs.nx y) ∧ (splitN xs p).px = xs.px ∧
    ∀ c, (splitN xs p).se c = if p.bind xs.nx = some c then none else xs.se c := by
  cases p with
  | none => simp [splitN]
  | some p =>
    simp only [splitN]
    cases e : xs.nx p with
    | none =>
      refine ⟨fun y => ?_, rfl, fun c => ?_⟩
      · by_cases h : p = y
        · subst h; simp [e]
        · simp [h]
      · simp [e]
    | some c =>
      refine ⟨fun y => ?_, rfl, fun d => ?_⟩
      · by_cases h : p = y
        · simp [XS.clrN, h]
        · have : y ≠ p := fun k => h k.symm
          simp [XS.clrN, XS.clrS, h, this]
      · by_cases h : c = d
        · simp [XS.clrN, XS.clrS, h, e]
        · have : d ≠ c := fun k => h k.symm
          simp [XS.clrN, XS.clrS, h, this, e]

theorem splitP_spec (xs : XS α ξ) (p : Option α) :
    (∀ y, (splitP xs p).px y = if p = some y then none else xs.px y) ∧ (splitP xs p).nx = xs.nx ∧
    ∀ c, (splitP xs p).se c = if p.bind xs.px = some c then none else xs.se c := by
  cases p with
  | none => simp [splitP]
  | some p =>
    simp only [splitP]
    cases e : xs.px p with
    | none =>
      refine ⟨fun y => ?_, rfl, fun c => ?_⟩
      · by_cases h : p = y
        · subst h; simp [e]
        · simp [h]
      · simp [e]
    | some c =>
      refine ⟨fun y => ?_, rfl, fun d => ?_⟩
      · by_cases h : p = y
        · simp [XS.clrP, h]
        · have : y ≠ p := fun k => h k.symm
          simp [XS.clrP, XS.clrS, h, this]
      · by_cases h : c = d
        · simp [XS.clrP, XS.clrS, h, e]
        · have : d ≠ c := fun k => h k.symm
          simp [XS.clrP, XS.clrS, h, this, e]

theorem split_spec (xs : XS α ξ) (p q : Option α) :
    (∀ y, (split xs p q).nx y = if p = some y then none else xs.nx y) ∧
    (∀ y, (split xs p q).px y = if q = some y then none else xs.px y) ∧
    ∀ c, (split xs p q).se c = if p.bind xs.nx = some c ∨ q.bind xs.px = some c then none else xs.se c := by
  obtain ⟨a1, a2, a3⟩ := splitN_spec xs p
  obtain ⟨b1, b2, b3⟩ := splitP_spec (splitN xs p) q
  refine ⟨fun y => ?_, fun y => ?_, fun c => ?_⟩
  · rw [split, b2, a1]
  · rw [split, b1, a2]
  · rw [split, b3, a2, a3]
    by_cases h1 : q.bind xs.px = some c <;> by_cases h2 : p.bind xs.nx = some c <;> simp [h1, h2]

/-- the four assignments of a round -/
theorem clr4 (xs : XS α ξ) (s t : α) :
    (∀ y, ((((xs.clrN s).clrP s).clrN t).clrP t).nx y = if y = s ∨ y = t then none else xs.nx y) ∧
    (∀ y, ((((xs.clrN s).clrP s).clrN t).clrP t).px y = if y = s ∨ y = t then none else xs.px y) ∧
    ((((xs.clrN s).clrP s).clrN t).clrP t).se = xs.se := by
  refine ⟨fun y => ?_, fun y => ?_, rfl⟩ <;>
  · simp only [XS.clrN, XS.clrP]
    by_cases h1 : y = s <;> by_cases h2 : y = t <;> simp [h1, h2]

theorem revLoop1_ok (ev : ξ) : ∀ (n : Nat) (M A B : List α) (s t : α) (tr : Dict.Tree α) (xs : XS α ξ), toList tr = A ++ s :: (M ++ t :: B) →
    (toList tr).Nodup → M.length + 1 ≤ 2 * n →
    (∀ x, x ∈ s :: (M ++ [t]) → (xs.nx x = none ∨ xs.nx x = some ev) ∧ (xs.px x = none ∨ xs.px x = some ev)) →
    ∃ tr' xs', revLoop1 ev n tr xs s t = some (tr', xs') ∧ toList tr' = A ++ t :: (M.reverse ++ s :: B) ∧
      (∀ c h, RB tr c h → RB tr' c h) ∧
      (∀ y, xs'.nx y = if y ∈ s :: (M ++ [t]) then none else xs.nx y) ∧
      (∀ y, xs'.px y = if y ∈ s :: (M ++ [t]) then none else xs.px y) ∧ xs'.se = xs.se
  | 0, M, A, B, s, t, tr, _, _, _, hl, _ => by omega
  | n + 1, M, A, B, s, t, tr, xs, h, hn, hl, hx => by
    obtain ⟨r1, r2⟩ := round_ok h hn
    have hrb : ∀ c k, RB tr c k → RB (rename (exch s t) tr) c k := fun c k => rb_rename _
    obtain ⟨c1, c2, c3⟩ := clr4 xs s t
    have hs := hx s (by simp)
    have ht := hx t (by simp)
    simp only [revLoop1, r1, ass, hs.1, hs.2, ht.1, ht.2, if_true, Option.bind_eq_bind, Option.bind_some]
    rcases cases_ends M with rfl | ⟨m, rfl⟩ | ⟨a, N, b, rfl⟩
    · refine ⟨_, _, rfl, r2, hrb, ?_, ?_, c3⟩
      · intro y; rw [c1]; simp
      · intro y; rw [c2]; simp
    · refine ⟨_, _, rfl, r2, hrb, ?_, ?_, c3⟩
      · intro y
        show (if y = m then none else _) = _
        rw [show ((((xs.clrN s).clrP s).clrN t).clrP t).nx y = _ from c1 y]
        by_cases h1 : y = m <;> by_cases h2 : y = s <;> by_cases h3 : y = t <;> simp [h1, h2, h3]
      · intro y
        show (if y = m then none else _) = _
        rw [show (((((xs.clrN s).clrP s).clrN t).clrP t).clrN m).px y = _ from c2 y]
        by_cases h1 : y = m <;> by_cases h2 : y = s <;> by_cases h3 : y = t <;> simp [h1, h2, h3]
    · rw [after_ends]
      dsimp only
      obtain ⟨tr', xs', q1, q2, q3, q4, q5, q6⟩ := revLoop1_ok ev n N (A ++ [t]) (s :: B) a b (rename (exch s t) tr)
        ((((xs.clrN s).clrP s).clrN t).clrP t) (by rw [r2]; simp)
        (by rw [toList_rename]; exact (List.nodup_map_iff fun x y e => exch_inj e).mpr hn)
        (by simp only [List.length_cons, List.length_append, List.length_nil] at hl; omega) (by
          intro x hxm
          have := hx x (by simp only [List.mem_cons, List.mem_append] at hxm ⊢; tauto)
          rw [c1, c2]
          split_ifs
          · exact ⟨Or.inl rfl, Or.inl rfl⟩
          · exact this)
      refine ⟨tr', xs', q1, ?_, fun c k hk => q3 c k (hrb c k hk), ?_, ?_, q6.trans c3⟩
      · rw [q2]
        simp
      · intro y
        rw [q4, c1]
        by_cases h1 : y = s
        · simp [h1]
        · by_cases h2 : y = t
          · simp [h2]
          · simp [h1, h2]
      · intro y
        rw [q5, c2]
        by_cases h1 : y = s
        · simp [h1]
        · by_cases h2 : y = t
          · simp [h2]
          · simp [h1, h2]

/-- along a run of edges with the same crossing -/
theorem chain_run {f k : α → Option ξ} {ev : ξ} : ∀ (M : List α) (x : α), (x :: M).IsChain (fun a b => f a = k b) →
    (∀ y ∈ M, k y = some ev) → ∀ w ∈ x :: M, w = M.getLastD x ∨ f w = some ev
  | [], x, _, _, w, hw => by
    rw [List.mem_singleton] at hw
    exact Or.inl hw
  | y :: M, x, hc, hk, w, hw => by
    rw [List.isChain_cons_cons] at hc
    rw [List.getLastD_cons]
    rcases List.mem_cons.mp hw with rfl | hw
    · exact Or.inr (hc.1.trans (hk y (by simp)))
    · exact chain_run M y hc.2 (fun z hz => hk z (by simp [hz])) w hw

theorem chain_of_forall {p : α → Bool} : ∀ (M : List α) (x : α), (∀ y ∈ M, p y = true) → (x :: M).IsChain (fun _ b => p b = true)
  | [], x, _ => List.isChain_singleton x
  | y :: M, x, h => List.isChain_cons_cons.mpr ⟨h y (by simp), chain_of_forall M y fun z hz => h z (by simp [hz])⟩

/-- the ends of a run -/
theorem run_ends (M1 M2 : List α) (e : α) (h : M1 ≠ [] ∨ M2 ≠ []) :
    ∃ M, M1 ++ e :: M2 = M1.reverse.getLastD e :: (M ++ [M2.getLastD e]) := by
  have hl : M1.reverse.getLastD e = M1.headD e := by cases M1 <;> simp [List.getLastD_eq_getLast?]
  rw [hl]
  rcases List.eq_nil_or_concat M2 with rfl | ⟨N, t, rfl⟩
  · cases M1 with
    | nil => simp at h
    | cons s M1 => exact ⟨M1, by simp⟩
  · have : (N ++ [t]).getLastD e = t := by simp [List.getLastD_eq_getLast?]
    rw [List.concat_eq_append, this]
    cases M1 with
    | nil => exact ⟨N, by simp⟩
    | cons s M1 => exact ⟨M1 ++ e :: N, by simp⟩

end Hob3l.Rev
