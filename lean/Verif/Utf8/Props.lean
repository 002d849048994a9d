import Verif.Utf8.Lemmas

namespace Hob3l.Utf8

open Hob3l.Matq

/-! ## C42: encoding and decoding -/

theorem enc2 (cp : Nat) (h : cp < 2048) : 0xc0 ||| ((cp >>> 6) &&& 0x1f) = 0xc0 + cp / 64 := by
  have e : (cp >>> 6) &&& 0x1f = cp / 64 := by
    rw [Nat.shiftRight_eq_div_pow, show (0x1f : Nat) = 2 ^ 5 - 1 from rfl, Nat.and_two_pow_sub_one_eq_mod]
    omega
  rw [e]
  exact (by decide : ∀ a < 32, 0xc0 ||| a = 0xc0 + a) _ (by omega)

theorem enc3 (cp : Nat) (h : cp < 65536) : 0xe0 ||| ((cp >>> 12) &&& 0x0f) = 0xe0 + cp / 4096 := by
  have e : (cp >>> 12) &&& 0x0f = cp / 4096 := by
    rw [Nat.shiftRight_eq_div_pow, show (0x0f : Nat) = 2 ^ 4 - 1 from rfl, Nat.and_two_pow_sub_one_eq_mod]
    omega
  rw [e]
  exact (by decide : ∀ a < 16, 0xe0 ||| a = 0xe0 + a) _ (by omega)

theorem enc4 (cp : Nat) (h : cp < 2097152) : 0xf0 ||| ((cp >>> 18) &&& 0x07) = 0xf0 + cp / 262144 := by
  have e : (cp >>> 18) &&& 0x07 = cp / 262144 := by
    rw [Nat.shiftRight_eq_div_pow, show (0x07 : Nat) = 2 ^ 3 - 1 from rfl, Nat.and_two_pow_sub_one_eq_mod]
    omega
  rw [e]
  exact (by decide : ∀ a < 8, 0xf0 ||| a = 0xf0 + a) _ (by omega)

theorem encC (cp k : Nat) : 0x80 ||| ((cp >>> k) &&& 0x3f) = 0x80 + cp / 2 ^ k % 64 := by
  have e : (cp >>> k) &&& 0x3f = cp / 2 ^ k % 64 := by
    rw [Nat.shiftRight_eq_div_pow, show (0x3f : Nat) = 2 ^ 6 - 1 from rfl, Nat.and_two_pow_sub_one_eq_mod]
  rw [e]
  exact (or_lo _ (by omega)).symm

theorem ok_iff (cp : Nat) : utf8Ok cp = true ↔ CodePoint cp := by
  unfold utf8Ok CodePoint
  simp
  omega

/-- C42: every code point that can be encoded has exactly one encoding, and the encoder writes it if the buffer is large enough for it,
and nothing otherwise. -/
theorem C42_encode (n cp : Nat) (h : CodePoint cp) :
    ∃ bs, Encodes bs cp ∧ encode n cp = some (if bs.length ≤ n then bs else []) := by
  have hok := (ok_iff cp).2 h
  obtain ⟨h0, h1, h2⟩ := h
  unfold encode
  have ha : ass (utf8Ok cp = true) = some () := by unfold ass; rw [if_pos hok]
  rw [ha]
  simp only [Option.bind_eq_bind, Option.bind_some]
  by_cases c1 : cp ≤ 0x7f
  · rw [if_pos c1]
    have e : cp &&& 0x7f = cp := by
      rw [show (0x7f : Nat) = 2 ^ 7 - 1 from rfl, Nat.and_two_pow_sub_one_eq_mod]; omega
    refine ⟨[cp], ⟨Shape.one cp h0 (by omega), ⟨h0, h1, h2⟩, Nat.zero_le _⟩, ?_⟩
    rw [e]
    simp only [List.length_singleton]
    split_ifs <;> first | rfl | omega
  · rw [if_neg c1]
    by_cases c2 : cp ≤ 0x7ff
    · rw [if_pos c2, enc2 cp (by omega), encC]
      have hs := Shape.two (cp / 64) (cp / 2 ^ 0 % 64) (by omega) (by omega)
      rw [show cp / 64 * 64 + cp / 2 ^ 0 % 64 = cp by omega] at hs
      refine ⟨_, ⟨hs, ⟨h0, h1, h2⟩, ?_⟩, ?_⟩
      · simp only [List.length_cons, List.length_nil, minimum]; omega
      · simp only [List.length_cons, List.length_nil]
        split_ifs <;> first | rfl | omega
    · rw [if_neg c2]
      by_cases c3 : cp ≤ 0xffff
      · rw [if_pos c3, enc3 cp (by omega), encC, encC]
        have hs := Shape.three (cp / 4096) (cp / 2 ^ 6 % 64) (cp / 2 ^ 0 % 64) (by omega) (by omega) (by omega)
        rw [show cp / 4096 * 4096 + cp / 2 ^ 6 % 64 * 64 + cp / 2 ^ 0 % 64 = cp by omega] at hs
        refine ⟨_, ⟨hs, ⟨h0, h1, h2⟩, ?_⟩, ?_⟩
        · simp only [List.length_cons, List.length_nil, minimum]; omega
        · simp only [List.length_cons, List.length_nil]
          split_ifs <;> first | rfl | omega
      · rw [if_neg c3, enc4 cp (by omega), encC, encC, encC]
        have hs := Shape.four (cp / 262144) (cp / 2 ^ 12 % 64) (cp / 2 ^ 6 % 64) (cp / 2 ^ 0 % 64)
          (by omega) (by omega) (by omega) (by omega)
        rw [show cp / 262144 * 262144 + cp / 2 ^ 12 % 64 * 4096 + cp / 2 ^ 6 % 64 * 64 + cp / 2 ^ 0 % 64 = cp by omega] at hs
        refine ⟨_, ⟨hs, ⟨h0, h1, h2⟩, ?_⟩, ?_⟩
        · simp only [List.length_cons, List.length_nil, minimum]; omega
        · simp only [List.length_cons, List.length_nil]
          split_ifs <;> first | rfl | omega

example : encode 4 0x20ac = some [0xe2, 0x82, 0xac] ∧ encode 2 0x20ac = some [] := by decide

/-- C42: the encoding is unique -/
theorem C42_unique (bs bs' : List Nat) (cp : Nat) (h : Encodes bs cp) (h' : Encodes bs' cp) : bs = bs' := by
  obtain ⟨s, _, m⟩ := h
  obtain ⟨s', ⟨p, q, _⟩, m'⟩ := h'
  generalize hv : cp = v at s m
  cases s <;> cases s' <;> simp only [List.length_cons, List.length_nil, minimum] at m m'
  all_goals first
    | (exfalso; omega)
    | (simp only [List.cons.injEq, and_true]; omega)

/-- C42: what cannot be encoded runs into an assertion (the comment promises the result 0). -/
theorem C42_encode_assert (n cp : Nat) : encode n cp = none ↔ ¬ CodePoint cp := by
  constructor
  · intro h hc
    obtain ⟨bs, _, e⟩ := C42_encode n cp hc
    rw [h] at e
    exact absurd e (by simp)
  · intro h
    unfold encode
    have ha : ass (utf8Ok cp = true) = none := by
      unfold ass; rw [if_neg (fun hk => h ((ok_iff cp).1 hk))]
    rw [ha]
    rfl

example : encode 4 0xd800 = none ∧ encode 4 0x110000 = none := by decide

/-- C42, what the decoder does with the encoding of any code point: the tag bits of the continuation bytes are or-ed into the result. -/
theorem C42_decode_encoded_partial (bs rest : List Nat) (cp n : Nat) (h : Encodes bs cp) (hn : bs.length ≤ n) :
    decode ⟨bs ++ rest, n, none⟩
      = if cp ||| tagBits bs.length > 0x10ffff then some (0, ⟨bs ++ rest, n - bs.length, some .range⟩)
        else some (cp ||| tagBits bs.length, ⟨rest, n - bs.length, none⟩) := by
  obtain ⟨s, ⟨h0, h1, h2⟩, m⟩ := h
  refine decode_shape bs rest cp n none s hn ?_ ?_
  · intro e
    rw [e] at m
    simpa [minimum] using m
  · intro _; omega

/-- C42, round trip: decoding gives back the code point exactly if it contains all the tag bits; in particular for ASCII.
The full claim (for every code point) is false, see `C42_wrong`. -/
theorem C42_roundtrip_partial (bs rest : List Nat) (cp n : Nat) (h : Encodes bs cp) (hn : bs.length ≤ n) :
    decode ⟨bs ++ rest, n, none⟩ = some (cp, ⟨rest, n - bs.length, none⟩) ↔ cp ||| tagBits bs.length = cp := by
  have hcp := h.2.1.2.1
  rw [C42_decode_encoded_partial bs rest cp n h hn]
  constructor
  · intro e
    split at e
    · have := congrArg (fun x => x.map (fun y => y.2.err)) e
      simp at this
    · simp only [Option.some.injEq, Prod.mk.injEq, and_true] at e
      exact e
  · intro e
    rw [if_neg (by omega), e]

/-- C42: ASCII text decodes to itself. -/
theorem C42_ascii (cp n : Nat) (rest : List Nat) (h0 : 0 < cp) (h1 : cp < 0x80) (hn : 0 < n) :
    decode ⟨cp :: rest, n, none⟩ = some (cp, ⟨rest, n - 1, none⟩) :=
  (C42_roundtrip_partial [cp] rest cp n
    ⟨Shape.one cp h0 h1, ⟨h0, by omega, by omega⟩, Nat.zero_le _⟩ hn).2 (by simp [tagBits])

example : decode ⟨[0x41, 0x42], 2, none⟩ = some (0x41, ⟨[0x42], 1, none⟩) := by decide

/-- C42 fails: U+0101 (C4 81) is decoded as U+0181; U+20AC (E2 82 AC) as itself or-ed with 0x2080, which is U+20AC;
U+1F600 as U+9F680; U+100000 is rejected; the overlong sequence E0 80 80 and the surrogate ED A0 80 are accepted. -/
theorem C42_wrong :
    encode 4 0x101 = some [0xc4, 0x81] ∧ decode ⟨[0xc4, 0x81], 2, none⟩ = some (0x181, ⟨[], 0, none⟩)
    ∧ encode 4 0x1f600 = some [0xf0, 0x9f, 0x98, 0x80]
    ∧ decode ⟨[0xf0, 0x9f, 0x98, 0x80], 4, none⟩ = some (0x9f680, ⟨[], 0, none⟩)
    ∧ encode 4 0x100000 = some [0xf4, 0x80, 0x80, 0x80]
    ∧ decode ⟨[0xf4, 0x80, 0x80, 0x80], 4, none⟩ = some (0, ⟨[0xf4, 0x80, 0x80, 0x80], 0, some .range⟩)
    ∧ decode ⟨[0xe0, 0x80, 0x80], 3, none⟩ = some (0x2080, ⟨[], 0, none⟩)
    ∧ decode ⟨[0xed, 0xa0, 0x80], 3, none⟩ = some (0xf880, ⟨[], 0, none⟩) := by decide

example : decode ⟨[0xe2, 0x82, 0xac], 3, none⟩ = some (0x20ac, ⟨[], 0, none⟩) := by decide

/-- C42 fails: two different code points are decoded to the same one. -/
theorem C42_not_injective : ∃ bs bs' : List Nat, bs ≠ bs' ∧ Encodes bs 0x101 ∧ Encodes bs' 0x181
    ∧ (decode ⟨bs, 2, none⟩).map (·.1) = (decode ⟨bs', 2, none⟩).map (·.1) := by
  refine ⟨[0xc4, 0x81], [0xc6, 0x81], by decide, ⟨Shape.two 4 1 (by omega) (by omega), ⟨by omega, by omega, by omega⟩, by decide⟩,
    ⟨Shape.two 6 1 (by omega) (by omega), ⟨by omega, by omega, by omega⟩, by decide⟩, by decide⟩

/-- reading a continuation byte -/
theorem cont_inv {start : List Nat} {it : Iter} {k : Nat → Iter → Option (Nat × Iter)} {r : Nat} {it' : Iter}
    (h : withCont start it k = some (r, it')) (he : it'.err = none) :
    ∃ b cs, b < 64 ∧ it.data = (0x80 + b) :: cs ∧ 0 < it.size ∧ k (0x80 + b) ⟨cs, it.size - 1, it.err⟩ = some (r, it') := by
  obtain ⟨data, size, err⟩ := it
  unfold withCont getCont at h
  unfold iterGet at h
  by_cases hs : size = 0
  · simp only [hs, if_true, Option.bind_eq_bind, Option.bind_some] at h
    rw [if_pos (by omega)] at h
    simp only [Option.bind_some, iterError, Option.some.injEq, Prod.mk.injEq] at h
    rw [← h.2] at he
    simp at he
  · rw [if_neg hs] at h
    cases data with
    | nil => simp at h
    | cons c cs =>
      simp only [List.head?_cons, Option.bind_eq_bind, Option.bind_some] at h
      by_cases hc : c ≥ 0x80 ∧ c ≤ 0xbf
      · rw [if_neg (fun x => x hc), adv_cons c cs size err (by omega) (by omega)] at h
        simp only [Option.bind_some] at h
        refine ⟨c - 0x80, cs, by omega, ?_, by simp only; omega, ?_⟩
        · simp only [List.cons.injEq, and_true]; omega
        · rw [show 0x80 + (c - 0x80) = c by omega]; exact h
      · rw [if_pos hc] at h
        simp only [Option.bind_some, iterError, Option.some.injEq, Prod.mk.injEq] at h
        rw [← h.2] at he
        simp at he

theorem check_inv {start : List Nat} {it : Iter} {m c1 c2 c3 c4 r : Nat} {it' : Iter}
    (h : some (checkValid start it m c1 c2 c3 c4) = some (r, it')) (he : it'.err = none) :
    m ≤ r ∧ r ≤ 0x10ffff ∧ r = (c1 <<< 18) ||| (c2 <<< 12) ||| (c3 <<< 6) ||| c4 ∧ it' = it := by
  unfold checkValid at h
  simp only [] at h
  generalize hr : (c1 <<< 18) ||| (c2 <<< 12) ||| (c3 <<< 6) ||| c4 = w at h
  split_ifs at h <;> simp only [iterError, Option.some.injEq, Prod.mk.injEq] at h
  · rw [← h.2] at he; simp at he
  · rw [← h.2] at he; simp at he
  · rw [← h.2] at he; simp at he
  · obtain ⟨rfl, rfl⟩ := h
    exact ⟨by omega, by omega, rfl, rfl⟩

/-- C42: the decoder accepts exactly the sequences whose first byte announces the right number of continuation bytes, and consumes
exactly those bytes; a first byte F4 is never accepted (`v` below 0x140000 and the range check), overlong sequences of two bytes are not
accepted, those of three and four bytes are. -/
theorem C42_accepts_exactly_partial (data rest : List Nat) (n m r : Nat) :
    (decode ⟨data, n, none⟩ = some (r, ⟨rest, m, none⟩) ∧ r ≠ 0)
    ↔ ∃ bs v, data = bs ++ rest ∧ Shape bs v ∧ bs.length ≤ n ∧ m = n - bs.length
        ∧ (bs.length = 2 → 0x80 ≤ v) ∧ (bs.length = 4 → v < 0x140000)
        ∧ r = v ||| tagBits bs.length ∧ r ≤ 0x10ffff := by
  constructor
  · rintro ⟨h, hr⟩
    unfold decode at h
    simp only [Option.bind_eq_bind] at h
    unfold iterGet at h
    by_cases hs : n = 0
    · simp only [hs, if_true, Option.bind_some, Option.some.injEq, Prod.mk.injEq] at h
      exact absurd h.1.symm hr
    · simp only [if_neg hs] at h
      cases data with
      | nil => simp at h
      | cons c cs =>
        simp only [List.head?_cons, Option.bind_some] at h
        by_cases h0 : c = 0
        · rw [if_pos h0] at h
          simp only [Option.some.injEq, Prod.mk.injEq] at h
          exact absurd h.1.symm hr
        · rw [if_neg h0, adv_cons c cs n none (by omega) h0] at h
          simp only [Option.bind_some] at h
          by_cases h1 : c < 0x80
          · rw [if_pos h1] at h
            simp only [Option.some.injEq, Prod.mk.injEq, Iter.mk.injEq, and_true] at h
            obtain ⟨rfl, rfl, rfl⟩ := h
            exact ⟨[c], c, rfl, Shape.one c (by omega) h1, by simp; omega, rfl, by simp, by simp,
              by simp [tagBits], by omega⟩
          · rw [if_neg h1] at h
            by_cases h2 : c < 0xc2
            · rw [if_pos h2] at h
              simp [iterError] at h
            · rw [if_neg h2] at h
              obtain ⟨b, cs2, hb, e2, s2, h⟩ := cont_inv h rfl
              simp only at e2 s2 h
              by_cases h3 : c < 0xe0
              · rw [if_pos h3] at h
                obtain ⟨q1, q2, q3, q4⟩ := check_inv h rfl
                simp only [Iter.mk.injEq] at q4
                obtain ⟨a, rfl⟩ : ∃ a, c = 0xc0 + a := ⟨c - 0xc0, by omega⟩
                rw [and1f a (by omega), val2 a b hb] at q3
                refine ⟨[0xc0 + a, 0x80 + b], a * 64 + b, ?_, Shape.two a b (by omega) hb, ?_, ?_, ?_, by simp, q3, q2⟩
                · rw [e2, q4.1]; rfl
                · simp only [List.length_cons, List.length_nil]; omega
                · simp only [List.length_cons, List.length_nil]; omega
                · intro _; omega
              · rw [if_neg h3] at h
                obtain ⟨b3, cs3, hb3, e3, s3, h⟩ := cont_inv h rfl
                simp only at e3 s3 h
                by_cases h4 : c < 0xf0
                · rw [if_pos h4] at h
                  obtain ⟨q1, q2, q3, q4⟩ := check_inv h rfl
                  simp only [Iter.mk.injEq] at q4
                  obtain ⟨a, rfl⟩ : ∃ a, c = 0xe0 + a := ⟨c - 0xe0, by omega⟩
                  rw [and0f a (by omega), val3 a b b3 hb hb3] at q3
                  refine ⟨[0xe0 + a, 0x80 + b, 0x80 + b3], a * 4096 + b * 64 + b3, ?_,
                    Shape.three a b b3 (by omega) hb hb3, ?_, ?_, by simp, by simp, q3, q2⟩
                  · rw [e2, e3, q4.1]; rfl
                  · simp only [List.length_cons, List.length_nil]; omega
                  · simp only [List.length_cons, List.length_nil]; omega
                · rw [if_neg h4] at h
                  obtain ⟨b4, cs4, hb4, e4, s4, h⟩ := cont_inv h rfl
                  simp only at e4 s4 h
                  by_cases h5 : c ≤ 0xf4
                  · rw [if_pos h5] at h
                    obtain ⟨q1, q2, q3, q4⟩ := check_inv h rfl
                    simp only [Iter.mk.injEq] at q4
                    obtain ⟨a, rfl⟩ : ∃ a, c = 0xf0 + a := ⟨c - 0xf0, by omega⟩
                    rw [and07 a (by omega), val4 a b b3 b4 hb hb3 hb4] at q3
                    refine ⟨[0xf0 + a, 0x80 + b, 0x80 + b3, 0x80 + b4], a * 262144 + b * 4096 + b3 * 64 + b4, ?_,
                      Shape.four a b b3 b4 (by omega) hb hb3 hb4, ?_, ?_, by simp, ?_, q3, q2⟩
                    · rw [e2, e3, e4, q4.1]; rfl
                    · simp only [List.length_cons, List.length_nil]; omega
                    · simp only [List.length_cons, List.length_nil]; omega
                    · intro _; omega
                  · rw [if_neg h5] at h
                    simp [iterError] at h
  · rintro ⟨bs, v, rfl, s, hl, rfl, h2, h4, rfl, hr⟩
    refine ⟨?_, ?_⟩
    · rw [decode_shape bs rest v n none s hl h2 h4, if_neg (by omega)]
    · intro e
      have hv : v = 0 := Nat.le_zero.1 (e ▸ Nat.left_le_or)
      have ht : tagBits bs.length = 0 := Nat.le_zero.1 (e ▸ Nat.right_le_or)
      cases s with
      | one a h0 _ => omega
      | two => simp [tagBits] at ht
      | three => simp [tagBits] at ht
      | four => simp [tagBits] at ht

theorem cont_total (start : List Nat) (it : Iter) (k : Nat → Iter → Option (Nat × Iter)) (h : it.size ≤ it.data.length)
    (hk : ∀ c it2, it2.size ≤ it2.data.length → (k c it2).isSome) : (withCont start it k).isSome := by
  obtain ⟨data, size, err⟩ := it
  unfold withCont getCont iterGet
  by_cases hs : size = 0
  · simp [hs]
  · simp only [if_neg hs]
    cases data with
    | nil => simp at h; omega
    | cons c cs =>
      simp only [List.head?_cons, Option.bind_eq_bind, Option.bind_some]
      by_cases hc : c ≥ 0x80 ∧ c ≤ 0xbf
      · rw [if_neg (fun x => x hc), adv_cons c cs size err (by omega) (by omega)]
        simp only [Option.bind_some]
        exact hk _ _ (by simp only [List.length_cons] at h ⊢; omega)
      · rw [if_pos hc]; simp

/-- C42: on any text whatever, the decoder runs into no assertion and reads no byte outside the given size. -/
theorem C42_decode_total (data : List Nat) (n : Nat) (e : Option Msg) (h : n ≤ data.length) :
    (decode ⟨data, n, e⟩).isSome := by
  unfold decode iterGet
  by_cases hs : n = 0
  · simp [hs]
  · simp only [if_neg hs]
    cases data with
    | nil => simp at h; omega
    | cons c cs =>
      simp only [List.head?_cons, Option.bind_eq_bind, Option.bind_some]
      split
      · simp
      · rename_i h0
        rw [adv_cons c cs n e (by omega) h0]
        simp only [Option.bind_some]
        by_cases h1 : c < 0x80
        · rw [if_pos h1]; rfl
        rw [if_neg h1]
        by_cases h2 : c < 0xc2
        · rw [if_pos h2]; rfl
        rw [if_neg h2]
        refine cont_total _ _ _ (by simp only [List.length_cons] at h ⊢; omega) fun c2 it2 l2 => ?_
        by_cases h3 : c < 0xe0
        · rw [if_pos h3]; rfl
        rw [if_neg h3]
        refine cont_total _ _ _ l2 fun c3 it3 l3 => ?_
        by_cases h4 : c < 0xf0
        · rw [if_pos h4]; rfl
        rw [if_neg h4]
        refine cont_total _ _ _ l3 fun c4 it4 l4 => ?_
        split_ifs <;> rfl

/-! ## C43: escape sequences -/

theorem digit_hex (c d : Nat) (h : hexValue c = some d) : digitValue c = d ∧ d < 16 ∧ c ≠ 0 := by
  unfold hexValue at h
  unfold digitValue
  split_ifs at h <;> simp only [Option.some.injEq] at h <;> split_ifs <;> omega

theorem digit_not_hex (c : Nat) (h : hexValue c = none) : digitValue c ≥ 16 := by
  unfold hexValue at h
  unfold digitValue
  split_ifs at h <;> split_ifs <;> omega

/-- the digit loop on good digits -/
theorem digits_good (cs : List Nat) : ∀ (ds : List Nat) (len code n : Nat) (rest : List Nat) (e : Option Msg),
    cs.map hexValue = ds.map some → cs.length ≤ len → cs.length ≤ n →
    digits len code ⟨cs ++ rest, n, e⟩
      = digits (len - cs.length) (ds.foldl (fun n d => n * 16 + d) code) ⟨rest, n - cs.length, e⟩ := by
  induction cs with
  | nil =>
    intro ds len code n rest e h _ _
    have : ds = [] := by simpa using h.symm
    subst this
    rfl
  | cons c cs ih =>
    intro ds len code n rest e h hl hn
    cases ds with
    | nil => simp at h
    | cons d ds =>
      simp only [List.map_cons, List.cons.injEq] at h
      simp only [List.length_cons] at hl hn
      obtain ⟨len, rfl⟩ : ∃ l, len = l + 1 := ⟨len - 1, by omega⟩
      obtain ⟨q1, q2, q3⟩ := digit_hex c d h.1
      simp only [digits, List.cons_append]
      rw [get_cons _ _ _ _ (by omega)]
      simp only [Option.bind_eq_bind, Option.bind_some]
      rw [if_neg q3, q1, if_neg (by omega), adv_cons _ _ _ _ (by omega) q3]
      simp only [Option.bind_some]
      rw [ih ds len _ _ rest e h.2 (by omega) (by omega)]
      simp only [List.foldl_cons, List.length_cons]
      rw [show len + 1 - (cs.length + 1) = len - cs.length by omega, show n - 1 - cs.length = n - (cs.length + 1) by omega]

/-- the escape letters with digits: number of digits and largest code -/
def hexEscape (c : Nat) : Option (Nat × Nat) :=
  if c = 0x78 then some (2, 0x7f) else if c = 0x75 then some (4, 0x10ffff) else if c = 0x55 then some (6, 0x10ffff) else none

theorem hexEscape_escape (c len mx : Nat) (h : hexEscape c = some (len, mx)) :
    escape c = some (len, mx, 0) ∧ c ≠ 0 ∧ 2 ≤ len := by
  unfold hexEscape at h
  split_ifs at h with a b d
  · simp only [Option.some.injEq, Prod.mk.injEq] at h; obtain ⟨rfl, rfl⟩ := h; subst a; decide
  · simp only [Option.some.injEq, Prod.mk.injEq] at h; obtain ⟨rfl, rfl⟩ := h; subst b; decide
  · simp only [Option.some.injEq, Prod.mk.injEq] at h; obtain ⟨rfl, rfl⟩ := h; subst d; decide

/-- what follows the backslash and the letter -/
theorem escaped_hex (c len mx n : Nat) (data : List Nat) (e : Option Msg) (h : hexEscape c = some (len, mx)) (hn : 2 ≤ n) :
    escapedDecode ⟨0x5c :: c :: data, n, e⟩ = (digits len 0 ⟨data, n - 2, e⟩).bind fun r =>
      if r.1 > 0 then some (iterError r.2.2 (0x5c :: c :: data) .premature)
      else if r.2.1 > mx then some (iterError r.2.2 (0x5c :: c :: data) .large)
      else some (r.2.1, r.2.2) := by
  obtain ⟨h1, h0, _⟩ := hexEscape_escape c len mx h
  unfold escapedDecode
  rw [get_cons _ _ _ _ (by omega)]
  simp only [Option.bind_eq_bind, Option.bind_some]
  rw [if_neg (by omega), if_neg (by omega), adv_cons _ _ _ _ (by omega) (by omega)]
  simp only [Option.bind_some]
  rw [if_neg (by simp)]
  unfold escapeRest
  rw [get_cons _ _ _ _ (by omega)]
  have ha : ass (c ≠ 0) = some () := by unfold ass; rw [if_pos h0]
  simp only [Option.bind_eq_bind, Option.bind_some, ha, h1]
  unfold escapeTail
  rw [adv_cons _ _ _ _ (by omega) h0]
  simp only [Option.bind_eq_bind, Option.bind_some]
  rw [show n - 1 - 1 = n - 2 by omega]

/-- C43: a complete escape sequence decodes to the number its digits denote if that is not too large, and is consumed; otherwise it is
an error. -/
theorem C43_hex (c len mx n : Nat) (cs ds rest : List Nat) (h : hexEscape c = some (len, mx))
    (hd : cs.map hexValue = ds.map some) (hl : cs.length = len) (hn : len + 2 ≤ n) :
    escapedDecode ⟨0x5c :: c :: (cs ++ rest), n, none⟩
      = if hexNumber ds ≤ mx then some (hexNumber ds, ⟨rest, n - (len + 2), none⟩)
        else some (0, ⟨0x5c :: c :: (cs ++ rest), n - (len + 2), some .large⟩) := by
  rw [escaped_hex c len mx n _ none h (by omega), digits_good cs ds len 0 (n - 2) rest none hd (by omega) (by omega)]
  rw [hl, Nat.sub_self]
  simp only [digits, Option.bind_eq_bind, Option.bind_some]
  rw [if_neg (by omega), show n - 2 - len = n - (len + 2) by omega]
  unfold hexNumber iterError
  split_ifs <;> first | rfl | omega

example : hexEscape 0x75 = some (4, 0x10ffff) ∧ ([0x32, 0x30, 0x61, 0x43].map hexValue = [2, 0, 10, 12].map some)
    ∧ escapedDecode ⟨[0x5c, 0x75, 0x32, 0x30, 0x61, 0x43, 0x21], 7, none⟩ = some (0x20ac, ⟨[0x21], 1, none⟩) := by decide

/-- C43: the escapes for a single character -/
theorem C43_simple (c v n : Nat) (rest : List Nat) (hn : 2 ≤ n)
    (h : (c, v) ∈ [(0x5c, 0x5c), (0x27, 0x27), (0x22, 0x22), (0x74, 9), (0x6e, 10), (0x72, 13)]) :
    escapedDecode ⟨0x5c :: c :: rest, n, none⟩ = some (v, ⟨rest, n - 2, none⟩) := by
  have hc : escape c = some (0, 0x10ffff, v) ∧ c ≠ 0 ∧ v ≤ 0x10ffff := by
    simp only [List.mem_cons, Prod.mk.injEq, List.not_mem_nil, or_false] at h
    rcases h with ⟨rfl, rfl⟩ | ⟨rfl, rfl⟩ | ⟨rfl, rfl⟩ | ⟨rfl, rfl⟩ | ⟨rfl, rfl⟩ | ⟨rfl, rfl⟩ <;> decide
  obtain ⟨h1, h0, hv⟩ := hc
  unfold escapedDecode
  rw [get_cons _ _ _ _ (by omega)]
  simp only [Option.bind_eq_bind, Option.bind_some]
  rw [if_neg (by omega), if_neg (by omega), adv_cons _ _ _ _ (by omega) (by omega)]
  simp only [Option.bind_some]
  rw [if_neg (by simp)]
  unfold escapeRest
  rw [get_cons _ _ _ _ (by omega)]
  have ha : ass (c ≠ 0) = some () := by unfold ass; rw [if_pos h0]
  simp only [Option.bind_eq_bind, Option.bind_some, ha, h1]
  unfold escapeTail
  rw [adv_cons _ _ _ _ (by omega) h0]
  simp only [Option.bind_eq_bind, Option.bind_some, digits]
  rw [if_neg (by omega), if_neg (by omega), show n - 1 - 1 = n - 2 by omega]

example : escapedDecode ⟨[0x5c, 0x6e, 0x41], 3, none⟩ = some (10, ⟨[0x41], 1, none⟩) := by decide

/-- C43: any other character behind a backslash is an error that points at the backslash. -/
theorem C43_unrecognised (c n : Nat) (rest : List Nat) (hn : 2 ≤ n) (h0 : c ≠ 0)
    (h : c ∉ [0x5c, 0x27, 0x22, 0x74, 0x6e, 0x72, 0x78, 0x75, 0x55]) :
    escapedDecode ⟨0x5c :: c :: rest, n, none⟩ = some (0, ⟨0x5c :: c :: rest, n - 1, some .unrecognised⟩) := by
  have h1 : escape c = none := by
    simp only [List.mem_cons, List.not_mem_nil, or_false, not_or] at h
    unfold escape
    simp [h]
  unfold escapedDecode
  rw [get_cons _ _ _ _ (by omega)]
  simp only [Option.bind_eq_bind, Option.bind_some]
  rw [if_neg (by omega), if_neg (by omega), adv_cons _ _ _ _ (by omega) (by omega)]
  simp only [Option.bind_some]
  rw [if_neg (by simp)]
  unfold escapeRest
  rw [get_cons _ _ _ _ (by omega)]
  have ha : ass (c ≠ 0) = some () := by unfold ass; rw [if_pos h0]
  simp only [Option.bind_eq_bind, Option.bind_some, ha, h1]
  rfl

/-- C43: text without a backslash is decoded as without escapes. -/
theorem C43_plain (c n : Nat) (rest : List Nat) (h : c ≠ 0x5c) :
    escapedDecode ⟨c :: rest, n, none⟩ = decode ⟨c :: rest, n, none⟩ := by
  by_cases hn : n = 0
  · subst hn
    rfl
  unfold escapedDecode
  rw [get_cons _ _ _ _ (by omega)]
  simp only [Option.bind_eq_bind, Option.bind_some]
  by_cases h0 : c = 0
  · rw [if_pos h0]
    unfold decode
    rw [get_cons _ _ _ _ (by omega)]
    simp [h0]
  · rw [if_neg h0]
    by_cases h1 : c ≥ 0x80
    · rw [if_pos h1]
    · rw [if_neg h1, adv_cons _ _ _ _ (by omega) h0]
      simp only [Option.bind_some]
      rw [if_pos h, C42_ascii c n rest (by omega) (by omega) (by omega)]

/-- C43, rejection of broken digits: where the text ends or has something other than a hexadecimal digit before the last digit, it is
an error.  Missing: the last digit, see `C43_wrong_last`. -/
theorem C43_premature_partial (c len mx n : Nat) (cs ds rest : List Nat) (x : Nat) (h : hexEscape c = some (len, mx))
    (hd : cs.map hexValue = ds.map some) (hl : cs.length + 1 < len) (hx : hexValue x = none)
    (hn : n = cs.length + 2 ∨ cs.length + 2 < n) :
    escapedDecode ⟨0x5c :: c :: (cs ++ x :: rest), n, none⟩
      = some (0, ⟨0x5c :: c :: (cs ++ x :: rest), n - (cs.length + 2), some .premature⟩) := by
  rw [escaped_hex c len mx n _ none h (by omega), digits_good cs ds len 0 (n - 2) (x :: rest) none hd (by omega) (by omega)]
  obtain ⟨k, hk⟩ : ∃ k, len - cs.length = k + 2 := ⟨len - cs.length - 2, by omega⟩
  rw [hk]
  have hg := digit_not_hex x hx
  simp only [digits]
  rcases hn with hn | hn
  · have e : n - 2 - cs.length = 0 := by omega
    rw [e]
    simp only [iterGet, if_true, Option.bind_eq_bind, Option.bind_some]
    rw [if_pos (by omega), show n - (cs.length + 2) = 0 by omega]
    rfl
  · rw [get_cons _ _ _ _ (by omega)]
    simp only [Option.bind_eq_bind, Option.bind_some]
    have e : (if x = 0 then some (k + 1, List.foldl (fun n d => n * 16 + d) 0 ds, (⟨x :: rest, n - 2 - cs.length, none⟩ : Iter))
      else if digitValue x ≥ 16 then some (k + 1, List.foldl (fun n d => n * 16 + d) 0 ds, ⟨x :: rest, n - 2 - cs.length, none⟩)
      else (iterAdvance ⟨x :: rest, n - 2 - cs.length, none⟩).bind fun it =>
        digits (k + 1) (List.foldl (fun n d => n * 16 + d) 0 ds * 16 + digitValue x) it)
      = some (k + 1, List.foldl (fun n d => n * 16 + d) 0 ds, ⟨x :: rest, n - 2 - cs.length, none⟩) := by
      split
      · rfl
      · rfl
    simp only [digits, Option.bind_eq_bind] at e
    rw [e]
    simp only [Option.bind_some]
    rw [if_pos (by omega), show n - 2 - cs.length = n - (cs.length + 2) by omega]
    rfl

example : escapedDecode ⟨[0x5c, 0x75, 0x32, 0x30, 0x67, 0x43], 6, none⟩
    = some (0, ⟨[0x5c, 0x75, 0x32, 0x30, 0x67, 0x43], 2, some .premature⟩) := by decide

/-- C43 fails: if only the last digit is broken, the sequence is accepted with the digits before it, and the broken character is read
again as the next character. -/
theorem C43_wrong_last (c len mx n : Nat) (cs ds rest : List Nat) (x : Nat) (h : hexEscape c = some (len, mx))
    (hd : cs.map hexValue = ds.map some) (hl : cs.length + 1 = len) (hx : hexValue x = none) (hn : len + 2 ≤ n)
    (hm : hexNumber ds ≤ mx) :
    escapedDecode ⟨0x5c :: c :: (cs ++ x :: rest), n, none⟩ = some (hexNumber ds, ⟨x :: rest, n - (len + 1), none⟩) := by
  rw [escaped_hex c len mx n _ none h (by omega), digits_good cs ds len 0 (n - 2) (x :: rest) none hd (by omega) (by omega)]
  have hk : len - cs.length = 0 + 1 := by omega
  rw [hk]
  have hg := digit_not_hex x hx
  simp only [digits]
  rw [get_cons _ _ _ _ (by omega)]
  simp only [Option.bind_eq_bind, Option.bind_some]
  have e : (if x = 0 then some (0, List.foldl (fun n d => n * 16 + d) 0 ds, (⟨x :: rest, n - 2 - cs.length, none⟩ : Iter))
      else if digitValue x ≥ 16 then some (0, List.foldl (fun n d => n * 16 + d) 0 ds, ⟨x :: rest, n - 2 - cs.length, none⟩)
      else (iterAdvance ⟨x :: rest, n - 2 - cs.length, none⟩).bind fun it =>
        some (0, List.foldl (fun n d => n * 16 + d) 0 ds * 16 + digitValue x, it))
      = some (0, List.foldl (fun n d => n * 16 + d) 0 ds, ⟨x :: rest, n - 2 - cs.length, none⟩) := by
    split
    · rfl
    · rfl
  rw [e]
  simp only [Option.bind_some]
  unfold hexNumber at hm ⊢
  rw [if_neg (by omega), if_neg (by omega), show n - 2 - cs.length = n - (len + 1) by omega]

/-- `\x4g` is the code 4 followed by a `g`; `\u0000` is taken for the end of the string; `\ud800` is accepted although it is no
character -/
theorem C43_wrong :
    escapedDecode ⟨[0x5c, 0x78, 0x34, 0x67], 4, none⟩ = some (4, ⟨[0x67], 1, none⟩)
    ∧ escapedDecode ⟨[0x5c, 0x75, 0x30, 0x30, 0x30, 0x30, 0x41], 7, none⟩ = some (0, ⟨[0x41], 1, none⟩)
    ∧ escapedDecode ⟨[0x5c, 0x75, 0x64, 0x38, 0x30, 0x30], 6, none⟩ = some (0xd800, ⟨[], 0, none⟩) := by decide

/-- C43: a backslash at the end of the text runs into an assertion. -/
theorem C43_backslash_at_end (rest : List Nat) (e : Option Msg) : escapedDecode ⟨0x5c :: rest, 1, e⟩ = none := by
  unfold escapedDecode
  rw [get_cons _ _ _ _ (by omega)]
  simp only [Option.bind_eq_bind, Option.bind_some]
  rw [if_neg (by omega), if_neg (by omega), adv_cons _ _ _ _ (by omega) (by omega)]
  simp [escapeRest, iterGet, ass]

end Hob3l.Utf8
