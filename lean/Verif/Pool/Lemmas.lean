import Verif.Pool.Spec
import Verif.Align.Props
import Mathlib.Data.List.Basic

namespace Hob3l.Pool

open Hob3l.Align

structure Inv (s : Pool) : Prop where
  bs : s.blockSize < W
  ok : ∀ b ∈ s.used ++ s.free, hdr ≤ b.base ∧ b.base ≤ b.brk ∧ b.brk ≤ b.fin ∧ b.fin < W
  apart : (s.used ++ s.free).Pairwise Apart
  full : ∀ b ∈ s.free, b.brk = b.fin
  zero : ∀ b ∈ s.used ++ s.free, ∀ x, b.base ≤ x → x < b.brk → s.mem x = 0
  liveIn : ∀ o ∈ s.live, 0 < o.size ∧ ∃ b ∈ s.used, b.brk ≤ o.addr ∧ o.addr + o.size ≤ b.fin
  liveApart : s.live.Pairwise ObjApart

theorem Apart.symm {a b : Block} (h : Apart a b) : Apart b a := Or.symm h

theorem chk_ok {c : Prop} [Decidable c] (h : c) : chk c = .ok () := by simp [chk, h]

theorem bind_ok {α β : Type} {m : M α} {f : α → M β} {y : β} (h : m >>= f = .ok y) : ∃ x, m = .ok x ∧ f x = .ok y := by
  cases m with
  | error e => exact absurd h (by intro h; cases h)
  | ok x => exact ⟨x, rfl, h⟩

theorem chk_inv {c : Prop} [Decidable c] {u : Unit} (h : chk c = .ok u) : c := by
  unfold chk at h
  split at h
  · assumption
  · cases h

theorem req_inv {c : Prop} [Decidable c] {u : Unit} (h : req c = .ok u) : c := by
  unfold req at h
  split at h
  · assumption
  · cases h

/-- alignment of addresses -/
theorem alignDown_nat {n a : Nat} (hn : n < W) (ha : a < W) :
    (∀ d, alignDownDiff (BitVec.ofNat 64 n) (BitVec.ofNat 64 a) = some d →
      d.toNat ≤ n ∧ d.toNat < a ∧ a ∣ (n - d.toNat)) ∧
    ((∃ k, a = 2 ^ k) → (alignDownDiff (BitVec.ofNat 64 n) (BitVec.ofNat 64 a)).isSome) := by
  have en : (BitVec.ofNat 64 n).toNat = n := by rw [BitVec.toNat_ofNat]; exact Nat.mod_eq_of_lt hn
  have ea : (BitVec.ofNat 64 a).toNat = a := by rw [BitVec.toNat_ofNat]; exact Nat.mod_eq_of_lt ha
  constructor
  · intro d hd
    have hs : (alignDown (BitVec.ofNat 64 n) (BitVec.ofNat 64 a)).isSome := by
      unfold alignDownDiff at hd
      cases h : alignDown (BitVec.ofNat 64 n) (BitVec.ofNat 64 a) with
      | none => rw [h] at hd; cases hd
      | some _ => rfl
    obtain ⟨k, hk, he⟩ := (C40_accept _ _).1 hs
    obtain ⟨r, d', h1, h2, h3, h4, h5, h6⟩ := C40_align_down hk he (BitVec.ofNat 64 n)
    rw [h2] at hd
    injection hd with hd
    subst hd
    rw [en] at *
    rw [ea] at *
    refine ⟨by omega, by omega, ?_⟩
    rw [show n - d'.toNat = r.toNat by omega]
    exact h3
  · rintro ⟨k, rfl⟩
    have hk : k < 64 := (Nat.pow_lt_pow_iff_right (by omega)).1 ha
    obtain ⟨r, d', h1, h2, _⟩ := C40_align_down hk ea (BitVec.ofNat 64 n)
    rw [h2]; rfl

/-- a successful attempt -/
theorem tryBlock_some {b : Block} {nmemb size1 align : Nat} {mem : Nat → Nat} {a : Nat}
    (hb : hdr ≤ b.base ∧ b.base ≤ b.brk ∧ b.brk ≤ b.fin ∧ b.fin < W) (ha : align < W)
    (h : tryBlock b nmemb size1 align mem = .ok (some a)) :
    0 < nmemb * size1 ∧ b.base ≤ a ∧ a + nmemb * size1 ≤ b.brk ∧ align ∣ a := by
  unfold tryBlock at h
  obtain ⟨_, h1, h⟩ := bind_ok h
  have h1 := chk_inv h1
  obtain ⟨_, h2, h⟩ := bind_ok h
  have h2 := chk_inv h2
  have hpos : 0 < nmemb * size1 := Nat.mul_pos h2 h1
  split at h
  · cases h
  split at h
  · cases h
  unfold tryAlign at h
  have hal := (alignDown_nat (n := b.brk - nmemb * size1) (a := align) (by omega) ha).1
  cases hd : alignDownDiff (BitVec.ofNat 64 (b.brk - nmemb * size1)) (BitVec.ofNat 64 align) with
  | none => rw [hd] at h; cases h
  | some d =>
    obtain ⟨a1, a2, a3⟩ := hal d hd
    rw [hd] at h
    simp only [] at h
    split at h
    · cases h
    obtain ⟨_, _, h⟩ := bind_ok h
    injection h with h
    injection h with h
    subst h
    exact ⟨hpos, by omega, by omega, a3⟩

/-- an attempt does not fail an assertion, and succeeds if there is enough space -/
theorem tryBlock_total {b : Block} {nmemb size1 align : Nat} {mem : Nat → Nat}
    (hb : hdr ≤ b.base ∧ b.base ≤ b.brk ∧ b.brk ≤ b.fin ∧ b.fin < W)
    (hz : ∀ x, b.base ≤ x → x < b.brk → mem x = 0)
    (ha : align < W) (hp : ∃ k, align = 2 ^ k) (h1 : 0 < size1) (h2 : 0 < nmemb) :
    (∃ r, tryBlock b nmemb size1 align mem = .ok r) ∧
    (nmemb * size1 + align ≤ b.brk - b.base → ∃ a, tryBlock b nmemb size1 align mem = .ok (some a)) := by
  have hal := alignDown_nat (n := b.brk - nmemb * size1) (a := align) (by omega) ha
  obtain ⟨d, hd⟩ := Option.isSome_iff_exists.1 (hal.2 hp)
  obtain ⟨a1, a2, a3⟩ := hal.1 d hd
  have key : tryBlock b nmemb size1 align mem =
      if nmemb > b.heapSize / size1 then .ok none
      else if b.brk - b.base < nmemb * size1 then .ok none
      else if b.brk - nmemb * size1 - b.base < d.toNat then .ok none
      else .ok (some (b.brk - nmemb * size1 - d.toNat)) := by
    unfold tryBlock
    rw [chk_ok h1, chk_ok h2]
    show (if _ then _ else _) = _
    split
    · rfl
    split
    · rfl
    unfold tryAlign
    rw [hd]
    simp only []
    split
    · rfl
    · rw [chk_ok]
      · rfl
      · intro i hi
        rw [List.mem_range] at hi
        apply hz <;> omega
  rw [key]
  constructor
  · split
    · exact ⟨_, rfl⟩
    split
    · exact ⟨_, rfl⟩
    split
    · exact ⟨_, rfl⟩
    · exact ⟨_, rfl⟩
  · intro hs
    have hle : nmemb * size1 ≤ b.heapSize := by unfold Block.fin at hb; omega
    have : ¬ nmemb > b.heapSize / size1 := by
      have := (Nat.le_div_iff_mul_le h1).2 hle
      omega
    rw [if_neg this, if_neg (by omega), if_neg (by omega)]
    exact ⟨_, rfl⟩

/-- the state after a successful attempt -/
theorem inv_place {s : Pool} {b : Block} {rest : List Block} {a size : Nat} (h : Inv s) (hu : s.used = b :: rest)
    (h0 : 0 < size) (h1 : b.base ≤ a) (h2 : a + size ≤ b.brk) :
    Inv { s with used := { b with brk := a } :: rest, live := ⟨a, size⟩ :: s.live } ∧
    (∀ o ∈ s.live, ObjApart ⟨a, size⟩ o) ∧ (∀ x, a ≤ x → x < a + size → s.mem x = 0) := by
  obtain ⟨hbs, hok, hap, hfu, hz, hli, hla⟩ := h
  rw [hu] at hok hap hz hli
  have hb := hok b (by simp)
  have hzb := hz b (by simp)
  have hapo : ∀ o ∈ s.live, ObjApart ⟨a, size⟩ o := by
    intro o ho
    obtain ⟨_, c, hc, hc1, hc2⟩ := hli o ho
    unfold ObjApart
    simp only []
    rcases List.mem_cons.1 hc with rfl | hc
    · left; omega
    · have := (List.pairwise_cons.1 hap).1 c (by simp [hc])
      have hcok := hok c (by simp [hc])
      unfold Apart at this
      rcases this with this | this
      · left; omega
      · right; omega
  refine ⟨⟨hbs, ?_, ?_, hfu, ?_, ?_, ?_⟩, hapo, fun x hx1 hx2 => hzb x (by omega) (by omega)⟩
  · intro c hc
    simp only [List.cons_append, List.mem_cons] at hc
    rcases hc with rfl | hc
    · refine ⟨hb.1, h1, ?_, hb.2.2.2⟩
      show a ≤ b.fin
      omega
    · exact hok c (by simp only [List.cons_append, List.mem_cons]; exact .inr hc)
  · rw [List.cons_append, List.pairwise_cons] at hap ⊢
    exact ⟨fun c hc => hap.1 c hc, hap.2⟩
  · intro c hc x hx1 hx2
    simp only [List.cons_append, List.mem_cons] at hc
    rcases hc with rfl | hc
    · simp only [] at hx1 hx2
      exact hzb x hx1 (by omega)
    · exact hz c (by simp only [List.cons_append, List.mem_cons]; exact .inr hc) x hx1 hx2
  · intro o ho
    rcases List.mem_cons.1 ho with rfl | ho
    · exact ⟨h0, _, List.mem_cons_self .., Nat.le_refl _, by show a + size ≤ b.fin; omega⟩
    · obtain ⟨g1, c, hc, hc1, hc2⟩ := hli o ho
      rcases List.mem_cons.1 hc with rfl | hc
      · exact ⟨g1, _, List.mem_cons_self .., by show a ≤ o.addr; omega, hc2⟩
      · exact ⟨g1, c, by simp [hc], hc1, hc2⟩
  · exact List.pairwise_cons.2 ⟨hapo, hla⟩

theorem discard_cases (free : List Block) (need : Nat) :
    discard free need = [] ∨ ∃ b rest, discard free need = b :: rest ∧ free = b :: rest ∧ need ≤ b.heapSize := by
  unfold discard
  split
  · exact .inl rfl
  · rename_i b rest
    split
    · exact .inl rfl
    · exact .inr ⟨b, rest, rfl, rfl, by omega⟩

/-- adding a block: the new head is empty and has the block size (minus header) -/
theorem blockNext_ok {s t : Pool} {sys : Nat} (h : Inv s) (hr : blockNext s sys = .ok t) :
    Inv t ∧ t.live = s.live ∧ (∀ o ∈ s.live, SameBytes s t o) ∧
    ∃ b rest, t.used = b :: rest ∧ b.brk = b.fin ∧ (s.blockSize + W - hdr) % W ≤ b.heapSize := by
  obtain ⟨hbs, hok, hap, hfu, hz, hli, hla⟩ := h
  unfold blockNext at hr
  rcases discard_cases s.free ((s.blockSize + W - hdr) % W) with hd | ⟨b, rest, hd, hf, hsz⟩
  · rw [hd] at hr
    simp only [] at hr
    obtain ⟨_, h1, hr⟩ := bind_ok hr
    have h1 := req_inv h1
    obtain ⟨_, h2, hr⟩ := bind_ok hr
    have h2 := req_inv h2
    obtain ⟨_, h3, hr⟩ := bind_ok hr
    have h3 := chk_inv h3
    injection hr with hr
    subst hr
    have ef : (newBlock sys s.blockSize).fin = sys + s.blockSize := by
      unfold newBlock Block.fin; simp only []; omega
    have eb : (newBlock sys s.blockSize).base = sys + hdr := rfl
    have ek : (newBlock sys s.blockSize).brk = sys + s.blockSize := rfl
    have hkeep : ∀ c ∈ s.used, ∀ x, c.base ≤ x → x < c.fin → zeroMem s.mem sys s.blockSize x = s.mem x := by
      intro c hc x hx1 hx2
      unfold zeroMem
      rw [if_neg]
      have := h2 c hc
      have hcok := hok c (by simp [hc])
      unfold Apart at this
      rw [ef, eb] at this
      omega
    refine ⟨⟨hbs, ?_, ?_, ?_, ?_, ?_, hla⟩, rfl, ?_, _, _, rfl, by rw [ef, ek], ?_⟩
    · intro b hb
      rw [List.append_nil] at hb
      rcases List.mem_cons.1 hb with rfl | hb
      · rw [ef, eb, ek]; omega
      · exact hok b (by simp [hb])
    · rw [List.append_nil]
      exact List.pairwise_cons.2 ⟨h2, (List.pairwise_append.1 hap).1⟩
    · intro b hb; cases hb
    · intro b hb x hx1 hx2
      rw [List.append_nil] at hb
      rcases List.mem_cons.1 hb with rfl | hb
      · rw [eb] at hx1
        rw [ek] at hx2
        show zeroMem s.mem sys s.blockSize x = 0
        unfold zeroMem
        rw [if_pos (by omega)]
      · have := hok b (by simp [hb])
        show zeroMem s.mem sys s.blockSize x = 0
        rw [hkeep b hb x hx1 (by omega)]
        exact hz b (by simp [hb]) x hx1 hx2
    · intro o ho
      obtain ⟨g1, c, hc, hc1, hc2⟩ := hli o ho
      exact ⟨g1, c, by simp [hc], hc1, hc2⟩
    · intro o ho x hx1 hx2
      obtain ⟨g1, c, hc, hc1, hc2⟩ := hli o ho
      have := hok c (by simp [hc])
      exact hkeep c hc x (by omega) (by omega)
    · show (s.blockSize + W - hdr) % W ≤ s.blockSize - hdr
      have : s.blockSize + W - hdr = W + (s.blockSize - hdr) := by omega
      rw [this, Nat.add_mod_left]
      exact Nat.mod_le _ _
  · rw [hd] at hr
    rw [hf] at hok hap hfu hz
    simp only [] at hr
    injection hr with hr
    subst hr
    have hperm : (b :: s.used ++ rest).Perm (s.used ++ b :: rest) := by
      rw [List.cons_append]
      exact List.perm_middle.symm
    refine ⟨⟨hbs, ?_, ?_, ?_, ?_, ?_, hla⟩, rfl, fun o _ x _ _ => rfl, b, s.used, rfl, hfu b (by simp),
      hsz⟩
    · intro c hc; exact hok c (hperm.mem_iff.1 hc)
    · exact (hperm.pairwise_iff (fun h => Apart.symm h)).2 hap
    · intro c hc; exact hfu c (by simp [hc])
    · intro c hc; exact hz c (hperm.mem_iff.1 hc)
    · intro o ho
      obtain ⟨g1, c, hc, hc1, hc2⟩ := hli o ho
      exact ⟨g1, c, by simp [hc], hc1, hc2⟩

end Hob3l.Pool
