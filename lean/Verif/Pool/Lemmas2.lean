import Verif.Pool.Lemmas
import Mathlib.Data.List.Pairwise

namespace Hob3l.Pool

open Hob3l.Align

theorem ok_bind {α β : Type} (x : α) (f : α → M β) : ((Except.ok x : M α) >>= f) = f x := rfl

theorem growSize_lt (nmemb size1 : Nat) : ∀ k bs r, bs < W → growSize nmemb size1 k bs = .ok r → r < W := by
  intro k
  induction k with
  | zero => intro bs r _ h; cases h
  | succ k ih =>
    intro bs r hb h
    unfold growSize at h
    split at h
    · split at h
      · injection h with h; omega
      · exact ih _ _ (Nat.mod_lt _ (by unfold W; omega)) h
    · injection h with h; omega

theorem growSize_ok (nmemb size1 : Nat) (h1 : 0 < size1) (hs : 10 * (nmemb * size1) ≤ 2 ^ 62) :
    ∀ k bs, 0 < bs → bs ≤ 2 ^ 63 → W ≤ bs * 2 ^ k →
      ∃ r, growSize nmemb size1 k bs = .ok r ∧ 10 * (nmemb * size1) ≤ r ∧ bs ≤ r ∧ r ≤ 2 ^ 63 := by
  have hn : 10 * nmemb % W = 10 * nmemb := by
    apply Nat.mod_eq_of_lt
    have : nmemb ≤ nmemb * size1 := Nat.le_mul_of_pos_right _ h1
    unfold W; omega
  have hm : 10 * (nmemb * size1) = 10 * nmemb * size1 := by rw [Nat.mul_assoc]
  intro k
  induction k with
  | zero => intro bs _ hb h; unfold W at h; omega
  | succ k ih =>
    intro bs h0 hb h
    unfold growSize
    rw [hn]
    split
    · rename_i hgt
      have hlt : bs < 10 * nmemb * size1 := (Nat.div_lt_iff_lt_mul h1).1 hgt
      have e : bs * 2 % W = bs * 2 := Nat.mod_eq_of_lt (by unfold W; omega)
      rw [e, if_neg (by omega)]
      obtain ⟨r, g1, g2, g3, g4⟩ := ih (bs * 2) (by omega) (by omega) (by
        rw [Nat.pow_succ] at h
        rw [Nat.mul_assoc, Nat.mul_comm 2]; exact h)
      exact ⟨r, g1, g2, by omega, g4⟩
    · rename_i hgt
      refine ⟨bs, rfl, ?_, Nat.le_refl _, hb⟩
      rw [hm]
      exact (Nat.le_div_iff_mul_le h1).1 (by omega)

theorem alignSize_ok (bs : Nat) (h : bs + 4096 ≤ W) :
    ∃ r, alignSize bs = .ok r ∧ bs ≤ r ∧ r < bs + 4096 ∧ 4096 ∣ r := by
  have en : (BitVec.ofNat 64 bs).toNat = bs := by rw [BitVec.toNat_ofNat]; exact Nat.mod_eq_of_lt (by unfold W at h; omega)
  have ea : (0x1000 : Sz).toNat = 2 ^ 12 := rfl
  obtain ⟨r, d, h1, _, h3, h4, h5, _⟩ := C40_align_up (by omega) ea (BitVec.ofNat 64 bs) (by rw [en, ea]; exact h)
  rw [en] at *
  rw [ea] at *
  exact ⟨r.toNat, by rw [alignSize, h1], h4, h5, h3⟩

theorem alignSize_lt {bs r : Nat} (h : alignSize bs = .ok r) : r < W := by
  unfold alignSize at h
  split at h
  · cases h
  · injection h with h; rw [← h]; exact BitVec.isLt _

theorem Inv.setSize {s : Pool} (h : Inv s) {bs : Nat} (hb : bs < W) : Inv { s with blockSize := bs } :=
  ⟨hb, h.ok, h.apart, h.full, h.zero, h.liveIn, h.liveApart⟩

theorem addBlock_ok {s t : Pool} {sys nmemb size1 : Nat} (h : Inv s) (hr : addBlock s sys nmemb size1 = .ok t) :
    Inv t ∧ t.live = s.live ∧ ∀ o ∈ s.live, SameBytes s t o := by
  unfold addBlock at hr
  obtain ⟨bs, h1, hr⟩ := bind_ok hr
  obtain ⟨_, h2, hr⟩ := bind_ok hr
  obtain ⟨bs2, h3, hr⟩ := bind_ok hr
  obtain ⟨g1, g2, g3, _⟩ := blockNext_ok (h.setSize (alignSize_lt h3)) hr
  exact ⟨g1, g2, g3⟩

/-- what an allocation guarantees -/
def Res (s t : Pool) (a size align : Nat) : Prop :=
  Inv t ∧ t.live = ⟨a, size⟩ :: s.live ∧ 0 < size ∧ 0 < a ∧ align ∣ a ∧ Owned t ⟨a, size⟩ ∧
  (∀ x, a ≤ x → x < a + size → t.mem x = 0) ∧
  ∀ o ∈ s.live, ObjApart ⟨a, size⟩ o ∧ SameBytes s t o

theorem callocLoop_ok {nmemb size1 align : Nat} {sys : Nat → Nat} (hal : align < W) :
    ∀ (k : Nat) (s t : Pool) (a : Nat), Inv s → callocLoop nmemb size1 align sys k s = .ok (a, t) →
      Res s t a (nmemb * size1) align := by
  intro k
  induction k with
  | zero => intro s t a _ h; cases h
  | succ k ih =>
    intro s t a hi h
    unfold callocLoop at h
    obtain ⟨r, h1, h⟩ := bind_ok h
    cases r with
    | none =>
      simp only [] at h
      obtain ⟨u, h2, h⟩ := bind_ok h
      obtain ⟨g1, g2, g3⟩ := addBlock_ok hi h2
      obtain ⟨r1, r2, r3, r4, r5, r6, r7, r8⟩ := ih u t a g1 h
      rw [g2] at r2 r8
      refine ⟨r1, r2, r3, r4, r5, r6, r7, ?_⟩
      intro o ho
      refine ⟨(r8 o ho).1, ?_⟩
      intro x hx1 hx2
      rw [(r8 o ho).2 x hx1 hx2, g3 o ho x hx1 hx2]
    | some p =>
      simp only [] at h
      injection h with h
      subst h
      unfold tryUsed at h1
      cases hu : s.used with
      | nil =>
        rw [hu] at h1
        simp only [] at h1
        obtain ⟨_, _, h1⟩ := bind_ok h1
        obtain ⟨_, _, h1⟩ := bind_ok h1
        cases h1
      | cons b rest =>
        rw [hu] at h1
        simp only [] at h1
        obtain ⟨q, hq, h1⟩ := bind_ok h1
        injection h1 with h1
        cases q with
        | none => cases h1
        | some a' =>
          injection h1 with h1
          injection h1 with e1 e2
          subst e1 e2
          have hb := hi.ok b (by rw [hu]; simp)
          obtain ⟨t1, t2, t3, t4⟩ := tryBlock_some hb hal hq
          obtain ⟨p1, p2, p3⟩ := inv_place hi hu t1 t2 t3
          refine ⟨p1, rfl, t1, ?_, t4, ?_, p3, fun o ho => ⟨p2 o ho, fun x _ _ => rfl⟩⟩
          · have := hb.1
            unfold hdr at this
            omega
          · exact ⟨_, List.mem_cons_self .., t2, by show a' + nmemb * size1 ≤ b.fin; omega⟩

theorem calloc_ok {s t : Pool} {nmemb size1 align : Nat} {sys : Nat → Nat} {r : Option Nat} (hi : Inv s)
    (hal : align < W) (h : calloc s nmemb size1 align sys = .ok (r, t)) :
    (nmemb = 0 → r = none ∧ t = s) ∧
    (nmemb ≠ 0 → ∃ a, r = some a ∧ Res s t a (nmemb * size1) align) := by
  unfold calloc at h
  obtain ⟨_, _, h⟩ := bind_ok h
  split at h
  · rename_i h0
    injection h with h
    injection h with e1 e2
    exact ⟨fun _ => ⟨e1.symm, e2.symm⟩, fun hc => absurd h0 hc⟩
  · rename_i h0
    obtain ⟨p, hp, h⟩ := bind_ok h
    injection h with h
    injection h with e1 e2
    subst e1 e2
    exact ⟨fun hc => absurd hc h0, fun _ => ⟨p.1, rfl, callocLoop_ok hal 3 s p.2 p.1 hi hp⟩⟩

instance : Std.Symm Apart := ⟨fun _ _ h => Apart.symm h⟩

/-- a write into live objects keeps the invariant -/
theorem inv_mem {s : Pool} (h : Inv s) (mem : Nat → Nat)
    (hm : ∀ x, (∀ o ∈ s.live, ¬ (o.addr ≤ x ∧ x < o.addr + o.size)) → mem x = s.mem x) :
    Inv { s with mem := mem } := by
  refine ⟨h.bs, h.ok, h.apart, h.full, ?_, h.liveIn, h.liveApart⟩
  intro b hb x hx1 hx2
  show mem x = 0
  rw [hm x, h.zero b hb x hx1 hx2]
  intro o ho hc
  obtain ⟨g1, c, hcm, hc1, hc2⟩ := h.liveIn o ho
  have hcok := h.ok c (by simp [hcm])
  have hbok := h.ok b hb
  by_cases hbc : b = c
  · subst hbc; omega
  · have hap : Apart b c := by
      exact h.apart.forall hb (by simp [hcm]) hbc
    unfold Apart at hap
    omega

theorem inv_clear {s : Pool} (h : Inv s) : Inv (clear s) := by
  have key : ∀ (us fr : List Block) (mem : Nat → Nat),
      Inv ⟨s.blockSize, fr, us, mem, []⟩ →
      Inv ⟨s.blockSize, (clearLoop us fr mem).1, [], (clearLoop us fr mem).2, []⟩ := by
    intro us
    induction us with
    | nil => intro fr mem hi; exact hi
    | cons b us ih =>
      intro fr mem hi
      show Inv ⟨s.blockSize, (clearLoop us ((blockClear b mem).1 :: fr) (blockClear b mem).2).1, [],
        (clearLoop us ((blockClear b mem).1 :: fr) (blockClear b mem).2).2, []⟩
      apply ih
      obtain ⟨hbs, hok, hap, hfu, hz, hli, hla⟩ := hi
      simp only [] at hbs hok hap hfu hz hli hla
      have hb := hok b (by simp)
      have hperm : (us ++ b :: fr).Perm (b :: us ++ fr) := by
        rw [List.cons_append]; exact List.perm_middle
      unfold blockClear
      split
      · refine ⟨hbs, ?_, ?_, ?_, ?_, by simp, by simp⟩
        · intro c hc
          simp only [List.mem_append, List.mem_cons] at hc
          rcases hc with hc | rfl | hc
          · exact hok c (by simp [hc])
          · refine ⟨hb.1, ?_, Nat.le_refl _, hb.2.2.2⟩
            show b.base ≤ b.fin; omega
          · exact hok c (by simp [hc])
        · have hp2 : (us ++ b :: fr).Pairwise Apart := (hperm.pairwise_iff (fun h => Apart.symm h)).2 hap
          rw [List.pairwise_append, List.pairwise_cons] at hp2 ⊢
          refine ⟨hp2.1, ⟨fun c hc => hp2.2.1.1 c hc, hp2.2.1.2⟩, ?_⟩
          intro c hc d hd
          rcases List.mem_cons.1 hd with rfl | hd
          · exact hp2.2.2 c hc b (by simp)
          · exact hp2.2.2 c hc d (by simp [hd])
        · intro c hc
          rcases List.mem_cons.1 hc with rfl | hc
          · rfl
          · exact hfu c hc
        · intro c hc x hx1 hx2
          show zeroMem mem b.base b.heapSize x = 0
          unfold zeroMem
          split
          · rfl
          · rename_i hno
            simp only [List.mem_append, List.mem_cons] at hc
            rcases hc with hc | rfl | hc
            · exact hz c (by simp [hc]) x hx1 hx2
            · exfalso
              apply hno
              simp only [] at hx1 hx2
              unfold Block.fin at hx2
              exact ⟨hx1, hx2⟩
            · exact hz c (by simp [hc]) x hx1 hx2
      · rename_i hfull
        have hfull' : b.brk = b.fin := by
          by_contra hc
          exact hfull hc
        refine ⟨hbs, fun c hc => hok c (hperm.mem_iff.1 hc), (hperm.pairwise_iff (fun h => Apart.symm h)).2 hap, ?_,
          fun c hc => hz c (hperm.mem_iff.1 hc), by simp, by simp⟩
        intro c hc
        rcases List.mem_cons.1 hc with rfl | hc
        · exact hfull'
        · exact hfu c hc
  exact key s.used s.free s.mem ⟨h.bs, h.ok, h.apart, h.full, h.zero, by simp, by simp⟩

theorem poolAlign_lt (b : Nat) : (sizeAlign (BitVec.ofNat 64 b ||| 16)).toNat < W := BitVec.isLt _

theorem inv_remalloc {s t : Pool} {p ao an b : Nat} {sys : Nat → Nat} {r : Option Nat} (hi : Inv s)
    (h : poolRemalloc s p ao an b sys = .ok (r, t)) : Inv t := by
  unfold poolRemalloc at h
  split at h
  · injection h with h; injection h with _ h; subst h; exact hi
  · rename_i hn
    obtain ⟨q, hq, h⟩ := bind_ok h
    obtain ⟨_, g2⟩ := calloc_ok (t := q.2) (r := q.1) hi (poolAlign_lt b) hq
    obtain ⟨a, ea, g⟩ := g2 (by omega)
    rw [ea] at h
    simp only [] at h
    injection h with h
    injection h with _ h
    subst h
    apply inv_mem g.1
    intro x hx
    unfold copyMem
    rw [if_neg]
    intro hc
    have := hx ⟨a, an * b⟩ (by rw [g.2.1]; simp)
    have hle : ao * b ≤ an * b := Nat.mul_le_mul_right b (by omega)
    simp only [] at this
    omega

theorem inv_recalloc {s t : Pool} {p ao an b : Nat} {sys : Nat → Nat} {r : Option Nat} (hi : Inv s)
    (h : poolRecalloc s p ao an b sys = .ok (r, t)) : Inv t := by
  unfold poolRecalloc at h
  split at h
  · injection h with h; injection h with _ h; subst h; exact hi
  · rename_i hn
    obtain ⟨q, hq, h⟩ := bind_ok h
    obtain ⟨_, g2⟩ := calloc_ok (t := q.2) (r := q.1) hi (poolAlign_lt b) hq
    obtain ⟨a, ea, g⟩ := g2 (by omega)
    rw [ea] at h
    simp only [] at h
    injection h with h
    injection h with _ h
    subst h
    apply inv_mem g.1
    intro x hx
    have := hx ⟨a, an * b⟩ (by rw [g.2.1]; simp)
    have hle : ao * b ≤ an * b := Nat.mul_le_mul_right b (by omega)
    simp only [] at this
    unfold zeroMem copyMem
    rw [if_neg (by omega), if_neg (by omega)]

theorem reach_inv {s : Pool} (h : Reach s) : Inv s := by
  induction h with
  | init bs mem hb => exact ⟨hb, by simp [init], by simp [init], by simp [init], by simp [init], by simp [init], by simp [init]⟩
  | @calloc s t nmemb size1 align sys r _ hc hal ih =>
    obtain ⟨h1, h2⟩ := calloc_ok ih hal hc
    by_cases h0 : nmemb = 0
    · rw [(h1 h0).2]; exact ih
    · obtain ⟨a, _, g⟩ := h2 h0
      exact g.1
  | remalloc _ hc _ ih => exact inv_remalloc ih hc
  | recalloc _ hc _ ih => exact inv_recalloc ih hc
  | write _ hw ih =>
    unfold write at hw
    obtain ⟨_, h1, hw⟩ := bind_ok hw
    obtain ⟨o, ho, h1⟩ := req_inv h1
    injection hw with hw
    subst hw
    apply inv_mem ih
    intro y hy
    rw [if_neg]
    intro e
    subst e
    exact hy o ho h1
  | clear _ ih => exact inv_clear ih
  | fini _ ih => exact ⟨ih.bs, by simp [fini], by simp [fini], by simp [fini], by simp [fini], by simp [fini], by simp [fini]⟩

/-- adding a block does not fail an assertion; the new block has room for the request -/
theorem addBlock_total {s : Pool} {sys nmemb size1 align : Nat} (hi : Inv s) (hbs : s.blockSize ≤ 2 ^ 63) (h1 : 0 < size1)
    (hs : 10 * (nmemb * size1) ≤ 2 ^ 62) (hal : align ≤ 2048) :
    addBlock s sys nmemb size1 = .error .env ∨
    ∃ t b rest, addBlock s sys nmemb size1 = .ok t ∧ t.used = b :: rest ∧ Inv t ∧ t.blockSize ≤ 2 ^ 63 ∧
      nmemb * size1 + align ≤ b.brk - b.base := by
  obtain ⟨r, g1, g2, g3, g4⟩ := growSize_ok nmemb size1 h1 hs 65 (if s.blockSize = 0 then defaultSize else s.blockSize)
    (by unfold defaultSize; split <;> omega) (by unfold defaultSize; split <;> omega)
    (by
      have : 1 ≤ (if s.blockSize = 0 then defaultSize else s.blockSize) := by unfold defaultSize; split <;> omega
      calc W ≤ 1 * 2 ^ 65 := by unfold W; omega
        _ ≤ _ := Nat.mul_le_mul_right _ this)
  have hr0 : r > 0 := by
    have : 1 ≤ (if s.blockSize = 0 then defaultSize else s.blockSize) := by unfold defaultSize; split <;> omega
    omega
  obtain ⟨q, a1, a2, a3, c, a4⟩ := alignSize_ok r (by unfold W; omega)
  have hq63 : q ≤ 2 ^ 63 := by omega
  have hq4 : 4096 ≤ q := by omega
  have e : addBlock s sys nmemb size1 = blockNext { s with blockSize := q } sys := by
    simp only [addBlock, g1, ok_bind, chk_ok hr0, a1]
  have hi' : Inv { s with blockSize := q } := hi.setSize (by unfold W; omega)
  have hne : blockNext { s with blockSize := q } sys ≠ .error .assert := by
    unfold blockNext
    split
    · intro hc; cases hc
    · simp only [req]
      split
      · split
        · rw [chk_ok (by show q > hdr; unfold hdr; omega)]
          intro hc; cases hc
        · intro hc; cases hc
      · intro hc; cases hc
  rw [e]
  cases hn : blockNext { s with blockSize := q } sys with
  | error er =>
    cases er with
    | assert => exact absurd hn hne
    | env => exact .inl rfl
  | ok t =>
    right
    obtain ⟨b1, b2, b3, b, rest, b4, b5, b6⟩ := blockNext_ok hi' hn
    refine ⟨t, b, rest, rfl, b4, b1, ?_, ?_⟩
    · have : t.blockSize = q := by
        unfold blockNext at hn
        split at hn
        · injection hn with hn; rw [← hn]
        · obtain ⟨_, _, hn⟩ := bind_ok hn
          obtain ⟨_, _, hn⟩ := bind_ok hn
          obtain ⟨_, _, hn⟩ := bind_ok hn
          injection hn with hn; rw [← hn]
      omega
    · have hm : (q + W - hdr) % W = q - hdr := by
        rw [show q + W - hdr = W + (q - hdr) by unfold hdr; omega, Nat.add_mod_left]
        apply Nat.mod_eq_of_lt
        unfold W; omega
      simp only [hm] at b6
      rw [b5]
      unfold Block.fin
      unfold hdr at b6
      omega

theorem tryUsed_total {s : Pool} {nmemb size1 align : Nat} (hi : Inv s) (hbs : s.blockSize ≤ 2 ^ 63)
    (hp : ∃ k, align = 2 ^ k) (hal : align < W) (h1 : 0 < size1) (h2 : 0 < nmemb) :
    (∃ r, tryUsed s nmemb size1 align = .ok r ∧ ∀ p, r = some p → p.2.blockSize ≤ 2 ^ 63) ∧
    (∀ b rest, s.used = b :: rest → nmemb * size1 + align ≤ b.brk - b.base →
      ∃ p, tryUsed s nmemb size1 align = .ok (some p) ∧ p.2.blockSize ≤ 2 ^ 63) := by
  unfold tryUsed
  cases hu : s.used with
  | nil =>
    refine ⟨⟨none, ?_, by intro p hp; cases hp⟩, ?_⟩
    · simp only []
      rw [chk_ok h1, chk_ok h2]
      rfl
    · intro b rest hc; cases hc
  | cons b rest =>
    have hb := hi.ok b (by rw [hu]; simp)
    have hz := hi.zero b (by rw [hu]; simp)
    obtain ⟨⟨r, t1⟩, t2⟩ := tryBlock_total (mem := s.mem) hb hz hal hp h1 h2
    constructor
    · simp only [t1]
      refine ⟨_, rfl, ?_⟩
      intro p hp
      cases r with
      | none => cases hp
      | some a => injection hp with hp; subst hp; exact hbs
    · intro c rest' hc hsp
      injection hc with e1 e2
      subst e1 e2
      obtain ⟨a, ha⟩ := t2 hsp
      simp only [ha]
      exact ⟨_, rfl, hbs⟩

theorem calloc_total {s : Pool} {nmemb size1 align : Nat} {sys : Nat → Nat} (hi : Inv s) (hbs : s.blockSize ≤ 2 ^ 63)
    (h1 : 0 < size1) (hs : 10 * (nmemb * size1) ≤ 2 ^ 62) (hp : ∃ k, align = 2 ^ k) (hal : align ≤ 2048) :
    calloc s nmemb size1 align sys = .error .env ∨
    ∃ r t, calloc s nmemb size1 align sys = .ok (r, t) ∧ t.blockSize ≤ 2 ^ 63 := by
  have halW : align < W := by unfold W; omega
  unfold calloc
  rw [chk_ok (by omega)]
  show (if nmemb = 0 then _ else _) = _ ∨ ∃ r t, (if nmemb = 0 then _ else _) = _ ∧ _
  by_cases h0 : nmemb = 0
  · rw [if_pos h0]
    exact .inr ⟨_, _, rfl, hbs⟩
  · rw [if_neg h0]
    have loop : callocLoop nmemb size1 align sys 3 s = .error .env ∨
        ∃ p, callocLoop nmemb size1 align sys 3 s = .ok p ∧ p.2.blockSize ≤ 2 ^ 63 := by
      rw [callocLoop]
      obtain ⟨⟨r, hr, hr2⟩, _⟩ := tryUsed_total hi hbs hp halW h1 (by omega : 0 < nmemb)
      rw [hr]
      cases r with
      | some p => exact .inr ⟨p, rfl, hr2 p rfl⟩
      | none =>
        show (addBlock s (sys 2) nmemb size1 >>= _) = _ ∨ ∃ p, (addBlock s (sys 2) nmemb size1 >>= _) = _ ∧ _
        rcases addBlock_total (sys := sys 2) hi hbs h1 hs hal with he | ⟨t, b, rest, ht, hu, hit, hbt, hsp⟩
        · rw [he]; exact .inl rfl
        · rw [ht]
          show callocLoop nmemb size1 align sys 2 t = _ ∨ ∃ p, callocLoop nmemb size1 align sys 2 t = _ ∧ _
          obtain ⟨p, hp1, hp2⟩ := (tryUsed_total hit hbt hp halW h1 (by omega : 0 < nmemb)).2 b rest hu hsp
          rw [callocLoop, hp1]
          exact .inr ⟨p, rfl, hp2⟩
    rcases loop with he | ⟨p, hp1, hp2⟩
    · rw [he]; exact .inl rfl
    · rw [hp1]
      exact .inr ⟨_, _, rfl, hp2⟩

end Hob3l.Pool
