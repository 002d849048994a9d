import Verif.Pool.Lemmas2

/-
C39: the arena allocator.
-/

namespace Hob3l.Pool

open Hob3l.Align

/-- Every allocation in every reachable state: no elements give a null pointer and change nothing; otherwise the returned
address is not null, aligned as requested, the object lies inside of memory owned by the pool, reads as zero, and is disjoint
from all live objects, whose bytes do not change. -/
theorem C39_calloc {s t : Pool} {nmemb size1 align : Nat} {sys : Nat → Nat} {r : Option Nat} (hs : Reach s)
    (hal : align < W) (h : calloc s nmemb size1 align sys = .ok (r, t)) :
    (nmemb = 0 → r = none ∧ t = s) ∧
    (nmemb ≠ 0 → ∃ a, r = some a ∧ t.live = ⟨a, nmemb * size1⟩ :: s.live ∧ 0 < a ∧ align ∣ a ∧
      Owned t ⟨a, nmemb * size1⟩ ∧ (∀ x, a ≤ x → x < a + nmemb * size1 → t.mem x = 0) ∧
      ∀ o ∈ s.live, ObjApart ⟨a, nmemb * size1⟩ o ∧ SameBytes s t o) := by
  obtain ⟨h1, h2⟩ := calloc_ok (reach_inv hs) hal h
  refine ⟨h1, fun h0 => ?_⟩
  obtain ⟨a, e, g1, g2, g3, g4, g5, g6, g7, g8⟩ := h2 h0
  exact ⟨a, e, g2, g4, g5, g6, g7, g8⟩

/-- the address and `live` of an allocation, for the examples -/
def show' (r : M (Option Nat × Pool)) : Option (Option Nat × List Obj) :=
  match r with
  | .ok p => some (p.1, p.2.live)
  | .error _ => none

example : show' (calloc (init 0 fun _ => 7) 3 20 16 (fun _ => 4096)) =
    some (some 1052608, [⟨1052608, 60⟩]) := by decide +kernel

/-- In every reachable state the live objects are not empty, owned by the pool and pairwise disjoint. -/
theorem C39_disjoint {s : Pool} (hs : Reach s) :
    s.live.Pairwise ObjApart ∧ ∀ o ∈ s.live, 0 < o.size ∧ Owned s o := by
  have hi := reach_inv hs
  refine ⟨hi.liveApart, ?_⟩
  intro o ho
  obtain ⟨h1, b, hb, h2, h3⟩ := hi.liveIn o ho
  have := hi.ok b (by simp [hb])
  exact ⟨h1, b, hb, by omega, h3⟩

/-- The allocator does not fail an assertion (and does not report to be broken), whatever the history, for alignments that
are powers of two up to 2048, requests of up to 2^58 bytes, and initial block sizes of at most 2^63.  The only other outcome
is that the environment violates its contract.  The bound on the block size holds afterwards, too. -/
theorem C39_never_dies {s : Pool} {nmemb size1 align : Nat} {sys : Nat → Nat} (hs : Reach s)
    (hbs : s.blockSize ≤ 2 ^ 63) (h1 : 0 < size1) (hsz : nmemb * size1 ≤ 2 ^ 58) (hp : ∃ k, align = 2 ^ k)
    (hal : align ≤ 2048) :
    calloc s nmemb size1 align sys = .error .env ∨
    ∃ r t, calloc s nmemb size1 align sys = .ok (r, t) ∧ t.blockSize ≤ 2 ^ 63 :=
  calloc_total (reach_inv hs) hbs h1 (by omega) hp hal

/-- Under the contract that the system allocator returns memory that is not in use and in the address space, the allocation
succeeds (for the first block of a pool). -/
theorem C39_succeeds {nmemb size1 align : Nat} {sys : Nat → Nat} {mem : Nat → Nat} (h1 : 0 < size1)
    (hsz : nmemb * size1 ≤ 2 ^ 16) (hp : ∃ k, align = 2 ^ k) (hal : align ≤ 2048) (hsys : sys 2 ≤ 2 ^ 63) :
    ∃ r t, calloc (init 0 mem) nmemb size1 align sys = .ok (r, t) := by
  rcases C39_never_dies (nmemb := nmemb) (sys := sys) (Reach.init 0 mem (by unfold W; omega)) (by show (0 : Nat) ≤ 2 ^ 63; omega) h1
    (by omega) hp hal with he | ⟨r, t, h, _⟩
  · exfalso
    unfold calloc at he
    rw [chk_ok (by omega)] at he
    change (if nmemb = 0 then _ else _) = _ at he
    by_cases h0 : nmemb = 0
    · rw [if_pos h0] at he; cases he
    · rw [if_neg h0] at he
      have hn : ¬ 10 * nmemb % W > defaultSize / size1 := by
        have : 10 * nmemb ≤ defaultSize / size1 := by
          rw [Nat.le_div_iff_mul_le h1, Nat.mul_assoc]
          unfold defaultSize
          omega
        have := Nat.mod_le (10 * nmemb) W
        omega
      have ha : alignSize defaultSize = .ok defaultSize := by decide
      have hb : addBlock (init 0 mem) (sys 2) nmemb size1 = .ok
          ⟨defaultSize, [], [newBlock (sys 2) defaultSize], zeroMem mem (sys 2) defaultSize, []⟩ := by
        have hg : growSize nmemb size1 65 defaultSize = .ok defaultSize := by
          rw [growSize, if_neg hn]
        have hd : (if (init 0 mem).blockSize = 0 then defaultSize else (init 0 mem).blockSize) = defaultSize := rfl
        have hc : chk (defaultSize > 0) = .ok () := chk_ok (by unfold defaultSize; omega)
        simp only [addBlock, hd, hg, ok_bind, hc, ha]
        have hr : sys 2 + defaultSize < W := by unfold W defaultSize; omega
        have hrq : req (sys 2 + defaultSize < W) = .ok () := by simp [req, hr]
        have hc2 : chk (defaultSize > hdr) = .ok () := chk_ok (by unfold defaultSize hdr; omega)
        simp only [blockNext, init, discard, hrq, ok_bind, hc2]
        rfl
      rw [callocLoop] at he
      have ht : tryUsed (init 0 mem) nmemb size1 align = .ok none := by
        simp only [tryUsed, init]
        rw [chk_ok h1, chk_ok (by omega : nmemb > 0)]
        rfl
      rw [ht, ok_bind] at he
      simp only [hb, ok_bind] at he
      -- the second attempt does not involve the environment
      have hi : Inv ⟨defaultSize, [], [newBlock (sys 2) defaultSize], zeroMem mem (sys 2) defaultSize, []⟩ :=
        (addBlock_ok (reach_inv (Reach.init 0 mem (by unfold W; omega))) hb).1
      obtain ⟨p, hp1, _⟩ := (tryUsed_total hi (by show defaultSize ≤ 2 ^ 63; unfold defaultSize; omega) hp
        (by unfold W; omega) h1 (by omega : 0 < nmemb)).2 _ _ rfl (by
          show nmemb * size1 + align ≤ sys 2 + defaultSize - (sys 2 + hdr)
          unfold defaultSize hdr; omega)
      rw [callocLoop, hp1] at he
      cases he
  · exact ⟨r, t, h⟩

/-- Through the generic allocation interface, objects of a type whose size is `b` and whose alignment is a power of two up to
16 (which divides the size) are aligned. -/
theorem C39_pool_calloc {s t : Pool} {a b j : Nat} {sys : Nat → Nat} {p : Nat} (hs : Reach s) (hb : b < W)
    (h : poolCalloc s a b sys = .ok (some p, t)) (hj : j ≤ 4) (hd : 2 ^ j ∣ b) : 2 ^ j ∣ p := by
  obtain ⟨h1, h2⟩ := calloc_ok (reach_inv hs) (poolAlign_lt b) h
  by_cases h0 : a = 0
  · have := (h1 h0).1; cases this
  · obtain ⟨q, e, g⟩ := h2 h0
    injection e with e
    subst e
    refine Nat.dvd_trans ?_ g.2.2.2.2.1
    have ev : (BitVec.ofNat 64 b ||| 16).toNat = b ||| 16 := by
      rw [BitVec.toNat_or, BitVec.toNat_ofNat, Nat.mod_eq_of_lt (show b < 2 ^ 64 from hb)]; rfl
    have hne : (BitVec.ofNat 64 b ||| 16) ≠ 0 := by
      intro hc
      have := congrArg BitVec.toNat hc
      rw [ev] at this
      have h16 : (b ||| 16).testBit 4 = true := by
        rw [Nat.testBit_or]
        have : Nat.testBit 16 4 = true := by decide
        rw [this]; simp
      rw [this] at h16
      revert h16
      decide
    obtain ⟨k, _, e2, _, e4⟩ := C40_size_align hne
    rw [e2]
    apply Nat.pow_dvd_pow
    by_contra hlt
    apply e4
    rw [ev]
    have hk : k + 1 ≤ j := by omega
    have d1 : 2 ^ (k + 1) ∣ b := Nat.dvd_trans (Nat.pow_dvd_pow 2 hk) hd
    have d2 : 2 ^ (k + 1) ∣ 16 := Nat.dvd_trans (Nat.pow_dvd_pow 2 hk) (Nat.pow_dvd_pow 2 hj)
    rw [Nat.dvd_iff_mod_eq_zero] at *
    rw [Nat.or_mod_two_pow, d1, d2]
    rfl

example : show' (poolCalloc (init 0 fun _ => 7) 3 24 (fun _ => 4096)) = some (some 1052600, [⟨1052600, 72⟩]) := by
  decide +kernel

/-- Reallocation through the generic interface keeps the bytes of the object, the rest reads as zero; all objects that were
live keep their bytes. -/
theorem C39_realloc {s t : Pool} {p ao an b : Nat} {sys : Nat → Nat} {r : Option Nat} (hs : Reach s)
    (hp : ao * b = 0 ∨ ∃ o ∈ s.live, o.addr ≤ p ∧ p + ao * b ≤ o.addr + o.size) (hn : ao < an)
    (h : poolRemalloc s p ao an b sys = .ok (r, t) ∨ poolRecalloc s p ao an b sys = .ok (r, t)) :
    ∃ q, r = some q ∧ t.live = ⟨q, an * b⟩ :: s.live ∧
      (∀ i, i < ao * b → t.mem (q + i) = s.mem (p + i)) ∧
      (∀ i, ao * b ≤ i → i < an * b → t.mem (q + i) = 0) ∧
      ∀ o ∈ s.live, ObjApart ⟨q, an * b⟩ o ∧ SameBytes s t o := by
  have hle : ao * b ≤ an * b := Nat.mul_le_mul_right b (by omega)
  have main : ∀ (mem : Nat → Nat) (u : Pool) (q : Nat), Res s u q (an * b) (sizeAlign (BitVec.ofNat 64 b ||| 16)).toNat →
      (∀ x, mem x = if q ≤ x ∧ x < q + ao * b then u.mem (p + (x - q)) else u.mem x) →
      (⟨u.blockSize, u.free, u.used, mem, u.live⟩ : Pool).live = ⟨q, an * b⟩ :: s.live ∧
      (∀ i, i < ao * b → mem (q + i) = s.mem (p + i)) ∧
      (∀ i, ao * b ≤ i → i < an * b → mem (q + i) = 0) ∧
      ∀ o ∈ s.live, ObjApart ⟨q, an * b⟩ o ∧ ∀ x, o.addr ≤ x → x < o.addr + o.size → mem x = s.mem x := by
    intro mem u q g hm
    obtain ⟨g1, g2, g3, g4, g5, g6, g7, g8⟩ := g
    refine ⟨g2, ?_, ?_, ?_⟩
    · intro i hi
      rw [hm, if_pos (by omega), show q + i - q = i by omega]
      rcases hp with hp | ⟨o, ho, h1, h2⟩
      · omega
      · exact (g8 o ho).2 (p + i) (by omega) (by omega)
    · intro i hi1 hi2
      rw [hm, if_neg (by omega)]
      exact g7 _ (by omega) (by omega)
    · intro o ho
      refine ⟨(g8 o ho).1, ?_⟩
      intro x hx1 hx2
      have hap := (g8 o ho).1
      unfold ObjApart at hap
      simp only [] at hap
      rw [hm, if_neg (by omega)]
      exact (g8 o ho).2 x hx1 hx2
  rcases h with h | h
  · unfold poolRemalloc at h
    rw [if_neg (by omega)] at h
    obtain ⟨c, hc, h⟩ := bind_ok h
    obtain ⟨_, g2⟩ := calloc_ok (t := c.2) (r := c.1) (reach_inv hs) (poolAlign_lt b) hc
    obtain ⟨q, e, g⟩ := g2 (by omega)
    rw [e] at h
    simp only [] at h
    injection h with h
    injection h with e1 e2
    subst e1 e2
    exact ⟨q, rfl, main _ c.2 q g (fun x => rfl)⟩
  · unfold poolRecalloc at h
    rw [if_neg (by omega)] at h
    obtain ⟨c, hc, h⟩ := bind_ok h
    obtain ⟨_, g2⟩ := calloc_ok (t := c.2) (r := c.1) (reach_inv hs) (poolAlign_lt b) hc
    obtain ⟨q, e, g⟩ := g2 (by omega)
    rw [e] at h
    simp only [] at h
    injection h with h
    injection h with e1 e2
    subst e1 e2
    refine ⟨q, rfl, main _ c.2 q g ?_⟩
    intro x
    unfold zeroMem copyMem
    by_cases hx : q + ao * b ≤ x ∧ x < q + ao * b + (an * b - ao * b)
    · rw [if_pos hx, if_neg (by omega)]
      exact (g.2.2.2.2.2.2.1 x (by omega) (by omega)).symm
    · rw [if_neg hx]

/-- allocating 2 bytes, writing 5 and 6, growing to 4 bytes -/
def exRealloc : M (List Nat) := do
  let r ← poolCalloc (init 0 fun _ => 7) 2 1 (fun _ => 4096)
  let s ← write r.2 1052670 5
  let s ← write s 1052671 6
  let r ← poolRemalloc s 1052670 2 4 1 (fun _ => 4096)
  .ok [r.1.getD 0, r.2.mem 1052666, r.2.mem 1052667, r.2.mem 1052668, r.2.mem 1052669]

def isOk (m : M (List Nat)) (L : List Nat) : Bool := match m with | .ok x => x == L | _ => false

example : isOk exRealloc [1052666, 5, 6, 0, 0] = true := by decide +kernel

/-- Resetting the pool drops all objects, keeps all blocks for reuse, and the memory of all of them is zero again. -/
theorem C39_clear {s : Pool} (hs : Reach s) :
    (clear s).live = [] ∧ (clear s).used = [] ∧
    (clear s).free.map (fun b => (b.base, b.heapSize)) =
      (s.used.reverse ++ s.free).map (fun b => (b.base, b.heapSize)) ∧
    ∀ b ∈ (clear s).free, b.brk = b.fin ∧ ∀ x, b.base ≤ x → x < b.fin → (clear s).mem x = 0 := by
  have hi := inv_clear (reach_inv hs)
  refine ⟨rfl, rfl, ?_, ?_⟩
  · have key : ∀ (us fr : List Block) (mem : Nat → Nat),
        (clearLoop us fr mem).1.map (fun b => (b.base, b.heapSize)) =
          (us.reverse ++ fr).map (fun b => (b.base, b.heapSize)) := by
      intro us
      induction us with
      | nil => intro fr mem; rfl
      | cons b us ih =>
        intro fr mem
        have e : ((blockClear b mem).1.base, (blockClear b mem).1.heapSize) = (b.base, b.heapSize) := by
          unfold blockClear
          split <;> rfl
        rw [clearLoop, ih]
        simp only [List.map_append, List.map_cons, List.reverse_cons, List.append_assoc, List.map_nil, List.cons_append,
          List.nil_append, e]
    exact key s.used s.free s.mem
  · intro b hb
    have hf := hi.full b hb
    refine ⟨hf, fun x h1 h2 => hi.zero b (by simp [hb]) x h1 (by omega)⟩

/-- The comment on the allocation function says that the alignment may be given as 0; this fails an assertion. -/
theorem C39_align0_wrong :
    (match calloc (init 0 fun _ => 0) 1 8 0 (fun _ => 4096) with | .error .assert => true | _ => false) = true := by
  decide +kernel

end Hob3l.Pool
