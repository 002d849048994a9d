import Verif.Pool.Model

/-
Specification of the arena allocator.
-/

namespace Hob3l.Pool

/-- two objects do not overlap -/
def ObjApart (a b : Obj) : Prop := a.addr + a.size ≤ b.addr ∨ b.addr + b.size ≤ a.addr

/-- the object lies inside of the memory the pool got from the system -/
def Owned (s : Pool) (o : Obj) : Prop := ∃ b ∈ s.used, b.base ≤ o.addr ∧ o.addr + o.size ≤ b.fin

/-- the bytes of an object are the same in two states -/
def SameBytes (s t : Pool) (o : Obj) : Prop := ∀ x, o.addr ≤ x → x < o.addr + o.size → t.mem x = s.mem x

/-- the states of a pool: any sequence of allocations, reallocations, writes into live objects, and resets that the
environment permits; the arguments of allocations only need to satisfy the assertions -/
inductive Reach : Pool → Prop
  | init (bs : Nat) (mem : Nat → Nat) : bs < W → Reach (init bs mem)
  | calloc {s t : Pool} {nmemb size1 align : Nat} {sys : Nat → Nat} {r : Option Nat} :
      Reach s → calloc s nmemb size1 align sys = .ok (r, t) → align < W → Reach t
  | remalloc {s t : Pool} {p ao an b : Nat} {sys : Nat → Nat} {r : Option Nat} :
      Reach s → poolRemalloc s p ao an b sys = .ok (r, t) → b < W → Reach t
  | recalloc {s t : Pool} {p ao an b : Nat} {sys : Nat → Nat} {r : Option Nat} :
      Reach s → poolRecalloc s p ao an b sys = .ok (r, t) → b < W → Reach t
  | write {s t : Pool} {x v : Nat} : Reach s → write s x v = .ok t → Reach t
  | clear {s : Pool} : Reach s → Reach (clear s)
  | fini {s : Pool} : Reach s → Reach (fini s)

end Hob3l.Pool
