/-
Model of /repo/src/hob3lbase/list.c (circular doubly linked lists; the macros are expanded in
/repo/include/hob3lbase/list.h).

Nodes are numbers; the state holds the two link fields of every node.  Null pointers are not modelled (the assertions
exclude them).
-/

namespace Hob3l.Ring

/-- the fields `next` and `prev` of all nodes -/
structure St where
  nxt : Nat → Nat
  prv : Nat → Nat

def setNxt (s : St) (a b : Nat) : St := { s with nxt := fun x => if x = a then b else s.nxt x }
def setPrv (s : St) (a b : Nat) : St := { s with prv := fun x => if x = a then b else s.prv x }

/-- `cp_list_init` list.c:18-23 -/
def init (s : St) (x : Nat) : St :=
  let s := setNxt s x x
  setPrv s x x

/-- `cp_list_chain` list.c:40-50 -/
def chain (s : St) (p n : Nat) : St :=
  let pn := s.nxt p
  let np := s.prv n
  let s := setPrv s n p
  let s := setNxt s p n
  let s := setPrv s pn np
  setNxt s np pn

/-- `cp_list_remove` list.c:55-58 -/
def remove (s : St) (q : Nat) : St := chain s q q

/-- `cp_list_is_member` list.c:67-73 -/
def isMember (s : St) (n : Nat) : Bool := n != s.nxt n

/-- the loop `cp_list_each` include/hob3lbase/list.h:112-118: the nodes visited; the first argument bounds the number of
iterations -/
def eachLoop (s : St) (n : Nat) : Nat → Nat → Option (List Nat)
  | 0, _ => none
  | k + 1, i => if i = n then some [] else (eachLoop s n k (s.nxt i)).map (i :: ·)

def each (s : St) (n k : Nat) : Option (List Nat) := eachLoop s n k (s.nxt n)

/-- the loop `cp_list_each_rev` include/hob3lbase/list.h:131-137 -/
def eachRevLoop (s : St) (n : Nat) : Nat → Nat → Option (List Nat)
  | 0, _ => none
  | k + 1, i => if i = n then some [] else (eachRevLoop s n k (s.prv i)).map (i :: ·)

def eachRev (s : St) (n k : Nat) : Option (List Nat) := eachRevLoop s n k (s.prv n)

end Hob3l.Ring
