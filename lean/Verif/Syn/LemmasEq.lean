import Verif.Syn.Model
/-! # Deciding equality of syntax trees (for the examples) -/
namespace Hob3l.Syn

mutual

/-- Equality of values. -/
def Value.same : Value → Value → Bool
  | .id a, .id b => a == b
  | .int a, .int b => a == b
  | .float a, .float b => a == b
  | .str a, .str b => a == b
  | .range a b, .range c d => Value.same a c && Value.same b d
  | .range3 a b e, .range3 c d f => Value.same a c && Value.same b d && Value.same e f
  | .arr a, .arr b => Value.sames a b
  | _, _ => false

/-- Equality of lists of values. -/
def Value.sames : List Value → List Value → Bool
  | [], [] => true
  | a :: l, b :: m => Value.same a b && Value.sames l m
  | _, _ => false

end

mutual

theorem Value.eq_of_same : (a b : Value) → Value.same a b = true → a = b
  | .id a, b, h => by cases b <;> simp_all [Value.same]
  | .int a, b, h => by cases b <;> simp_all [Value.same]
  | .float a, b, h => by cases b <;> simp_all [Value.same]
  | .str a, b, h => by cases b <;> simp_all [Value.same]
  | .range a b, c, h => by
    cases c with
    | range c d =>
      simp only [Value.same, Bool.and_eq_true] at h
      rw [Value.eq_of_same a c h.1, Value.eq_of_same b d h.2]
    | _ => simp [Value.same] at h
  | .range3 a b e, c, h => by
    cases c with
    | range3 c d f =>
      simp only [Value.same, Bool.and_eq_true] at h
      rw [Value.eq_of_same a c h.1.1, Value.eq_of_same b d h.1.2, Value.eq_of_same e f h.2]
    | _ => simp [Value.same] at h
  | .arr a, c, h => by
    cases c with
    | arr c =>
      simp only [Value.same] at h
      rw [Value.eq_of_sames a c h]
    | _ => simp [Value.same] at h

theorem Value.eq_of_sames : (a b : List Value) → Value.sames a b = true → a = b
  | [], b, h => by cases b <;> simp_all [Value.sames]
  | a :: l, b, h => by
    cases b with
    | nil => simp [Value.sames] at h
    | cons b m =>
      simp only [Value.sames, Bool.and_eq_true] at h
      rw [Value.eq_of_same a b h.1, Value.eq_of_sames l m h.2]

end

/-- Equality of argument lists. -/
def sameArgs : List Arg → List Arg → Bool
  | [], [] => true
  | a :: l, b :: m => (a.key == b.key) && Value.same a.value b.value && sameArgs l m
  | _, _ => false

theorem eq_of_sameArgs : (a b : List Arg) → sameArgs a b = true → a = b
  | [], b, h => by cases b <;> simp_all [sameArgs]
  | ⟨k, v⟩ :: l, b, h => by
    cases b with
    | nil => simp [sameArgs] at h
    | cons b m =>
      obtain ⟨k', v'⟩ := b
      simp only [sameArgs, Bool.and_eq_true, beq_iff_eq] at h
      rw [h.1.1, Value.eq_of_same v v' h.1.2, eq_of_sameArgs l m h.2]

mutual

/-- Equality of items. -/
def Item.same : Item → Item → Bool
  | .mk f a b m, .mk f' a' b' m' => (f == f') && sameArgs a a' && Item.sames b b' && (m == m')

/-- Equality of lists of items. -/
def Item.sames : List Item → List Item → Bool
  | [], [] => true
  | a :: l, b :: m => Item.same a b && Item.sames l m
  | _, _ => false

end

mutual

theorem Item.eq_of_same : (a b : Item) → Item.same a b = true → a = b
  | .mk f a b m, .mk f' a' b' m', h => by
    simp only [Item.same, Bool.and_eq_true, beq_iff_eq] at h
    rw [h.1.1.1, eq_of_sameArgs a a' h.1.1.2, Item.eq_of_sames b b' h.1.2, h.2]

theorem Item.eq_of_sames : (a b : List Item) → Item.sames a b = true → a = b
  | [], b, h => by cases b <;> simp_all [Item.sames]
  | a :: l, b, h => by
    cases b with
    | nil => simp [Item.sames] at h
    | cons b m =>
      simp only [Item.sames, Bool.and_eq_true] at h
      rw [Item.eq_of_same a b h.1, Item.eq_of_sames l m h.2]

end

/-- Equality of statement lists. -/
def sameStmts : List Stmt → List Stmt → Bool
  | [], [] => true
  | .use a :: l, .use b :: m => (a == b) && sameStmts l m
  | .item a :: l, .item b :: m => Item.same a b && sameStmts l m
  | _, _ => false

theorem eq_of_sameStmts : (a b : List Stmt) → sameStmts a b = true → a = b
  | [], b, h => by cases b <;> simp_all [sameStmts]
  | .use a :: l, b, h => by
    cases b with
    | nil => simp [sameStmts] at h
    | cons b m =>
      cases b with
      | use b =>
        simp only [sameStmts, Bool.and_eq_true, beq_iff_eq] at h
        rw [h.1, eq_of_sameStmts l m h.2]
      | item b => simp [sameStmts] at h
  | .item a :: l, b, h => by
    cases b with
    | nil => simp [sameStmts] at h
    | cons b m =>
      cases b with
      | use b => simp [sameStmts] at h
      | item b =>
        simp only [sameStmts, Bool.and_eq_true] at h
        rw [Item.eq_of_same a b h.1, eq_of_sameStmts l m h.2]

/-- Equality of results. -/
def sameRes : Res (List Stmt) → Res (List Stmt) → Bool
  | .ok a, .ok b => sameStmts a b
  | .fail, .fail => true
  | .stuck, .stuck => true
  | _, _ => false

theorem eq_of_sameRes {a b : Res (List Stmt)} (h : sameRes a b = true) : a = b := by
  cases a <;> cases b <;> simp only [sameRes, Bool.false_eq_true] at h
  · rw [eq_of_sameStmts _ _ h]
  · rfl
  · rfl

end Hob3l.Syn
