/-!
Shared vocabulary of the models.

`Out` is the outcome of a modelled call: a value, a C++ exception, or undefined behaviour
(out-of-bounds access, use of an invalid handle, ...).  `ub` is never identified with any value, so
"the code has no undefined behaviour on this input" is a statement about the model.
-/

namespace Blitzdg

inductive Out (α : Type) where
  | ok (a : α)
  | throws
  | ub
deriving DecidableEq, Repr

namespace Out

def bind {α β : Type} : Out α → (α → Out β) → Out β
  | ok a, f => f a
  | throws, _ => throws
  | ub, _ => ub

instance : Monad Out where
  pure := ok
  bind := bind

@[simp] theorem bind_ok {α β : Type} (a : α) (f : α → Out β) : (Out.ok a >>= f) = f a := rfl
@[simp] theorem bind_throws {α β : Type} (f : α → Out β) : ((Out.throws : Out α) >>= f) = Out.throws := rfl
@[simp] theorem bind_ub {α β : Type} (f : α → Out β) : ((Out.ub : Out α) >>= f) = Out.ub := rfl
@[simp] theorem pure_eq {α : Type} (a : α) : (pure a : Out α) = Out.ok a := rfl

theorem bind_eq_ok {α β : Type} {x : Out α} {f : α → Out β} {b : β} :
    (x >>= f) = Out.ok b ↔ ∃ a, x = Out.ok a ∧ f a = Out.ok b := by
  cases x <;> simp

end Out

/-- Bounds-checked array read (`v[k]` in C++): out of range is undefined behaviour. -/
def rd {α : Type} (l : List α) (k : Nat) : Out α :=
  match l[k]? with
  | some a => .ok a
  | none => .ub

/-- Bounds-checked array write (`v[k] = a` in C++): out of range is undefined behaviour. -/
def wr {α : Type} (l : List α) (k : Nat) (a : α) : Out (List α) :=
  if k < l.length then .ok (l.set k a) else .ub

@[simp] theorem rd_of_lt {α : Type} {l : List α} {k : Nat} (h : k < l.length) : rd l k = .ok l[k] := by
  simp [rd, h]

@[simp] theorem wr_of_lt {α : Type} {l : List α} {k : Nat} (h : k < l.length) (a : α) :
    wr l k a = .ok (l.set k a) := by
  simp [wr, h]

theorem rd_eq_ok {α : Type} {l : List α} {k : Nat} {a : α} : rd l k = .ok a ↔ l[k]? = some a := by
  unfold rd
  cases l[k]? <;> simp

theorem wr_eq_ok {α : Type} {l l' : List α} {k : Nat} {a : α} :
    wr l k a = .ok l' ↔ k < l.length ∧ l' = l.set k a := by
  unfold wr
  by_cases h : k < l.length <;> simp [h, eq_comm]

/-- Sequential loop `for (x : l) s = f(s, x)` whose body may throw or be undefined. -/
def loopM {σ β : Type} (f : σ → β → Out σ) : σ → List β → Out σ
  | s, [] => .ok s
  | s, x :: xs => f s x >>= fun s' => loopM f s' xs

@[simp] theorem loopM_nil {σ β : Type} (f : σ → β → Out σ) (s : σ) : loopM f s [] = .ok s := rfl
@[simp] theorem loopM_cons {σ β : Type} (f : σ → β → Out σ) (s : σ) (x : β) (xs : List β) :
    loopM f s (x :: xs) = (f s x >>= fun s' => loopM f s' xs) := rfl

theorem loopM_append {σ β : Type} (f : σ → β → Out σ) (s : σ) (xs ys : List β) :
    loopM f s (xs ++ ys) = (loopM f s xs >>= fun s' => loopM f s' ys) := by
  induction xs generalizing s with
  | nil => simp
  | cons x xs ih =>
    simp only [List.cons_append, loopM_cons]
    cases h : f s x <;> simp [ih]

/-- `std::numeric_limits<int>::max()`; `index_type` is `int` (include/Types.hpp). -/
def intMax : Nat := 2147483647

end Blitzdg
