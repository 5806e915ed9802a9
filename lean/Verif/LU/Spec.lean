import Verif.LU.Model

/-! What a client of `LUSolver` may expect, without any ownership: a solver is empty or holds the factors of one matrix. -/

namespace Blitzdg.LU

/-- The abstract state of a solver object. -/
inductive Spec where
  /-- nothing to solve with -/
  | empty
  /-- the last `factorize` met a singular matrix of the given order -/
  | singular (m order : Nat)
  /-- the last `factorize` (of a square matrix) succeeded on matrix `m` -/
  | ready (m order : Nat)
deriving DecidableEq, Repr

/-- The abstract program state: the solver objects and the destroyed matrices. -/
structure SpecWorld where
  solvers : List (Option Spec)
  dead : List Nat
deriving DecidableEq, Repr

/-- State after a `factorize` of a square matrix. -/
def Spec.after (m order : Nat) : Lib → Spec
  | .good => .ready m order
  | .numSingular => .singular m order
  | _ => .empty

/-- What `solve` does: it throws without factors or with short vectors; it must not be called when the factorised matrix is
gone; it returns the solution of the system with the last successfully factorised matrix. -/
def Spec.solve (dead : List Nat) (a b : Nat) (ok : Bool) : Spec → Out Res
  | .empty => .ok .threw
  | .singular m n => if a < n ∨ b < n then .ok .threw else if m ∈ dead then .ub else .ok .threwDirty
  | .ready m n =>
    if a < n ∨ b < n then .ok .threw else if m ∈ dead then .ub else if ok then .ok (.solved m) else .ok .threwDirty

/-- One step of a program without copies. -/
def specStep (dims : Nat → Nat × Nat) (w : SpecWorld) : Op → Out (SpecWorld × Res)
  | .create => .ok ({ w with solvers := w.solvers ++ [some .empty] }, .done)
  | .copy _ => .ok (w, .done)
  | .factorize i m lib =>
    match w.solvers[i]? with
    | some (some _) =>
      if m ∈ w.dead then .ub
      else if (dims m).1 = (dims m).2 then
        .ok ({ w with solvers := w.solvers.set i (some (.after m (dims m).1 lib)) }, if lib = .good then .done else .threw)
      else .ok (w, .threw)
    | _ => .ok (w, .done)
  | .solve i a b ok =>
    match w.solvers[i]? with
    | some (some s) => do
      let r ← s.solve w.dead a b ok
      pure (w, r)
    | _ => .ok (w, .done)
  | .destroy i =>
    match w.solvers[i]? with
    | some (some _) => .ok ({ w with solvers := w.solvers.set i none }, .done)
    | _ => .ok (w, .done)
  | .dropMat m => .ok ({ w with dead := m :: w.dead }, .done)

/-- A whole program. -/
def specRun (dims : Nat → Nat × Nat) : SpecWorld → List Op → Out (SpecWorld × List Res)
  | w, [] => .ok (w, [])
  | w, o :: os => do
    let (w, r) ← specStep dims w o
    let (w, rs) ← specRun dims w os
    pure (w, r :: rs)

/-- What the client sees of a run. -/
def seen {ω : Type} : Out (ω × List Res) → Out (List Res)
  | .ok (_, rs) => .ok rs
  | .throws => .throws
  | .ub => .ub

/-- A program without copies of solver objects. -/
def NoCopy (os : List Op) : Prop := ∀ i, Op.copy i ∉ os

end Blitzdg.LU
