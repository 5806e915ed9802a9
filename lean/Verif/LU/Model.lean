import Verif.Basic

/-!
Model of `blitzdg::LUSolver` (include/LUSolver.hpp, src/LUSolver.cpp) as an ownership machine.

The objects UMFPACK hands out are numbered in the order of allocation; releasing one that is not live, or using a released
one, is undefined behaviour.  UMFPACK's documented contract: on failure `umfpack_di_symbolic` / `umfpack_di_numeric` store NULL; for a singular
matrix `umfpack_di_numeric` returns a warning *and* a valid object; `umfpack_di_solve` needs the matrix that was factorised and the live
numeric object, and returns a warning (having written the solution) when the factors are singular.  Which outcome occurs is an input of
the history.  Changing the entries of a matrix between `factorize` and `solve` is not modelled.
-/

namespace Blitzdg.LU

/-- A library object: a symbolic factorisation of matrix `m`, or a numeric one (with its singularity warning). -/
inductive Obj where
  | sym (m : Nat)
  | num (m : Nat) (singular : Bool)
deriving DecidableEq, Repr

/-- The library's heap: all objects ever handed out, and the released ones in order. -/
structure Heap where
  objs : List Obj
  freed : List Nat
deriving DecidableEq, Repr

/-- Allocation: the address and the new heap. -/
def Heap.alloc (h : Heap) (o : Obj) : Nat × Heap := (h.objs.length, { h with objs := h.objs ++ [o] })

/-- `umfpack_di_free_symbolic` / `umfpack_di_free_numeric`. -/
def Heap.free (h : Heap) (i : Nat) : Out Heap :=
  if i < h.objs.length ∧ i ∉ h.freed then .ok { h with freed := h.freed ++ [i] } else .ub

/-- Use of a library object. -/
def Heap.use (h : Heap) (i : Nat) : Out Obj := if i ∈ h.freed then .ub else rd h.objs i

/-- include/LUSolver.hpp lines 53-56: the data members; `mat` is the address (number) of the client's matrix. -/
structure Solver where
  order : Nat
  mat : Option Nat
  symbolic : Option Nat
  numeric : Option Nat
deriving DecidableEq, Repr

/-- include/LUSolver.hpp lines 27-30: the constructor. -/
def Solver.new : Solver := { order := 0, mat := none, symbolic := none, numeric := none }

/-- `if (p) free(&p)` (src/LUSolver.cpp lines 24-27, 28-31). -/
def freeOpt : Option Nat → Heap → Out Heap
  | none, h => .ok h
  | some i, h => h.free i

/-- src/LUSolver.cpp lines 23-32 `freeMem`. -/
def freeMem (h : Heap) (s : Solver) : Out (Heap × Solver) := do
  let h ← freeOpt s.symbolic h
  let h ← freeOpt s.numeric h
  pure (h, { s with symbolic := none, numeric := none })

/-- What the library does in one `factorize`. -/
inductive Lib where
  | symFail
  | numFail
  | numSingular
  | good
deriving DecidableEq, Repr

/-- What a client observes of a call: it returned, it threw with its outputs unmodified, it threw after writing to its outputs,
or `solve` returned the solution of the system with matrix `m`. -/
inductive Res where
  | done
  | threw
  | threwDirty
  | solved (m : Nat)
deriving DecidableEq, Repr

/-- src/LUSolver.cpp lines 40-46: `factorize` after the existing factors were released. -/
def factorizeFresh (h : Heap) (s : Solver) (m : Nat) : Lib → Out (Heap × Solver × Res)
  | .symFail => .ok (h, s, .threw)
  | .numFail => do
    let (i, h) := h.alloc (.sym m)
    let _ ← h.use i
    pure (h, { s with symbolic := some i }, .threw)
  | .numSingular => do
    let (i, h) := h.alloc (.sym m)
    let _ ← h.use i
    let (j, h) := h.alloc (.num m true)
    pure (h, { s with symbolic := some i, numeric := some j }, .threw)
  | .good => do
    let (i, h) := h.alloc (.sym m)
    let _ ← h.use i
    let (j, h) := h.alloc (.num m false)
    let h ← h.free i
    pure (h, { s with symbolic := none, numeric := some j }, .done)

/-- src/LUSolver.cpp lines 34-47 `factorize(mat)`; `dims m` are the dimensions of matrix `m`. -/
def factorize (dims : Nat → Nat × Nat) (h : Heap) (s : Solver) (m : Nat) (lib : Lib) : Out (Heap × Solver × Res) :=
  if (dims m).1 ≠ (dims m).2 then .ok (h, s, .threw)
  else do
    let (h, s) ← freeMem h { s with order := (dims m).1, mat := some m }
    factorizeFresh h s m lib

/-- `umfpack_di_solve` with matrix `m` and numeric object `o`; `ok` tells whether the call succeeds with nonsingular factors. -/
def umfSolve (m : Nat) (ok : Bool) : Obj → Out Res
  | .num m' singular => if m' ≠ m then .ub else if singular || !ok then .ok .threwDirty else .ok (.solved m)
  | .sym _ => .ub

/-- src/LUSolver.cpp lines 49-60 `solve(rhs, soln)`; `dead` are the matrices the client has destroyed. -/
def solve (dead : List Nat) (h : Heap) (s : Solver) (rhsLen solnLen : Nat) (ok : Bool) : Out Res :=
  match s.numeric, s.mat with
  | some j, some m =>
    if rhsLen < s.order then .ok .threw
    else if solnLen < s.order then .ok .threw
    else if m ∈ dead then .ub
    else do
      let o ← h.use j
      umfSolve m ok o
  | _, _ => .ok .threw

/-- The steps of a client program with any number of solver objects (numbered in the order of construction). -/
inductive Op where
  | create
  | copy (i : Nat)
  | factorize (i m : Nat) (lib : Lib)
  | solve (i rhsLen solnLen : Nat) (ok : Bool)
  | destroy (i : Nat)
  | dropMat (m : Nat)
deriving DecidableEq, Repr

/-- The program state: solver objects (`none`: destroyed), library heap, destroyed matrices. -/
structure World where
  solvers : List (Option Solver)
  heap : Heap
  dead : List Nat
deriving DecidableEq, Repr

/-- The state at program start. -/
def World.init : World := { solvers := [], heap := { objs := [], freed := [] }, dead := [] }

/-- One step.  `copy` is the implicitly declared copy constructor (include/LUSolver.hpp declares none): it copies the four members.  `destroy` is
include/LUSolver.hpp lines 49-51.  Steps that name an object that does not exist are not programs; they are skipped.  Passing a destroyed matrix to
`factorize` is undefined. -/
def step (dims : Nat → Nat × Nat) (w : World) : Op → Out (World × Res)
  | .create => .ok ({ w with solvers := w.solvers ++ [some Solver.new] }, .done)
  | .copy i =>
    match w.solvers[i]? with
    | some (some s) => .ok ({ w with solvers := w.solvers ++ [some s] }, .done)
    | _ => .ok (w, .done)
  | .factorize i m lib =>
    match w.solvers[i]? with
    | some (some s) =>
      if m ∈ w.dead then .ub
      else do
        let (h, s, r) ← factorize dims w.heap s m lib
        pure ({ w with solvers := w.solvers.set i (some s), heap := h }, r)
    | _ => .ok (w, .done)
  | .solve i a b ok =>
    match w.solvers[i]? with
    | some (some s) => do
      let r ← solve w.dead w.heap s a b ok
      pure (w, r)
    | _ => .ok (w, .done)
  | .destroy i =>
    match w.solvers[i]? with
    | some (some s) => do
      let (h, _) ← freeMem w.heap s
      pure ({ w with solvers := w.solvers.set i none, heap := h }, .done)
    | _ => .ok (w, .done)
  | .dropMat m => .ok ({ w with dead := m :: w.dead }, .done)

/-- A whole program: the final state and what each call did. -/
def run (dims : Nat → Nat × Nat) : World → List Op → Out (World × List Res)
  | w, [] => .ok (w, [])
  | w, o :: os => do
    let (w, r) ← step dims w o
    let (w, rs) ← run dims w os
    pure (w, r :: rs)

end Blitzdg.LU
