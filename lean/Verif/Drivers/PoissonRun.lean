import Verif.Drivers.AdvecRun
import Verif.Drivers.Poisson1D
import Verif.Drivers.Poisson2D
import Verif.Gmres.Model
import Verif.Output.Print
import Mathlib.Analysis.InnerProductSpace.PiL2

/-!
Models of the programs src/poisson1d/main.cpp and src/poisson2d/main.cpp: data, call of GMRES, files, closing lines.  The operators are those of Drivers/Poisson1D.lean and
Drivers/Poisson2D.lean, the solver that of Gmres/Model.lean.
-/

namespace Blitzdg.PoissonRun

open Blitzdg.Sparse (DMat)
open Blitzdg.Blitz (reshapeMatTo1D reshape1DToMat)
open Blitzdg.Gmres (Arith Params GOut Callback)
open Blitzdg.Drivers (Prov poisson1dOp poisson1dRhs maxAbs lin buildProv)
open Blitzdg.Nodes1D (Tables Lapack)

/-- Vectors of `n` numbers as GMRES sees them. -/
abbrev Vec (n : ℕ) := EuclideanSpace ℝ (Fin n)

/-- The entries of a vector. -/
noncomputable def entries {n : ℕ} (x : Vec n) : List ℝ := List.ofFn fun i => x i

/-- The vector with given entries. -/
noncomputable def vec (n : ℕ) (l : List ℝ) : Vec n := WithLp.toLp 2 fun i => l.getD i 0

/-- `PoissonOperator::operator()` as GMRES calls it: it returns true (src/poisson1d/Poisson1d.hpp line 136, src/poisson2d/Poisson2d.hpp line 166).  What it throws passes through `solve` to the
caller of it: the state keeps the exception, and the call counts as failed, which ends `solve`. -/
noncomputable def product {n : ℕ} (op : List ℝ → List ℝ → Out (List ℝ)) : Callback (Out Unit) (Vec n) := fun s v out =>
  match op (entries v) (entries out) with
  | .ok w => (true, vec n w, s)
  | .throws => (false, out, .throws)
  | .ub => (false, out, .ub)

/-- `Precon::operator()`. (src/poisson1d/Poisson1d.hpp lines 141-147, src/poisson2d/Poisson2d.hpp lines 171-177) -/
def copy {n : ℕ} : Callback (Out Unit) (Vec n) := fun s v _ => (true, v, s)

/-- The defaults of `GMRESParams`. (include/GMRESSolver.hpp lines 103-107) -/
noncomputable def defaults : Params ℝ where
  testTrue := true
  kspaceSz := 30
  maxits := 100
  relTol := 1e-6
  absTol := 1e-6
  divTol := 1e5
  stgTol := 1e-12

/-- The arithmetic of the solver and the contents of its arrays before they are written. -/
structure Solver (n : ℕ) where
  A : Arith ℝ (Vec n)
  w0 : Vec n
  pv0 : Vec n
  junk : ℕ → ℕ → Vec n

/-- `gmres.solve(op, Precon(), b, x, params)`: the result and the new contents of `x`. (src/poisson1d/main.cpp line 100, src/poisson2d/main.cpp line 98) -/
noncomputable def gmres {n : ℕ} (S : Solver n) (op : List ℝ → List ℝ → Out (List ℝ)) (params : Params ℝ) (b x : List ℝ) : Out (GOut ℝ × List ℝ) :=
  let R := Gmres.solve S.A (product op) copy n S.w0 S.pv0 S.junk params (vec n b) (vec n x) ⟨.ok (), []⟩
  match R.out with
  | none => .throws
  | some o => R.W.st >>= fun _ => .ok (o, entries R.x)

/-- What the one-dimensional program leaves: the result of the solver, which it does not look at, the files, and the error it prints. -/
structure Report1 where
  result : GOut ℝ
  files : List (Output.Str × DMat ℝ)
  err : ℝ

/-- src/poisson1d/main.cpp lines 54-112; `vec0`, `u0`: contents of `MMRHSVec` and `u` before they are written.  The arrays `RHS`, `MassMatrix` and the verbose lines of the solver are left out. -/
noncomputable def program1 (p : Prov) (S : Solver ((p.N + 1) * p.K)) (vec0 : List ℝ) (u0 : DMat ℝ) : Out Report1 := do
  let uexact := p.sample fun x => Real.sin (Real.pi * x)
  let RHSexact := p.sample fun x => -Real.pi * Real.pi * Real.sin (Real.pi * x)
  let b ← poisson1dRhs p RHSexact vec0
  let (o, out) ← gmres S (poisson1dOp p) defaults b (List.replicate ((p.N + 1) * p.K) 0)
  let u ← reshape1DToMat out u0 false
  pure ⟨o, [("x.dat".toList, p.t.x), ("u.dat".toList, u), ("uexact.dat".toList, uexact), ("RHS.dat".toList, RHSexact)], maxAbs (lin 1 u (-1) uexact)⟩

/-- The whole one-dimensional program. (src/poisson1d/main.cpp lines 35-112: order 4, 15 elements on [-1, 1]) -/
noncomputable def main1 (la : Lapack) (wrap : Bool) (eps tol : ℝ) (r0 : List ℝ) (Vinv0 : DMat ℝ) (t0 : Tables ℝ) (S : (n : ℕ) → Solver n) (vec0 : List ℝ) (u0 : DMat ℝ) : Out Report1 := do
  let p ← buildProv la wrap eps tol (-1) 1 4 15 r0 Vinv0 t0
  program1 p (S _) vec0 u0

/-- What the two-dimensional program leaves: the result of the solver, the text on the console, and the fields handed to the outputter, in the order of the map's keys, with their number. -/
structure Report2 where
  result : GOut ℝ
  console : Output.Str
  fields : List (Output.Str × DMat ℝ)
  number : ℕ

/-- A field at the nodes. (src/poisson2d/main.cpp lines 62-65) -/
noncomputable def sample2 (g : SW.Grid) (f : ℝ → ℝ → ℝ) : DMat ℝ := ⟨g.np, g.K, fun i k => f (SW.gridX (g.tri k) g.n i) (SW.gridY (g.tri k) g.n i)⟩

/-- src/poisson2d/main.cpp lines 58-116 after the grid is built; `num`: how real numbers are written; `vec0`, `out0`, `u0`: contents of `MMRHSVec`, `outVec`, `soln` before they are written.
The disclaimer is left out. -/
noncomputable def program2 (num : Print.Fmt → ℝ → Output.Str) (g : SW.Grid) (S : Solver (g.np * g.K)) (vec0 out0 : List ℝ) (u0 : DMat ℝ) : Out Report2 := do
  let uexact := sample2 g Poisson2D.uexact
  let rhs := sample2 g Poisson2D.rhs
  let b ← reshapeMatTo1D rhs vec0 false
  let x ← reshapeMatTo1D uexact out0 false
  let (o, out) ← gmres S (Poisson2D.op g) { defaults with maxits := 1500, relTol := 1e-4, kspaceSz := 300 } b x
  let u ← reshape1DToMat out u0 false
  pure ⟨o, (Print.poissonLines num ⟨.initial, []⟩ g.K o (Poisson2D.normMax u)).text, [("rhs".toList, rhs), ("u".toList, u), ("uexact".toList, uexact)], 0⟩

end Blitzdg.PoissonRun
