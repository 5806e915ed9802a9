import Verif.Drivers.OneD
import Verif.Time.LSERK4
import Verif.Output.Model

/-!
Model of the whole program src/advec1d/main.cpp: set-up, time loop with the low-storage Runge-Kutta scheme, files, final error.  Exact arithmetic; the test for "not a number" never holds.
-/

namespace Blitzdg.Drivers

open Blitzdg.Sparse (DMat)
open Blitzdg.Nodes1D (Tables Lapack)
open Blitzdg.Time (rk4a rk4b numStages)

/-- A blitz expression `a*X + b*Y` assigned to an array of the shape of `X`. -/
def lin (a : ℝ) (X : DMat ℝ) (b : ℝ) (Y : DMat ℝ) : DMat ℝ where
  rows := X.rows
  cols := X.cols
  at' := fun i k => a * X.at' i k + b * Y.at' i k

/-- The body of the stage loop: right-hand side, residual, update. (src/advec1d/main.cpp lines 92-102; advec1d.py lines 80-88) -/
noncomputable def rkStage (rhs : DMat ℝ → Out (DMat ℝ)) (dt : ℝ) (s : DMat ℝ × DMat ℝ) (i : ℕ) : Out (DMat ℝ × DMat ℝ) := do
  let RHS ← rhs s.1
  let res := lin ((rk4a.getD i 0 : ℚ) : ℝ) s.2 dt RHS
  pure (lin 1 s.1 ((rk4b.getD i 0 : ℚ) : ℝ) res, res)

/-- The stage loop. (src/advec1d/main.cpp lines 92-102; advec1d.py lines 80-88) -/
noncomputable def rkStep (rhs : DMat ℝ → Out (DMat ℝ)) (dt : ℝ) (s : DMat ℝ × DMat ℝ) : Out (DMat ℝ × DMat ℝ) := (List.range numStages).foldlM (rkStage rhs dt) s

/-- The variables of the time loop and the files written so far, with their contents. (src/advec1d/main.cpp lines 42, 66-81) -/
structure AdvecState where
  u : DMat ℝ
  res : DMat ℝ
  t : ℝ
  count : ℕ
  files : List (Output.Str × DMat ℝ)

/-- One pass of the time loop. (src/advec1d/main.cpp lines 86-111) -/
noncomputable def advecBody (p : Prov) (c dt : ℝ) (s : AdvecState) : Out AdvecState := do
  let files := if s.count % 10 = 0 then s.files ++ [(Output.generateFileName ".dat".toList "u".toList s.count, s.u)] else s.files
  let (u, res) ← rkStep (advecRHS p c) dt (s.u, s.res)
  if maxAbs u > 1e8 then .throws else pure ⟨u, res, s.t + dt, s.count + 1, files⟩

/-- `while (t < finalTime)`, at most `fuel` passes (`none`: still running). (src/advec1d/main.cpp lines 86-111) -/
noncomputable def advecLoop (p : Prov) (c dt T : ℝ) : ℕ → AdvecState → Out (Option AdvecState)
  | 0, _ => .ok none
  | n + 1, s => if s.t < T then advecBody p c dt s >>= advecLoop p c dt T n else .ok (some s)

/-- What the program leaves behind: the printed error, the final time and the files. -/
structure AdvecReport where
  err : ℝ
  t : ℝ
  files : List (Output.Str × DMat ℝ)

/-- A function evaluated on the grid: `u = f(x(ii,jj))`. -/
noncomputable def Prov.sample (p : Prov) (f : ℝ → ℝ) : DMat ℝ where
  rows := p.N + 1
  cols := p.K
  at' := fun i k => f (p.t.x.at' i k)

/-- The program after the provisioner is built: step size, initial field `F(x)`, loop, error against `F(x - c t)`.  The program has `F(x) = exp(-10 x²)` and the numbers on lines 38-48.
(src/advec1d/main.cpp lines 59-120) -/
noncomputable def advecProgram (p : Prov) (c T CFL : ℝ) (F : ℝ → ℝ) (fuel : ℕ) : Out (Option AdvecReport) :=
  if p.N = 0 ∨ p.K = 0 then .ub else do
    let dx := p.t.x.at' 1 0 - p.t.x.at' 0 0
    let dt := CFL * dx / |c|
    let s ← advecLoop p c dt T fuel ⟨p.sample F, zeroMat (p.N + 1) p.K, 0, 0, [("x.dat".toList, p.t.x)]⟩
    pure (s.map fun s => ⟨maxAbs (lin 1 s.u (-1) (p.sample fun x => F (x - c * s.t))), s.t, s.files⟩)

/-- The whole program. (src/advec1d/main.cpp lines 35-122) -/
noncomputable def advecMain (la : Lapack) (wrap : Bool) (eps tol xmin xmax : ℝ) (N K : ℕ) (r0 : List ℝ) (Vinv0 : DMat ℝ) (t0 : Tables ℝ) (c T CFL : ℝ) (F : ℝ → ℝ) (fuel : ℕ) : Out (Option AdvecReport) := do
  let p ← buildProv la wrap eps tol xmin xmax N K r0 Vinv0 t0
  advecProgram p c T CFL F fuel

end Blitzdg.Drivers
