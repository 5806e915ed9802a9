import Verif.Drivers.PoissonRun
import Verif.Gmres.Verbose

/-!
The console of src/poisson1d/main.cpp: the program asks GMRES for its convergence history and prints the error after it.
-/

namespace Blitzdg.PoissonRun

open Blitzdg.Sparse (DMat)
open Blitzdg.Blitz (reshapeMatTo1D reshape1DToMat)
open Blitzdg.Gmres (Params GOut Screen)
open Blitzdg.Drivers (Prov poisson1dOp poisson1dRhs maxAbs lin)

/-- `gmres.solve(op, Precon(), b, x, params)` with `params.verbose` set to `verbose`: the console, the result and the new contents of `x`. (src/poisson1d/main.cpp lines 94-100) -/
noncomputable def gmresV {n : ℕ} (S : Solver n) (op : List ℝ → List ℝ → Out (List ℝ)) (params : Params ℝ) (verbose : Bool) (b x : List ℝ) (scr : Screen ℝ) : Out (Screen ℝ × GOut ℝ × List ℝ) :=
  let R := Gmres.solveV S.A (product op) copy n S.w0 S.pv0 S.junk params verbose (vec n b) (vec n x) ⟨.ok (), []⟩ scr
  match R.2.out with
  | none => .throws
  | some o => R.2.W.st >>= fun _ => .ok (R.1, o, entries R.2.x)

/-- src/poisson1d/main.cpp lines 54-112 with the console from line 94 on (`scr`: the console after the disclaimer); otherwise as `program1`. -/
noncomputable def program1V (p : Prov) (S : Solver ((p.N + 1) * p.K)) (vec0 : List ℝ) (u0 : DMat ℝ) (scr : Screen ℝ) : Out (Screen ℝ × Report1) := do
  let uexact := p.sample fun x => Real.sin (Real.pi * x)
  let RHSexact := p.sample fun x => -Real.pi * Real.pi * Real.sin (Real.pi * x)
  let b ← poisson1dRhs p RHSexact vec0
  let (scr, o, out) ← gmresV S (poisson1dOp p) defaults true b (List.replicate ((p.N + 1) * p.K) 0) scr
  let u ← reshape1DToMat out u0 false
  let err := maxAbs (lin 1 u (-1) uexact)
  pure (((scr.put (.text "Error: ")).put (.num err)).put (.text "\n"),
    ⟨o, [("x.dat".toList, p.t.x), ("u.dat".toList, u), ("uexact.dat".toList, uexact), ("RHS.dat".toList, RHSexact)], err⟩)

end Blitzdg.PoissonRun
