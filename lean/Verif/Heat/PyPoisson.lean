import Verif.Heat.Model

/-!
Model of the Poisson script poisson2d.py, in exact arithmetic on a triangle grid.

The script builds `Poisson2DSparseMatrix(ctx, meshManager)` (line 24).  No constructor with two arguments is exported (src/pyblitzdg/pyblitzdg.cpp lines 194-195: four, the third being the number of border
rows, or two contexts more), so this line raises `ArgumentError`; modelled is the script with the border given as absent, which is what the lines after it assume.  `np.float` (lines 31, 58, 75, 76) is
taken as `float`.  Printing and output (lines 67-78) are left out; the forcing (line 58) is a parameter.
-/

namespace Blitzdg.Heat

open Matrix
open Blitzdg.Sparse (DMat Csc cooVal)
open Blitzdg.Nodes1D (Lapack)
open Blitzdg.Poisson (Ctx mat)
open Blitzdg.Py (sparseNumpy)

/-- The three arrays after the bordering loop (poisson2d.py lines 33-49), entry by entry. -/
def border (dof : ℕ) (OP : List (ℕ × ℕ × ℝ)) : List (ℕ × ℕ × ℝ) := OP ++ (List.range dof).flatMap (fun j => [(dof, j, 1), (j, dof, 1)]) ++ [(dof, dof, 0)]

/-- `np.append(rhs, [0.0])` (poisson2d.py line 61). -/
def append0 {n : ℕ} (v : Fin n → ℝ) : Fin (n + 1) → ℝ := Fin.snoc v 0

/-- `np.reshape(soln[:-1], (Np, K), order='F')` (poisson2d.py line 65). -/
noncomputable def unflat (Np K : ℕ) (soln : Fin (Np * K + 1) → ℝ) : DMat ℝ := ⟨Np, K, fun i k => Poisson.ext (fun a : Fin (Np * K) => soln a.castSucc) (i + Np * k)⟩

/-- poisson2d.py lines 24-65, for the forcing `f` at the nodes. -/
noncomputable def pyPoisson (S : Splu) (la : Lapack) (c : Ctx) (f : DMat ℝ) : Out (DMat ℝ) := do
  let (op, mm) ← c.build la false
  let MM ← sparseNumpy mm
  let OP ← sparseNumpy op
  let solve ← S (c.Np * c.K + 1) (-mat (c.Np * c.K + 1) (cooVal (border (c.Np * c.K) OP)))
  pure (unflat c.Np c.K (solve (append0 (mat (c.Np * c.K) (cooVal MM) *ᵥ flatF (c.Np * c.K) f))))

end Blitzdg.Heat
