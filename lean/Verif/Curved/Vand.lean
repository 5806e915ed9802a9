import Verif.Nodes1D.Ops
import Verif.DG2D.Ops
import Verif.Py.Model

/-!
Model of the Python function `VandermondeBuilder.buildVandermondeMatrix` (include/VandermondeBuilders.hpp lines 76-107), in exact arithmetic, for a contiguous array of points.
-/

namespace Blitzdg.Curved

open Blitzdg.Sparse (DMat)
open Blitzdg.Dense (computeInverse)
open Blitzdg.Nodes1D (Lapack vandermonde uncaught)
open Blitzdg.DG2D (fresh)
open Blitzdg.Py (NdArray exportTo storage)

/-- Lines 77-81: the number of columns. -/
def columns (M : ℕ) (order : Int) : ℕ := if order > -1 then (order + 1).toNat else M

/-- `std::copy(&raw[0], &raw[n*sizeof(real_type)], ...)`: reading past the end of the source is undefined. -/
def firstOf (n : ℕ) (src : List ℝ) : Out (List ℝ) := if n ≤ src.length then .ok (src.take n) else .ub

/-- include/VandermondeBuilders.hpp lines 76-107 `buildVandermondeMatrix_numpy`: the matrix and, if asked for, its inverse. -/
noncomputable def buildVandermonde (la : Lapack) (r : List ℝ) (includeInverse : Bool) (order : Int) : Out (NdArray ℝ × Option (NdArray ℝ)) := do
  let M := r.length
  let n := columns M order
  let V := vandermonde r n
  if includeInverse then
    let Vinv ← (computeInverse la.dgetrf la.dgetri V (fresh n n) >>= uncaught)
    let a ← firstOf (M * n) (storage V)
    let Vpy ← exportTo [M, n] a
    let b ← firstOf (M * n) (storage Vinv)
    let Ipy ← exportTo [M, n] b
    pure (Vpy, some Ipy)
  else
    let a ← firstOf (M * n) (storage V)
    let Vpy ← exportTo [M, n] a
    pure (Vpy, none)

end Blitzdg.Curved
