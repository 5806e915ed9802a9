import Verif.Jacobi.Model
import Verif.DG2D.Modes
import Verif.Sparse.Triplet

/-!
Modal bases of the two-dimensional elements and their gradients, at one point; the Vandermonde matrices made of them.  Exact arithmetic.

The loops that fill the columns of the matrices are those of `Verif.DG2D.Modes` (`triPairs`, `quadPairs`; C38 shows that they fill each column once, in that order);
here the resulting matrix is written down directly.
-/

namespace Blitzdg.DG2D

open Blitzdg.Jacobi (jacobiP gradJacobi)
open Blitzdg.Sparse (DMat)

/-- src/TriangleNodesProvisioner.cpp lines 395-404 `rsToab`, coordinate `a` (`b` is `s`). -/
noncomputable def rsToa (r s : ℝ) : ℝ := by
  classical
  exact if s ≠ 1 then 2 * (1 + r) / (1 - s) - 1 else -1

/-- src/TriangleNodesProvisioner.cpp lines 383-393 `evaluateSimplexPolynomial`. -/
noncomputable def simplexP (a b : ℝ) (i j : ℕ) : ℝ := Real.sqrt 2 * jacobiP 0 0 i a * jacobiP (2 * i + 1) 0 j b * (1 - b) ^ i

/-- src/TriangleNodesProvisioner.cpp lines 642-676 `evaluateGradSimplex`, output `dpdr`. -/
noncomputable def gradSimplexR (a b : ℝ) (i j : ℕ) : ℝ :=
  let d := gradJacobi 0 0 i a * jacobiP (2 * i + 1) 0 j b
  let d := if 1 < i then d * (0.5 * (1 - b)) ^ (i - 1) else d
  (2 : ℝ) ^ ((i : ℝ) + 0.5) * d

/-- src/TriangleNodesProvisioner.cpp lines 642-676 `evaluateGradSimplex`, output `dpds`. -/
noncomputable def gradSimplexS (a b : ℝ) (i j : ℕ) : ℝ :=
  let gb := jacobiP (2 * i + 1) 0 j b
  let d := gradJacobi 0 0 i a * (gb * (0.5 * (1 + a)))
  let d := if 1 < i then d * (0.5 * (1 - b)) ^ (i - 1) else d
  let tmp := gradJacobi (2 * i + 1) 0 j b * (0.5 * (1 - b)) ^ i
  let tmp := if 0 < i then tmp - 0.5 * i * gb * (0.5 * (1 - b)) ^ (i - 1) else tmp
  (2 : ℝ) ^ ((i : ℝ) + 0.5) * (d + jacobiP 0 0 i a * tmp)

/-- Mode `(i, j)` of the triangle at `(r, s)`: src/TriangleNodesProvisioner.cpp lines 421-422, 429. -/
noncomputable def triMode (p : ℕ × ℕ) (r s : ℝ) : ℝ := simplexP (rsToa r s) s p.1 p.2

/-- Its r-derivative as computed: src/TriangleNodesProvisioner.cpp lines 440, 447. -/
noncomputable def triModeR (p : ℕ × ℕ) (r s : ℝ) : ℝ := gradSimplexR (rsToa r s) s p.1 p.2

/-- Its s-derivative as computed. -/
noncomputable def triModeS (p : ℕ × ℕ) (r s : ℝ) : ℝ := gradSimplexS (rsToa r s) s p.1 p.2

/-- Mode `(i, j)` of the quadrilateral: src/QuadNodesProvisioner.cpp lines 83-86. -/
noncomputable def quadMode (p : ℕ × ℕ) (r s : ℝ) : ℝ := jacobiP 0 0 p.1 s * jacobiP 0 0 p.2 r

/-- src/QuadNodesProvisioner.cpp lines 99-107, column of `V2Dr`. -/
noncomputable def quadModeR (p : ℕ × ℕ) (r s : ℝ) : ℝ := gradJacobi 0 0 p.2 r * jacobiP 0 0 p.1 s

/-- src/QuadNodesProvisioner.cpp lines 99-108, column of `V2Ds`. -/
noncomputable def quadModeS (p : ℕ × ℕ) (r s : ℝ) : ℝ := jacobiP 0 0 p.2 r * gradJacobi 0 0 p.1 s

/-- A matrix of modes at points (src/TriangleNodesProvisioner.cpp lines 418-454, src/QuadNodesProvisioner.cpp lines 76-112): row = point, column = mode. -/
noncomputable def modeMatrix (pairs : List (ℕ × ℕ)) (f : ℕ × ℕ → ℝ → ℝ → ℝ) (r s : List ℝ) : DMat ℝ where
  rows := r.length
  cols := pairs.length
  at' := fun k c => f (pairs.getD c (0, 0)) (r.getD k 0) (s.getD k 0)

end Blitzdg.DG2D
