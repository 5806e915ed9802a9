import Verif.SW.Disc
import Verif.Cub.Model

/-!
The cubature context of a triangle grid: `TriangleNodesProvisioner::buildCubatureVolumeMesh`.  Exact real arithmetic; LAPACK routines are parameters.
-/

namespace Blitzdg.Ctx

open Blitzdg.Sparse (DMat)
open Blitzdg.Nodes1D (Lapack uncaught trans)
open Blitzdg.Dense (computeCholesky)
open Blitzdg.DG2D
open Blitzdg.SW

/-- Values of a local array, all of which have to be written before they are used. -/
def written : List (Option ℝ) → Out (List ℝ)
  | [] => .ok []
  | none :: _ => .ub
  | some a :: l => do
    let l' ← written l
    pure (a :: l')

/-- `CubatureContext2D` (include/CubatureContext2D.hpp lines 20-100).  `MM k`, `chol k` are the slices `(:, :, k)` of the tensors. -/
structure Cubature where
  n : ℕ
  r : List ℝ
  s : List ℝ
  w : List ℝ
  V : DMat ℝ
  rx : DMat ℝ
  sx : DMat ℝ
  ry : DMat ℝ
  sy : DMat ℝ
  J : DMat ℝ
  Dr : DMat ℝ
  Ds : DMat ℝ
  MM : ℕ → DMat ℝ
  chol : ℕ → DMat ℝ
  x : DMat ℝ
  y : DMat ℝ
  W : DMat ℝ

/-- Derivatives of the map at cubature point `i` of element `k` (src/TriangleNodesProvisioner.cpp lines 111-116). -/
noncomputable def cubDeriv (g : Grid) (d : Diff) (i k : ℕ) : Deriv where
  xr := ∑ j ∈ Finset.range g.np, d.Dr.at' i j * gridX (g.tri k) g.n j
  xs := ∑ j ∈ Finset.range g.np, d.Ds.at' i j * gridX (g.tri k) g.n j
  yr := ∑ j ∈ Finset.range g.np, d.Dr.at' i j * gridY (g.tri k) g.n j
  ys := ∑ j ∈ Finset.range g.np, d.Ds.at' i j * gridY (g.tri k) g.n j

/-- `Jcubdiag` in the pass for element `k` (src/TriangleNodesProvisioner.cpp lines 166, 170-172). -/
def diagOf (n : ℕ) (a : ℕ → ℝ) : DMat ℝ := ⟨n, n, fun i j => if i = j then a i else 0⟩

/-- src/TriangleNodesProvisioner.cpp lines 82-204 `buildCubatureVolumeMesh(NCubature)`.  Lines 127-146 recompute the nodal metric terms with the expressions that gave them their values in
`buildPhysicalGrid`; they are left out. -/
noncomputable def buildCubature (la : Lapack) (dpotrf : ℕ → List ℝ → Int × List ℝ) (g : Grid) (NCubature : Int) : Out Cubature := do
  let n ← Cub.numPoints NCubature
  let r ← Cub.rCoord NCubature >>= written
  let s ← Cub.sCoord NCubature >>= written
  let w ← Cub.weights NCubature >>= written
  let V := withCols (triInterp g.N g.o.Vinv r s) g.np
  let d ← diffMatrices la (modeMatrix (triPairs g.N) triModeR r s) (modeMatrix (triPairs g.N) triModeS r s) g.o.V V
  let J := fun i k => jac (cubDeriv g d i k)
  let m := fun i k => metric (cubDeriv g d i k)
  let MM := fun k => mul (trans V) (mul (diagOf n fun i => J i k * w.getD i 0) V)
  let chol ← loopM (fun l k => do
    let U ← computeCholesky dpotrf (MM k) (fresh g.np g.np) >>= uncaught
    pure (l ++ [U])) [] (List.range g.K)
  pure {
    n := n, r := r, s := s, w := w, V := V
    rx := ⟨n, g.K, fun i k => m i k 0 0⟩, sx := ⟨n, g.K, fun i k => m i k 1 0⟩, ry := ⟨n, g.K, fun i k => m i k 0 1⟩, sy := ⟨n, g.K, fun i k => m i k 1 1⟩
    J := ⟨n, g.K, J⟩, Dr := d.Dr, Ds := d.Ds, MM := MM, chol := fun k => chol.getD k (fresh 0 0)
    x := ⟨n, g.K, fun i k => ∑ j ∈ Finset.range g.np, V.at' i j * gridX (g.tri k) g.n j⟩
    y := ⟨n, g.K, fun i k => ∑ j ∈ Finset.range g.np, V.at' i j * gridY (g.tri k) g.n j⟩
    W := ⟨n, g.K, fun i k => w.getD i 0 * J i k⟩ }

end Blitzdg.Ctx
