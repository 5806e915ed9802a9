import Verif.DG2D.Ops
import Verif.Jacobi.Quad
import Mathlib.Analysis.SpecialFunctions.Trigonometric.Basic

/-! Reference nodes of triangles and quadrilaterals and the face masks.  Exact arithmetic; LAPACK routines are parameters. -/

namespace Blitzdg.DG2D

open Blitzdg.Sparse (DMat)
open Blitzdg.Nodes1D (Lapack uncaught vandermonde trans)
open Blitzdg.Jacobi (jacobiP gllPoints)

/-- One face mask: src/TriangleNodesProvisioner.cpp lines 691-700 (and 702-710, 712-720), src/QuadNodesProvisioner.cpp lines 227-236 (and 238-266).  `test` is the test
field, `tol` is `NodeTol`; the array of `nfp` entries starts at zero and `fmask(count) = i` is not bounds-checked.  State: the counter and the array. -/
noncomputable def faceMask (tol : ℝ) (nfp : ℕ) (test : List ℝ) : Out (List ℕ) := do
  let st ← loopM (fun st i =>
    if |test.getD i 0| < tol then do
      let l ← wr st.2 st.1 i
      pure (st.1 + 1, l)
    else pure st) (0, List.replicate nfp 0) (List.range test.length)
  pure st.2

/-- Reference nodes: coordinates, and `fm[f][i]` for `Fmask(i, f)`. -/
structure RefNodes where
  r : List ℝ
  s : List ℝ
  fm : List (List ℕ)

/-- `Fmask(i, f)`. -/
def RefNodes.mask (n : RefNodes) (i f : ℕ) : ℕ := (n.fm.getD f []).getD i 0

/-- src/QuadNodesProvisioner.cpp lines 204-275 `buildNodes`.  Entry `(N+1) j + i` enumerates the nodes in the order of the loops. -/
noncomputable def quadRefNodes (la : Lapack) (eps tol : ℝ) (N : ℕ) : Out RefNodes := do
  let r1 ← (gllPoints la.query la.dsyevd 0 0 eps N (List.replicate (N + 1) 0) >>= uncaught)
  let s1 ← (gllPoints la.query la.dsyevd 0 0 eps N (List.replicate (N + 1) 0) >>= uncaught)
  let r := (List.range (N + 1)).flatMap fun j => (List.range (N + 1)).map fun _ => r1.getD j 0
  let s := (List.range (N + 1)).flatMap fun _ => (List.range (N + 1)).map fun i => s1.getD i 0
  let f1 ← faceMask tol (N + 1) (s.map (· + 1))
  let f2 ← faceMask tol (N + 1) (r.map (· - 1))
  let f3 ← faceMask tol (N + 1) (s.map (· - 1))
  let f4 ← faceMask tol (N + 1) (r.map (· + 1))
  pure { r := r, s := s, fm := [f1, f2, f3, f4] }

/-- src/TriangleNodesProvisioner.cpp lines 635-639: the scaling of the warp; `zf` is the comparison `|r| < 1 - 1e-10` as 0 or 1, `ztol` is `1e-10`. -/
noncomputable def warpScale (ztol r w : ℝ) : ℝ :=
  let zf : ℝ := if |r| < 1 - ztol then 1 else 0
  let sf := 1 - zf * r * (zf * r)
  w / sf + w * (zf - 1)

/-- Equidistant points: src/TriangleNodesProvisioner.cpp line 612. -/
noncomputable def equidistant (N : ℕ) : List ℝ := (List.range (N + 1)).map fun i : ℕ => -1 + 2 * (i : ℝ) / (((N + 1 : ℕ) : ℝ) - 1)

/-- src/TriangleNodesProvisioner.cpp lines 604-640 `computeWarpFactor`. -/
noncomputable def warpFactor (la : Lapack) (eps ztol : ℝ) (N : ℕ) (r : List ℝ) : Out (List ℝ) := do
  let rLGL ← (gllPoints la.query la.dsyevd 0 0 eps N (List.replicate (N + 1) 0) >>= uncaught)
  let req := equidistant N
  let Veq := vandermonde req (N + 1)
  let _ ← invertInto la Veq (N + 1) (N + 1)
  let L ← solveInto la (trans Veq) (trans (vandermonde r (N + 1))) (N + 1) r.length
  pure ((List.range r.length).map fun i => warpScale ztol (r.getD i 0) (∑ j ∈ Finset.range (N + 1), L.at' j i * (rLGL.getD j 0 - req.getD j 0)))

/-- src/TriangleNodesProvisioner.cpp lines 550-558: `alpha`, for `N ≥ 1`. -/
noncomputable def alphaOpt (N : ℕ) : ℝ :=
  if N < 16 then [0, 0, 1.4152, 0.1001, 0.2751, 0.98, 1.0999, 1.2832, 1.3648, 1.4773, 1.4959, 1.5743, 1.577, 1.6223, 1.6258].getD (N - 1) 0 else 2 / 3

/-- The loops of src/TriangleNodesProvisioner.cpp lines 567-573; `n`, `m` count from zero. -/
def warpLattice (N : ℕ) : List (ℕ × ℕ) := (List.range (N + 1)).flatMap fun n => (List.range (N + 1 - n)).map fun m => (n, m)

/-- Barycentric coordinates `L1`, `L2`, `L3` of a lattice point (lines 569-574). -/
noncomputable def latticeBary (N : ℕ) (p : ℕ × ℕ) : ℝ × ℝ × ℝ := (p.1 / N, 1 - p.1 / N - p.2 / N, p.2 / N)

/-- Lines 576-577, 580-603: position of a node with barycentric coordinates `L` and warp factors `w`. -/
noncomputable def warpedNode (α : ℝ) (L w : ℝ × ℝ × ℝ) : ℝ × ℝ :=
  let (L1, L2, L3) := L
  let x := -L2 + L3
  let y := (-L2 - L3 + 2 * L1) / Real.sqrt 3
  let warp1 := 4 * L2 * L3 * w.1 * (1 + α * α * L1 * L1)
  let warp2 := 4 * L1 * L3 * w.2.1 * (1 + α * α * L2 * L2)
  let warp3 := 4 * L1 * L2 * w.2.2 * (1 + α * α * L3 * L3)
  (x + (1 * warp1 + Real.cos (2 * Real.pi / 3) * warp2 + Real.cos (4 * Real.pi / 3) * warp3),
   y + (0 * warp1 + Real.sin (2 * Real.pi / 3) * warp2 + Real.sin (4 * Real.pi / 3) * warp3))

/-- src/TriangleNodesProvisioner.cpp lines 406-415 `xyTors`, one point. -/
noncomputable def xyTors (p : ℝ × ℝ) : ℝ × ℝ :=
  let L1 := (Real.sqrt 3 * p.2 + 1) / 3
  let L2 := (-3 * p.1 - Real.sqrt 3 * p.2 + 2) / 6
  let L3 := (3 * p.1 - Real.sqrt 3 * p.2 + 2) / 6
  (-L2 + L3 - L1, -L2 - L3 + L1)

/-- src/TriangleNodesProvisioner.cpp lines 549-602 `computeEquilateralNodes`.  For `N = 0` it reads `alphaOptimal(-1)`: undefined. -/
noncomputable def equilateralNodes (la : Lapack) (eps ztol : ℝ) (N : ℕ) : Out (List (ℝ × ℝ)) :=
  if N = 0 then .ub
  else do
    let pts := warpLattice N
    let w1 ← warpFactor la eps ztol N (pts.map fun p => (latticeBary N p).2.2 - (latticeBary N p).2.1)
    let w2 ← warpFactor la eps ztol N (pts.map fun p => (latticeBary N p).1 - (latticeBary N p).2.2)
    let w3 ← warpFactor la eps ztol N (pts.map fun p => (latticeBary N p).2.1 - (latticeBary N p).1)
    pure ((List.range pts.length).map fun k =>
      warpedNode (alphaOpt N) (latticeBary N (pts.getD k (0, 0))) (w1.getD k 0, w2.getD k 0, w3.getD k 0))

/-- src/TriangleNodesProvisioner.cpp lines 678-728 `buildNodes`. -/
noncomputable def triRefNodes (la : Lapack) (eps ztol tol : ℝ) (N : ℕ) : Out RefNodes := do
  let xy ← equilateralNodes la eps ztol N
  let r := xy.map fun p => (xyTors p).1
  let s := xy.map fun p => (xyTors p).2
  let f1 ← faceMask tol (N + 1) (s.map (· + 1))
  let f2 ← faceMask tol (N + 1) ((List.range r.length).map fun i => r.getD i 0 + s.getD i 0)
  let f3 ← faceMask tol (N + 1) (r.map (· + 1))
  pure { r := r, s := s, fm := [f1, f2, f3] }

/-- The reference element of a triangle provisioner: `buildNodes`, then `buildLift` and the operators of `buildPhysicalGrid` (src/TriangleNodesProvisioner.cpp lines 76-78). -/
noncomputable def triElement (la : Lapack) (eps ztol tol : ℝ) (N : ℕ) : Out (RefNodes × RefOps) := do
  let n ← triRefNodes la eps ztol tol N
  let o ← buildRefOps la (triPairs N) triMode triModeR triModeS 3 (N + 1) triOnS n.mask n.r n.s
  pure (n, o)

/-- The reference element of a quadrilateral provisioner (src/QuadNodesProvisioner.cpp constructor: `buildNodes`, `buildLift`, `buildPhysicalGrid`). -/
noncomputable def quadElement (la : Lapack) (eps tol : ℝ) (N : ℕ) : Out (RefNodes × RefOps) := do
  let n ← quadRefNodes la eps tol N
  let o ← buildRefOps la (quadPairs N) quadMode quadModeR quadModeS 4 (N + 1) quadOnS n.mask n.r n.s
  pure (n, o)

end Blitzdg.DG2D
