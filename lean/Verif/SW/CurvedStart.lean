import Verif.SW.PyMaps
import Verif.SW.Step
import Verif.Curved.Headland
import Verif.Curved.Snap
import Verif.Curved.Blend
import Verif.Py.Model

/-!
The set-up of sw2d_curved.py, lines 35-109, put together from the models of its parts.  Exact real arithmetic.
-/

namespace Blitzdg.SW

open Blitzdg.Sparse (DMat)
open Blitzdg.Nodes1D (Lapack)
open Blitzdg.DG2D

/-- `bcType.flatten('F')` (sw2d_curved.py line 102) for a table with `K` rows of `nf` entries, stored row by row. -/
def tagsF (K nf : ℕ) (bc : List Int) : List Int := (List.range (K * nf)).map fun c => bc.getD (nf * (c % K) + c / K) 0

/-- `bcInds = np.where(bcType.flatten('F') > 0)`, `bcFaces = np.transpose(np.unravel_index(bcInds, (ctx.numElements, ctx.numFaces), order='F'))` (sw2d_curved.py lines 102-103): pairs of element and face.  The array has a
further dimension of size one, which `adjustStraightEdges` steps over by `bcFace[0][0]`, `bcFace[0][1]`. -/
def bcFaces (K nf : ℕ) (bc : List Int) : List (ℕ × ℕ) := ((List.range (K * nf)).filter fun c => decide ((tagsF K nf bc).getD c 0 > 0)).map fun c => (c % K, c / K)

/-- `Verts = meshManager.vertices` (sw2d_curved.py line 38): the first two columns. -/
noncomputable def Mesh.points (m : Mesh) : List (ℝ × ℝ) := (List.range m.nv).map fun v => (m.vert.getD (3 * v) 0, m.vert.getD (3 * v + 1) 0)

/-- `EToV = meshManager.elements` (sw2d_curved.py line 39). -/
def Mesh.elements (m : Mesh) : List (List ℕ) := (List.range m.K).map fun k => [m.ev.getD (3 * k) 0, m.ev.getD (3 * k + 1) 0, m.ev.getD (3 * k + 2) 0]

/-- sw2d_curved.py lines 64-70: the wall nodes.  `ctx.BCmap[3]` raises KeyError without a wall face. -/
noncomputable def Grid.wallPoints (g : Grid) : Out (List (ℝ × ℝ)) :=
  match g.bc 3 with
  | none => .throws
  | some mapW => do
    let vmapW ← pickIdx g.maps.vmapM mapW
    let xW ← pick (flatF g.pyX) vmapW
    let yW ← pick (flatF g.pyY) vmapW
    pure (xW.zip yW)

/-- What lines 35-109 leave behind. -/
structure CurvedStart where
  /-- `bcType` after `correctBCTable`, also the table of the mesh manager. -/
  bc : List Int
  /-- The provisioner as built in line 52. -/
  grid : Grid
  /-- `xTopSmooth`, `yTopSmooth`. -/
  curve : List (ℝ × ℝ)
  /-- `Verts` as returned by `adjustStraightEdges`. -/
  verts : List (ℝ × ℝ)
  /-- `curvedEls`. -/
  els : List ℕ
  /-- The coordinates in the provisioner after `nodes.setCoordinates(x, y)`. -/
  x : DMat ℝ
  y : DMat ℝ

/-- sw2d_curved.py lines 35-109 for a mesh that has been read and a grid of order `N` (the program has 4), without the prints and the `VtkOutputter` of line 54.  `sort` is `np.argsort`; `spl s p` stands for
`splrep(s, ...)`, `splev(..., ext=2)` of both coordinates (lines 96-100): it raises or yields the curve as a function of the parameter.  `x` and `y` as returned by numpy are contiguous. -/
noncomputable def curvedStart (la : Lapack) (eps ztol tol : ℝ) (N : ℕ) (sort : List ℝ → List ℕ) (spl : List ℝ → List (ℝ × ℝ) → Out (ℝ → ℝ × ℝ)) (m : Mesh) : Out CurvedStart := do
  let bc ← correctTable m.ev m.vert 2 m.bcType
  let g ← buildGrid la eps ztol tol N { m with bcType := bc }
  let _ ← g.filter (0.9 * N) 4
  let _ ← Curved.centreInds g.np g.K g.pyX.at' g.pyY.at'
  let w ← g.wallPoints
  let o := sort ((Curved.topPoints w).map Prod.fst)
  let p ← Curved.resampled w o
  let s := Curved.arcLength (Curved.takeOrder (Curved.topPoints w) o)
  let ss := Curved.linspace (s.getD 0 0) (s.getD (s.length - 1) 0) 4096
  let ev ← spl (Curved.linspace (s.getD 0 0) (s.getD (s.length - 1) 0) 128) p
  let curve := ss.map ev
  let a ← Curved.adjustStraightEdges m.points m.elements (bcFaces m.K 3 bc) curve 3
  let d ← Curved.deformAndBlend la g.n N N a.verts m.elements curve ss ev g.pyX g.pyY a.faces
  let X ← Py.setGrid g.pyX ⟨Py.storage d.1, 0, d.1.rows, d.1.cols, d.1.cols, 1⟩
  let Y ← Py.setGrid g.pyY ⟨Py.storage d.2.1, 0, d.2.1.rows, d.2.1.cols, d.2.1.cols, 1⟩
  pure ⟨bc, g, curve, a.verts, d.2.2.1, X, Y⟩

end Blitzdg.SW
