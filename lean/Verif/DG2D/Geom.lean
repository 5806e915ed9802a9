import Mathlib.Analysis.SpecialFunctions.Pow.NNReal
import Mathlib.LinearAlgebra.Matrix.NonsingularInverse
import Mathlib.LinearAlgebra.Matrix.Notation

/-!
Geometry of the two-dimensional elements: node placement, metric terms, normals and face scalings.  Arithmetic is exact (ℝ).
One element at a time: the code evaluates the same array expressions for all columns `k`.
-/

namespace Blitzdg.DG2D

/-- Vertices `a`, `b`, `c` of a triangle: the coordinates gathered in src/TriangleNodesProvisioner.cpp lines 742-772. -/
structure Tri where
  xa : ℝ
  ya : ℝ
  xb : ℝ
  yb : ℝ
  xc : ℝ
  yc : ℝ

/-- Vertices of a quadrilateral (src/QuadNodesProvisioner.cpp lines 284-322). -/
structure Quad where
  xa : ℝ
  ya : ℝ
  xb : ℝ
  yb : ℝ
  xc : ℝ
  yc : ℝ
  xd : ℝ
  yd : ℝ

/-- One coordinate of a node: src/TriangleNodesProvisioner.cpp lines 807-808. -/
noncomputable def triCoord (a b c r s : ℝ) : ℝ := 0.5 * (-(r + s) * a + (1 + r) * b + (1 + s) * c)

/-- One coordinate of a node: src/QuadNodesProvisioner.cpp lines 358-362. -/
noncomputable def quadCoord (a b c d r s : ℝ) : ℝ :=
  0.25 * ((1 - r) * (1 - s)) * a + 0.25 * ((1 + r) * (1 - s)) * b + 0.25 * ((1 + r) * (1 + s)) * c + 0.25 * ((1 - r) * (1 + s)) * d

/-- Derivatives of the mapping at one node. -/
structure Deriv where
  xr : ℝ
  xs : ℝ
  yr : ℝ
  ys : ℝ

/-- `xr = Dr*x`, `yr = Dr*y`, `xs = Ds*x`, `ys = Ds*y` at node `i`
(src/TriangleNodesProvisioner.cpp lines 810-813, src/QuadNodesProvisioner.cpp lines 364-367). -/
def derivAt {np : Nat} (Dr Ds : Matrix (Fin np) (Fin np) ℝ) (x y : Fin np → ℝ) (i : Fin np) : Deriv where
  xr := Dr.mulVec x i
  xs := Ds.mulVec x i
  yr := Dr.mulVec y i
  ys := Ds.mulVec y i

/-- `Jac = xr*ys - xs*yr` (src/TriangleNodesProvisioner.cpp line 815, src/QuadNodesProvisioner.cpp line 369, and `gJac` of
src/TriangleNodesProvisioner.cpp line 301). -/
def jac (d : Deriv) : ℝ := d.xr * d.ys - d.xs * d.yr

/-- Metric terms `[rx ry; sx sy]` (src/TriangleNodesProvisioner.cpp lines 818-821, src/QuadNodesProvisioner.cpp lines 372-375, and lines
304-307 of src/TriangleNodesProvisioner.cpp on the Gauss points). -/
noncomputable def metric (d : Deriv) : Matrix (Fin 2) (Fin 2) ℝ :=
  !![d.ys / jac d, -d.xs / jac d; -d.yr / jac d, d.xr / jac d]

/-- Unnormalised normal on the three faces (src/TriangleNodesProvisioner.cpp lines 861-874). -/
def triNormal (f : Fin 3) (d : Deriv) : ℝ × ℝ :=
  match f with
  | 0 => (d.yr, -d.xr)
  | 1 => (d.ys - d.yr, -d.xs + d.xr)
  | 2 => (-d.ys, d.xs)

/-- Unnormalised normal on the four faces (src/QuadNodesProvisioner.cpp lines 414-432). -/
def quadNormal (f : Fin 4) (d : Deriv) : ℝ × ℝ :=
  match f with
  | 0 => (d.yr, -d.xr)
  | 1 => (d.ys, -d.xs)
  | 2 => (-d.yr, d.xr)
  | 3 => (-d.ys, d.xs)

/-- `norm = sqrt(nx*nx + ny*ny)` (src/TriangleNodesProvisioner.cpp line 879, src/QuadNodesProvisioner.cpp line 434): the surface
Jacobian. -/
noncomputable def len (v : ℝ × ℝ) : ℝ := Real.sqrt (v.1 * v.1 + v.2 * v.2)

/-- `nx/norm, ny/norm` (src/TriangleNodesProvisioner.cpp lines 881-882, src/QuadNodesProvisioner.cpp lines 436-437). -/
noncomputable def unit (v : ℝ × ℝ) : ℝ × ℝ := (v.1 / len v, v.2 / len v)

/-- `Fscale = norm/Jac` at the same node (src/TriangleNodesProvisioner.cpp lines 884-892, src/QuadNodesProvisioner.cpp lines 439-447). -/
noncomputable def fscale (v : ℝ × ℝ) (d : Deriv) : ℝ := len v / jac d

/-- Unnormalised normals on the Gauss points, from the metric terms (src/TriangleNodesProvisioner.cpp lines 309-315). -/
noncomputable def gaussNormal (f : Fin 3) (d : Deriv) : ℝ × ℝ :=
  match f with
  | 0 => (-metric d 1 0, -metric d 1 1)
  | 1 => (metric d 0 0 + metric d 1 0, metric d 0 1 + metric d 1 1)
  | 2 => (-metric d 0 0, -metric d 0 1)

/-- Surface Jacobian on the Gauss points (src/TriangleNodesProvisioner.cpp lines 317-320). -/
noncomputable def gaussSJ (f : Fin 3) (d : Deriv) : ℝ := len (gaussNormal f d) * jac d

end Blitzdg.DG2D
