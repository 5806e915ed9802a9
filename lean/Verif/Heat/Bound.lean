import Verif.Heat.Model
import Verif.SW.PyLoop
import Verif.SW.PyMaps

/-!
Model of the boundary tags and boundary data of heat2d.py (lines 22-47 and 62-110), and of the script as a whole.  Exact real arithmetic; `np.exp` is the exponential function.  Lines 81 and 87-89 compute index arrays that are
not used and are left out.
-/

namespace Blitzdg.Heat

open Blitzdg.Sparse (DMat)
open Blitzdg.Nodes1D (Lapack)
open Blitzdg.SW (Grid Mesh buildGrid pick reshapeF)
open Blitzdg.Poisson (ctxOf)

open Classical in
/-- The new tag of a face between the vertices `v1`, `v2` (heat2d.py lines 34-44). -/
noncomputable def sideTag (old : Int) (v1 v2 : ℝ × ℝ) : Int :=
  let midx := 0.5 * (v1.1 + v2.1)
  let midy := 0.5 * (v1.2 + v2.2)
  if |midy - 1.3| < 1e-12 then 6
  else if |midy| < 1e-12 then 7
  else if |midy - 1.3 * midx| < 1e-12 then 6
  else if |midy + 1.3 * midx - 26 / 5| < 1e-12 then 6
  else old

/-- `Verts[EToV[e, j], 0]` and `Verts[EToV[e, j], 1]` (heat2d.py lines 27-32), with three entries in each row of `ev` and `vert`.  An index out of range raises IndexError. -/
def vertexOf (ev : List ℕ) (vert : List ℝ) (e j : ℕ) : Out (ℝ × ℝ) :=
  match ev[3 * e + j]? with
  | none => .throws
  | some v =>
    match vert[3 * v]?, vert[3 * v + 1]? with
    | some x, some y => .ok (x, y)
    | _, _ => .throws

/-- The pass of the loops of heat2d.py lines 25-44 for face `c % 3` of element `c / 3`. -/
noncomputable def sideStep (ev : List ℕ) (vert : List ℝ) (bc : List Int) (c : ℕ) : Out (List Int) := do
  let v1 ← vertexOf ev vert (c / 3) (c % 3)
  let v2 ← vertexOf ev vert (c / 3) ((c % 3 + 1) % 3)
  match bc[c]? with
  | none => .throws
  | some old => pure (bc.set c (sideTag old v1 v2))

/-- heat2d.py lines 24-44: the corrected table of tags, stored row by row. -/
noncomputable def sideTable (ev : List ℕ) (vert : List ℝ) (bc : List Int) : Out (List Int) :=
  loopM (sideStep ev vert) bc (List.range (3 * (bc.length / 3)))

/-- `np.where(c)[0]` of a vector of truth values. -/
def whereIdx (c : List Bool) : List ℕ := (List.range c.length).filter fun i => c.getD i false

/-- `a[idx] = v`, for indices in range. -/
def put (a : List ℝ) (idx : List ℕ) (v : List ℝ) : List ℝ := (idx.zip v).foldl (fun a p => a.set p.1 p.2) a

open Classical in
/-- The vector `ubc` of heat2d.py lines 83-85 and 103-106, for the coordinates `Fx`, `Fy` of the face nodes. -/
noncomputable def dirichlet (n : ℕ) (Fx Fy : List ℝ) : List ℝ :=
  let top := whereIdx (Fy.map fun y => decide (|y - 1.3| < 1e-12))
  let left := whereIdx (List.zipWith (fun x y => decide (|y - 1.3 * x| < 1e-12)) Fx Fy)
  let right := whereIdx (List.zipWith (fun x y => decide (|y + 1.3 * x - 26 / 5| < 1e-12)) Fx Fy)
  let ubc := List.replicate n 0
  let ubc := put ubc right (right.map fun i => 1 - 10 / 13 * Fy.getD i 0)
  let ubc := put ubc top (top.map fun i => 0.25 * (Real.exp (4 * (Fx.getD i 0 - 3)) - 1))
  put ubc left (left.map fun _ => -0.25 * 1)

/-- The arrays `ubc`, `qbc` handed to `buildBcRhs` (heat2d.py lines 78-79, 100-110). -/
noncomputable def boundaryData (g : Grid) : Out (DMat ℝ × DMat ℝ) := do
  let Fx ← pick (SW.flatF g.pyX) g.maps.vmapM
  let Fy ← pick (SW.flatF g.pyY) g.maps.vmapM
  pure (reshapeF ((g.N + 1) * 3) g.K (dirichlet ((g.N + 1) * 3 * g.K) Fx Fy), reshapeF ((g.N + 1) * 3) g.K (List.replicate ((g.N + 1) * 3 * g.K) 0))

/-- What a run of the script is in the middle of: the grid, the mesh with the corrected tags, the boundary data and the step. -/
structure Setup where
  g : Grid
  m : Mesh
  ubc : DMat ℝ
  qbc : DMat ℝ
  dt : ℝ

/-- heat2d.py lines 17-110 for the mesh `m`.  `bcMap[6]` and `bcMap[7]` (lines 75-76) raise KeyError if there is no face with the tag; the lists themselves are not used.  `np.max` of an empty array raises ValueError. -/
noncomputable def setup (la : Lapack) (eps ztol tol : ℝ) (N : ℕ) (CFL kappa : ℝ) (m : Mesh) : Out Setup := do
  let bc ← sideTable m.ev m.vert m.bcType
  let m' : Mesh := { m with bcType := bc }
  let g ← buildGrid la eps ztol tol N m'
  if g.K = 0 then .throws
  else do
    let dt := stepSize CFL kappa N (SW.flatF ⟨3 * (g.N + 1), g.K, g.fscale⟩)
    match g.bc 6, g.bc 7 with
    | some _, some _ => do
      let d ← boundaryData g
      pure ⟨g, m', d.1, d.2, dt⟩
    | _, _ => .throws

end Blitzdg.Heat
