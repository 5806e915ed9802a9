import Verif.Curved.Snap
import Verif.Curved.Vand
import Verif.DG2D.Nodes

/-!
Model of `deformAndBlendElements` (meshhelpers/curved.py lines 52-137), in exact arithmetic, on a context of triangles.

`ctx.x` and `ctx.y` are properties: every access calls `DGContext2D::x_numpy`, `y_numpy` (src/DGContext2D.cpp lines 45-57), which return a new array filled from the storage of the context.  The memory therefore has
two parts: the storage of the context and the arrays made so far.
-/

namespace Blitzdg.Curved

open Blitzdg.Sparse (DMat)
open Blitzdg.Nodes1D (Lapack)
open Blitzdg.DG2D (RefNodes)
open Blitzdg.Py (NdArray)

/-- What the function sees: the storage behind `ctx.x`, `ctx.y`, the arrays made by accesses to them, and the list `curvedEls`. -/
structure Mem where
  cx : DMat ℝ
  cy : DMat ℝ
  heap : List (DMat ℝ)
  els : List ℕ

/-- `ctx.x`: a new array with the values stored (src/DGContext2D.cpp lines 45-50); the result is its address. -/
def Mem.readX (s : Mem) : ℕ × Mem := (s.heap.length, { s with heap := s.heap ++ [s.cx] })
/-- `ctx.y` (src/DGContext2D.cpp lines 52-57). -/
def Mem.readY (s : Mem) : ℕ × Mem := (s.heap.length, { s with heap := s.heap ++ [s.cy] })

/-- `a[ids, k] += v[ids]` on the array at address `p`; `ids` is the set of all `i` with `sel i`. -/
noncomputable def Mem.addAt (s : Mem) (p : ℕ) (sel : ℕ → Prop) [DecidablePred sel] (k : ℕ) (v : ℕ → ℝ) : Out Mem := do
  let a ← index s.heap p
  if k < a.cols then
    pure { s with heap := s.heap.set p { a with at' := fun i j => if j = k ∧ sel i then a.at' i j + v i else a.at' i j } }
  else .throws

/-- `np.where(np.sqrt((x - xSpline)**2 + (y - ySpline)**2) < 1.0e-8)[0]` (lines 81-85). -/
noncomputable def hits (curve : List (ℝ × ℝ)) (v : ℝ × ℝ) : List ℕ :=
  (List.range curve.length).filter fun i => √((v.1 - (curve.getD i 0).1) ^ 2 + (v.2 - (curve.getD i 0).2) ^ 2) < 1.0e-8

/-- The entry of a contiguous array of `n` columns. -/
def cell (a : NdArray ℝ) (n i j : ℕ) : ℝ := a.data.getD (i * n + j) 0

/-- `np.dot(Vvol, np.dot(Vfinv, d))` (lines 120-121): entry `i`, for `n` columns. -/
noncomputable def applyVand (Vvol Vfinv : NdArray ℝ) (n : ℕ) (d : ℕ → ℝ) (i : ℕ) : ℝ :=
  ((List.range n).map fun k => cell Vvol n i k * ((List.range n).map fun j => cell Vfinv n k j * d j).sum).sum

/-- The blending function of face `f` at `(r, s)` (lines 126-130), where the running coordinate is not 1. -/
noncomputable def blend (f : ℕ) (r s : ℝ) : ℝ :=
  if f = 0 then -(r + s) / (1 - r) else if f = 1 then (r + 1) / (1 - s) else -(r + s) / (1 - s)

/-- The running coordinate of face `f` (lines 60-71). -/
def running (f : ℕ) (n : RefNodes) : List ℝ := if f = 0 then n.r else n.s

/-- The columns of `EToV` holding the ends of face `f` (lines 60-71). -/
def endCols (f : ℕ) : ℕ × ℕ := if f = 0 then (0, 1) else if f = 1 then (1, 2) else (0, 2)

/-- The body of the loop (lines 54-135) for the curved face `kf = (k, f)`.  `ev` is `t ↦ (splev(t, xs, ext=3), splev(t, ys, ext=3))`.

`np.where` returns a tuple with one array, so the tests on `len(...)` in lines 87-97 see 1: no face is skipped there and neither exception is raised.  If an end is at no sample or at several, the comparison in
line 94 (truth value of an array of several entries) or the product in line 103 (arrays of different lengths) raises ValueError.  A face number above 2 raises IndexError in line 73. -/
noncomputable def deformFace (la : Lapack) (n : RefNodes) (N : ℕ) (NOrder : Int) (verts : List (ℝ × ℝ)) (EToV : List (List ℕ)) (curve : List (ℝ × ℝ)) (ss : List ℝ) (ev : ℝ → ℝ × ℝ)
    (s : Mem) (kf : ℕ × ℕ) : Out Mem := do
  let k := kf.1
  let f := kf.2
  let s := { s with els := s.els ++ [k] }
  if f ≥ 3 then .throws
  else
    let row ← index EToV k
    let i1 ← index row (endCols f).1
    let i2 ← index row (endCols f).2
    let vr := running f n
    let fr := (List.range (N + 1)).map fun j => vr.getD (n.mask j f) 0
    let v1 ← index verts i1
    let v2 ← index verts i2
    match hits curve v1, hits curve v2 with
    | [m1], [m2] =>
      if m1 = m2 then pure s
      else
        let t1 ← index ss m1
        let t2 ← index ss m2
        let tLGL := fun j => 0.5 * t1 * (1 - fr.getD j 0) + 0.5 * t2 * (1 + fr.getD j 0)
        let (px, s) := s.readX
        let (py, s) := s.readY
        let ax ← index s.heap px
        let ay ← index s.heap py
        if k < ax.cols then
          let fdx := fun j => (ev (tLGL j)).1 - ax.at' (n.mask j f) k
          let fdy := fun j => (ev (tLGL j)).2 - ay.at' (n.mask j f) k
          let face ← buildVandermonde la fr true NOrder
          match face.2 with
          | none => .throws
          | some Vfinv =>
            let vol ← buildVandermonde la vr false NOrder
            let vdx := applyVand vol.1 Vfinv (NOrder + 1).toNat fdx
            let vdy := applyVand vol.1 Vfinv (NOrder + 1).toNat fdy
            let sel := fun i => i < vr.length ∧ |1 - vr.getD i 0| > 1.0e-7
            let (qx, s) := s.readX
            let s ← s.addAt qx sel k fun i => blend f (n.r.getD i 0) (n.s.getD i 0) * vdx i
            let (qy, s) := s.readY
            s.addAt qy sel k fun i => blend f (n.r.getD i 0) (n.s.getD i 0) * vdy i
        else .throws
    | _, _ => .throws

/-- meshhelpers/curved.py lines 52-137 `deformAndBlendElements`: the arrays returned and the list of elements. -/
noncomputable def deformAndBlend (la : Lapack) (n : RefNodes) (N : ℕ) (NOrder : Int) (verts : List (ℝ × ℝ)) (EToV : List (List ℕ)) (curve : List (ℝ × ℝ)) (ss : List ℝ) (ev : ℝ → ℝ × ℝ)
    (cx cy : DMat ℝ) (faces : List (ℕ × ℕ)) : Out (DMat ℝ × DMat ℝ × List ℕ × Mem) := do
  let s ← loopM (deformFace la n N NOrder verts EToV curve ss ev) ⟨cx, cy, [], []⟩ faces
  let (px, s) := s.readX
  let (py, s) := s.readY
  let x ← index s.heap px
  let y ← index s.heap py
  pure (x, y, s.els, s)

end Blitzdg.Curved
