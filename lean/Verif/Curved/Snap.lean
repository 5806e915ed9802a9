import Verif.Basic
import Mathlib.Analysis.Real.Sqrt

/-!
Model of `adjustStraightEdges` (meshhelpers/curved.py lines 5-50), in exact arithmetic.

Vertices and samples of the curve are pairs `(x, y)`: the script neither reads nor writes further columns of `Verts`, and `xSpline`, `ySpline` are taken to have the same length (otherwise numpy refuses to add
`xSpline - v1[0]` and `ySpline - v1[1]` in `np.hypot`).  Indices are natural numbers: the boundary faces are results of `np.unravel_index`, the rows of `EToV` hold vertex numbers.
-/

namespace Blitzdg.Curved

/-- A numpy array indexed out of range raises IndexError. -/
def index {α : Type} (l : List α) (i : ℕ) : Out α :=
  match l[i]? with
  | some a => .ok a
  | none => .throws

/-- `np.hypot(x - v[0], y - v[1])` for one sample `(x, y)`. -/
noncomputable def hypot (v p : ℝ × ℝ) : ℝ := √((p.1 - v.1) ^ 2 + (p.2 - v.2) ^ 2)

/-- The loop behind `np.argmin`: position and value of the best entry so far, position of the next. -/
noncomputable def argminFrom : ℕ → ℝ → ℕ → List ℝ → ℕ
  | b, _, _, [] => b
  | b, v, i, x :: l => if x < v then argminFrom i x (i + 1) l else argminFrom b v (i + 1) l

/-- `np.argmin`: the first position of the smallest entry; ValueError for an empty array. -/
noncomputable def argmin : List ℝ → Out ℕ
  | [] => .throws
  | x :: l => .ok (argminFrom 0 x 1 l)

/-- The three values returned: `Verts`, `modifiedVerts`, `curvedFaces`. -/
structure Snapped where
  verts : List (ℝ × ℝ)
  modified : List ℝ
  faces : List (ℕ × ℕ)

/-- The body of the loop (meshhelpers/curved.py lines 9-48) for the boundary face `bf = (el, face)`; `numFaces` is `ctx.numFaces`. -/
noncomputable def snapFace (EToV : List (List ℕ)) (numFaces : ℕ) (curve : List (ℝ × ℝ)) (s : Snapped) (bf : ℕ × ℕ) : Out Snapped := do
  let row ← index EToV bf.1
  let i1 ← index row bf.2
  let i2 ← index row ((bf.2 + 1) % numFaces)
  let v1 ← index s.verts i1
  let v2 ← index s.verts i2
  let hyps1 := curve.map (hypot v1)
  let hyps2 := curve.map (hypot v2)
  let m1 ← argmin hyps1
  let m2 ← argmin hyps2
  let d1 ← index hyps1 m1
  let d2 ← index hyps2 m2
  if d1 > 200 ∨ d2 > 200 then pure s
  else
    let new1 ← index curve m1
    let new2 ← index curve m2
    let _ ← index s.modified i1
    let _ ← index s.modified i2
    pure ⟨(s.verts.set i1 new1).set i2 new2, (s.modified.set i1 1).set i2 1, s.faces ++ [bf]⟩

/-- meshhelpers/curved.py lines 5-50 `adjustStraightEdges`. -/
noncomputable def adjustStraightEdges (verts : List (ℝ × ℝ)) (EToV : List (List ℕ)) (bcFaces : List (ℕ × ℕ)) (curve : List (ℝ × ℝ)) (numFaces : ℕ) : Out Snapped :=
  loopM (snapFace EToV numFaces curve) ⟨verts, List.replicate verts.length 0, []⟩ bcFaces

end Blitzdg.Curved
