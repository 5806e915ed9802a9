import Mathlib.Analysis.Complex.Norm
import Verif.Basic

/-!
The curve to which sw2d_curved.py fits the wall: lines 60-93.  Exact real arithmetic.  `splrep` and `splev` (lines 96-100) are not modelled.
-/

namespace Blitzdg.Curved

/-- `indN, indK = np.where(np.hypot(x, y) < 1.9e1)`, `centreIndN = indN[0]`, `centreIndK = indK[0]` (sw2d_curved.py lines 60-62) for arrays of `rows` by `cols` entries, searched row by row.  Indexing an empty array raises IndexError. -/
noncomputable def centreInds (rows cols : ℕ) (x y : ℕ → ℕ → ℝ) : Out (ℕ × ℕ) :=
  match ((List.range (rows * cols)).map fun c => (c / cols, c % cols)).filter fun p => √(x p.1 p.2 ^ 2 + y p.1 p.2 ^ 2) < 1.9e1 with
  | [] => .throws
  | p :: _ => .ok p

/-- `topInds = np.logical_and(yW > 200, np.logical_and(xW > 3250, xW < 4750))`, `xtop = xW[topInds]`, `ytop = yW[topInds]` (sw2d_curved.py lines 72-75): the two arrays as one list of points. -/
noncomputable def topPoints (w : List (ℝ × ℝ)) : List (ℝ × ℝ) := w.filter fun p => p.2 > 200 ∧ p.1 > 3250 ∧ p.1 < 4750

/-- Contract of `np.argsort(xtop)`: the indices of the array in an order in which its entries do not decrease.  Equal entries may come in any order. -/
def IsArgsort (a : List ℝ) (o : List ℕ) : Prop := o.Perm (List.range a.length) ∧ (o.map fun i => a.getD i 0).Pairwise (· ≤ ·)

/-- `xtop2 = xtop[isort]`, `ytop2 = ytop[isort]` (sw2d_curved.py lines 78-79). -/
def takeOrder (p : List (ℝ × ℝ)) (o : List ℕ) : List (ℝ × ℝ) := o.map fun i => p.getD i (0, 0)

/-- `np.hypot(xtop2[i]-xtop2[i-1], ytop2[i]-ytop2[i-1])` (sw2d_curved.py line 84). -/
noncomputable def gap (p q : ℝ × ℝ) : ℝ := √((q.1 - p.1) ^ 2 + (q.2 - p.2) ^ 2)

/-- One pass of the loop of sw2d_curved.py lines 83-85. -/
noncomputable def arcStep (p : List (ℝ × ℝ)) (s : List ℝ) (i : ℕ) : List ℝ := s ++ [s.getD (i - 1) 0 + gap (p.getD (i - 1) (0, 0)) (p.getD i (0, 0))]

/-- `s = [0.0]` and the loop over `range(1, len(xtop2))` (sw2d_curved.py lines 82-85). -/
noncomputable def arcLength (p : List (ℝ × ℝ)) : List ℝ := (List.range' 1 (p.length - 1)).foldl (arcStep p) [0]

/-- `np.linspace(a, b, n)` (sw2d_curved.py lines 89-90). -/
noncomputable def linspace (a b : ℝ) (n : ℕ) : List ℝ := (List.range n).map fun i => if i + 1 = n then b else a + i * ((b - a) / ((n : ℝ) - 1))

/-- `griddata(s, f, t, 'linear')` for one parameter between the first and the last entry of the nondecreasing array `s` (sw2d_curved.py lines 92-93): in one dimension this is `np.interp`, which takes the last entry of `s` that is not greater than `t`; its value is returned if it equals `t`
or is the last one of all, and otherwise the segment that begins there is followed. -/
noncomputable def interpAt (s f : List ℝ) (t : ℝ) : ℝ :=
  let j := (s.filter fun a => a ≤ t).length - 1
  if s.length ≤ j + 1 then f.getD j 0
  else if s.getD j 0 = t then f.getD j 0
  else f.getD j 0 + (f.getD (j + 1) 0 - f.getD j 0) / (s.getD (j + 1) 0 - s.getD j 0) * (t - s.getD j 0)

/-- `(xx, yy)` for one parameter. -/
noncomputable def pointAt (p : List (ℝ × ℝ)) (t : ℝ) : ℝ × ℝ := (interpAt (arcLength p) (p.map Prod.fst) t, interpAt (arcLength p) (p.map Prod.snd) t)

/-- The points `(xx, yy)` that the splines are made of (sw2d_curved.py lines 77-93) for the wall nodes `w` and the order `o` found by `np.argsort`.  Without nodes in the range `griddata` is given one parameter and no value, and raises ValueError. -/
noncomputable def resampled (w : List (ℝ × ℝ)) (o : List ℕ) : Out (List (ℝ × ℝ)) :=
  let p := takeOrder (topPoints w) o
  let s := arcLength p
  if p = [] then .throws
  else .ok ((linspace (s.getD 0 0) (s.getD (s.length - 1) 0) 128).map (pointAt p))

end Blitzdg.Curved
