import Mathlib.Algebra.Order.Ring.Abs
import Verif.SW.PyWeak

/-!
Periodic index arrays and the correction of boundary tags of the Python shallow water solver: swhelpers/maps.py.  Exact real arithmetic.  Index arrays hold non-negative numbers.
-/

namespace Blitzdg.SW

open Blitzdg.Sparse (DMat)
open Blitzdg.DG2D
open Blitzdg.Ctx (GaussFace)

/-- The condition of swhelpers/maps.py line 10 for two points. -/
def farLevel (x y x' y' : ℝ) : Prop := |y' - y| < 1e-3 ∧ |x' - x| > 1000

open Classical in
/-- `np.where(...)[0]` (swhelpers/maps.py line 10).  `xO`, `yO` of different lengths fail (or are broadcast, if one has length one, which is left out). -/
noncomputable def farIdx (xO yO : List ℝ) (x y : ℝ) : List ℕ := (List.range xO.length).filter fun j => decide (farLevel x y (xO.getD j 0) (yO.getD j 0))

/-- `a[ips]` for an index array `ips`, and an array `a` of indices. -/
def pickIdx (a : List ℕ) : List ℕ → Out (List ℕ)
  | [] => .ok []
  | i :: l =>
    match a[i]? with
    | none => .throws
    | some v => do
      let r ← pickIdx a l
      pure (v :: r)

/-- The loop of swhelpers/maps.py lines 6-13: `vmapOP`, one array of candidates for each entry of `vmapO`. -/
noncomputable def candidates (vmapO : List ℕ) (xFlat yFlat xO yO : List ℝ) : List ℕ → Out (List (List ℕ))
  | [] => .ok []
  | i :: l =>
    match xFlat[i]?, yFlat[i]? with
    | some xi, some yi => do
      let c ← pickIdx vmapO (farIdx xO yO xi yi)
      let r ← candidates vmapO xFlat yFlat xO yO l
      pure (c :: r)
    | _, _ => .throws

/-- `l[n]` of a list or an array. -/
def item (l : List ℕ) (n : ℕ) : Out ℕ :=
  match l[n]? with
  | some v => .ok v
  | none => .throws

/-- `abs(a - b) <= 1` for whole numbers. -/
def close (a b : ℕ) : Bool := decide (a ≤ b + 1 ∧ b ≤ a + 1)

/-- `abs(l - b) <= 1` as a condition, `l` an array: more than one entry raises ValueError, an empty array counts as false (NumPy before version 2.2). -/
def closeArr (l : List ℕ) (b : ℕ) : Out Bool :=
  match l with
  | [] => .ok false
  | [a] => .ok (close a b)
  | _ => .throws

/-- `vmapOP[n]`. -/
def itemL (cs : List (List ℕ)) (n : ℕ) : Out (List ℕ) :=
  match cs[n]? with
  | some v => .ok v
  | none => .throws

/-- One pass of the loop of swhelpers/maps.py lines 19-30 for `i`, `l`. -/
def choosePartner (cs : List (List ℕ)) (i : ℕ) (l : List ℕ) : Out ℕ :=
  if l.length = 1 then item l 0
  else if i = 0 then do
    let n ← itemL cs 1
    let l0 ← item l 0
    let b ← closeArr n l0
    if b then item l 0 else item l 1
  else if i < cs.length - 1 then do
    let p ← itemL cs (i - 1)
    let p0 ← item p 0
    let l0 ← item l 0
    if close p0 l0 then item l 0
    else do
      let n ← itemL cs (i + 1)
      let n0 ← item n 0
      if close n0 l0 then item l 0 else item l 1
  else do
    let p ← itemL cs (i - 1)
    let l0 ← item l 0
    let b ← closeArr p l0
    if b then item l 0 else item l 1

/-- The loop of swhelpers/maps.py lines 18-30, from position `i` on. -/
def choosePartners (cs : List (List ℕ)) : ℕ → List (List ℕ) → Out (List ℕ)
  | _, [] => .ok []
  | i, l :: r => do
    let v ← choosePartner cs i l
    let t ← choosePartners cs (i + 1) r
    pure (v :: t)

/-- The keys of `dict.fromkeys(vmapOM)` (swhelpers/maps.py line 15), in order of insertion. -/
def keysOf (l : List ℕ) : List ℕ := l.foldl (fun ks i => if i ∈ ks then ks else ks ++ [i]) []

/-- The loop of swhelpers/maps.py lines 39-41.  `look` is the dictionary. -/
def remap (look : List (ℕ × ℕ)) : List ℕ → List ℕ → Out (List ℕ)
  | [], p => .ok p
  | m :: ms, [] =>
    match look.lookup m with
    | some _ => .throws
    | none => remap look ms []
  | m :: ms, p :: ps => do
    let r ← remap look ms ps
    pure ((look.lookup m).getD p :: r)

/-- swhelpers/maps.py lines 3-43 `makeMapsPeriodic`.  The dictionary pairs key number `i` with entry number `i` of the list of partners (lines 35-36). -/
noncomputable def makePeriodic (vmapM vmapP vmapO : List ℕ) (xFlat yFlat xO yO : List ℝ) : Out (List ℕ × List ℕ) :=
  if xO.length ≠ yO.length ∧ vmapO ≠ [] then .throws
  else do
    let cs ← candidates vmapO xFlat yFlat xO yO vmapO
    let flat ← choosePartners cs 0 cs
    let r ← remap ((keysOf vmapO).zip flat) vmapM vmapP
    pure (vmapM, r)

/-- The coordinates `x`, `y` of the nodes, as arrays of `Np` rows and `K` columns. -/
noncomputable def Grid.pyX (g : Grid) : DMat ℝ := ⟨g.np, g.K, fun i k => gridX (g.tri k) g.n i⟩
noncomputable def Grid.pyY (g : Grid) : DMat ℝ := ⟨g.np, g.K, fun i k => gridY (g.tri k) g.n i⟩

/-- The periodic index arrays of the Gauss points: sw2d_curved.py lines 127-142 and 145.  `BCmap[2]` is a list;
without an outflow face it is empty, `np.array` of it holds floats and indexing with it raises IndexError. -/
noncomputable def Grid.gaussPeriodic (g : Grid) (ga : GaussFace) : Out (List ℕ × List ℕ) :=
  match ga.bc 2 with
  | none => .throws
  | some [] => .throws
  | some o => do
    let gxO ← pick (g.flatG ga (g.dotAt ga.interp g.pyX)) o
    let gyO ← pick (g.flatG ga (g.dotAt ga.interp g.pyY)) o
    makePeriodic ga.mapM ga.mapP o (g.flatG ga (g.dotAt ga.interp g.pyX)) (g.flatG ga (g.dotAt ga.interp g.pyY)) gxO gyO

/-- The periodic index arrays of the nodes: sw2d_curved.py lines 121-125, 133-134, 138-139 and 144.  `BCmap[2]` raises KeyError without an outflow face. -/
noncomputable def Grid.nodePeriodic (g : Grid) : Out (List ℕ × List ℕ) :=
  match g.bc 2 with
  | none => .throws
  | some mapO => do
    let vmapO ← pickIdx g.maps.vmapM mapO
    let xO ← pick (flatF g.pyX) vmapO
    let yO ← pick (flatF g.pyY) vmapO
    makePeriodic g.maps.vmapM g.maps.vmapP vmapO (flatF g.pyX) (flatF g.pyY) xO yO

open Classical in
/-- One pass of the inner loop of swhelpers/maps.py lines 50-64 `correctBCTable`: the new tag of a face between the vertices with the given x-coordinates. -/
noncomputable def correctTag (bcTag old : Int) (v1x v2x : ℝ) : Int :=
  let midx := 0.5 * (v1x + v2x)
  if |midx - 0| < 1e-6 then bcTag else if |midx - 8000| < 1e-6 then bcTag else old

/-- `Verts[EToV[e, j], 0]`, with three entries in each row of `ev` and `vert`.  An index out of range raises IndexError. -/
def cornerX (ev : List ℕ) (vert : List ℝ) (e j : ℕ) : Out ℝ :=
  match ev[3 * e + j]? with
  | none => .throws
  | some v =>
    match vert[3 * v]? with
    | none => .throws
    | some x => .ok x

/-- The pass of the loops of swhelpers/maps.py lines 49-64 for face `c % 3` of element `c / 3`. -/
noncomputable def tagStep (ev : List ℕ) (vert : List ℝ) (bcTag : Int) (bc : List Int) (c : ℕ) : Out (List Int) := do
  let v1x ← cornerX ev vert (c / 3) (c % 3)
  let v2x ← cornerX ev vert (c / 3) ((c % 3 + 1) % 3)
  match bc[c]? with
  | none => .throws
  | some old => pure (bc.set c (correctTag bcTag old v1x v2x))

/-- swhelpers/maps.py lines 47-66 `correctBCTable`.  The table of tags is stored row by row, three entries for each element. -/
noncomputable def correctTable (ev : List ℕ) (vert : List ℝ) (bcTag : Int) (bc : List Int) : Out (List Int) :=
  loopM (tagStep ev vert bcTag) bc (List.range (3 * (bc.length / 3)))

end Blitzdg.SW
