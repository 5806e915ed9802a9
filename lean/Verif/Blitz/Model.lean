import Verif.Sparse.Triplet
import Mathlib.Algebra.Order.Field.Basic
import Mathlib.Algebra.Order.Group.Unbundled.Abs

/-!
Model of include/BlitzHelpers.hpp: reshaping, index maps, Kronecker product, `unique`, `uniquetol`, `uniquetolMatlab`.
-/

namespace Blitzdg.Blitz

open Blitzdg.Sparse (DMat rowMajor colMajor)

variable {α : Type}

/-- Assignment `mat(i, j) = x`. -/
def mset (a : DMat α) (i j : Nat) (x : α) : DMat α :=
  { a with at' := fun i' j' => if i' = i ∧ j' = j then x else a.at' i' j' }

/-- The loop order of reshapeMatTo1D / reshape1DToMat (include/BlitzHelpers.hpp lines 221-232, 250-261). -/
def order (byRows : Bool) (m n : Nat) : List (Nat × Nat) := if byRows then rowMajor m n else colMajor m n

/-- include/BlitzHelpers.hpp lines 216-233 `reshapeMatTo1D`: `*arrItr++ = mat(i,j)` into the array `dst`; writing past its
end is undefined.  Also `fullToVector` (lines 294-297), which passes `vec.begin()`. -/
def reshapeMatTo1D (a : DMat α) (dst : List α) (byRows : Bool) : Out (List α) := do
  let (d, _) ← loopM (fun s ij => do
      let d' ← wr s.1 s.2 (a.at' ij.1 ij.2)
      pure (d', s.2 + 1)) (dst, 0) (order byRows a.rows a.cols)
  pure d

/-- include/BlitzHelpers.hpp lines 245-262 `reshape1DToMat`: `mat(i,j) = *arrItr++` from the array `src`; reading past its
end is undefined.  Also `vectorToFull` (lines 283-286). -/
def reshape1DToMat (src : List α) (a : DMat α) (byRows : Bool) : Out (DMat α) := do
  let (a', _) ← loopM (fun s ij => do
      let x ← rd src s.2
      pure (mset s.1 ij.1 ij.2 x, s.2 + 1)) (a, 0) (order byRows a.rows a.cols)
  pure a'

/-- `vec(i)` for an `int` index: negative or too large is undefined. -/
def rdI (l : List α) (i : Int) : Out α := if i < 0 then .ub else rd l i.toNat

/-- include/BlitzHelpers.hpp lines 271-275 `applyIndexMap`. -/
def applyIndexMap (vec : List α) (map : List Int) (out : List α) : Out (List α) :=
  loopM (fun o k => do
    let i ← rd map k
    let x ← rdI vec i
    wr o k x) out (List.range map.length)

/-- include/BlitzHelpers.hpp lines 314-315: entry `(i, j)` after assigning `s * B` to the block at `(r0, c0)`. -/
def blockAt [Mul α] (c : DMat α) (r0 c0 : Nat) (s : α) (b : DMat α) (i j : Nat) : α :=
  if r0 ≤ i ∧ i < r0 + b.rows ∧ c0 ≤ j ∧ j < c0 + b.cols then s * b.at' (i - r0) (j - c0) else c.at' i j

/-- include/BlitzHelpers.hpp lines 314-315: assignment of `s * B` to the block of rows `r0 .. r0+Br-1` and columns
`c0 .. c0+Bc-1`; a nonempty block that leaves the matrix is undefined (blitz ranges are unchecked). -/
def setBlock [Mul α] (c : DMat α) (r0 c0 : Nat) (s : α) (b : DMat α) : Out (DMat α) :=
  if (b.rows = 0 ∨ b.cols = 0) then .ok c
  else if r0 + b.rows ≤ c.rows ∧ c0 + b.cols ≤ c.cols then
    .ok { c with at' := blockAt c r0 c0 s b }
  else .ub

/-- include/BlitzHelpers.hpp lines 305-320 `kron`.  `junk` is the unspecified content of the freshly created matrix. -/
def kron [Mul α] (junk : Nat → Nat → α) (a b : DMat α) : Out (DMat α) :=
  loopM (fun c ij => setBlock c (ij.2 * b.rows) (ij.1 * b.cols) (a.at' ij.1 ij.2) b)
    { rows := a.rows * b.rows, cols := a.cols * b.cols, at' := junk } (rowMajor a.rows a.cols)

/-- include/BlitzHelpers.hpp lines 46-57 `CompareExact::operator()`: lexicographic over the columns `ord`. -/
def compareExact [LT α] [DecidableRel (α := α) (· < ·)] (a : DMat α) : List Nat → Nat → Nat → Bool
  | [], _, _ => false
  | j :: ord, l, r =>
    if a.at' l j < a.at' r j then true
    else if a.at' r j < a.at' l j then false
    else compareExact a ord l r

/-- `std::vector::resize(n)` for a vector of `int`. -/
def resize (l : List Nat) (n : Nat) : List Nat := l.take n ++ List.replicate (n - l.length) 0

/-- State of the loop in `unique`: gather, scatter, i. -/
abbrev UState := List Nat × List Nat × Nat

/-- include/BlitzHelpers.hpp lines 333-339: body of the loop of `unique`. -/
def uniqueStep (comp : Nat → Nat → Bool) (s : UState) (k : Nat) : Out UState := do
  let (g, sc, i) := s
  let curr ← rd g i
  let next ← rd g k
  if comp curr next || comp next curr then do
    let g' ← wr g (i + 1) next
    let sc' ← wr sc next (i + 1)
    pure (g', sc', i + 1)
  else do
    let sc' ← wr sc next i
    pure (g, sc', i)

/-- include/BlitzHelpers.hpp lines 322-343 `unique`, after sorting: `sorted` is the result of `std::sort` on `0..rows-1`. -/
def uniqueFrom (comp : Nat → Nat → Bool) (rows : Nat) (sorted : List Nat) : Out (List Nat × List Nat) := do
  let (g, sc, i) ← loopM (uniqueStep comp) (sorted, List.replicate rows 0, 0) (List.range rows)
  pure (resize g (i + 1), sc)

/-- include/BlitzHelpers.hpp lines 322-343 `unique`; `sort comp l` stands for `std::sort`, whose result on ties is unspecified. -/
def unique [LT α] [DecidableRel (α := α) (· < ·)] (sort : (Nat → Nat → Bool) → List Nat → List Nat) (a : DMat α) :
    Out (List Nat × List Nat) :=
  let comp := compareExact a (List.range a.cols)
  uniqueFrom comp a.rows (sort comp (List.range a.rows))

/-- include/BlitzHelpers.hpp lines 368-377: the inner `while` of `uniquetol`.  `first`, `last` are positions in `g`;
`fuel` bounds the number of iterations (the loop ends at `last = g.length`, so `g.length` suffices). -/
def tolInner (comp compByDim : Nat → Nat → Bool) (seed nu : Nat) :
    Nat → List Nat → List Nat → Nat → Nat → Out (List Nat × List Nat × Nat × Nat)
  | 0, g, sc, first, last => .ok (g, sc, first, last)
  | fuel + 1, g, sc, first, last =>
    if last = g.length then .ok (g, sc, first, last)
    else do
      let x ← rd g last
      if compByDim seed x then
        if comp seed x then do
          let sc' ← wr sc x nu
          tolInner comp compByDim seed nu fuel g sc' first (last + 1)
        else do
          let g' ← wr g first x
          tolInner comp compByDim seed nu fuel g' sc (first + 1) (last + 1)
      else .ok (g, sc, first, last)

/-- include/BlitzHelpers.hpp lines 364-381: the outer `while` of `uniquetol`, `curr` a position in `g`.  The loop variable
increases in every iteration while the vector never grows, so `rows` iterations suffice. -/
def tolOuter (comp compByDim : Nat → Nat → Bool) :
    Nat → List Nat → List Nat → Nat → Nat → Out (List Nat × List Nat × Nat × Nat)
  | 0, g, sc, curr, nu => .ok (g, sc, curr, nu)
  | fuel + 1, g, sc, curr, nu =>
    if curr = g.length then .ok (g, sc, curr, nu)
    else do
      let seed ← rd g curr
      let (g1, sc1, first, last) ← tolInner comp compByDim seed nu g.length g sc (curr + 1) (curr + 1)
      let sc2 ← wr sc1 seed nu
      tolOuter comp compByDim fuel (g1.take first ++ g1.drop last) sc2 (curr + 1) (nu + 1)

/-- include/BlitzHelpers.hpp lines 356-382: `uniquetol` for `tol > 0` after sorting. -/
def uniquetolFrom (comp compByDim : Nat → Nat → Bool) (rows : Nat) (sorted : List Nat) : Out (List Nat × List Nat) := do
  let (g, sc, _, _) ← tolOuter comp compByDim rows sorted (List.replicate rows 0) 0 0
  pure (g, sc)

section field
variable [Field α] [LinearOrder α]

/-- include/BlitzHelpers.hpp lines 71-85 (and 112-122 for one column): `tol * max_i |A(i,j)|`. -/
def colTol (a : DMat α) (tol : α) (j : Nat) : α :=
  (List.range a.rows).foldl (fun t i => max t |a.at' i j|) 0 * tol

/-- include/BlitzHelpers.hpp lines 87-95: `CompareEQ::operator()` (for `tol > 0`). -/
def compareEQ (a : DMat α) (tol : α) (l r : Nat) : Bool :=
  (List.range a.cols).all fun j => !decide (colTol a tol j < |a.at' l j - a.at' r j|)

/-- include/BlitzHelpers.hpp lines 103-105: `CompareEQByDim::operator()` (for `tol > 0`). -/
def compareEQByDim (a : DMat α) (dim : Nat) (tol : α) (l r : Nat) : Bool :=
  decide (|a.at' l dim - a.at' r dim| ≤ colTol a tol dim)

/-- include/BlitzHelpers.hpp lines 130-138: running mean and sum of squared deviations of column `j`. -/
def variance (a : DMat α) (j : Nat) : α × α :=
  (List.range a.rows).foldl (fun s i =>
    let delta := a.at' i j - s.1
    let mn := s.1 + delta / (i + 1)
    (mn, s.2 + delta * (a.at' i j - mn))) (0, 0)

/-- include/BlitzHelpers.hpp lines 125-144: `getOrdering`. -/
def getOrdering (sort : (Nat → Nat → Bool) → List Nat → List Nat) (a : DMat α) : List Nat :=
  if a.cols < 2 then [0]
  else sort (fun i j => decide ((variance a j).2 < (variance a i).2)) (List.range a.cols)

/-- include/BlitzHelpers.hpp lines 345-383: `uniquetol`.  Exact arithmetic. -/
def uniquetol (sort : (Nat → Nat → Bool) → List Nat → List Nat) (a : DMat α) (tol : α) : Out (List Nat × List Nat) :=
  if tol ≤ 0 then unique sort a
  else do
    let ord := getOrdering sort a
    let dim ← rd ord 0
    uniquetolFrom (compareEQ a tol) (compareEQByDim a dim tol) a.rows (sort (compareExact a ord) (List.range a.rows))

/-- include/BlitzHelpers.hpp lines 386-404: `orderColsByNorm`. -/
def orderColsByNorm (sort : (Nat → Nat → Bool) → List Nat → List Nat) (a : DMat α) : List Nat :=
  if a.cols < 2 then [0]
  else
    let nrm := fun j => (List.range a.rows).foldl (fun s i => s + a.at' i j * a.at' i j) (0 : α)
    sort (fun i j => decide (nrm j < nrm i)) (List.range a.cols)

end field

/-- include/BlitzHelpers.hpp lines 421-427: body of the loop of `uniquetolMatlab`, `k = k' + 1`. -/
def matlabStep (comp : Nat → Nat → Bool) (s : UState) (k' : Nat) : Out UState := do
  let (g, sc, i) := s
  let curr ← rd g k'
  let next ← rd g (k' + 1)
  if comp curr next then do
    let sc' ← wr sc next i
    pure (g, sc', i)
  else do
    let g' ← wr g (i + 1) next
    let sc' ← wr sc next (i + 1)
    pure (g', sc', i + 1)

/-- include/BlitzHelpers.hpp lines 414-430: `uniquetolMatlab` for `tol > 0` after sorting. -/
def matlabFrom (comp : Nat → Nat → Bool) (rows : Nat) (sorted : List Nat) : Out (List Nat × List Nat) := do
  let g0 ← rd sorted 0
  let sc0 ← wr (List.replicate rows 0) g0 0
  let (g, sc, i) ← loopM (matlabStep comp) (sorted, sc0, 0) (List.range (rows - 1))
  pure (resize g (i + 1), sc)

/-- include/BlitzHelpers.hpp lines 405-431: `uniquetolMatlab`.  Exact arithmetic. -/
def uniquetolMatlab [Field α] [LinearOrder α] (sort : (Nat → Nat → Bool) → List Nat → List Nat) (a : DMat α) (tol : α) :
    Out (List Nat × List Nat) :=
  if tol ≤ 0 then unique sort a
  else matlabFrom (compareEQ a tol) a.rows (sort (compareExact a (orderColsByNorm sort a)) (List.range a.rows))

end Blitzdg.Blitz
