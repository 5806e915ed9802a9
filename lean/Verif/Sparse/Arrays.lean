import Verif.Sparse.Triplet

/-!
Model of the remaining constructors of `blitzdg::SparseTriplet`, from arrays of indices and values, and of `swap`.
-/

namespace Blitzdg.Sparse

variable {α : Type}

/-- `*std::max_element(p, p + n)` on an array with the contents `l` (include/SparseTriplet.hpp lines 78, 79).  The algorithm keeps the first of the
largest elements and returns `p + n`, that is `p`, for an empty range; dereferencing it reads `p[0]`. -/
def maxElement (l : List Int) (n : Nat) : Out Int := do
  let a ← rd l 0
  loopM (fun m k => do let b ← rd l (k + 1); pure (if m < b then b else m)) a (List.range (n - 1))

/-- `x + 1` in `index_type` (`int`): past INT_MAX is undefined. -/
def plusOne (x : Int) : Out Int := if x < intMax then .ok (x + 1) else .ub

/-- include/SparseTriplet.hpp lines 58-64: `SparseTriplet(rows, cols, nnz, rowPtr, colPtr, elemsPtr)`.  The vectors copy the first `nnz` elements of
each array; reading past the end of an array is undefined.  Simplification: `nnz` is non-negative, a negative dimension is recorded as 0. -/
def ofSized (rows cols : Int) (nnz : Nat) (rowPtr colPtr : List Int) (elemsPtr : List α) : Out (Triplet α) :=
  if rowPtr.length < nnz ∨ colPtr.length < nnz ∨ elemsPtr.length < nnz then .ub
  else .ok
    { rows := rows.toNat, cols := cols.toNat, nnz := nnz, nzmax := nnz
      row := rowPtr.take nnz, col := colPtr.take nnz, elems := elemsPtr.take nnz }

/-- include/SparseTriplet.hpp lines 76-81: `SparseTriplet(nnz, rowPtr, colPtr, elemsPtr)`. -/
def ofArrays (nnz : Nat) (rowPtr colPtr : List Int) (elemsPtr : List α) : Out (Triplet α) := do
  let m ← maxElement rowPtr nnz
  let rows ← plusOne m
  let n ← maxElement colPtr nnz
  let cols ← plusOne n
  ofSized rows cols nnz rowPtr colPtr elemsPtr

/-- src/SparseTriplet.cpp lines 55-64: `swap(lhs, rhs)`, member by member. -/
def swap (l r : Triplet α) : Triplet α × Triplet α :=
  let (l, r) := ({ l with rows := r.rows }, { r with rows := l.rows })
  let (l, r) := ({ l with cols := r.cols }, { r with cols := l.cols })
  let (l, r) := ({ l with nnz := r.nnz }, { r with nnz := l.nnz })
  let (l, r) := ({ l with nzmax := r.nzmax }, { r with nzmax := l.nzmax })
  let (l, r) := ({ l with row := r.row }, { r with row := l.row })
  let (l, r) := ({ l with col := r.col }, { r with col := l.col })
  ({ l with elems := r.elems }, { r with elems := l.elems })

end Blitzdg.Sparse
