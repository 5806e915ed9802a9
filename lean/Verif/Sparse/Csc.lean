import Verif.Sparse.Triplet

/-!
Model of `blitzdg::CSCMat` (include/CSCMatrix.hpp, src/CSCMatrix.cpp).

`CSCMat` wraps a CXSparse `cs_di`.  CXSparse is not part of the repository; its functions are modelled by
their documented behaviour as definitions on column lists (`compressCols`, `duplCols`, `dropCols`, `transposeCols`,
`multiplyCols`); the repository's own loops are modelled on the raw `p`, `i`, `x` arrays.
A cell is `none` as long as the memory returned by `malloc` has not been written.
-/

namespace Blitzdg.Sparse

variable {α : Type}

/-- The `cs_di` object behind a `CSCMat` (compressed form): dimensions, column pointers `p` and the arrays `i`, `x`.
Simplification: `i[k]` and `x[k]` form one cell because the code always writes them together.
`nzmax` is the length of `ix`. -/
structure Csc (α : Type) where
  m : Nat
  n : Nat
  p : List (Option Nat)
  ix : List (Option (Nat × α))
deriving DecidableEq, Repr

/-- include/CSCMatrix.hpp lines 126-128: `nnz()` returns `nzmax`, the allocated size. -/
def Csc.nnz (c : Csc α) : Nat := c.ix.length

/-- CXSparse `cs_spalloc(m, n, nzmax, 1, 0)`: at least one cell, contents uninitialised. -/
def spalloc (m n nzmax : Nat) : Csc α :=
  { m := m, n := n, p := List.replicate (n + 1) none, ix := List.replicate (max nzmax 1) none }

/-- The test `rows * cols == 0` of src/CSCMatrix.cpp line 32 on 32-bit `int`s.  A product above INT_MAX is signed
overflow: undefined behaviour by the language (`wrap = false`); with `wrap = true` it is computed modulo 2^32, as
compilers do in practice. -/
def prodIsZero (wrap : Bool) (rows cols : Nat) : Out Bool :=
  if rows * cols > intMax then
    if wrap then .ok (decide (rows * cols % 4294967296 = 0)) else .ub
  else .ok (decide (rows * cols = 0))

/-- src/CSCMatrix.cpp lines 31-40: `CSCMat(rows, cols, nnz)`. -/
def cscAlloc (wrap : Bool) (rows cols nnz : Nat) : Out (Csc α) := do
  let z ← prodIsZero wrap rows cols
  let c : Csc α := spalloc rows cols (if z then 0 else nnz)
  if rows = 0 ∨ cols = 0 then pure { c with m := 0, n := 0 } else pure c

/-- Reading column `j` the way clients do (src/CSCMatrix.cpp lines 155-161):
`for (k = colPtrs(j); k < colPtrs(j+1); ++k) use rowInds(k), elems(k)`.
`none`: a pointer or a cell is out of range or uninitialised. -/
def readCol (c : Csc α) (j : Nat) : Option (List (Nat × α)) := do
  let a ← (← c.p[j]?)
  let b ← (← c.p[j + 1]?)
  if b ≤ c.ix.length then ((c.ix.take b).drop a).mapM id else none

/-- All columns, in order. -/
def readCols (c : Csc α) : Option (List (List (Nat × α))) := (List.range c.n).mapM (readCol c)

/-- The CSC layout of a list of columns in an object with `nzmax` cells. -/
def layout (m nzmax : Nat) (cols : List (List (Nat × α))) : Csc α :=
  { m := m, n := cols.length
    p := (List.range (cols.length + 1)).map fun j => some ((cols.map List.length).take j).sum
    ix := cols.flatten.map some ++ List.replicate (nzmax - cols.flatten.length) none }

/-! ### CXSparse functions on column lists -/

/-- CXSparse `cs_compress`: a stable counting sort of the triplets by column. -/
def compressCols (n : Nat) (es : List (Nat × Nat × α)) : List (List (Nat × α)) :=
  (List.range n).map fun j => (es.filter fun e => e.2.1 = j).map fun e => (e.1, e.2.2)

/-- CXSparse `cs_entry` on a triplet object with dimensions `m`, `n`: rejects negative indices, grows the dimensions. -/
def csEntry : Nat × Nat × List (Nat × Nat × α) → Int × Int × α → Out (Nat × Nat × List (Nat × Nat × α))
  | (m, n, es), (i, j, x) =>
    if i < 0 ∨ j < 0 then .throws
    else .ok (max m (i.toNat + 1), max n (j.toNat + 1), es ++ [(i.toNat, j.toNat, x)])

/-- src/CSCMatrix.cpp lines 42-61: `CSCMat(triplet)`: entries `0 .. nnz-1` are entered one by one (an
exception if one is rejected), then compressed.  Out-of-memory failures are not modelled. -/
def cscOfTriplet (t : Triplet α) : Out (Csc α) := do
  let (m, n, es) ← loopM (fun s k => entry t k >>= csEntry s) (t.rows, t.cols, []) (List.range t.nnz)
  pure (layout m (max es.length 1) (compressCols n es))

/-- src/CSCMatrix.cpp lines 76-83, loop over `i`: bounds-checked writes of `i[nnz]`, `x[nnz]`. -/
def denseCol (big : α → Bool) (a : DMat α) (j : Nat) (s : Csc α × Nat) : Out (Csc α × Nat) :=
  loopM (fun s i =>
      if big (a.at' i j) then do
        let ix' ← wr s.1.ix s.2 (some (i, a.at' i j))
        pure ({ s.1 with ix := ix' }, s.2 + 1)
      else .ok s) s (List.range a.rows)

/-- src/CSCMatrix.cpp lines 63-85: `CSCMat(mat, dropTol)`; `big x` is `|x| > dropTol`, `order` the order in which
`countNonzeros` visits the matrix. -/
def cscOfDense (big : α → Bool) (order : List (Nat × Nat)) (a : DMat α) : Out (Csc α) := do
  let nz ← countNonzeros big order a
  let (c, k) ← loopM (fun s j => do
      let p' ← wr s.1.p j (some s.2)
      denseCol big a j ({ s.1 with p := p' }, s.2)) (spalloc a.rows a.cols nz, 0) (List.range a.cols)
  let p' ← wr c.p a.cols (some k)
  pure { c with p := p' }

/-- src/CSCMatrix.cpp lines 102-111: the copy constructor: allocate, copy `nnz()` cells, copy `cols()+1` pointers. -/
def cscCopy (wrap : Bool) (o : Csc α) : Out (Csc α) := do
  let c ← cscAlloc wrap o.m o.n o.nnz
  let ix' ← loopM (fun ix k => rd o.ix k >>= wr ix k) c.ix (List.range o.nnz)
  let p' ← loopM (fun p k => rd o.p k >>= wr p k) c.p (List.range (o.n + 1))
  pure { c with ix := ix', p := p' }

/-- Insertion of one entry into an accumulated column (CXSparse `cs_dupl` and `cs_scatter`): an entry whose row
already occurs is added to it, otherwise it is appended. -/
def addEntry [Add α] : List (Nat × α) → Nat × α → List (Nat × α)
  | [], e => [e]
  | (i, y) :: c, (k, x) => if i = k then (i, y + x) :: c else (i, y) :: addEntry c (k, x)

/-- CXSparse `cs_dupl` on one column. -/
def mergeCol [Add α] (c : List (Nat × α)) : List (Nat × α) := c.foldl addEntry []

/-- src/CSCMatrix.cpp lines 118-121: `removeDuplicates()` (CXSparse `cs_dupl`, then `cs_sprealloc`). -/
def removeDuplicates [Add α] (c : Csc α) : Out (Csc α) :=
  match readCols c with
  | none => .ub
  | some cols => let cols' := cols.map mergeCol; .ok (layout c.m (max cols'.flatten.length 1) cols')

/-- src/CSCMatrix.cpp lines 123-126: `prune(dropTol)` (CXSparse `cs_droptol` keeps `|x| > tol`, then
`cs_sprealloc` to the number of entries, at least one cell). -/
def prune (big : α → Bool) (c : Csc α) : Out (Csc α) :=
  match readCols c with
  | none => .ub
  | some cols =>
    let cols' := cols.map (List.filter fun e => big e.2)
    .ok (layout c.m (max cols'.flatten.length 1) cols')

/-- Entries of all columns as (row, column, value), in storage order. -/
def entriesFrom : Nat → List (List (Nat × α)) → List (Nat × Nat × α)
  | _, [] => []
  | j, c :: cs => c.map (fun e => (e.1, j, e.2)) ++ entriesFrom (j + 1) cs

/-- CXSparse `cs_transpose`: the entries are visited in storage order and appended to the column of their row. -/
def transposeCols (m : Nat) (cols : List (List (Nat × α))) : List (List (Nat × α)) :=
  compressCols m ((entriesFrom 0 cols).map fun e => (e.2.1, e.1, e.2.2))

/-- src/CSCMatrix.cpp lines 128-133 and 165-170: `transpose`.  A row index outside `0..m-1` makes
CXSparse write out of bounds. -/
def transpose (c : Csc α) : Out (Csc α) :=
  match readCols c with
  | none => .ub
  | some cols =>
    if cols.flatten.all (fun e => decide (e.1 < c.m)) then
      .ok (layout c.n (max cols.flatten.length 1) (transposeCols c.m cols))
    else .ub

/-- CXSparse `cs_multiply`, one column: for each `(k, b)` of the right column, `b * a` is accumulated for each `(i, a)` of
column `k` of the left matrix.  `none`: `k` is not a column of the left matrix. -/
def mulCol [Add α] [Mul α] (A : List (List (Nat × α))) (b : List (Nat × α)) : Option (List (Nat × α)) := do
  let parts ← b.mapM fun kb => do
    let col ← A[kb.1]?
    pure (col.map fun ia => (ia.1, kb.2 * ia.2))
  pure (mergeCol parts.flatten)

/-- src/CSCMatrix.cpp lines 172-177: `multiply(lhs, rhs)`; CXSparse returns null (here: an exception) if the inner dimensions
differ. -/
def multiply [Add α] [Mul α] (A B : Csc α) : Out (Csc α) :=
  if A.n ≠ B.m then .throws
  else match readCols A, readCols B with
    | some a, some b =>
      match b.mapM (mulCol a) with
      | some cols => .ok (layout A.m (max cols.flatten.length 1) cols)
      | none => .ub
    | _, _ => .ub

/-! ### Assignment, swap, move.  A `CSCMat` owns its `cs_di` through a smart pointer: `none` is a moved-from object. -/

/-- src/CSCMatrix.cpp lines 138-147: `swap` exchanges the fields of the two `cs_di` objects one by one (`nzmax` is the length of `ix`; `nz` is -1 in
both).  A moved-from operand is a null dereference. -/
def cscSwap : Option (Csc α) → Option (Csc α) → Out (Option (Csc α) × Option (Csc α))
  | some l, some r => .ok (some { m := r.m, n := r.n, p := r.p, ix := r.ix }, some { m := l.m, n := l.n, p := l.p, ix := l.ix })
  | _, _ => .ub

/-- src/CSCMatrix.cpp lines 113-116: `lhs = rhs` for an lvalue `rhs`: the parameter is copy-constructed, swapped with `*this`, and destroyed.
The result is the new `lhs`. -/
def cscAssign (wrap : Bool) : Option (Csc α) → Option (Csc α) → Out (Option (Csc α))
  | l, some r => do
    let c ← cscCopy wrap r
    let (l', _) ← cscSwap l (some c)
    pure l'
  | _, none => .ub

/-- include/CSCMatrix.hpp line 93: the defaulted move constructor: the new object and what is left of the source. -/
def cscMove (o : Option (Csc α)) : Option (Csc α) × Option (Csc α) := (o, none)

end Blitzdg.Sparse
