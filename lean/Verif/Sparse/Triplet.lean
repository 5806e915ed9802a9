import Verif.Basic

/-!
Model of `blitzdg::SparseTriplet` (include/SparseTriplet.hpp, src/SparseTriplet.cpp).
The value type is arbitrary: the class only moves values.
-/

namespace Blitzdg.Sparse

/-- include/SparseTriplet.hpp lines 255-261: the data members.
`index_type` members that the class keeps non-negative are `Nat`; stored indices are `Int`. -/
structure Triplet (α : Type) where
  rows : Nat
  cols : Nat
  nnz : Nat
  nzmax : Nat
  row : List Int
  col : List Int
  elems : List α
deriving DecidableEq, Repr

variable {α : Type}

/-- include/SparseTriplet.hpp lines 35-45: `SparseTriplet(rows, cols, nzmax)`.
Simplification: arguments are non-negative (a negative `nzmax` makes `std::vector` throw). -/
def mk0 (zero : α) (rows cols nzmax : Nat) : Triplet α :=
  if rows = 0 ∨ cols = 0 then
    { rows := 0, cols := 0, nnz := 0, nzmax := 0, row := [], col := [], elems := [] }
  else
    { rows := rows, cols := cols, nnz := 0, nzmax := nzmax,
      row := List.replicate nzmax 0, col := List.replicate nzmax 0, elems := List.replicate nzmax zero }

/-- src/SparseTriplet.cpp lines 27-32: `newSize()`.  `1.5 * nzmax_` is exact in double precision for
every `int`, the comparison with INT_MAX is `3 * nzmax > 2 * INT_MAX` and the cast truncates. -/
def newSize (t : Triplet α) : Out Nat :=
  if t.nzmax < 2 then .ok 2
  else if 3 * t.nzmax > 2 * intMax then .throws
  else .ok (3 * t.nzmax / 2)

/-- src/SparseTriplet.cpp lines 34-41: `grow(nzmax_new)`; `resize` keeps the old elements and
value-initialises the new ones.  Simplification: `std::bad_alloc` is not modelled. -/
def grow (zero : α) (t : Triplet α) (n : Int) : Triplet α :=
  if n ≤ t.nzmax then t
  else
    let k := n.toNat
    { t with
      row := t.row ++ List.replicate (k - t.row.length) 0
      col := t.col ++ List.replicate (k - t.col.length) 0
      elems := t.elems ++ List.replicate (k - t.elems.length) zero
      nzmax := k }

/-- include/SparseTriplet.hpp lines 158-160: the three array writes of `insert`, each bounds checked,
and the increment of `nnz_`. -/
def push (t : Triplet α) (r c : Int) (x : α) : Out (Triplet α) := do
  let row' ← wr t.row t.nnz r
  let col' ← wr t.col t.nnz c
  let el' ← wr t.elems t.nnz x
  pure { t with row := row', col := col', elems := el', nnz := t.nnz + 1 }

/-- include/SparseTriplet.hpp lines 155-161: `insert(row, col, elem)`. -/
def insert (zero : α) (t : Triplet α) (r c : Int) (x : α) : Out (Triplet α) := do
  if t.nzmax ≤ t.nnz then
    let n ← newSize t
    push (grow zero t n) r c x
  else
    push t r c x

/-- include/SparseTriplet.hpp lines 169-171: `expand(nzmax)`. -/
def expand (zero : α) (t : Triplet α) (n : Int) : Triplet α := grow zero t n

/-- include/SparseTriplet.hpp lines 177-182: `clear()`. -/
def clear (zero : α) (t : Triplet α) : Triplet α :=
  { t with
    row := t.row.map fun _ => 0
    col := t.col.map fun _ => 0
    elems := t.elems.map fun _ => zero
    nnz := 0 }

/-- The calls of a client history. -/
inductive Op (α : Type) where
  | insert (r c : Int) (x : α)
  | expand (n : Int)
  | clear
deriving DecidableEq, Repr

/-- Effect of one call: the new state and whether the call threw.  `none` is undefined behaviour.
A throwing `insert` leaves the object as it was: the exception comes from `newSize()`, evaluated at
include/SparseTriplet.hpp line 157 before any member is written. -/
def step (zero : α) (t : Triplet α) : Op α → Option (Triplet α × Bool)
  | .insert r c x =>
    match insert zero t r c x with
    | .ok t' => some (t', false)
    | .throws => some (t, true)
    | .ub => none
  | .expand n => some (expand zero t n, false)
  | .clear => some (clear zero t, false)

/-- A history of calls; exceptions are caught by the client, which carries on.
The second component tells for each call whether it threw. -/
def run (zero : α) : Triplet α → List (Op α) → Option (Triplet α × List Bool)
  | t, [] => some (t, [])
  | t, o :: os =>
    match step zero t o with
    | none => none
    | some (t', b) =>
      match run zero t' os with
      | none => none
      | some (t'', bs) => some (t'', b :: bs)

/-- Number of elements an `insert` relocates: when `grow` reallocates, the three `std::vector`s move
their old contents, `nzmax_` elements each (src/SparseTriplet.cpp lines 37-39). Counted per array. -/
def insertCost (t : Triplet α) : Nat := if t.nzmax ≤ t.nnz then t.nzmax else 0

/-- Insert a list of entries one after the other, accumulating the relocation count. -/
def insertAll (zero : α) : Triplet α → List (Int × Int × α) → Out (Triplet α × Nat)
  | t, [] => .ok (t, 0)
  | t, (r, c, x) :: es => do
    let t' ← insert zero t r c x
    let (t'', n) ← insertAll zero t' es
    pure (t'', insertCost t + n)

/-- A dense matrix: src/… `real_matrix_type` (blitz::Array<double,2>, base 0). -/
structure DMat (α : Type) where
  rows : Nat
  cols : Nat
  at' : Nat → Nat → α

/-- The order in which a blitz iterator visits a matrix with the default (row-major) storage. -/
def rowMajor (m n : Nat) : List (Nat × Nat) :=
  (List.range m).flatMap fun i => (List.range n).map fun j => (i, j)

/-- The order for a column-major matrix. -/
def colMajor (m n : Nat) : List (Nat × Nat) :=
  (List.range n).flatMap fun j => (List.range m).map fun i => (i, j)

/-- include/BlitzHelpers.hpp lines 195-204: `countNonzeros(mat, dropTol)`; `big x` is `|x| > dropTol`.
The conversion check against INT_MAX is modelled. -/
def countNonzeros (big : α → Bool) (order : List (Nat × Nat)) (a : DMat α) : Out Nat :=
  let n := order.foldl (fun n ij => if big (a.at' ij.1 ij.2) then n + 1 else n) 0
  if n > intMax then .throws else .ok n

/-- src/SparseTriplet.cpp lines 43-53: construction from a dense matrix; `order` is the iteration order of
the blitz iterator (row-major unless the matrix was created column-major). -/
def ofDense (zero : α) (big : α → Bool) (order : List (Nat × Nat)) (a : DMat α) : Out (Triplet α) := do
  let n ← countNonzeros big order a
  loopM (fun t ij => if big (a.at' ij.1 ij.2) then push t ij.1 ij.2 (a.at' ij.1 ij.2) else .ok t)
    (mk0 zero a.rows a.cols n) order

/-- include/SparseTriplet.hpp lines 188-227: what a client reads: `row(k)`, `col(k)`, `elem(k)` for `k < nnz()`. -/
def entry (t : Triplet α) (k : Nat) : Out (Int × Int × α) := do
  let r ← rd t.row k
  let c ← rd t.col k
  let x ← rd t.elems k
  pure (r, c, x)

end Blitzdg.Sparse
