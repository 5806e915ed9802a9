import Verif.Blitz.UniquetolProps
import Verif.Sparse.Csc
import Verif.Csv.Model
import Verif.Output.Print

/-!
The unit tests of the repository, run on the model: src/test/SparseTripletTests.cpp, src/test/CSCMatrixTests.cpp,
src/test/BlitzHelpersTests.cpp.  Those that read files are in Verif/Conform/Files.lean.

These are tests and prove no property.  They are a check of the model against an oracle that was not written with it: the expected values
are those of the authors of the code, who could run it.  The input files of the tests are quoted in full.
-/

namespace Blitzdg.Conform

open Blitzdg.Sparse Blitzdg.Blitz Blitzdg.Csv Blitzdg.Print

/-- A matrix given by its rows, as in `mat = 2,3,0,…` of the tests. -/
def ofRows {α : Type} [Inhabited α] (m n : Nat) (l : List α) : DMat α := { rows := m, cols := n, at' := fun i j => l[i * n + j]! }

/-- The entries of a matrix, row after row. -/
def toRows {α : Type} (a : DMat α) : List α := (rowMajor a.rows a.cols).map fun ij => a.at' ij.1 ij.2

/-- Application inside an outcome, for reading off a result. -/
def Out.map' {α β : Type} (f : α → β) : Out α → Out β
  | .ok a => .ok (f a)
  | .throws => .throws
  | .ub => .ub

/-- `|x| > 0`, the default drop tolerance. -/
def nz (x : Int) : Bool := decide (x ≠ 0)

/-- src/test/SparseTripletTests.cpp lines 23-30 `tripToFull`: `ret(row(k), col(k)) = elem(k)`, a later entry overwriting an earlier one. -/
def tripToFull (t : Triplet Int) : List Int :=
  toRows ((List.range t.nnz).foldl (fun (a : DMat Int) k =>
    mset a (t.row.getD k 0).toNat (t.col.getD k 0).toNat (t.elems.getD k 0)) { rows := t.rows, cols := t.cols, at' := fun _ _ => 0 })

/-- src/test/CSCMatrixTests.cpp lines 25-33 `cscToFull`. -/
def cscToFull (c : Csc Int) : Option (List Int) :=
  (readCols c).map fun cols => toRows ((entriesFrom 0 cols).foldl (fun (a : DMat Int) e => mset a e.1 e.2.1 e.2.2)
    { rows := c.m, cols := c.n, at' := fun _ _ => 0 })

/-- The matrix `full` of both test files. -/
def full : List Int :=
  [1, 0, 0, 3, 2,
   0, 0, 1, 1, 0,
   0, 5, 0, 0, 0,
   0, 2, 0, 0, 4,
   1, 1, 1, 0, 0]

/-- The matrix `dens` of both test files. -/
def dens : List Int := [1, 2, 3, 4, 5, 6, 7, 8, 9]

/-- `SparseTriplet trip(full)`. -/
def tripFull : Out (Triplet Int) := ofDense 0 nz (rowMajor 5 5) (ofRows 5 5 full)

/-- `CSCMat csc(full)`. -/
def cscFull : Out (Csc Int) := cscOfDense nz (rowMajor 5 5) (ofRows 5 5 full)

/-! ### SparseTripletTests.cpp -/

/-- Lines 33-51, Should_Build_From_A_Dense_Matrix. -/
example : Out.map' (fun t => (t.rows, t.cols, t.nnz, t.nzmax, tripToFull t)) tripFull = .ok (5, 5, 11, 11, full) := by decide +kernel

/-- The insertions of lines 60-74; the state is the matrix and the sizes seen after each insertion. -/
def inserts : List (Int × Int × Int) :=
  [(0, 0, 1), (0, 3, 3), (0, 4, 2), (1, 2, 1), (1, 3, 1), (2, 1, 5), (3, 1, 2), (3, 4, 4), (4, 0, 1), (4, 1, 1), (4, 2, 1)]

/-- Lines 53-80, Should_Build_By_Inserting_Elements: `nzmax()` is 6, 9 and 13 after the fifth, seventh and tenth insertion. -/
example :
    Out.map' (fun p => p.1.nzmax) (insertAll 0 (mk0 0 5 5 4) (inserts.take 5)) = .ok 6 ∧
    Out.map' (fun p => p.1.nzmax) (insertAll 0 (mk0 0 5 5 4) (inserts.take 7)) = .ok 9 ∧
    Out.map' (fun p => p.1.nzmax) (insertAll 0 (mk0 0 5 5 4) (inserts.take 10)) = .ok 13 ∧
    Out.map' (fun p => (p.1.nnz, tripToFull p.1)) (insertAll 0 (mk0 0 5 5 4) inserts) = .ok (11, full) := by decide +kernel

/-- Lines 105-112, Should_Expand_Its_Capacity. -/
example : (expand (0 : Int) (mk0 0 5 5 5) 4).nzmax = 5 ∧ (expand (0 : Int) (expand 0 (mk0 0 5 5 5) 4) 10).nzmax = 10 := by decide +kernel

/-- Lines 114-129, Should_Clear_All_Its_Elements. -/
example : Out.map' (fun t => let t := clear 0 t; (t.nnz, t.nzmax, tripToFull t)) tripFull = .ok (0, 11, List.replicate 25 0) := by decide +kernel

/-- The text of the small integers of the printing tests, as `operator<<` writes the reals 1, 2, 3, 4. -/
def numInt (_ : Fmt) (x : Int) : Str := Output.intText x

/-- Lines 154-163, Should_Print_To_An_Output_Stream. -/
example : Out.map' (fun s => s.text) (ofDense 0 nz (rowMajor 2 2) (ofRows 2 2 [1, 2, 3, 4]) >>= printTriplet numInt ⟨Fmt.initial, []⟩) =
    .ok "rows = 2, cols = 2, nnz = 4\n\n0 0 1\n0 1 2\n1 0 3\n1 1 4\n".toList := by decide +kernel

/-! ### CSCMatrixTests.cpp -/

/-- Lines 36-54, Should_Build_From_A_Dense_Matrix. -/
example : Out.map' (fun c => (c.m, c.n, c.nnz, cscToFull c)) cscFull = .ok (5, 5, 11, some full) := by decide +kernel

/-- Lines 56-71, Should_Build_From_A_Sparse_Triplet. -/
example : Out.map' cscToFull (tripFull >>= cscOfTriplet) = .ok (some full) := by decide +kernel

/-- Lines 100-116, Should_Prune_Any_Explicit_Zeros: with drop tolerance -1 every entry is kept, before and after. -/
example : Out.map' (fun c => c.nnz) (cscOfDense (fun _ => true) (rowMajor 5 5) (ofRows 5 5 full)) = .ok 25 ∧
    Out.map' cscToFull (cscOfDense (fun _ => true) (rowMajor 5 5) (ofRows 5 5 full) >>= prune (fun _ => true)) = .ok (some full) := by decide +kernel

/-- Lines 126-129: `trip.row(k) = 0; trip.col(k) = 0; trip.elem(k) = x`. -/
def overwrite (t : Triplet Int) (k : Nat) (x : Int) : Out (Triplet Int) := do
  let r ← wr t.row k 0
  let c ← wr t.col k 0
  let e ← wr t.elems k x
  pure { t with row := r, col := c, elems := e }

/-- Lines 118-137, Should_Remove_Duplicate_Elements. -/
example : Out.map' (fun c => (c.nnz, (cscToFull c).map fun l => l[0]!))
    (tripFull >>= (overwrite · 0 1) >>= (overwrite · 1 2) >>= (overwrite · 5 3) >>= (overwrite · 9 4) >>= cscOfTriplet >>= removeDuplicates) =
    .ok (8, some 10) := by decide +kernel

/-- Lines 139-163, Should_Compute_The_Transpose: `trans = full(jj, ii)`, and back. -/
example : Out.map' cscToFull (cscFull >>= transpose) = .ok (some ((rowMajor 5 5).map fun ij => full[ij.2 * 5 + ij.1]!)) ∧
    Out.map' cscToFull (cscFull >>= transpose >>= transpose) = .ok (some full) := by decide +kernel

/-- Lines 165-186, Should_Multiply_Two_Matrices. -/
example : Out.map' cscToFull (do let c ← cscFull; let t ← transpose c; multiply t c) = .ok (some
    [2,  1, 1,  3,  2,
     1, 30, 1,  0,  8,
     1,  1, 2,  1,  0,
     3,  0, 1, 10,  6,
     2,  8, 0,  6, 20]) := by decide +kernel

/-- Lines 188-203, Should_Copy_Construct. -/
example : Out.map' cscToFull (cscFull >>= cscCopy false) = .ok (some full) := by decide +kernel

/-- `CSCMat cscd(dens)`. -/
def cscDens : Out (Csc Int) := cscOfDense nz (rowMajor 3 3) (ofRows 3 3 dens)

/-- Lines 205-224, Should_Copy_Assign. -/
example : Out.map' (fun o => o.bind cscToFull) (do let f ← cscFull; let d ← cscDens; cscAssign false (some f) (some d)) = .ok (some dens) := by
  decide +kernel

/-- Lines 226-247, Should_Swap_Two_Matrices. -/
example : Out.map' (fun p => (p.1.bind cscToFull, p.2.bind cscToFull)) (do let f ← cscFull; let d ← cscDens; cscSwap (some f) (some d)) =
    .ok (some dens, some full) := by decide +kernel

/-- Lines 249-258, Should_Print_To_An_Output_Stream. -/
example : Out.map' (fun s => s.text) (cscOfDense nz (rowMajor 2 2) (ofRows 2 2 [1, 2, 3, 4]) >>= printCsc numInt ⟨Fmt.initial, []⟩) =
    .ok "rows = 2, cols = 2, nnz = 4\n\n0 0 1\n1 0 3\n0 1 2\n1 1 4\n".toList := by decide +kernel

/-! ### BlitzHelpersTests.cpp -/

/-- The matrix `mat` of the tests of the helpers. -/
def mat : List Int :=
  [2, 3, 0, 0, 0,
   3, 0, 4, 0, 6,
   0, -1, -3, 2, 0,
   0, 0, 1, 0, 0,
   0, 4, 2, 0, 1]

/-- `podCol` (line 52) and `expectedvec` (lines 113-137). -/
def podCol : List Int := [2, 3, 0, 0, 0, 3, 0, -1, 0, 4, 0, 4, -3, 1, 2, 0, 0, 2, 0, 0, 0, 6, 0, 0, 1]

/-- Lines 27-36, Should_Count_The_Number_Of_Nonzeros. -/
example : countNonzeros nz (rowMajor 5 5) (ofRows 5 5 mat) = .ok 12 := by decide +kernel

/-- Lines 38-64, Should_Convert_Full_Matrix_To_POD, and lines 99-144, Should_Convert_Dense_Matrix_To_Vector. -/
example : reshapeMatTo1D (ofRows 5 5 mat) (List.replicate 25 0) true = .ok mat ∧
    reshapeMatTo1D (ofRows 5 5 mat) (List.replicate 25 0) false = .ok podCol := by decide +kernel

/-- Lines 66-97, Should_Convert_POD_To_Full_Matrix, and lines 146-192, Should_Convert_Vector_To_Dense_Matrix. -/
example : Out.map' toRows (reshape1DToMat mat (ofRows 5 5 (List.replicate 25 0)) true) = .ok mat ∧
    Out.map' toRows (reshape1DToMat mat (ofRows 5 5 (List.replicate 25 0)) false) = .ok
      [2, 3, 0, 0, 0,
       3, 0, -1, 0, 4,
       0, 4, -3, 1, 2,
       0, 0, 2, 0, 0,
       0, 6, 0, 0, 1] ∧
    Out.map' toRows (reshape1DToMat podCol (ofRows 5 5 (List.replicate 25 0)) false) = .ok mat := by decide +kernel

/-- Lines 194-211, Should_Apply_Index_Map. -/
example : applyIndexMap ([1.1, 1.2, 1.3, 1.4, 1.5] : List ℚ) [0, 2, 4] [0, 0, 0] = .ok [1.1, 1.3, 1.5] := by decide +kernel

/-- Lines 212-236, Should_Compute_Kronecker_Product (the left factor is symmetric, which hides what `C12_wrong_value` shows). -/
example : Out.map' toRows (kron (fun _ _ => 77) (ofRows 3 3 ([1, 0, 0, 0, 1, 0, 0, 0, 1] : List Int)) (ofRows 3 3 (List.replicate 9 3))) = .ok
    [3, 3, 3, 0, 0, 0, 0, 0, 0,
     3, 3, 3, 0, 0, 0, 0, 0, 0,
     3, 3, 3, 0, 0, 0, 0, 0, 0,
     0, 0, 0, 3, 3, 3, 0, 0, 0,
     0, 0, 0, 3, 3, 3, 0, 0, 0,
     0, 0, 0, 3, 3, 3, 0, 0, 0,
     0, 0, 0, 0, 0, 0, 3, 3, 3,
     0, 0, 0, 0, 0, 0, 3, 3, 3,
     0, 0, 0, 0, 0, 0, 3, 3, 3] := by decide +kernel

/-- The matrix of the two tests of `uniquetol` (lines 240-245, 280-285). -/
def rows6 : List ℚ :=
  [1, 1, 1,
   1, 1, 1,
   2, 0, 3,
   2.00000001, 0, 3,
   2, 2, 2,
   2, 2, 2.1]

/-- Lines 260-276: the rows `A(gather[i], :)` and `Auniq(scatter[i], :)`. -/
def uniqRows (p : List Nat × List Nat) : List (List ℚ) × List (List ℚ) :=
  let row := fun (i : Nat) => (List.range 3).map fun j => rows6[i * 3 + j]!
  let u := p.1.map row
  (u, p.2.map fun i => u[i]!)

/-- `normFro(x - y) < 1e-5`, squared. -/
def near (x y : List (List ℚ)) : Bool :=
  decide (x.map List.length = y.map List.length) &&
  decide (((x.flatten.zip y.flatten).map fun p => (p.1 - p.2) * (p.1 - p.2)).sum < (1 / 100000) * (1 / 100000))

/-- The two assertions, lines 269 and 276 (309 and 316). -/
def passes (r : Out (List Nat × List Nat)) : Bool :=
  match r with
  | .ok p =>
    near (uniqRows p).1 [[1, 1, 1], [2, 2, 2], [2, 2, 2.1], [2, 0, 3]] &&
    near (uniqRows p).2 ((List.range 6).map fun i => (List.range 3).map fun j => rows6[i * 3 + j]!)
  | _ => false

/-- Lines 238-277, Should_Find_Unique_Rows_With_Tol. -/
example : passes (uniquetol insSort (ofRows 6 3 rows6) (1 / 10000)) = true := by decide +kernel

/-- Lines 278-317, Should_Find_Unique_Rows_With_Tol_Matlab_Style_Impl. -/
example : passes (uniquetolMatlab insSort (ofRows 6 3 rows6) (1 / 10000)) = true := by decide +kernel

end Blitzdg.Conform
