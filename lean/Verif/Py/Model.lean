import Verif.Ctx.Gauss
import Verif.Mesh.ReadModel

/-!
The arrays passed between Python and C++ (src/pyblitzdg, the `*_numpy` functions).

Exports all have the form `zeros(shape)` followed by `std::copy(a.begin(), a.end(), data)`.  Blitz iterators run in storage order, which is row-major for all exported arrays
(the library never uses `ColumnMajorOrder` for them).  Imports read `shape(0)*shape(1)` elements from the address of the first element, whatever the strides.
-/

namespace Blitzdg.Py

open Blitzdg.Sparse (DMat rowMajor Csc readCol)
open Blitzdg.DG2D (TagMap)
open Blitzdg.Ctx (GaussFace Cubature)

variable {α : Type}

/-! ### Exports -/

/-- A freshly made array: shape and contiguous buffer in C order. -/
structure NdArray (α : Type) where
  shape : List ℕ
  data : List α

/-- `boost::python::numpy::zeros`. -/
def npZeros [Zero α] (shape : List ℕ) : NdArray α := ⟨shape, List.replicate shape.prod 0⟩

/-- `std::copy(src.begin(), src.end(), dst)`: the destination is a raw pointer to the buffer. -/
def copyInto (dst src : List α) : Out (List α) :=
  (loopM (fun (s : List α × ℕ) x => do
    let d ← wr s.1 s.2 x
    pure (d, s.2 + 1)) (dst, 0) src) >>= fun s => .ok s.1

/-- The storage of a matrix: its elements row by row. -/
def storage (m : DMat α) : List α := (rowMajor m.rows m.cols).map fun p => m.at' p.1 p.2

/-- The storage of a tensor `(n0, n1, n2)` whose slices `(:, :, k)` are `t k`: the last index varies fastest. -/
def storage3 (n0 n1 n2 : ℕ) (t : ℕ → DMat α) : List α :=
  (rowMajor n0 n1).flatMap fun p => (List.range n2).map fun k => (t k).at' p.1 p.2

/-- The common body of all getters: `zeros(shape)`, `std::copy`. -/
def exportTo [Zero α] (shape : List ℕ) (src : List α) : Out (NdArray α) := do
  let d ← copyInto (npZeros (α := α) shape).data src
  pure ⟨shape, d⟩

/-- `d[key] = value` for a Python dictionary, kept as its list of items in the order of insertion. -/
def dictSet (d : List (ℕ × List ℕ)) (k : ℕ) (v : List ℕ) : List (ℕ × List ℕ) :=
  if d.any (·.1 == k) then d.map fun t => if t.1 = k then (k, v) else t else d ++ [(k, v)]

/-- The dictionary of boundary lists (src/GaussFaceContext2D.cpp lines 95-109, src/DGContext2D.cpp lines 178-192 `bcmap_numpy`): a loop over the entries of the hash map, in whatever
order it has them, each list copied entry by entry. -/
def exportDict (entries : List (ℕ × List ℕ)) : List (ℕ × List ℕ) :=
  entries.foldl (fun d t => dictSet d t.1 (t.2.foldl (fun l n => l ++ [n]) [])) []

/-- The matrices of a Gauss face context that Python can see. -/
inductive GField | nx | ny | sJ | J | rx | ry | sx | sy | x | y | W | interp
deriving DecidableEq

def GField.mat (c : GaussFace) : GField → DMat ℝ
  | nx => c.nx | ny => c.ny | sJ => c.sJ | J => c.J | rx => c.rx | ry => c.ry | sx => c.sx | sy => c.sy | x => c.x | y => c.y | W => c.W | interp => c.interp

/-- The shape each getter passes to `zeros` (src/GaussFaceContext2D.cpp lines 25-122): `{rows, cols}` except in `sx_numpy` (line 67), which passes `{rows, rows}`. -/
def GField.shape (c : GaussFace) (f : GField) : List ℕ :=
  match f with
  | sx => [c.sx.rows, c.sx.rows]
  | f => [(f.mat c).rows, (f.mat c).cols]

/-- The matrix getters of `GaussFaceContext2D` in src/GaussFaceContext2D.cpp.  A context made by the default constructor holds null pointers (`none`). -/
noncomputable def gaussNumpy (c : Option GaussFace) (f : GField) : Out (NdArray ℝ) :=
  match c with
  | none => .ub
  | some c => exportTo (f.shape c) (storage (f.mat c))

/-- `mapM_numpy`, `mapP_numpy` (src/GaussFaceContext2D.cpp lines 124-136). -/
def indexNumpy (l : List ℕ) : Out (NdArray ℕ) := exportTo [l.length] l

/-- The matrices and vectors of a cubature context that Python can see. -/
inductive CField | V | rx | ry | sx | sy | J | Dr | Ds | x | y | W
deriving DecidableEq

def CField.mat (c : Cubature) : CField → DMat ℝ
  | V => c.V | rx => c.rx | ry => c.ry | sx => c.sx | sy => c.sy | J => c.J | Dr => c.Dr | Ds => c.Ds | x => c.x | y => c.y | W => c.W

/-- The matrix getters of src/CubatureContext2D.cpp (lines 25-43, 66-113, 130-135). -/
noncomputable def cubNumpy (c : Option Cubature) (f : CField) : Out (NdArray ℝ) :=
  match c with
  | none => .ub
  | some c => exportTo [(f.mat c).rows, (f.mat c).cols] (storage (f.mat c))

/-- `r_numpy`, `s_numpy`, `w_numpy` (src/CubatureContext2D.cpp lines 45-64). -/
noncomputable def vecNumpy (l : List ℝ) : Out (NdArray ℝ) := exportTo [l.length] l

/-- `MM_numpy`, `MMChol_numpy` (src/CubatureContext2D.cpp lines 115-127) for a tensor of shape `(n0, n1, n2)`. -/
noncomputable def tensorNumpy (n0 n1 n2 : ℕ) (t : ℕ → DMat ℝ) : Out (NdArray ℝ) := exportTo [n0, n1, n2] (storage3 n0 n1 n2 t)

/-- The matrices of a `DGContext2D` that Python can see. -/
inductive DField | filter | x | y | fscale | fmask | J | rx | ry | sx | sy | nx | ny | Dr | Ds | lift | V
deriving DecidableEq

/-- Sizes of the arrays allocated by the constructor of the triangle provisioner (src/TriangleNodesProvisioner.cpp lines 40-72) for order `N` and `K` elements. -/
def triAlloc (N K : ℕ) : DField → ℕ × ℕ
  | .x | .y | .J | .rx | .ry | .sx | .sy => ((N + 2) * (N + 1) / 2, K)
  | .V | .Dr | .Ds | .filter => ((N + 2) * (N + 1) / 2, (N + 2) * (N + 1) / 2)
  | .lift => ((N + 2) * (N + 1) / 2, (N + 1) * 3)
  | .nx | .ny | .fscale => ((N + 1) * 3, K)
  | .fmask => (N + 1, 3)

/-- Sizes of the arrays allocated by the constructor of the quadrilateral provisioner (src/QuadNodesProvisioner.cpp lines 36-64). -/
def quadAlloc (N K : ℕ) : DField → ℕ × ℕ
  | .x | .y | .J | .rx | .ry | .sx | .sy => ((N + 1) * (N + 1), K)
  | .V | .Dr | .Ds | .filter => ((N + 1) * (N + 1), (N + 1) * (N + 1))
  | .lift => ((N + 1) * (N + 1), (N + 1) * 4)
  | .nx | .ny | .fscale => ((N + 1) * 4, K)
  | .fmask => (N + 1, 4)

/-- The numbers a `DGContext2D` carries (include/DGContext2D.hpp lines 11-15). -/
structure Sizes where
  np : ℕ
  nfp : ℕ
  K : ℕ
  nf : ℕ

/-- `get_DGContext` of the two provisioners: `NumLocalPoints`, `NumFacePoints`, `NumElements`, `NumFaces`
(src/TriangleNodesProvisioner.cpp lines 37-38, 41-43, 1364-1370; src/QuadNodesProvisioner.cpp lines 31-39). -/
def triSizes (N K : ℕ) : Sizes := ⟨(N + 2) * (N + 1) / 2, N + 1, K, 3⟩
def quadSizes (N K : ℕ) : Sizes := ⟨(N + 1) * (N + 1), N + 1, K, 4⟩

/-- The shape each getter of src/DGContext2D.cpp (lines 24-185) passes to `zeros`. -/
def DField.shape (s : Sizes) : DField → List ℕ
  | .filter => [s.np, s.np]
  | .x | .y => [s.np, s.K]
  | .fscale => [s.nf * s.nfp, s.K]
  | .fmask => [s.nfp, s.nf]
  | .J | .rx | .ry | .sx | .sy => [s.np, s.K]
  | .nx | .ny => [s.nf * s.nfp, s.K]
  | .Dr | .Ds => [s.np, s.np]
  | .lift => [s.np, s.nf * s.nfp]
  | .V => [s.np, s.np]

/-- A matrix getter of src/DGContext2D.cpp. -/
def dgNumpy [Zero α] (s : Sizes) (f : DField) (m : DMat α) : Out (NdArray α) := exportTo (f.shape s) (storage m)

/-- `r_numpy`, `s_numpy`: shape `{Np_}`. -/
noncomputable def dgVecNumpy (s : Sizes) (l : List ℝ) : Out (NdArray ℝ) := exportTo [s.np] l

/-- `vmapM_numpy`, `vmapP_numpy`: shape `{NumFaces_*Nfp_*K_}`. -/
def dgMapNumpy (s : Sizes) (l : List ℕ) : Out (NdArray ℕ) := exportTo [s.nf * s.nfp * s.K] l

/-- The mesh getters (src/MeshManager.cpp lines 630-649); `none` is a null pointer (no mesh yet). -/
def elementsNumpy {R : Type} (m : Option (Mesh.MM R)) : Out (NdArray Int) :=
  match m with
  | none => .ub
  | some m => exportTo [m.k, m.nf] m.e2v
def verticesNumpy {R : Type} [Zero R] (m : Option (Mesh.MM R)) : Out (NdArray R) :=
  match m with
  | none => .ub
  | some m => exportTo [m.nv, m.dim] m.vert
def bcTypeNumpy {R : Type} (m : Option (Mesh.MM R)) : Out (NdArray ℕ) :=
  match m with
  | none => .ub
  | some m => exportTo [m.k, m.nf] m.bc

/-- `getOP_numpy`, `getMM_numpy` (src/Poisson2DSparseMatrix.cpp lines 886-921): `nnz()` rows `(row, column, value)`; the array of `3*nnz()` numbers is a list of triples here.
`junk`: the matrix handed over is well formed, otherwise reading it is undefined. -/
def sparseNumpy [Zero α] (c : Csc α) : Out (List (ℕ × ℕ × α)) :=
  (loopM (fun (s : List (ℕ × ℕ × α) × ℕ) j =>
    match readCol c j with
    | none => .ub
    | some col => loopM (fun (s : List (ℕ × ℕ × α) × ℕ) e => do
        let d ← wr s.1 s.2 (e.1, j, e.2)
        pure (d, s.2 + 1)) s col) (List.replicate c.nnz (0, 0, 0), 0) (List.range c.n)) >>= fun s => .ok s.1

/-! ### Imports -/

/-- An array handed over by Python: the buffer it lives in, the position of its first element, its shape and its strides (counted in elements). -/
structure View (α : Type) where
  mem : List α
  off : ℕ
  s0 : ℕ
  s1 : ℕ
  st0 : Int
  st1 : Int

/-- What Python means by `a[i, j]`. -/
def View.at' (v : View α) (i j : ℕ) : Option α := 
  if 0 ≤ v.off + i * v.st0 + j * v.st1 then v.mem[((v.off : Int) + i * v.st0 + j * v.st1).toNat]? else none

/-- `&raw[0] .. &raw[shape(0)*shape(1)*sizeof(real_type)]`. -/
def View.raw (v : View α) : Out (List α) :=
  loopM (fun l k => do
    let x ← rd v.mem (v.off + k)
    pure (l ++ [x])) [] (List.range (v.s0 * v.s1))

/-- The blitz matrix made from a Python array (src/Poisson2DSparseMatrix.cpp lines 852-860, src/VtkOutputter.cpp lines 70-73): allocated with the shape of the array, then
overwritten by a byte copy. -/
def fromNumpy [Zero α] (v : View α) : Out (DMat α) := do
  let l ← v.raw
  let d ← copyInto (List.replicate (v.s0 * v.s1) 0) l
  pure ⟨v.s0, v.s1, fun i j => d.getD (i * v.s1 + j) 0⟩

/-- One assignment of src/TriangleNodesProvisioner.cpp lines 1266-1272 `setCoordinates_numpy`: the elements are copied over the storage of the existing grid. -/
def setGrid [Zero α] (grid : DMat α) (v : View α) : Out (DMat α) := do
  let l ← v.raw
  let d ← copyInto (storage grid) l
  pure ⟨grid.rows, grid.cols, fun i j => d.getD (i * grid.cols + j) 0⟩

/-- Little-endian 32-bit words of an array of 32-bit or 64-bit integers. -/
def words32 (l : List Int) : List ℕ := l.map fun v => (v % 4294967296).toNat
def words64 (l : List Int) : List ℕ := l.flatMap fun v => [(v % 4294967296).toNat, (v / 4294967296 % 4294967296).toNat]

/-- A word read as `int`. -/
def toInt32 (w : ℕ) : Int := if w < 2147483648 then (w : Int) else (w : Int) - 4294967296

/-- src/MeshManager.cpp lines 653-656 `set_BCType_numpy` on a contiguous array with `n = shape(0)*shape(1)` elements stored as the 32-bit words `mem`:
`n` words are copied over the storage of the table; `none` is a null pointer. -/
def setBCType (table : Option (List Int)) (n : ℕ) (mem : List ℕ) : Out (List Int) :=
  match table with
  | none => .ub
  | some t => do
    let l ← (View.mk mem 0 n 1 1 1).raw
    copyInto t (l.map toInt32)

end Blitzdg.Py
