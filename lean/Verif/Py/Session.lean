import Verif.Py.Model
import Verif.SW.PyMaps
import Verif.SW.Step

/-!
A Python session with one triangular provisioner: any sequence of `setCoordinates`, `buildFilter`, `dgContext`, reads of the properties of the contexts, and stores into the arrays received.

The contexts hold raw pointers into the provisioner (src/TriangleNodesProvisioner.cpp lines 1364-1396), so that they are represented by their sizes only; what they show is read from the provisioner.
The provisioner is alive throughout (lifetimes are the subject of C97).
-/

namespace Blitzdg.Py

open Blitzdg.Sparse (DMat)
open Blitzdg.DG2D (jac metric)
open Blitzdg.SW (Grid)

/-- A floating point number: `none` is not-a-number (as in C39). -/
abbrev Cell := Option ℝ

/-- `zeros` of floating point numbers. -/
instance cellZero : Zero Cell := ⟨some 0⟩

/-- A matrix of numbers. -/
def cells (m : DMat ℝ) : DMat Cell := ⟨m.rows, m.cols, fun i j => some (m.at' i j)⟩

/-- The matrices of the provisioner after its constructor (src/TriangleNodesProvisioner.cpp lines 40-79 with `buildLift`, lines 1060-1137, and `buildPhysicalGrid`, lines 789-893).
`Filter` is allocated and not written (line 61; lines 515-547 are not called): its contents `junk` are arbitrary.  `Fmask` holds integers; they are shown as numbers here. -/
noncomputable def made (g : Grid) (junk : ℕ → ℕ → Cell) : DField → DMat Cell
  | .filter => ⟨g.np, g.np, junk⟩
  | .x => cells g.pyX
  | .y => cells g.pyY
  | .fscale => cells ⟨3 * (g.N + 1), g.K, g.fscale⟩
  | .fmask => cells ⟨g.N + 1, 3, fun i f => (g.n.mask i f : ℝ)⟩
  | .J => cells ⟨g.np, g.K, fun i k => jac (g.deriv i k)⟩
  | .rx => cells ⟨g.np, g.K, fun i k => metric (g.deriv i k) 0 0⟩
  | .ry => cells ⟨g.np, g.K, fun i k => metric (g.deriv i k) 0 1⟩
  | .sx => cells ⟨g.np, g.K, fun i k => metric (g.deriv i k) 1 0⟩
  | .sy => cells ⟨g.np, g.K, fun i k => metric (g.deriv i k) 1 1⟩
  | .nx => cells g.nx
  | .ny => cells g.ny
  | .Dr => cells ⟨g.np, g.np, g.o.d.Dr.at'⟩
  | .Ds => cells ⟨g.np, g.np, g.o.d.Ds.at'⟩
  | .lift => cells ⟨g.np, 3 * (g.N + 1), g.o.lift.at'⟩
  | .V => cells ⟨g.np, g.np, g.o.V.at'⟩

/-- The session: storage of the provisioner, contexts received so far, arrays received so far. -/
structure Session where
  mat : DField → DMat Cell
  ctxs : List Sizes
  arrs : List (NdArray Cell)

/-- What Python can do (src/pyblitzdg/pyblitzdg.cpp lines 113-118, 164-190).  Contexts and arrays are numbered in the order in which they were received.  The arguments of `setCoordinates` are the
arrays as they are at the time of the call. -/
inductive Act
  | setCoordinates (x y : View Cell)
  | buildFilter (Nc : ℝ) (s : ℤ)
  | dgContext
  | read (c : ℕ) (f : DField)
  | store (j p : ℕ) (v : Cell)

/-- The session after construction. -/
noncomputable def Session.start (g : Grid) (junk : ℕ → ℕ → Cell) : Session := ⟨made g junk, [], []⟩

/-- Overwriting one matrix of the provisioner in place. -/
def setMat (mat : DField → DMat Cell) (f : DField) (m : DMat Cell) : DField → DMat Cell := fun h => if h = f then m else mat h

/-- `*Filter = V*Fdiag*Vinv` (src/TriangleNodesProvisioner.cpp lines 515-547). -/
def filterStore {n : ℕ} (F : Fin n → Fin n → Cell) : DMat Cell := ⟨n, n, fun i j => if h : i < n ∧ j < n then F ⟨i, h.1⟩ ⟨j, h.2⟩ else none⟩

/-- One action.
* `setCoordinates`: src/TriangleNodesProvisioner.cpp lines 1266-1272, `x` before `y`;
* `buildFilter`: lines 515-547;
* `dgContext`: lines 1364-1396;
* `read`: the getters of src/DGContext2D.cpp lines 24-185, each a fresh array.  A context that does not exist is an exception in Python;
* `store`: `a.flat[p] = v` in Python; an index out of range is an exception in Python.

Python catches its own exceptions here: the session goes on unchanged. -/
noncomputable def act (g : Grid) (t : Session) : Act → Out Session
  | .setCoordinates x y => do
    let mx ← setGrid (t.mat .x) x
    let my ← setGrid (t.mat .y) y
    pure { t with mat := setMat (setMat t.mat .x mx) .y my }
  | .buildFilter Nc s => do
    let F ← g.filter Nc s
    pure { t with mat := setMat t.mat .filter (filterStore F) }
  | .dgContext => pure { t with ctxs := t.ctxs ++ [triSizes g.N g.K] }
  | .read c f =>
    match t.ctxs[c]? with
    | none => pure t
    | some z => do
      let a ← dgNumpy z f (t.mat f)
      pure { t with arrs := t.arrs ++ [a] }
  | .store j p v =>
    match t.arrs[j]? with
    | none => pure t
    | some a => pure { t with arrs := t.arrs.set j { a with data := a.data.set p v } }

/-- A session from its beginning. -/
noncomputable def session (g : Grid) (junk : ℕ → ℕ → Cell) (h : List Act) : Out Session := loopM (act g) (Session.start g junk) h

end Blitzdg.Py
