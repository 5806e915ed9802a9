import Verif.Quads.Disc
import Verif.Output.Vtk

/-!
C164: one quadrilateral provisioner shared by the writer of VTK files and the calls that build filters.
-/

namespace Blitzdg.Quads

open Blitzdg.Sparse (DMat)
open Blitzdg.Nodes1D (Lapack)
open Blitzdg.Dense (toMat)
open Blitzdg.DG2D
open Blitzdg.Output (VtkFile vtkQuad)

/-- The members of QuadNodesProvisioner that change after its construction: `Vinv` (include/QuadNodesProvisioner.hpp; overwritten by src/QuadNodesProvisioner.cpp line 91) and `Filter` (lines 198-201),
with the files written so far. -/
structure QState (g : QGrid) where
  vinv : DMat ℝ
  filter : Fin g.np → Fin g.np → Option ℝ
  files : List VtkFile

/-- What a program may do with it.  `write f u`: `VtkOutputter(provisioner).writeFieldToFile(name, f, fieldName)` (include/VtkOutputter.hpp lines 48-94, from Python src/pyblitzdg/pyblitzdg.cpp lines 189-192), `u` being the
uninitialised contents of the vectors of `splitElements`.  `buildFilter Nc s`: the method of that name. -/
inductive QAct where
  | write (f : DMat ℝ) (u : List ℝ)
  | buildFilter (Nc : ℝ) (s : Int)

/-- `get_xGrid()`, `get_yGrid()` (src/QuadNodesProvisioner.cpp lines 358-362). -/
noncomputable def QGrid.gridX (g : QGrid) : DMat ℝ := ⟨g.np, g.K, fun i k => nodeX (g.quad k) g.n i⟩
noncomputable def QGrid.gridY (g : QGrid) : DMat ℝ := ⟨g.np, g.K, fun i k => nodeY (g.quad k) g.n i⟩

/-- One call: `writeFieldToFile` (include/VtkOutputter.hpp lines 48-94) or `buildFilter` (src/QuadNodesProvisioner.cpp lines 170-202), the latter with the inverse stored at that time. -/
noncomputable def QGrid.act (la : Lapack) (g : QGrid) (t : QState g) : QAct → Out (QState g)
  | .write f u => do
    let (F, V) ← vtkQuad la g.N t.vinv g.gridX g.gridY f u
    pure { t with vinv := V, files := t.files ++ [F] }
  | .buildFilter Nc s => do
    let F ← DG2D.buildFilter g.N Nc s (toMat g.o.V g.np g.np) (toMat t.vinv g.np g.np)
    pure { t with filter := F }

/-- A sequence of calls after the constructor, which leaves `Filter` uninitialised (src/QuadNodesProvisioner.cpp line 58). -/
noncomputable def QGrid.history (la : Lapack) (g : QGrid) (junk : Fin g.np → Fin g.np → Option ℝ) (h : List QAct) : Out (QState g) := loopM (g.act la) ⟨g.o.Vinv, junk, []⟩ h

end Blitzdg.Quads
