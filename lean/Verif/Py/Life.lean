import Verif.Basic

/-!
Lifetimes of the objects Python programs hold (src/pyblitzdg/pyblitzdg.cpp lines 99-199).

No binding uses `with_custodian_and_ward`: an object does not keep alive the object it was made from.  A Python object is destroyed when the program gives up its last reference.
-/

namespace Blitzdg.Py

/-- The classes a program can hold, as far as they differ in what they point to.
* `mesh`: `MeshManager`; owns its tables.
* `prov`: a nodes provisioner; holds `const MeshManager& Mesh2D` (include/TriangleNodesProvisioner.hpp line 79, include/QuadNodesProvisioner.hpp line 69).
* `dgctx`: `DGContext2D`; holds raw pointers into the provisioner (include/DGContext2D.hpp lines 16-39, src/TriangleNodesProvisioner.cpp lines 1364-1396).
* `vtk`: `VtkOutputter`; holds `NodesProvisioner2DBase&` (src/VtkOutputter.cpp lines 41-46).
* `owned`: `GaussFaceContext2D`, `CubatureContext2D` (shared pointers, include/GaussFaceContext2D.hpp lines 12-27, include/CubatureContext2D.hpp lines 14-31), exported arrays. -/
inductive Kind | mesh | prov | dgctx | vtk | owned
deriving DecidableEq

structure Obj where
  kind : Kind
  /-- The object whose storage this one points to. -/
  src : Option Nat
  alive : Bool
deriving DecidableEq

/-- What a program can do with its objects, named by order of creation. -/
inductive Op
  /-- `MeshManager()`. -/
  | newMesh
  /-- `TriangleNodesProvisioner(N, mesh)`, `QuadNodesProvisioner(N, mesh)`. -/
  | newProv (mesh : Nat)
  /-- `prov.dgContext()`. -/
  | newCtx (prov : Nat)
  /-- `VtkOutputter(prov)`. -/
  | newVtk (prov : Nat)
  /-- `prov.buildGaussFaceNodes(n)`: reads the mesh (src/TriangleNodesProvisioner.cpp lines 265, 334). -/
  | gauss (prov : Nat)
  /-- `prov.buildFilter(...)`, `prov.buildCubatureVolumeMesh(n)`, `prov.setCoordinates(...)`: touch only the provisioner. -/
  | prov (prov : Nat)
  /-- Any property of a mesh, a DG context, an outputter or an owning object: reads what the object points to. -/
  | use (x : Nat)
  /-- The last reference to `x` goes away. -/
  | drop (x : Nat)

/-- A live object of the right class, else Python raises an error (NameError, TypeError). -/
def live (k : Kind) (s : List Obj) (x : Nat) : Out Obj :=
  match s[x]? with
  | some o => if o.alive && o.kind == k then .ok o else .throws
  | none => .throws

/-- Following the pointers of `o`: destroyed storage is undefined behaviour. -/
def deref (s : List Obj) (o : Obj) : Out Unit :=
  match o.src with
  | none => .ok ()
  | some y =>
    match s[y]? with
    | some t => if t.alive then .ok () else .ub
    | none => .ub

def step (s : List Obj) : Op → Out (List Obj)
  | .newMesh => .ok (s ++ [⟨.mesh, none, true⟩])
  | .newProv m => do
    let _ ← live .mesh s m
    pure (s ++ [⟨.prov, some m, true⟩])
  | .newCtx p => do
    let _ ← live .prov s p
    pure (s ++ [⟨.dgctx, some p, true⟩])
  | .newVtk p => do
    let _ ← live .prov s p
    pure (s ++ [⟨.vtk, some p, true⟩])
  | .gauss p => do
    let o ← live .prov s p
    deref s o
    pure (s ++ [⟨.owned, none, true⟩])
  | .prov p => do
    let _ ← live .prov s p
    pure s
  | .use x =>
    match s[x]? with
    | some o => if o.alive then do
        deref s o
        pure s
      else .throws
    | none => .throws
  | .drop x =>
    match s[x]? with
    | some o => if o.alive then .ok (s.set x { o with alive := false }) else .throws
    | none => .throws

/-- A program. -/
def run (ops : List Op) : Out (List Obj) := loopM step [] ops

end Blitzdg.Py
