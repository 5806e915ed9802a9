import Verif.Basic

/-!
Gathering the corner coordinates of the elements.  Scalars are an arbitrary type: the code only copies them.
`EToV` entries are natural numbers; a negative entry is out of range like any entry `≥ NumVerts`.
-/

namespace Blitzdg.DG2D

/-- `out(i) = f(i)` for `i < n`, in order, where each evaluation may be undefined. -/
def tabM {β : Type} (f : Nat → Out β) : Nat → Out (List β)
  | 0 => .ok []
  | n + 1 => tabM f n >>= fun l => f n >>= fun b => .ok (l ++ [b])

/-- Corners `va(i)`, `vb(i)`, `vc(i)` (and `vd(i)`): src/TriangleNodesProvisioner.cpp lines 746-752 (`nf = 3`) and
src/QuadNodesProvisioner.cpp lines 291-298 (`nf = NumFaces = 4`). -/
def unpackElements (nf : Nat) (ev : List Nat) (K : Nat) : Out (List (List Nat)) :=
  tabM (fun i => tabM (fun j => rd ev (nf * i + j)) nf) K

/-- `VX`, `VY`, `VZ` with the fixed stride 3: src/TriangleNodesProvisioner.cpp lines 754-760, src/QuadNodesProvisioner.cpp lines 300-306. -/
def unpackVerts {α : Type} (vert : List α) (nv : Nat) : Out (List (α × α × α)) :=
  tabM (fun i => rd vert (3 * i) >>= fun x => rd vert (3 * i + 1) >>= fun y => rd vert (3 * i + 2) >>= fun z => .ok (x, y, z)) nv

/-- `VXa(i) = VX(va(i))`, `VYa(i) = VY(va(i))` and so on: src/TriangleNodesProvisioner.cpp lines 762-772,
src/QuadNodesProvisioner.cpp lines 308-320.  The result lists the corner coordinates of each element in order. -/
def gather {α : Type} (nf : Nat) (ev : List Nat) (vert : List α) (nv K : Nat) : Out (List (List (α × α))) := do
  let es ← unpackElements nf ev K
  let vs ← unpackVerts vert nv
  tabM (fun i => rd es i >>= fun e => tabM (fun j => rd e j >>= fun v => rd vs v >>= fun p => .ok (p.1, p.2.1)) nf) K

end Blitzdg.DG2D
