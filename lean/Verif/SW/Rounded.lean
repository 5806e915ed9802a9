import Verif.SW.Disc

/-!
Coordinates, face masks and trace maps of the triangle provisioner in rounding arithmetic.  The reference nodes are given as stored; how they are computed is not modelled here.
-/

namespace Blitzdg.SW

open Blitzdg.DG2D

/-- Floating-point arithmetic: the rounding of the result of an addition, subtraction or multiplication, and the `hypot` of the C library. -/
structure Arith where
  rnd : ℝ → ℝ
  hyp : ℝ → ℝ → ℝ

variable (A : Arith)

/-- One coordinate of a node, as the expression is evaluated (src/TriangleNodesProvisioner.cpp lines 807-808).  The terms `0.*jj` add zero and are left out, as is the sign of zero. -/
noncomputable def Arith.coord (a b c r s : ℝ) : ℝ :=
  A.rnd (0.5 * A.rnd (A.rnd (A.rnd (-A.rnd (r + s) * a) + A.rnd (A.rnd (1 + r) * b)) + A.rnd (A.rnd (1 + s) * c)))

/-- The three face masks (src/TriangleNodesProvisioner.cpp lines 691-727), the test fields being rounded. -/
noncomputable def Arith.masks (tol : ℝ) (N : ℕ) (r s : List ℝ) : Out (List (List ℕ)) := do
  let f1 ← faceMask tol (N + 1) (s.map fun t => A.rnd (t + 1))
  let f2 ← faceMask tol (N + 1) ((List.range r.length).map fun i => A.rnd (r.getD i 0 + s.getD i 0))
  let f3 ← faceMask tol (N + 1) (r.map fun t => A.rnd (t + 1))
  pure [f1, f2, f3]

/-- The nearness test of src/TriangleNodesProvisioner.cpp lines 951-964 and include/LinAlgHelpers.hpp lines 103-105 on stored coordinates. -/
noncomputable def Arith.near (tri : ℕ → Tri) (r s : List ℝ) (np : ℕ) (tol : ℝ) (g a b : ℕ) : Bool :=
  let e := faceEnds (tri (g / 3)) (g % 3)
  let x := fun v => A.coord (tri (v / np)).xa (tri (v / np)).xb (tri (v / np)).xc (r.getD (v % np) 0) (s.getD (v % np) 0)
  let y := fun v => A.coord (tri (v / np)).ya (tri (v / np)).yb (tri (v / np)).yc (r.getD (v % np) 0) (s.getD (v % np) 0)
  A.hyp (A.rnd (x b - x a)) (A.rnd (y b - y a)) < A.rnd (A.hyp (A.rnd (e.1.1 - e.2.1)) (A.rnd (e.1.2 - e.2.2)) * tol)

/-- Face masks and trace maps of a provisioner whose stored reference nodes are `r`, `s` (src/TriangleNodesProvisioner.cpp lines 691-727, 762-808, 895-1005). -/
noncomputable def Arith.grid (tol : ℝ) (N : ℕ) (m : Mesh) (r s : List ℝ) : Out (List (List ℕ) × TraceMaps) := do
  let fm ← A.masks tol N r s
  let cs ← gather 3 m.ev m.vert m.nv m.K
  let tri := fun k => toTri (cs.getD k [])
  let n : RefNodes := ⟨r, s, fm⟩
  let maps ← buildMaps ((N + 1) * (N + 2) / 2) (N + 1) 3 m.K n.mask m.E m.F (A.near tri r s ((N + 1) * (N + 2) / 2) tol)
  pure (fm, maps)

end Blitzdg.SW
