import Verif.SW.Rounded
import Verif.Quads.Disc

/-!
Coordinates, face masks and trace maps of the quadrilateral provisioner in rounding arithmetic.  The reference nodes are given as stored; how they are computed is not modelled here.
-/

namespace Blitzdg.Quads

open Blitzdg.DG2D
open Blitzdg.SW (Arith Mesh)

variable (A : Arith)

/-- One of the four products of a coordinate: `0.25*(p*q + 0.*jj)*a`, evaluated from the left (src/QuadNodesProvisioner.cpp lines 358-362).  The term `0.*jj` adds zero and is left out, as is the sign of zero. -/
noncomputable def term (p q a : ℝ) : ℝ := A.rnd (A.rnd (0.25 * A.rnd (A.rnd p * A.rnd q)) * a)

/-- One coordinate of a node, as the expression is evaluated (src/QuadNodesProvisioner.cpp lines 358-362). -/
noncomputable def coordR (a b c d r s : ℝ) : ℝ :=
  A.rnd (A.rnd (A.rnd (term A (1 - r) (1 - s) a + term A (1 + r) (1 - s) b) + term A (1 + r) (1 + s) c) + term A (1 - r) (1 + s) d)

/-- The four face masks (src/QuadNodesProvisioner.cpp lines 225-275), the test fields being rounded. -/
noncomputable def masksR (tol : ℝ) (N : ℕ) (r s : List ℝ) : Out (List (List ℕ)) := do
  let f1 ← faceMask tol (N + 1) (s.map fun t => A.rnd (t + 1))
  let f2 ← faceMask tol (N + 1) (r.map fun t => A.rnd (t - 1))
  let f3 ← faceMask tol (N + 1) (s.map fun t => A.rnd (t - 1))
  let f4 ← faceMask tol (N + 1) (r.map fun t => A.rnd (t + 1))
  pure [f1, f2, f3, f4]

/-- The nearness test of src/QuadNodesProvisioner.cpp lines 500-520 and include/LinAlgHelpers.hpp lines 103-105 on stored coordinates. -/
noncomputable def nearR (quad : ℕ → Quad) (r s : List ℝ) (np : ℕ) (tol : ℝ) (g a b : ℕ) : Bool :=
  let e := ends (quad (g / 4)) (g % 4)
  let x := fun v => coordR A (quad (v / np)).xa (quad (v / np)).xb (quad (v / np)).xc (quad (v / np)).xd (r.getD (v % np) 0) (s.getD (v % np) 0)
  let y := fun v => coordR A (quad (v / np)).ya (quad (v / np)).yb (quad (v / np)).yc (quad (v / np)).yd (r.getD (v % np) 0) (s.getD (v % np) 0)
  A.hyp (A.rnd (x b - x a)) (A.rnd (y b - y a)) < A.rnd (A.hyp (A.rnd (e.1.1 - e.2.1)) (A.rnd (e.1.2 - e.2.2)) * tol)

/-- Face masks and trace maps of a provisioner whose stored reference nodes are `r`, `s` (src/QuadNodesProvisioner.cpp lines 225-275, 290-322, 358-362, 450-545). -/
noncomputable def gridR (tol : ℝ) (N : ℕ) (m : Mesh) (r s : List ℝ) : Out (List (List ℕ) × TraceMaps) := do
  let fm ← masksR A tol N r s
  let cs ← gather 4 m.ev m.vert m.nv m.K
  let quad := fun k => toQuad (cs.getD k [])
  let n : RefNodes := ⟨r, s, fm⟩
  let maps ← buildMaps ((N + 1) * (N + 1)) (N + 1) 4 m.K n.mask m.E m.F (nearR A quad r s ((N + 1) * (N + 1)) tol)
  pure (fm, maps)

end Blitzdg.Quads
