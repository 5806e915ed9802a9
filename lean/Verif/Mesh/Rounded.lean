import Verif.Mesh.Model
import Mathlib.Data.Real.Basic

/-!
The orientation test of `MeshManager` in rounding arithmetic: the model `ccw` of the loop is taken over numbers whose operations round.
-/

namespace Blitzdg.Mesh

/-- A stored number; differences and products of stored numbers are rounded by `rnd` (as evaluated in src/MeshManager.cpp lines 110 and 298). -/
structure Rd (rnd : ℝ → ℝ) where
  val : ℝ

instance (rnd : ℝ → ℝ) : Sub (Rd rnd) := ⟨fun a b => ⟨rnd (a.val - b.val)⟩⟩
instance (rnd : ℝ → ℝ) : Mul (Rd rnd) := ⟨fun a b => ⟨rnd (a.val * b.val)⟩⟩
instance (rnd : ℝ → ℝ) : Zero (Rd rnd) := ⟨⟨0⟩⟩
instance (rnd : ℝ → ℝ) : LT (Rd rnd) := ⟨fun a b => a.val < b.val⟩
noncomputable instance (rnd : ℝ → ℝ) : DecidableLT (Rd rnd) := fun _ _ => Classical.propDecidable _

/-- The orientation loop on stored coordinates (src/MeshManager.cpp lines 101-116 and 292-306). -/
noncomputable def ccwR (rnd : ℝ → ℝ) (vert : List ℝ) (dim nf k : ℕ) (e2v : List Int) : Out (List Int) := ccw (vert.map (Rd.mk (rnd := rnd))) dim nf k e2v

end Blitzdg.Mesh
