import Verif.Cub.Table
import Verif.Basic
import Mathlib.Data.Real.Basic

/-! Cubature rules on the reference triangle: include/TriangleCubatureRules.hpp. -/

namespace Blitzdg.Cub

/-- A `real_matrix_type` with `rows` rows and three columns, of which only the first values in row-major order have been written; the rest is whatever the memory held. -/
structure Rule where
  rows : ℕ
  vals : List Int

/-- include/TriangleCubatureRules.hpp lines 20-1803: the constructor, which appends the twenty-eight matrices to the vector and fills each with a comma list.
Number 3 is a copy (sharing memory) of number 2, line 42. -/
def rules : List Rule :=
  [⟨1, vals0⟩, ⟨3, vals1⟩, ⟨6, vals2⟩, ⟨6, vals2⟩, ⟨7, vals4⟩, ⟨12, vals5⟩, ⟨15, vals6⟩, ⟨16, vals7⟩, ⟨19, vals8⟩, ⟨25, vals9⟩, ⟨28, vals10⟩, ⟨36, vals11⟩, ⟨40, vals12⟩, ⟨46, vals13⟩,
   ⟨54, vals14⟩, ⟨58, vals15⟩, ⟨66, vals16⟩, ⟨73, vals17⟩, ⟨82, vals18⟩, ⟨85, vals19⟩, ⟨93, vals20⟩, ⟨100, vals21⟩, ⟨106, vals22⟩, ⟨118, vals23⟩, ⟨126, vals24⟩, ⟨138, vals25⟩, ⟨145, vals26⟩,
   ⟨225, vals27⟩]

/-- Element `(i, j)`: `none` if never written. -/
noncomputable def Rule.entry (r : Rule) (i j : ℕ) : Option ℝ := (r.vals[3 * i + j]?).map fun v => (v : ℝ) / 10 ^ 15

/-- `CubatureRules_[NCubature_ - 1]`: outside `1 .. 28` the subscript is out of range. -/
def ruleOf (NCubature : Int) : Out Rule := if 1 ≤ NCubature then rd rules (NCubature - 1).toNat else .ub

/-- include/TriangleCubatureRules.hpp line 1807 `NumCubaturePoints`. -/
def numPoints (NCubature : Int) : Out ℕ := do
  let r ← ruleOf NCubature
  pure r.rows

/-- include/TriangleCubatureRules.hpp lines 1809-1814 (`rCoord`, column 0), 1816-1821 (`sCoord`, column 1), 1823-1828 (`weights`, column 2). -/
noncomputable def column (j : ℕ) (NCubature : Int) : Out (List (Option ℝ)) := do
  let r ← ruleOf NCubature
  pure ((List.range r.rows).map fun i => r.entry i j)

noncomputable def rCoord := column 0
noncomputable def sCoord := column 1
noncomputable def weights := column 2

end Blitzdg.Cub
