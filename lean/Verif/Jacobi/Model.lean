import Mathlib.Analysis.SpecialFunctions.Gamma.Basic
import Mathlib.Analysis.SpecialFunctions.Pow.Real

/-!
Model of src/JacobiBuilders.cpp: normalised Jacobi polynomials and their gradients.  Arithmetic is exact (ℝ).  The code works on
arrays elementwise; the model is one entry.  `pStorage` is represented by its last two rows, the only ones read.
-/

namespace Blitzdg.Jacobi

/-- src/JacobiBuilders.cpp lines 25 and 93. -/
noncomputable def gamma0 (α β : ℝ) : ℝ :=
  (2 : ℝ) ^ (α + β + 1) / (α + β + 1) * Real.Gamma (α + 1) * Real.Gamma (β + 1) / Real.Gamma (α + β + 1)

/-- src/JacobiBuilders.cpp line 33. -/
noncomputable def gamma1 (α β : ℝ) : ℝ := (α + 1) * (β + 1) / (α + β + 3) * gamma0 α β

/-- `anew` of iteration `i`, src/JacobiBuilders.cpp lines 45-46; also the off-diagonal of line 74. -/
noncomputable def anew (α β : ℝ) (i : ℕ) : ℝ :=
  2 / ((2 * i + α + β) + 2) * Real.sqrt ((i + 1) * (i + 1 + α + β) * (i + 1 + α) * (i + 1 + β) / ((2 * i + α + β) + 1) / ((2 * i + α + β) + 3))

/-- `bnew` of iteration `i`, src/JacobiBuilders.cpp lines 45, 47. -/
noncomputable def bnew (α β : ℝ) (i : ℕ) : ℝ := -(α * α - β * β) / (2 * i + α + β) / ((2 * i + α + β) + 2)

/-- The variables of the loop: `aold`, `pStorage(i-1)`, `pStorage(i)`. -/
structure Loop where
  aold : ℝ
  prev : ℝ
  cur : ℝ

/-- Values before the loop: src/JacobiBuilders.cpp lines 25-28, 33-36, 41. -/
noncomputable def start (α β x : ℝ) : Loop where
  aold := 2 / (2 + α + β) * Real.sqrt ((α + 1) * (β + 1) / (α + β + 3))
  prev := 1 / Real.sqrt (gamma0 α β)
  cur := ((α + β + 2) * x / 2 + (α - β) / 2) / Real.sqrt (gamma1 α β)

/-- One iteration: src/JacobiBuilders.cpp lines 45-49. -/
noncomputable def step (α β x : ℝ) (s : Loop) (i : ℕ) : Loop where
  aold := anew α β i
  prev := s.cur
  cur := 1 / anew α β i * (-s.aold * s.prev + (x - bnew α β i) * s.cur)

/-- src/JacobiBuilders.cpp lines 18-52 `computeJacobiPolynomial` at one point. -/
noncomputable def jacobiP (α β : ℝ) (N : ℕ) (x : ℝ) : ℝ :=
  if N = 0 then (start α β x).prev
  else if N = 1 then (start α β x).cur
  else (((List.range (N - 1)).map (· + 1)).foldl (step α β x) (start α β x)).cur

/-- src/JacobiBuilders.cpp lines 117-127 `computeGradJacobi` at one point. -/
noncomputable def gradJacobi (α β : ℝ) (N : ℕ) (x : ℝ) : ℝ :=
  if N = 0 then 0 else Real.sqrt (N * (N + α + β + 1)) * jacobiP (α + 1) (β + 1) (N - 1) x

end Blitzdg.Jacobi
