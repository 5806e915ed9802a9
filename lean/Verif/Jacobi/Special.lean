import Verif.Jacobi.Quad
import Verif.Special.Val

/-!
src/JacobiBuilders.cpp in exact arithmetic with the special values of IEEE 754: infinities and NaN arise from division by zero, square roots of negative numbers and poles of `tgamma`.
Zeros have no sign (a zero divisor counts as `+0`); roundings, overflow and underflow are left out.
-/

namespace Blitzdg.Jacobi

open Val (num nan)

/-- src/JacobiBuilders.cpp lines 25 and 93. -/
noncomputable def gamma0V (α β : ℝ) : Val :=
  num ((2 : ℝ) ^ (α + β + 1)) / num (α + β + 1) * Val.tgamma (α + 1) * Val.tgamma (β + 1) / Val.tgamma (α + β + 1)

/-- src/JacobiBuilders.cpp line 33. -/
noncomputable def gamma1V (α β : ℝ) : Val := num ((α + 1) * (β + 1)) / num (α + β + 3) * gamma0V α β

/-- src/JacobiBuilders.cpp lines 45-46; also the off-diagonal of lines 71 and 74. -/
noncomputable def anewV (α β : ℝ) (i : ℕ) : Val :=
  num 2 / num ((2 * i + α + β) + 2) *
    Val.sqrt (num ((i + 1) * (i + 1 + α + β) * (i + 1 + α) * (i + 1 + β)) / num ((2 * i + α + β) + 1) / num ((2 * i + α + β) + 3))

/-- src/JacobiBuilders.cpp lines 45, 47. -/
noncomputable def bnewV (α β : ℝ) (i : ℕ) : Val := num (-(α * α - β * β)) / num (2 * i + α + β) / num ((2 * i + α + β) + 2)

/-- The variables of the loop: `aold`, `pStorage(i-1)`, `pStorage(i)`. -/
structure LoopV where
  aold : Val
  prev : Val
  cur : Val

/-- Values before the loop: src/JacobiBuilders.cpp lines 25-28, 33-36, 41. -/
noncomputable def startV (α β x : ℝ) : LoopV where
  aold := num 2 / num (2 + α + β) * Val.sqrt (num ((α + 1) * (β + 1)) / num (α + β + 3))
  prev := num 1 / Val.sqrt (gamma0V α β)
  cur := num ((α + β + 2) * x / 2 + (α - β) / 2) / Val.sqrt (gamma1V α β)

/-- One iteration: src/JacobiBuilders.cpp lines 45-49. -/
noncomputable def stepV (α β x : ℝ) (s : LoopV) (i : ℕ) : LoopV where
  aold := anewV α β i
  prev := s.cur
  cur := num 1 / anewV α β i * (num (-1) * s.aold * s.prev + (num x + num (-1) * bnewV α β i) * s.cur)

/-- src/JacobiBuilders.cpp lines 18-52 `computeJacobiPolynomial` at one point. -/
noncomputable def jacobiV (α β : ℝ) (N : ℕ) (x : ℝ) : Val :=
  if N = 0 then (startV α β x).prev
  else if N = 1 then (startV α β x).cur
  else (((List.range (N - 1)).map (· + 1)).foldl (stepV α β x) (startV α β x)).cur

/-- src/JacobiBuilders.cpp lines 117-127 `computeGradJacobi` at one point. -/
noncomputable def gradV (α β : ℝ) (N : ℕ) (x : ℝ) : Val :=
  if N = 0 then num 0 else Val.sqrt (num (N * (N + α + β + 1))) * jacobiV (α + 1) (β + 1) (N - 1) x

/-- Entry `(i, j)` of the matrix before symmetrising, src/JacobiBuilders.cpp lines 68-80. -/
noncomputable def gaussUpperV (α β eps : ℝ) (N i j : ℕ) : Val :=
  if i = j then (if i = 0 ∧ α + β < 10 * eps then num 0 else num (-0.5 * (α * α - β * β)) / num ((2 * i + α + β) + 2) / num (2 * i + α + β))
  else if j = i + 1 ∧ i < N then anewV α β i
  else num 0

/-- A weight, src/JacobiBuilders.cpp line 95, from the entry of the first row of the eigenvectors. -/
noncomputable def weightV (α β : ℝ) (v : Val) : Val := v * v * gamma0V α β

end Blitzdg.Jacobi
