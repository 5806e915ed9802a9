import Verif.Jacobi.Model
import Mathlib.Algebra.Polynomial.Derivative
import Mathlib.Analysis.Calculus.Deriv.Polynomial
import Mathlib.Tactic.FieldSimp
import Mathlib.Tactic.Ring
import Mathlib.Tactic.Linarith
import Mathlib.Tactic.Positivity
import Mathlib.Tactic.LinearCombination

/-! Closed form of the polynomials computed by the recurrence, used to prove the properties. -/

namespace Blitzdg.Jacobi

open Polynomial

/-- Rising factorial `s (s+1) ... (s+k-1)`. -/
noncomputable def poch (s : ℝ) (k : ℕ) : ℝ := ∏ i ∈ Finset.range k, (s + i)

theorem poch_succ (s : ℝ) (k : ℕ) : poch s (k + 1) = poch s k * (s + k) := by simp [poch, Finset.prod_range_succ]

theorem poch_succ' (s : ℝ) (k : ℕ) : poch s (k + 1) = s * poch (s + 1) k := by
  simp only [poch, Finset.prod_range_succ', Nat.cast_zero, add_zero]
  rw [mul_comm]
  congr 1
  exact Finset.prod_congr rfl fun i _ => by push_cast; ring

theorem poch_pos {s : ℝ} (h : 0 < s) (k : ℕ) : 0 < poch s k := Finset.prod_pos fun i _ => by positivity

/-- Coefficient of `t^k`, `t = (1-x)/2`. -/
noncomputable def co (α β : ℝ) (n k : ℕ) : ℝ := (-1) ^ k * (n.choose k) * poch (n + α + β + 1) k / poch (α + 1) k

theorem co_of_lt {α β : ℝ} {n k : ℕ} (h : n < k) : co α β n k = 0 := by simp [co, Nat.choose_eq_zero_of_lt h]

theorem co_zero {α β : ℝ} {n : ℕ} : co α β n 0 = 1 := by simp [co, poch]

/-- The polynomial in `t`. -/
noncomputable def Q (α β : ℝ) (n : ℕ) : ℝ[X] := ∑ k ∈ Finset.range (n + 1), C (co α β n k) * X ^ k

theorem Q_coeff (α β : ℝ) (n k : ℕ) : (Q α β n).coeff k = co α β n k := by
  simp only [Q, finsetSum_coeff, coeff_C_mul, coeff_X_pow, mul_ite, mul_one, mul_zero, Finset.sum_ite_eq, Finset.mem_range]
  split_ifs with h
  · rfl
  · exact (co_of_lt (by omega)).symm

variable {α β : ℝ}

theorem choose_real1 (n k : ℕ) : (((n + 1).choose (k + 1) : ℕ) : ℝ) * (k + 1) = (n + 1) * (n.choose k) := by
  have := Nat.add_one_mul_choose_eq n k
  exact_mod_cast this.symm

theorem choose_real2 (n k : ℕ) : ((n.choose (k + 1) : ℕ) : ℝ) * (k + 1) = (n.choose k) * (n - k) := by
  have := Nat.choose_succ_right_eq n k
  by_cases h : k ≤ n
  · have e : ((n - k : ℕ) : ℝ) = n - k := by push_cast [h]; ring
    rw [← e]; exact_mod_cast this
  · rw [Nat.choose_eq_zero_of_lt (show n < k by omega), Nat.choose_eq_zero_of_lt (show n < k + 1 by omega)]; simp

theorem choose_real3 (n k : ℕ) : ((n.choose (k + 1) : ℕ) : ℝ) * (n + 1) * (k + 1) = ((n + 1).choose k) * (n + 1 - k) * (n - k) := by
  have h2 := choose_real2 n k
  have h3 : (((n + 1).choose k : ℕ) : ℝ) * (n + 1 - k) = (n + 1) * (n.choose k) := by
    rw [← choose_real1 n k]
    have := choose_real2 (n + 1) k
    push_cast at this
    linarith
  rw [h3]
  linear_combination (n + 1 : ℝ) * h2

/-- Three-term recurrence in `t` for `n + 1`. -/
theorem Q_rec (hα : -1 < α) (hab : -2 < α + β) (n : ℕ) :
    C (2 * ((n + 1 : ℝ) + α + β + 1) * (n + 2 + α) / ((2 * (n + 1) + α + β + 2) * (2 * (n + 1) + α + β + 1))) * Q α β (n + 2)
      = (C (1 + (α * α - β * β) / (2 * (n + 1) + α + β) / (2 * (n + 1) + α + β + 2)) - C 2 * X) * Q α β (n + 1)
        - C (2 * (n + 1 : ℝ) * (n + 1 + β) / ((2 * (n + 1) + α + β) * (2 * (n + 1) + α + β + 1))) * Q α β n := by
  have hn : (0 : ℝ) ≤ n := Nat.cast_nonneg n
  have d1 : (2 * ((n : ℝ) + 1) + α + β) ≠ 0 := by linarith
  have d2 : (2 * ((n : ℝ) + 1) + α + β + 1) ≠ 0 := by linarith
  have d3 : (2 * ((n : ℝ) + 1) + α + β + 2) ≠ 0 := by linarith
  ext k
  rw [sub_mul, coeff_sub, coeff_sub, coeff_C_mul, coeff_C_mul, coeff_C_mul, mul_assoc (C (2 : ℝ)), coeff_C_mul]
  cases k with
  | zero =>
    rw [Q_coeff, Q_coeff, Q_coeff, co_zero, co_zero, co_zero, coeff_X_mul_zero]
    field_simp
    ring
  | succ k =>
    rw [Q_coeff, Q_coeff, Q_coeff, coeff_X_mul, Q_coeff]
    simp only [co]
    push_cast
    have hk : (0 : ℝ) ≤ k := Nat.cast_nonneg k
    have hD : poch (α + 1) k ≠ 0 := (poch_pos (by linarith) k).ne'
    have hDk : α + 1 + k ≠ 0 := by linarith
    -- rising factorials in terms of B
    set s : ℝ := (n : ℝ) + 1 + α + β + 1 with hs
    have hspos : 0 < s := by rw [hs]; linarith
    set B := poch (s + 1) k with hB
    have hsk : s + k ≠ 0 := by linarith
    have p1 : poch (n + 2 + α + β + 1) (k + 1) = B * (s + 1 + k) := by
      rw [show (n : ℝ) + 2 + α + β + 1 = s + 1 by rw [hs]; ring, poch_succ]
    have p2 : poch s (k + 1) = s * B := poch_succ' s k
    have p3 : poch s k = s * B / (s + k) := by
      rw [← p2, poch_succ]; field_simp
    have p4 : poch (n + α + β + 1) (k + 1) = (s - 1) * (s * B / (s + k)) := by
      rw [show (n : ℝ) + α + β + 1 = s - 1 by rw [hs]; ring, poch_succ', show s - 1 + 1 = s by ring, p3]
    -- binomials in terms of A
    have hk1 : (k : ℝ) + 1 ≠ 0 := by linarith
    have hn1 : (n : ℝ) + 1 ≠ 0 := by linarith
    set A := (((n + 1).choose k : ℕ) : ℝ) with hA
    have c1 : (((n + 2).choose (k + 1) : ℕ) : ℝ) = A * (n + 2) / (k + 1) := by
      have := choose_real1 (n + 1) k
      push_cast at this
      rw [eq_div_iff hk1]; linear_combination this
    have c2 : (((n + 1).choose (k + 1) : ℕ) : ℝ) = A * (n + 1 - k) / (k + 1) := by
      have := choose_real2 (n + 1) k
      push_cast at this
      rw [eq_div_iff hk1]; linear_combination this
    have c3 : ((n.choose (k + 1) : ℕ) : ℝ) = A * (n + 1 - k) * (n - k) / ((n + 1) * (k + 1)) := by
      rw [eq_div_iff (mul_ne_zero hn1 hk1)]; linear_combination choose_real3 n k
    rw [p1, p2, p3, p4, c1, c2, c3, poch_succ (α + 1) k]
    have hs' : s ≠ 0 := hspos.ne'
    have e1 : (-1 : ℝ) ^ (k + 1) = -((-1) ^ k) := by ring
    rw [e1]
    rw [show (2 * ((n : ℝ) + 1) + α + β) = n + s by rw [hs]; ring] at *
    have hβ : β = s - n - α - 2 := by rw [hs]; ring
    clear_value s B A
    subst hβ
    field_simp
    ring

/-- Derivative in `t`. -/
theorem Q_deriv (hα : -1 < α) (n : ℕ) :
    derivative (Q α β (n + 1)) = C (-((n + 1 : ℝ) * (n + 1 + α + β + 1) / (α + 1))) * Q (α + 1) (β + 1) n := by
  ext k
  rw [coeff_derivative, coeff_C_mul, Q_coeff, Q_coeff]
  simp only [co]
  have hk : (0 : ℝ) ≤ k := Nat.cast_nonneg k
  have h1 : (((n + 1).choose (k + 1) : ℕ) : ℝ) = (n + 1) * (n.choose k) / (k + 1) := by
    rw [eq_div_iff (by linarith)]; exact choose_real1 n k
  rw [h1, poch_succ', poch_succ' (α + 1) k]
  push_cast
  rw [show (n : ℝ) + (α + 1) + (β + 1) + 1 = n + 1 + α + β + 1 + 1 by ring]
  have hD : poch (α + 1 + 1) k ≠ 0 := (poch_pos (by linarith) k).ne'
  have hα1 : α + 1 ≠ 0 := by linarith
  have hk1 : (k : ℝ) + 1 ≠ 0 := by linarith
  field_simp
  ring

/-- The hypergeometric differential equation. -/
theorem Q_ode (hα : -1 < α) (n : ℕ) :
    X * (1 - X) * derivative (derivative (Q α β n)) + (C (α + 1) - C (α + β + 2) * X) * derivative (Q α β n)
      + C ((n : ℝ) * (n + α + β + 1)) * Q α β n = 0 := by
  have hco : ∀ k : ℕ, ((k : ℝ) + 1) * (k + α + 1) * co α β n (k + 1) = (k - n) * (k + n + α + β + 1) * co α β n k := by
    intro k
    have hk : (0 : ℝ) ≤ k := Nat.cast_nonneg k
    have hD : poch (α + 1) k ≠ 0 := (poch_pos (by linarith) k).ne'
    have hDk : α + 1 + k ≠ 0 := by linarith
    have hk1 : (k : ℝ) + 1 ≠ 0 := by linarith
    have h1 : ((n.choose (k + 1) : ℕ) : ℝ) = (n.choose k) * (n - k) / (k + 1) := by
      rw [eq_div_iff hk1]; exact choose_real2 n k
    simp only [co]
    rw [h1, poch_succ, poch_succ]
    field_simp
    ring
  have e : X * (1 - X) * derivative (derivative (Q α β n)) + (C (α + 1) - C (α + β + 2) * X) * derivative (Q α β n)
      + C ((n : ℝ) * (n + α + β + 1)) * Q α β n
      = X * derivative (derivative (Q α β n)) - X * (X * derivative (derivative (Q α β n))) + C (α + 1) * derivative (Q α β n)
        - C (α + β + 2) * (X * derivative (Q α β n)) + C ((n : ℝ) * (n + α + β + 1)) * Q α β n := by ring
  rw [e]
  ext k
  rw [coeff_add, coeff_sub, coeff_add, coeff_sub, coeff_C_mul, coeff_C_mul, coeff_C_mul, coeff_zero]
  have h0 := hco k
  rcases k with _ | _ | k
  · simp only [coeff_X_mul_zero, coeff_derivative, Q_coeff]
    push_cast at h0 ⊢
    linear_combination h0
  · rw [coeff_X_mul, coeff_X_mul, coeff_X_mul_zero, coeff_X_mul]
    simp only [coeff_derivative, Q_coeff]
    push_cast at h0 ⊢
    linear_combination h0
  · rw [coeff_X_mul, coeff_X_mul, coeff_X_mul, coeff_X_mul]
    simp only [coeff_derivative, Q_coeff]
    push_cast at h0 ⊢
    linear_combination h0

end Blitzdg.Jacobi
