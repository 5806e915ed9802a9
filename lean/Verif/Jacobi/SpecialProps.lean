import Verif.Jacobi.Special
import Verif.Jacobi.Props

/-! Property C151: where the Jacobi routines produce infinities or NaN. -/

namespace Blitzdg.Jacobi

open Val (num nan inf num_mul num_add num_div num_sqrt mul_nan nan_mul div_nan nan_div add_nan)

variable {α β : ℝ}

theorem tgamma_pos {a : ℝ} (h : 0 < a) : Val.tgamma a = num (Real.Gamma a) := by
  unfold Val.tgamma
  rw [if_neg h.ne', if_neg]
  rintro ⟨n, e⟩
  have : (0 : ℝ) ≤ n := Nat.cast_nonneg n
  linarith

theorem tgamma_shift {s : ℝ} (h : -1 < s) (h0 : s ≠ 0) : Val.tgamma s = num (Real.Gamma s) ∧ Real.Gamma s ≠ 0 := by
  constructor
  · unfold Val.tgamma
    rw [if_neg h0, if_neg]
    rintro ⟨n, e⟩
    rcases n with _ | n
    · exact h0 (by rw [e]; simp)
    · have : (0 : ℝ) ≤ n := Nat.cast_nonneg n
      push_cast at e
      linarith
  · intro e
    have h3 := Real.Gamma_pos_of_pos (show 0 < s + 1 by linarith)
    rw [Real.Gamma_add_one h0, e, mul_zero] at h3
    exact lt_irrefl _ h3

theorem gamma0V_num (hα : -1 < α) (hβ : -1 < β) (hab : α + β ≠ -1) : gamma0V α β = num (gamma0 α β) := by
  have h1 : α + β + 1 ≠ 0 := fun h => hab (by linarith)
  obtain ⟨h2, h3⟩ := tgamma_shift (show -1 < α + β + 1 by linarith) h1
  unfold gamma0V
  rw [num_div _ h1, tgamma_pos (by linarith), tgamma_pos (by linarith), h2, num_mul, num_mul, num_div _ h3]
  rfl

theorem gamma0V_nan (hα : -1 < α) (hβ : -1 < β) (hab : α + β = -1) : gamma0V α β = nan := by
  have h1 : α + β + 1 = 0 := by linarith
  have e : Val.tgamma (α + β + 1) = inf false := by unfold Val.tgamma; rw [if_pos h1]
  have e2 : num ((2 : ℝ) ^ (α + β + 1)) / num (α + β + 1) = inf false := by
    change Val.div _ _ = _
    rw [Val.div, if_pos h1, h1, Real.rpow_zero, if_neg one_ne_zero]
    norm_num
  have g1 := Real.Gamma_pos_of_pos (show 0 < α + 1 by linarith)
  have g2 := Real.Gamma_pos_of_pos (show 0 < β + 1 by linarith)
  have m : ∀ a : ℝ, 0 < a → inf false * num a = inf false := by
    intro a ha
    change Val.mul _ _ = _
    rw [Val.mul, if_neg ha.ne', decide_eq_false (not_lt.2 ha.le)]
    rfl
  unfold gamma0V
  rw [e2, e, tgamma_pos (by linarith), tgamma_pos (by linarith), m _ g1, m _ g2]
  rfl

theorem anewV_num (hα : -1 < α) (hβ : -1 < β) (i : ℕ) (hab : i = 0 → α + β ≠ -1) : anewV α β i = num (anew α β i) := by
  have hi : (0 : ℝ) ≤ i := Nat.cast_nonneg i
  have q1 : 2 * (i : ℝ) + α + β + 2 ≠ 0 := by linarith
  have q3 : 2 * (i : ℝ) + α + β + 3 ≠ 0 := by linarith
  have q2 : 2 * (i : ℝ) + α + β + 1 ≠ 0 := by
    rcases i with _ | i
    · intro h; exact hab rfl (by push_cast at h; linarith)
    · have : (0 : ℝ) ≤ i := Nat.cast_nonneg i
      push_cast; linarith
  have hpos : 0 ≤ ((i : ℝ) + 1) * (i + 1 + α + β) * (i + 1 + α) * (i + 1 + β) / (2 * i + α + β + 1) / (2 * i + α + β + 3) := by
    apply div_nonneg _ (by linarith)
    rcases i with _ | i
    · have e : (((0 : ℕ) : ℝ) + 1) * ((0 : ℕ) + 1 + α + β) * ((0 : ℕ) + 1 + α) * ((0 : ℕ) + 1 + β) / (2 * (0 : ℕ) + α + β + 1) = (1 + α) * (1 + β) := by
        rw [div_eq_iff q2]
        push_cast
        ring
      rw [e]
      exact mul_nonneg (by linarith) (by linarith)
    · have : (0 : ℝ) ≤ i := Nat.cast_nonneg i
      push_cast
      apply div_nonneg _ (by linarith)
      exact mul_nonneg (mul_nonneg (mul_nonneg (by linarith) (by linarith)) (by linarith)) (by linarith)
  unfold anewV
  rw [num_div _ q1, num_div _ q2, num_div _ q3, num_sqrt hpos, num_mul]
  rfl

theorem bnewV_num (hα : -1 < α) (hβ : -1 < β) (i : ℕ) (hi : 1 ≤ i) : bnewV α β i = num (bnew α β i) := by
  have hi : (1 : ℝ) ≤ i := by exact_mod_cast hi
  unfold bnewV
  rw [num_div _ (by linarith), num_div _ (by linarith)]
  rfl

/-- A state of the loop without special values. -/
def asV (s : Loop) : LoopV := ⟨num s.aold, num s.prev, num s.cur⟩

theorem startV_num (hα : -1 < α) (hβ : -1 < β) (hab : α + β ≠ -1) (x : ℝ) : startV α β x = asV (start α β x) := by
  have hg := gamma0_pos hα hβ hab
  have h3 : α + β + 3 ≠ 0 := by linarith
  have hq : 0 < (α + 1) * (β + 1) / (α + β + 3) := div_pos (mul_pos (by linarith) (by linarith)) (by linarith)
  have hg1 : 0 < gamma1 α β := mul_pos hq hg
  have e1 : gamma1V α β = num (gamma1 α β) := by
    unfold gamma1V
    rw [gamma0V_num hα hβ hab, num_div _ h3, num_mul]
    rfl
  unfold startV
  rw [num_div _ h3, num_div _ (show 2 + α + β ≠ 0 by linarith), num_sqrt hq.le, num_mul, gamma0V_num hα hβ hab, e1, num_sqrt hg.le, num_sqrt hg1.le,
    num_div _ (Real.sqrt_pos.2 hg).ne', num_div _ (Real.sqrt_pos.2 hg1).ne']
  rfl

theorem stepV_num (hα : -1 < α) (hβ : -1 < β) (hab : α + β ≠ -1) (x : ℝ) (s : Loop) (i : ℕ) (hi : 1 ≤ i) : stepV α β x (asV s) i = asV (step α β x s i) := by
  unfold stepV asV
  rw [anewV_num hα hβ i (fun _ => hab), bnewV_num hα hβ i hi, num_div _ (anew_pos hα hβ hab i).ne']
  simp only [num_mul, num_add, step]
  congr 3
  ring

/-- **C151, polynomials.** For `α, β > -1` the function computed by `computeJacobiPolynomial` has no special value, at any degree and any point, and is the one of the exact model, unless `α + β = -1`:
then it is NaN for every degree, at every point. -/
theorem C151_polynomial (hα : -1 < α) (hβ : -1 < β) (N : ℕ) (x : ℝ) :
    jacobiV α β N x = if α + β = -1 then nan else num (jacobiP α β N x) := by
  split_ifs with hab
  · have h0 := gamma0V_nan hα hβ hab
    have e1 : (startV α β x).prev = nan := by simp only [startV, h0, Val.sqrt, div_nan]
    have e2 : (startV α β x).cur = nan := by simp only [startV, gamma1V, h0, mul_nan, Val.sqrt, div_nan]
    have hl : ∀ (l : List ℕ) (s : LoopV), s.cur = nan → (l.foldl (stepV α β x) s).cur = nan := by
      intro l
      induction l with
      | nil => exact fun s h => h
      | cons i l ih =>
        intro s h
        exact ih _ (by simp only [stepV, h, mul_nan, add_nan])
    unfold jacobiV
    split_ifs
    · exact e1
    · exact e2
    · exact hl _ _ e2
  · have hl : ∀ (l : List ℕ) (s : Loop), (∀ i ∈ l, 1 ≤ i) → l.foldl (stepV α β x) (asV s) = asV (l.foldl (step α β x) s) := by
      intro l
      induction l with
      | nil => exact fun s _ => rfl
      | cons i l ih =>
        intro s h
        rw [List.foldl_cons, List.foldl_cons, stepV_num hα hβ hab x s i (h i (by simp)), ih _ fun j hj => h j (by simp [hj])]
    unfold jacobiV jacobiP
    rw [startV_num hα hβ hab, hl _ _ (by simp)]
    split_ifs <;> rfl

/-- **C151, gradients.** For all `α, β > -1`, also with `α + β = -1`, `computeGradJacobi` yields numbers: those of the exact model. -/
theorem C151_gradient (hα : -1 < α) (hβ : -1 < β) (N : ℕ) (x : ℝ) : gradV α β N x = num (gradJacobi α β N x) := by
  unfold gradV gradJacobi
  split_ifs with h
  · rfl
  · have hN : (1 : ℝ) ≤ N := by exact_mod_cast Nat.pos_of_ne_zero h
    rw [C151_polynomial (by linarith) (by linarith), if_neg (by linarith), num_sqrt (mul_nonneg (by linarith) (by linarith)), num_mul]

/-- **C151, matrix of the Gauss rule.** For `α, β > -1` and positive machine epsilon the entries of the matrix given to the eigenvalue routine are numbers, those of the exact model, unless
`α + β = -1`: then the entry right of the first one is NaN. -/
theorem C151_matrix (hα : -1 < α) (hβ : -1 < β) (eps : ℝ) (h0 : 0 < eps) (N : ℕ) (hN : 1 ≤ N) :
    (α + β ≠ -1 → ∀ i j, gaussUpperV α β eps N i j = num ((gaussUpper α β eps N).at' i j)) ∧ (α + β = -1 → gaussUpperV α β eps N 0 1 = nan) := by
  constructor
  · intro hab i j
    have hi : (0 : ℝ) ≤ i := Nat.cast_nonneg i
    simp only [gaussUpperV, gaussUpper]
    split_ifs with h1 h2 h3
    · rfl
    · rw [num_div _ (by linarith), num_div]
      intro h
      by_cases hz : i = 0
      · subst hz
        exact h2 ⟨rfl, by push_cast at h; linarith⟩
      · have : (1 : ℝ) ≤ i := by exact_mod_cast Nat.pos_of_ne_zero hz
        linarith
    · exact anewV_num hα hβ i fun _ => hab
    · rfl
  · intro hab
    have h1 : 2 * ((0 : ℕ) : ℝ) + α + β + 1 = 0 := by push_cast; linarith
    have h2 : (((0 : ℕ) : ℝ) + 1) * ((0 : ℕ) + 1 + α + β) * ((0 : ℕ) + 1 + α) * ((0 : ℕ) + 1 + β) = 0 := by
      rw [show ((0 : ℕ) : ℝ) + 1 + α + β = 0 by push_cast; linarith]; ring
    have e : num ((((0 : ℕ) : ℝ) + 1) * ((0 : ℕ) + 1 + α + β) * ((0 : ℕ) + 1 + α) * ((0 : ℕ) + 1 + β)) / num (2 * ((0 : ℕ) : ℝ) + α + β + 1) = nan := by
      change Val.div _ _ = _
      rw [Val.div, if_pos h1, if_pos h2]
    unfold gaussUpperV
    rw [if_neg (by omega), if_pos ⟨rfl, by omega⟩, anewV, e, nan_div, Val.sqrt, mul_nan]
    all_goals exact nofun

/-- **C151, weights.** For `α, β > -1` the weights are finite wherever the eigenvectors are, unless `α + β = -1`: then all are NaN, whatever the eigenvalue routine returned. -/
theorem C151_weights (hα : -1 < α) (hβ : -1 < β) :
    (α + β ≠ -1 → ∀ v : ℝ, weightV α β (num v) = num (v * v * gamma0 α β)) ∧ (α + β = -1 → ∀ v, weightV α β v = nan) := by
  refine ⟨fun hab v => ?_, fun hab v => ?_⟩
  · rw [weightV, gamma0V_num hα hβ hab, num_mul, num_mul]
  · rw [weightV, gamma0V_nan hα hβ hab, mul_nan]

/-- The Chebyshev weight of the first kind, and a weight whose parameters have a sum less than -1. -/
example (x : ℝ) : jacobiV (-1 / 2) (-1 / 2) 3 x = nan ∧ gradV (-1 / 2) (-1 / 2) 1 x ≠ nan ∧ jacobiV (-3 / 4) (-1 / 2) 3 x = num (jacobiP (-3 / 4) (-1 / 2) 3 x) := by
  refine ⟨?_, ?_, ?_⟩
  · rw [C151_polynomial (by norm_num) (by norm_num), if_pos (by norm_num)]
  · rw [C151_gradient (by norm_num) (by norm_num)]
    exact nofun
  · rw [C151_polynomial (by norm_num) (by norm_num), if_neg (by norm_num)]

end Blitzdg.Jacobi
