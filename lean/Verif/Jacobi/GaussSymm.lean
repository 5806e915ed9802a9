import Verif.Jacobi.QuadProps

/-! Gauss-Legendre rules are symmetric about the origin. -/

namespace Blitzdg.Jacobi

open Polynomial

theorem refl_eval (p : ℝ[X]) (t : ℝ) : (p.comp (-X)).eval t = p.eval (-t) := by rw [eval_comp]; simp

theorem refl_degree (p : ℝ[X]) : (p.comp (-X)).natDegree ≤ p.natDegree := by
  refine natDegree_comp_le.trans ?_
  rw [natDegree_neg, natDegree_X, mul_one]

theorem refl_int (p : ℝ[X]) : ∫ t in (-1 : ℝ)..1, (p.comp (-X)).eval t = ∫ t in (-1 : ℝ)..1, p.eval t := by
  simp only [refl_eval]
  rw [intervalIntegral.integral_comp_neg (fun t => p.eval t)]
  norm_num

variable {n : ℕ} {x w : List ℝ}

theorem legendre_exact (h : GaussRule 0 0 n x w) (p : ℝ[X]) (hp : p.natDegree ≤ 2 * n - 1) :
    ∑ i ∈ Finset.range n, w.getD i 0 * p.eval (x.getD i 0) = ∫ t in (-1 : ℝ)..1, p.eval t := by
  rw [h.exact p hp]
  simp

/-- The points of a Gauss-Legendre rule are symmetric about 0. -/
theorem gauss_symm (hn : 1 ≤ n) (h : GaussRule 0 0 n x w) : ∀ i < n, x.getD (n - 1 - i) 0 = -x.getD i 0 := by
  classical
  set p : ℝ[X] := ∏ i ∈ Finset.range n, (X - C (x.getD i 0)) with hp
  have hm : p.Monic := monic_prod_of_monic _ _ fun i _ => monic_X_sub_C _
  have hd : p.natDegree = n := by
    rw [hp, natDegree_prod_of_monic _ _ fun i _ => monic_X_sub_C _]
    simp
  have hz : ∀ i < n, p.eval (x.getD i 0) = 0 := fun i hi => by
    rw [hp, eval_prod]
    exact Finset.prod_eq_zero (Finset.mem_range.2 hi) (by simp)
  -- orthogonal to everything of lower degree
  have horth : ∀ q : ℝ[X], q.natDegree ≤ n - 1 → ∫ t in (-1 : ℝ)..1, (p * q).eval t = 0 := by
    intro q hq
    rw [← legendre_exact h (p * q) (natDegree_mul_le.trans (by omega))]
    refine Finset.sum_eq_zero fun i hi => ?_
    rw [eval_mul, hz i (Finset.mem_range.1 hi)]
    ring
  set r : ℝ[X] := C ((-1) ^ n) * p.comp (-X) with hr
  have hrm : r.natDegree = n ∧ r.leadingCoeff = 1 := by
    have h1 : (p.comp (-X)).natDegree = n := by rw [natDegree_comp, natDegree_neg, natDegree_X, mul_one, hd]
    have h2 : (p.comp (-X)).leadingCoeff = (-1) ^ n := by
      rw [leadingCoeff_comp (by rw [natDegree_neg, natDegree_X]; exact one_ne_zero), hm.leadingCoeff, leadingCoeff_neg, leadingCoeff_X, hd, one_mul]
    have hne : ((-1 : ℝ)) ^ n ≠ 0 := pow_ne_zero _ (by norm_num)
    constructor
    · rw [hr, natDegree_C_mul hne, h1]
    · rw [hr, leadingCoeff_mul, leadingCoeff_C, h2, ← mul_pow]
      norm_num
  have hdiff : (p - r).natDegree ≤ n - 1 := by
    by_cases h0 : p - r = 0
    · rw [h0]; simp
    have h1 : (p - r).degree < p.degree := by
      refine degree_sub_lt_left ?_ hm.ne_zero ?_
      · rw [degree_eq_natDegree hm.ne_zero, degree_eq_natDegree (by
          intro h0; rw [h0] at hrm; simp at hrm), hd, hrm.1]
      · rw [hm.leadingCoeff, hrm.2]
    rw [degree_eq_natDegree h0, degree_eq_natDegree hm.ne_zero, hd] at h1
    have : (p - r).natDegree < n := by exact_mod_cast h1
    omega
  have h1 := horth _ hdiff
  have h2 : ∫ t in (-1 : ℝ)..1, (r * (p - r)).eval t = 0 := by
    rw [← refl_int]
    have e : (r * (p - r)).comp (-X) = p * (C ((-1) ^ n) * (p - r).comp (-X)) := by
      rw [hr, mul_comp, mul_comp, C_comp, comp_assoc]
      simp only [neg_comp, X_comp, neg_neg, comp_X]
      ring
    rw [e]
    exact horth _ ((natDegree_C_mul_le _ _).trans ((refl_degree _).trans hdiff))
  have hzero : p - r = 0 := by
    by_contra hne
    have := wint_sq_pos 0 0 ((p - r) * (p - r)) (fun t _ _ => by rw [eval_mul]; exact mul_self_nonneg _) (mul_ne_zero hne hne)
    have e : wint 0 0 ((p - r) * (p - r)) = 0 := by
      have hi : ∀ q : ℝ[X], IntervalIntegrable (fun t => q.eval t) MeasureTheory.volume (-1) 1 := fun q => q.continuous.intervalIntegrable _ _
      have e1 : wint 0 0 ((p - r) * (p - r)) = ∫ t in (-1 : ℝ)..1, (p * (p - r)).eval t - (r * (p - r)).eval t := by
        unfold wint weight
        congr 1
        funext t
        simp only [pow_zero, one_mul, eval_mul, eval_sub]
        ring
      rw [e1, intervalIntegral.integral_sub (hi _) (hi _), h1, h2]
      ring
    linarith
  refine zeros_symm n p hm.ne_zero hd ?_ (fun i => x.getD i 0) hz h.increasing
  intro t ht
  have : p.eval (-t) = r.eval (-t) := by rw [sub_eq_zero.1 hzero]
  rw [this, hr, eval_mul, refl_eval, neg_neg, ht, mul_zero]

/-- So are its weights. -/
theorem gauss_weight_symm (hn : 1 ≤ n) (h : GaussRule 0 0 n x w) : ∀ i < n, w.getD (n - 1 - i) 0 = w.getD i 0 := by
  classical
  intro i hi
  have hsym := gauss_symm hn h
  have hne : ∀ j < n, j ≠ i → x.getD j 0 ≠ x.getD i 0 := by
    intro j hj hji
    rcases lt_or_gt_of_ne hji with hlt | hlt
    · exact (h.increasing j i hlt hi).ne
    · exact (h.increasing i j hlt hj).ne'
  set p : ℝ[X] := ∏ j ∈ (Finset.range n).erase i, (X - C (x.getD j 0)) with hp
  have hd : p.natDegree = n - 1 := by
    rw [hp, natDegree_prod_of_monic _ _ fun i _ => monic_X_sub_C _]
    simp [Finset.card_erase_of_mem (Finset.mem_range.2 hi)]
  have hz : ∀ j < n, j ≠ i → p.eval (x.getD j 0) = 0 := fun j hj hji => by
    rw [hp, eval_prod]
    exact Finset.prod_eq_zero (Finset.mem_erase.2 ⟨hji, Finset.mem_range.2 hj⟩) (by simp)
  have hnz : p.eval (x.getD i 0) ≠ 0 := by
    rw [hp, eval_prod, Finset.prod_ne_zero_iff]
    intro j hj
    obtain ⟨h1, h2⟩ := Finset.mem_erase.1 hj
    rw [eval_sub, eval_X, eval_C]
    exact sub_ne_zero.2 (hne j (Finset.mem_range.1 h2) h1).symm
  have e1 := legendre_exact h p (by omega)
  have e2 := legendre_exact h (p.comp (-X)) ((refl_degree p).trans (by omega))
  rw [refl_int, ← e1] at e2
  rw [Finset.sum_eq_single (n - 1 - i), Finset.sum_eq_single i] at e2
  · rw [refl_eval, hsym i hi, neg_neg] at e2
    exact mul_right_cancel₀ hnz e2
  · intro j hj hji
    rw [hz j (Finset.mem_range.1 hj) hji, mul_zero]
  · intro h; exact absurd (Finset.mem_range.2 hi) h
  · intro j hj hji
    have hj := Finset.mem_range.1 hj
    have := hsym (n - 1 - j) (by omega)
    rw [show n - 1 - (n - 1 - j) = j by omega] at this
    rw [refl_eval, this, neg_neg, hz _ (by omega) (by omega), mul_zero]
  · intro h; exact absurd (Finset.mem_range.2 (by omega)) h

end Blitzdg.Jacobi
