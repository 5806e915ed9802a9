import Verif.DG2D.SpanProps
import Mathlib.Topology.Algebra.MvPolynomial
import Mathlib.MeasureTheory.Integral.DominatedConvergence

/-! Orthonormality of the two-dimensional modes (C73) and the integrals used in the specification of the operators. -/

namespace Blitzdg.DG2D

open MvPolynomial
open Blitzdg.Jacobi (jacobiP gradJacobi poly poly_eval poly_span poly_degree C48_orthonormal C48_legendre)

/-- Integral over the reference triangle `-1 ≤ r, -1 ≤ s, r + s ≤ 0`. -/
noncomputable def triInt (f : ℝ → ℝ → ℝ) : ℝ := ∫ s in (-1 : ℝ)..1, ∫ r in (-1 : ℝ)..(-s), f r s

/-- Integral over the reference square. -/
noncomputable def quadInt (f : ℝ → ℝ → ℝ) : ℝ := ∫ s in (-1 : ℝ)..1, ∫ r in (-1 : ℝ)..1, f r s

theorem collapse (f : ℝ → ℝ) (s : ℝ) : ∫ r in (-1 : ℝ)..(-s), f r = (1 - s) / 2 * ∫ a in (-1 : ℝ)..1, f ((1 - s) / 2 * a + (-(1 + s) / 2)) := by
  by_cases h : s = 1
  · subst h; simp
  have h1 : (1 - s) / 2 ≠ 0 := by
    intro h'
    apply h; linarith
  rw [intervalIntegral.integral_comp_mul_add f h1, smul_eq_mul, ← mul_assoc, mul_inv_cancel₀ h1, one_mul]
  congr 1 <;> ring

theorem triInt_collapse (f : ℝ → ℝ → ℝ) : triInt f = ∫ s in (-1 : ℝ)..1, (1 - s) / 2 * ∫ a in (-1 : ℝ)..1, f ((1 - s) / 2 * a + (-(1 + s) / 2)) s := by
  unfold triInt
  congr 1; funext s
  exact collapse (fun r => f r s) s

theorem rsToa_collapse {s : ℝ} (hs : s ≠ 1) (a : ℝ) : rsToa ((1 - s) / 2 * a + (-(1 + s) / 2)) s = a := by
  have h1 : 1 - s ≠ 0 := sub_ne_zero.2 (Ne.symm hs)
  unfold rsToa
  rw [if_pos hs]; field_simp; ring

/-- **C73, triangle.** The modes are orthonormal over the reference triangle. -/
theorem C73_triangle (p q : ℕ × ℕ) : triInt (fun r s => triMode p r s * triMode q r s) = if p = q then 1 else 0 := by
  obtain ⟨i, j⟩ := p
  obtain ⟨k, l⟩ := q
  have e : triInt (fun r s => triMode (i, j) r s * triMode (k, l) r s) =
      ∫ s in (-1 : ℝ)..1, (1 - s) ^ (i + k + 1) * (jacobiP (2 * i + 1) 0 j s * jacobiP (2 * k + 1) 0 l s) * (if i = k then 1 else 0) := by
    rw [triInt_collapse]
    congr 1; funext s
    by_cases hs : s = 1
    · subst hs; simp
    simp only [triMode, simplexP, rsToa_collapse hs]
    rw [← C48_legendre i k, ← intervalIntegral.integral_const_mul, ← intervalIntegral.integral_const_mul]
    congr 1; funext a
    have h2 : Real.sqrt 2 * Real.sqrt 2 = 2 := Real.mul_self_sqrt (by norm_num)
    rw [pow_succ, pow_add]
    linear_combination ((1 - s) / 2 * (jacobiP 0 0 i a * jacobiP (2 * i + 1) 0 j s * (1 - s) ^ i * (jacobiP 0 0 k a * jacobiP (2 * k + 1) 0 l s * (1 - s) ^ k))) * h2
  rw [e]
  by_cases hik : i = k
  · subst hik
    have h := (C48_orthonormal (2 * i + 1) 0).2 j l
    simp only [pow_zero, mul_one, Nat.cast_zero, Nat.cast_add, Nat.cast_mul, Nat.cast_one, Nat.cast_ofNat] at h
    simp only [if_true, mul_one, Prod.mk.injEq, true_and]
    rw [← h]
    congr 1; funext s
    congr 2; ring
  · rw [if_neg (show ¬ ((i, j) = (k, l)) by simp [hik])]
    simp [hik]

/-- **C73, quadrilateral.** -/
theorem C73_quadrilateral (p q : ℕ × ℕ) : quadInt (fun r s => quadMode p r s * quadMode q r s) = if p = q then 1 else 0 := by
  obtain ⟨i, j⟩ := p
  obtain ⟨k, l⟩ := q
  have e : quadInt (fun r s => quadMode (i, j) r s * quadMode (k, l) r s) =
      ∫ s in (-1 : ℝ)..1, (if j = l then 1 else 0) * (jacobiP 0 0 i s * jacobiP 0 0 k s) := by
    unfold quadInt
    congr 1; funext s
    rw [← C48_legendre j l, ← intervalIntegral.integral_mul_const]
    congr 1; funext r
    simp only [quadMode]; ring
  rw [e, intervalIntegral.integral_const_mul, C48_legendre]
  by_cases h1 : j = l <;> by_cases h2 : i = k <;> simp [h1, h2]

/-! Linearity on polynomials. -/

theorem ev_continuous (p : P2) : Continuous fun x : ℝ × ℝ => ev x.1 x.2 p := by
  have h : Continuous fun x : ℝ × ℝ => (![x.1, x.2] : Fin 2 → ℝ) := by
    apply continuous_pi
    intro i
    fin_cases i
    · exact continuous_fst
    · exact continuous_snd
  exact (MvPolynomial.continuous_eval p).comp h

theorem triInner_continuous (p : P2) : Continuous fun s : ℝ => (1 - s) / 2 * ∫ a in (-1 : ℝ)..1, ev ((1 - s) / 2 * a + (-(1 + s) / 2)) s p := by
  apply Continuous.mul (by fun_prop)
  apply intervalIntegral.continuous_parametric_intervalIntegral_of_continuous'
  exact (ev_continuous p).comp (f := fun x : ℝ × ℝ => ((1 - x.1) / 2 * x.2 + (-(1 + x.1) / 2), x.1)) (by fun_prop)

theorem quadInner_continuous (p : P2) : Continuous fun s : ℝ => ∫ r in (-1 : ℝ)..1, ev r s p := by
  apply intervalIntegral.continuous_parametric_intervalIntegral_of_continuous'
  exact (ev_continuous p).comp (f := fun x : ℝ × ℝ => (x.2, x.1)) (by fun_prop)

theorem triInner_cont' (p : P2) (s : ℝ) : Continuous fun a => ev ((1 - s) / 2 * a + (-(1 + s) / 2)) s p :=
  (ev_continuous p).comp (f := fun a : ℝ => ((1 - s) / 2 * a + (-(1 + s) / 2), s)) (by fun_prop)

theorem quadInner_cont' (p : P2) (s : ℝ) : Continuous fun r => ev r s p :=
  (ev_continuous p).comp (f := fun r : ℝ => (r, s)) (by fun_prop)

theorem triInt_add (p q : P2) : triInt (fun r s => ev r s (p + q)) = triInt (fun r s => ev r s p) + triInt (fun r s => ev r s q) := by
  simp only [triInt_collapse]
  rw [← intervalIntegral.integral_add ((triInner_continuous p).intervalIntegrable _ _) ((triInner_continuous q).intervalIntegrable _ _)]
  congr 1; funext s
  rw [← mul_add, ← intervalIntegral.integral_add ((triInner_cont' p s).intervalIntegrable _ _) ((triInner_cont' q s).intervalIntegrable _ _)]
  simp only [map_add]

theorem quadInt_add (p q : P2) : quadInt (fun r s => ev r s (p + q)) = quadInt (fun r s => ev r s p) + quadInt (fun r s => ev r s q) := by
  simp only [quadInt]
  rw [← intervalIntegral.integral_add ((quadInner_continuous p).intervalIntegrable _ _) ((quadInner_continuous q).intervalIntegrable _ _)]
  congr 1; funext s
  rw [← intervalIntegral.integral_add ((quadInner_cont' p s).intervalIntegrable _ _) ((quadInner_cont' q s).intervalIntegrable _ _)]
  simp only [map_add]

theorem triInt_smul (c : ℝ) (p : P2) : triInt (fun r s => ev r s (C c * p)) = c * triInt (fun r s => ev r s p) := by
  simp only [triInt, map_mul, eval_C, intervalIntegral.integral_const_mul]

theorem quadInt_smul (c : ℝ) (p : P2) : quadInt (fun r s => ev r s (C c * p)) = c * quadInt (fun r s => ev r s p) := by
  simp only [quadInt, map_mul, eval_C, intervalIntegral.integral_const_mul]

theorem triInt_congr {f g : ℝ → ℝ → ℝ} (h : ∀ r s, -1 ≤ r → -1 ≤ s → r + s ≤ 0 → f r s = g r s) : triInt f = triInt g := by
  unfold triInt
  apply intervalIntegral.integral_congr
  intro s hs
  rw [Set.uIcc_of_le (by norm_num)] at hs
  apply intervalIntegral.integral_congr
  intro r hr
  rw [Set.uIcc_of_le (by linarith [hs.2])] at hr
  exact h r s hr.1 hs.1 (by linarith [hr.2])

theorem triPoly_orth (p q : ℕ × ℕ) : triInt (fun r s => ev r s (triPoly p * triPoly q)) = if p = q then 1 else 0 := by
  rw [← C73_triangle p q]
  apply triInt_congr
  intro r s hr _ hrs
  rw [map_mul, ← triMode_eq (regular_of_mem hr hrs), ← triMode_eq (regular_of_mem hr hrs)]

theorem quadPoly_orth (p q : ℕ × ℕ) : quadInt (fun r s => ev r s (quadPoly p * quadPoly q)) = if p = q then 1 else 0 := by
  rw [← C73_quadrilateral p q]
  congr 1; funext r s
  rw [map_mul, ← (C72_quadrilateral r s p).1, ← (C72_quadrilateral r s q).1]

/-! Degrees of the modes. -/

theorem totalDegree_inS (g : Polynomial ℝ) : (inS g).totalDegree ≤ g.natDegree := by
  rw [g.as_sum_range_C_mul_X_pow, map_sum]
  apply totalDegree_finsetSum_le
  intro k hk
  have hk' := Finset.mem_range.1 hk
  simp only [inS, map_mul, map_pow, Polynomial.aeval_C, Polynomial.aeval_X, algebraMap_eq]
  refine (totalDegree_mul _ _).trans ?_
  rw [totalDegree_C, ← g.as_sum_range_C_mul_X_pow]
  have := totalDegree_X_pow (R := ℝ) (1 : Fin 2) k
  omega

theorem totalDegree_triPoly (p : ℕ × ℕ) : (triPoly p).totalDegree ≤ p.1 + p.2 := by
  have hU : U.totalDegree ≤ 1 := by
    unfold U
    refine (totalDegree_add _ _).trans (max_le ((totalDegree_add _ _).trans (max_le (by simp) ?_)) (by simp))
    refine (totalDegree_mul _ _).trans (by simp)
  have hW : W.totalDegree ≤ 1 := by
    unfold W
    refine (totalDegree_sub _ _).trans (by simp)
  have hh : (hom p.1 (poly 0 0 p.1)).totalDegree ≤ p.1 := by
    unfold hom
    apply totalDegree_finsetSum_le
    intro k hk
    have hk' := Finset.mem_range.1 hk
    refine (totalDegree_mul _ _).trans ?_
    rw [totalDegree_C]
    have h1 := totalDegree_mul (U ^ k) (W ^ (p.1 - k))
    have h2 := totalDegree_pow U k
    have h3 := totalDegree_pow W (p.1 - k)
    have h4 : k * U.totalDegree ≤ k := by nlinarith
    have h5 : (p.1 - k) * W.totalDegree ≤ p.1 - k := by nlinarith
    omega
  have hs : (inS (poly (2 * p.1 + 1) 0 p.2)).totalDegree ≤ p.2 := by
    have hi : (0 : ℝ) ≤ p.1 := Nat.cast_nonneg _
    refine (totalDegree_inS _).trans ?_
    rw [(poly_degree (by linarith) (by norm_num) (by linarith) p.2).1]
  unfold triPoly
  refine (totalDegree_mul _ _).trans ?_
  rw [totalDegree_C]
  have := totalDegree_mul (hom p.1 (poly 0 0 p.1)) (inS (poly (2 * p.1 + 1) 0 p.2))
  omega

theorem degreeOf_aeval (k i : Fin 2) (g : Polynomial ℝ) : (Polynomial.aeval (X k : P2) g).degreeOf i ≤ if i = k then g.natDegree else 0 := by
  rw [g.as_sum_range_C_mul_X_pow, map_sum]
  refine (degreeOf_sum_le _ _ _).trans (Finset.sup_le ?_)
  intro m hm
  have hm' := Finset.mem_range.1 hm
  simp only [map_mul, map_pow, Polynomial.aeval_C, Polynomial.aeval_X, algebraMap_eq]
  refine (degreeOf_C_mul_le _ _ _).trans ((degreeOf_pow_le _ _ _).trans ?_)
  rw [degreeOf_X, ← g.as_sum_range_C_mul_X_pow]
  split_ifs
  · omega
  · omega

theorem degreeOf_quadPoly (N : ℕ) (p : ℕ × ℕ) (h1 : p.1 ≤ N) (h2 : p.2 ≤ N) (i : Fin 2) : (quadPoly p).degreeOf i ≤ N := by
  unfold quadPoly inS inR
  refine (degreeOf_mul_le _ _ _).trans ?_
  have a := degreeOf_aeval 1 i (poly 0 0 p.1)
  have b := degreeOf_aeval 0 i (poly 0 0 p.2)
  rw [(leg0_deg p.1).1] at a
  rw [(leg0_deg p.2).1] at b
  fin_cases i <;> simp at a b ⊢ <;> omega

end Blitzdg.DG2D
