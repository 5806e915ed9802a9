import Verif.Poisson.Weak
import Verif.Jacobi.QuadProps
import Mathlib.MeasureTheory.Integral.Prod

/-! The trace inequality for polynomials on a triangle. -/

namespace Blitzdg.Poisson

open MvPolynomial
open Blitzdg.DG2D
open Blitzdg.SW (faceEnds lerp green_r green_s exists_primitive)
open Blitzdg.Jacobi (kap ratio poly poly_eval poly_span jacobiP jacobi_closed pt Q wint weight)

/-! ### Value at the end of the interval -/

theorem kap_sq (n : ℕ) : kap 0 1 n ^ 2 = (n + 1) / 2 := by
  have hg : Jacobi.gamma0 0 1 = 2 := by
    have := Jacobi.wint_one 0 1
    norm_num at this
    rw [← this]
    unfold wint weight
    simp only [pow_zero, pow_one, one_mul, Polynomial.eval_one, mul_one]
    rw [intervalIntegral.integral_add (by simp) (by simp)]
    simp
    norm_num
  induction n with
  | zero => simp only [kap, hg, Nat.cast_zero]; rw [div_pow, Real.sq_sqrt (by norm_num)]; norm_num
  | succ n ih =>
    have hr := Jacobi.ratio_pos (α := 0) (β := 1) (by norm_num) (by norm_num) (by norm_num) n
    simp only [kap]
    rw [mul_pow, ih, Real.sq_sqrt hr.le]
    unfold ratio
    push_cast
    field_simp
    ring

theorem poly_end (n : ℕ) : (poly 1 0 n).eval (-1) ^ 2 = (n + 1) / 2 := by
  rw [poly_eval (by norm_num) (by norm_num) (by norm_num), Jacobi.C48_symmetry, jacobi_closed (by norm_num) (by norm_num) (by norm_num), ← kap_sq n]
  have : pt 0 1 n 1 = 1 := by
    unfold pt
    rw [show ((1 : ℝ) - 1) / 2 = 0 by norm_num, ← Polynomial.coeff_zero_eq_eval_zero, Jacobi.Q_coeff, Jacobi.co_zero]
  rw [this, mul_one, mul_pow, ← pow_mul, mul_comm n 2, pow_mul]
  norm_num

theorem wint_sum (a b : ℕ) {ι : Type} (s : Finset ι) (f : ι → Polynomial ℝ) : wint a b (∑ i ∈ s, f i) = ∑ i ∈ s, wint a b (f i) := by
  classical
  induction s using Finset.induction_on with
  | empty => simp [wint]
  | insert i s hi ih => rw [Finset.sum_insert hi, Finset.sum_insert hi, Jacobi.wint_add, ih]

theorem wint_orth' (n k : ℕ) : wint 1 0 (poly 1 0 n * poly 1 0 k) = if n = k then 1 else 0 := by
  rcases le_total k n with h | h
  · exact_mod_cast Jacobi.wint_orth 1 0 k n h
  · rw [mul_comm]
    have := Jacobi.wint_orth 1 0 n k h
    simp only [Nat.cast_one, Nat.cast_zero] at this
    rw [this]
    simp only [eq_comm]

/-- A polynomial at the end of the interval, against its weighted norm. -/
theorem end_bound (n : ℕ) (q : Polynomial ℝ) (hq : q.natDegree ≤ n) : q.eval (-1) ^ 2 ≤ (n + 1) * (n + 2) / 4 * wint 1 0 (q * q) := by
  obtain ⟨c, hc⟩ := poly_span (α := 1) (β := 0) (by norm_num) (by norm_num) (by norm_num) n q hq
  have e1 : q.eval (-1) = ∑ k ∈ Finset.range (n + 1), c k * (poly 1 0 k).eval (-1) := by
    conv_lhs => rw [hc]
    rw [Polynomial.eval_finsetSum]
    simp
  have e2 : wint 1 0 (q * q) = ∑ k ∈ Finset.range (n + 1), c k ^ 2 := by
    conv_lhs => rw [hc]
    rw [Finset.sum_mul, wint_sum]
    refine Finset.sum_congr rfl fun i hi => ?_
    rw [Finset.mul_sum, wint_sum]
    rw [Finset.sum_eq_single i]
    · rw [show Polynomial.C (c i) * poly 1 0 i * (Polynomial.C (c i) * poly 1 0 i) = Polynomial.C (c i) * (Polynomial.C (c i) * (poly 1 0 i * poly 1 0 i)) by ring, Jacobi.wint_smul,
        Jacobi.wint_smul, wint_orth', if_pos rfl]
      ring
    · intro j _ hj
      rw [show Polynomial.C (c i) * poly 1 0 i * (Polynomial.C (c j) * poly 1 0 j) = Polynomial.C (c i) * (Polynomial.C (c j) * (poly 1 0 i * poly 1 0 j)) by ring, Jacobi.wint_smul,
        Jacobi.wint_smul, wint_orth', if_neg (Ne.symm hj)]
      ring
    · intro h; exact absurd hi h
  have e3 : ∑ k ∈ Finset.range (n + 1), (poly 1 0 k).eval (-1) ^ 2 = (n + 1) * (n + 2) / 4 := by
    have : ∀ m : ℕ, ∑ k ∈ Finset.range m, (poly 1 0 k).eval (-1) ^ 2 = m * (m + 1) / 4 := by
      intro m
      induction m with
      | zero => simp
      | succ m ih => rw [Finset.sum_range_succ, ih, poly_end]; push_cast; ring
    rw [this]; push_cast; ring
  rw [e1, e2, ← e3, mul_comm]
  exact Finset.sum_mul_sq_le_sq_mul_sq _ _ _

/-! ### Rotating a triangle -/

/-- The same triangle, starting from its second corner. -/
def rot (T : Tri) : Tri := ⟨T.xb, T.yb, T.xc, T.yc, T.xa, T.ya⟩

theorem cross_rot (T : Tri) : cross (rot T) = cross T := by unfold cross rot; ring

theorem place_rot (T : Tri) (r s : ℝ) : place (rot T) r s = place T (-r - s - 1) r := by
  unfold place rot
  simp only [Prod.mk.injEq]
  constructor <;> ring

theorem triInt_rot (p : P2) : triInt (fun r s => ev (-r - s - 1) r p) = triInt (fun r s => ev r s p) := by
  obtain ⟨R, rfl⟩ := exists_primitive p
  set q : P2 := subst (aff (-1) (-1) (-1)) (aff 0 1 0) R with hq
  have h1 : ∀ r s : ℝ, ev (-r - s - 1) r (pderiv 0 R) = ev r s (-pderiv 1 q) := by
    intro r s
    rw [hq, pderiv_subst]
    simp only [map_neg, map_add, map_mul, ev_subst]
    simp only [aff]
    simp
    ring_nf
  have h2 : ∀ r s : ℝ, ev r s q = ev (-r - s - 1) r R := by
    intro r s
    rw [hq, ev_subst]
    congr 2 <;> (simp [aff]; try ring)
  have e1 : triInt (fun r s => ev (-r - s - 1) r (pderiv 0 R)) = -integ triInt (pderiv 1 q) := by
    simp only [h1]
    rw [show -pderiv 1 q = C (-1) * pderiv 1 q by simp]
    rw [triInt_smul]
    unfold integ; ring
  rw [e1, green_s, show triInt (fun r s => ev r s (pderiv 0 R)) = integ triInt (pderiv 0 R) from rfl, green_r]
  simp only [h2]
  have e2 : ∫ s in (-1 : ℝ)..1, ev (- -s - s - 1) (-s) R = ∫ s in (-1 : ℝ)..1, ev (-1) s R := by
    have := intervalIntegral.integral_comp_neg (a := -1) (b := 1) fun s => ev (-1) s R
    rw [neg_neg] at this
    rw [← this]
    congr 1; funext s; congr 2; ring
  have e3 : ∫ r in (-1 : ℝ)..1, ev (-r - -1 - 1) r R = ∫ s in (-1 : ℝ)..1, ev (-s) s R := by
    congr 1; funext s; congr 2; ring
  rw [e2, e3]; ring

theorem triIntegral_rot (T : Tri) (U : P2) : triIntegral (rot T) (val U) = triIntegral T (val U) := by
  unfold triIntegral
  rw [cross_rot]
  congr 1
  have h : ∀ r s, val U (place T r s) = ev r s (pull T U) := fun r s => (ev_pull T U r s).symm
  simp only [place_rot, h]
  exact triInt_rot _

theorem faceEnds_rot (T : Tri) : faceEnds (rot T) 0 = faceEnds T 1 ∧ faceEnds (rot (rot T)) 0 = faceEnds T 2 := by simp [faceEnds, rot]

/-! ### The inequality -/

theorem ev_continuous (p : P2) : Continuous fun z : ℝ × ℝ => ev z.1 z.2 p := by
  induction p using MvPolynomial.induction_on with
  | C c => simpa using continuous_const
  | add p q hp hq => simp only [map_add]; exact hp.add hq
  | mul_X p i hp =>
    simp only [map_mul]
    fin_cases i
    · simp only [eval_X]; exact hp.mul continuous_fst
    · simp only [eval_X]; exact hp.mul continuous_snd

theorem interval_swap (f : ℝ → ℝ → ℝ) (hf : Continuous (Function.uncurry f)) :
    ∫ s in (-1 : ℝ)..1, ∫ a in (-1 : ℝ)..1, f s a = ∫ a in (-1 : ℝ)..1, ∫ s in (-1 : ℝ)..1, f s a := by
  rw [intervalIntegral.integral_of_le (by norm_num), intervalIntegral.integral_of_le (by norm_num)]
  simp only [intervalIntegral.integral_of_le (show (-1 : ℝ) ≤ 1 by norm_num)]
  apply MeasureTheory.integral_integral_swap
  rw [MeasureTheory.Measure.prod_restrict]
  have : MeasureTheory.IntegrableOn (Function.uncurry f) (Set.Icc (-1 : ℝ) 1 ×ˢ Set.Icc (-1 : ℝ) 1) := hf.continuousOn.integrableOn_compact (isCompact_Icc.prod isCompact_Icc)
  exact this.mono_set (Set.prod_mono Set.Ioc_subset_Icc_self Set.Ioc_subset_Icc_self)

/-- Segment from a point of the first face to the opposite corner. -/
theorem place_ray (T : Tri) (a s : ℝ) : place T ((1 - s) / 2 * a + (-(1 + s) / 2)) s = lerp (lerp (faceEnds T 0) a, (T.xc, T.yc)) s := by
  unfold place lerp
  simp only [faceEnds, if_true, Prod.mk.injEq]
  constructor <;> ring

theorem place_cont (T : Tri) : Continuous fun z : ℝ × ℝ => place T ((1 - z.1) / 2 * z.2 + (-(1 + z.1) / 2)) z.1 := by
  unfold place
  fun_prop

theorem trace0 {n : ℕ} {T : Tri} (hT : 0 < cross T) (U : P2) (hU : U.totalDegree ≤ n) :
    segIntegral (faceEnds T 0) (fun z => val U z * val U z) ≤ (n + 1) * (n + 2) / 2 * (segLen (faceEnds T 0) / (cross T / 2)) * triIntegral T fun z => val U z * val U z := by
  have hc : Continuous fun z : ℝ × ℝ => val U z := ev_continuous U
  have h1 : triInt (fun r s => val U (place T r s) * val U (place T r s))
      = ∫ a in (-1 : ℝ)..1, 1 / 2 * wint 1 0 (trace (lerp (faceEnds T 0) a, (T.xc, T.yc)) U * trace (lerp (faceEnds T 0) a, (T.xc, T.yc)) U) := by
    rw [triInt_collapse]
    simp only [← intervalIntegral.integral_const_mul]
    rw [interval_swap]
    · congr 1; funext a
      rw [wint, ← intervalIntegral.integral_const_mul]
      congr 1; funext s
      rw [place_ray, Polynomial.eval_mul, trace_eval]
      unfold weight; ring
    · show Continuous fun z : ℝ × ℝ => (1 - z.1) / 2 * (val U (place T ((1 - z.1) / 2 * z.2 + (-(1 + z.1) / 2)) z.1) * val U (place T ((1 - z.1) / 2 * z.2 + (-(1 + z.1) / 2)) z.1))
      have := hc.comp (place_cont T)
      exact Continuous.mul (by fun_prop) (this.mul this)
  have h2 : ∫ a in (-1 : ℝ)..1, val U (lerp (faceEnds T 0) a) * val U (lerp (faceEnds T 0) a)
      ≤ (n + 1) * (n + 2) / 2 * triInt (fun r s => val U (place T r s) * val U (place T r s)) := by
    rw [h1, ← intervalIntegral.integral_const_mul]
    apply intervalIntegral.integral_mono_on (by norm_num)
    · have : Continuous fun a => val U (lerp (faceEnds T 0) a) := by
        simp only [← trace_eval]; exact (trace _ U).continuous
      exact (this.mul this).intervalIntegrable _ _
    · apply Continuous.intervalIntegrable
      refine continuous_const.mul (continuous_const.mul ?_)
      unfold wint
      simp only [Polynomial.eval_mul, trace_eval]
      apply intervalIntegral.continuous_parametric_intervalIntegral_of_continuous' 
      show Continuous fun z : ℝ × ℝ => weight 1 0 z.2 * (val U (lerp (lerp (faceEnds T 0) z.1, (T.xc, T.yc)) z.2) * val U (lerp (lerp (faceEnds T 0) z.1, (T.xc, T.yc)) z.2))
      have hl : Continuous fun z : ℝ × ℝ => lerp (lerp (faceEnds T 0) z.1, (T.xc, T.yc)) z.2 := by unfold lerp; fun_prop
      have := hc.comp hl
      refine Continuous.mul ?_ (this.mul this)
      unfold weight; fun_prop
    · intro a _
      have := end_bound n _ (trace_deg (lerp (faceEnds T 0) a, (T.xc, T.yc)) U hU)
      rw [trace_eval] at this
      have e : lerp (lerp (faceEnds T 0) a, (T.xc, T.yc)) (-1) = lerp (faceEnds T 0) a := by
        unfold lerp; simp only [Prod.mk.injEq]; constructor <;> ring
      rw [e] at this
      linarith
  unfold segIntegral triIntegral
  have hL : 0 ≤ segLen (faceEnds T 0) := Real.sqrt_nonneg _
  refine (mul_le_mul_of_nonneg_left h2 (by linarith : 0 ≤ segLen (faceEnds T 0) / 2)).trans (le_of_eq ?_)
  field_simp
  ring

/-- **Trace inequality.** -/
theorem trace_ineq {n : ℕ} {T : Tri} (hT : 0 < cross T) {f : ℕ} (hf : f < 3) (U : P2) (hU : U.totalDegree ≤ n) :
    segIntegral (faceEnds T f) (fun z => val U z * val U z) ≤ (n + 1) * (n + 2) / 2 * (segLen (faceEnds T f) / (cross T / 2)) * triIntegral T fun z => val U z * val U z := by
  have e : ∀ T', triIntegral (rot T') (fun z => val U z * val U z) = triIntegral T' fun z => val U z * val U z := by
    intro T'
    rw [show (fun z => val U z * val U z) = val (U * U) from funext fun z => (val_mul U U z).symm]
    exact triIntegral_rot T' _
  rcases (by omega : f = 0 ∨ f = 1 ∨ f = 2) with rfl | rfl | rfl
  · exact trace0 hT U hU
  · have := trace0 (T := rot T) (by rwa [cross_rot]) U hU
    rwa [(faceEnds_rot T).1, cross_rot, e] at this
  · have := trace0 (T := rot (rot T)) (by rwa [cross_rot, cross_rot]) U hU
    rwa [(faceEnds_rot T).2, cross_rot, cross_rot, e, e] at this

end Blitzdg.Poisson
