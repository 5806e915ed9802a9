import Verif.Time.Dissipative
import Mathlib.Analysis.InnerProductSpace.PiL2
import Mathlib.Analysis.InnerProductSpace.Dual
import Mathlib.RingTheory.Polynomial.Basic
import Mathlib.Topology.Algebra.Polynomial
import Mathlib.MeasureTheory.Integral.IntervalIntegral.Basic
import Mathlib.MeasureTheory.Integral.IntervalIntegral.FundThmCalculus
import Mathlib.Analysis.Calculus.Deriv.Polynomial
import Mathlib.Analysis.Normed.Module.FiniteDimension
import Mathlib.RingTheory.Polynomial.DegreeLT

/-!
The space of piecewise polynomials on `K` elements with the inner product of square integrable functions (in the reference coordinate), and the advection operator on it.  No code is modelled here; Drivers/AdvecRunProps.lean shows that
advec1d computes with this operator.
-/

namespace Blitzdg.Drivers

open Polynomial
open scoped RealInnerProductSpace

/-- Polynomials of degree at most `N` on the reference element `[-1, 1]`. -/
def Ref (N : ℕ) : Type := degreeLT ℝ (N + 1)

noncomputable instance (N : ℕ) : AddCommGroup (Ref N) := inferInstanceAs (AddCommGroup (degreeLT ℝ (N + 1)))
noncomputable instance (N : ℕ) : Module ℝ (Ref N) := inferInstanceAs (Module ℝ (degreeLT ℝ (N + 1)))
instance Ref.finite (N : ℕ) : Module.Finite ℝ (Ref N) := inferInstanceAs (Module.Finite ℝ (degreeLT ℝ (N + 1)))

variable {N : ℕ}

/-- The polynomial itself. -/
noncomputable def Ref.poly : Ref N →ₗ[ℝ] ℝ[X] := (degreeLT ℝ (N + 1)).subtype

theorem Ref.deg (P : Ref N) : P.poly.natDegree ≤ N := by
  have h : P.poly.degree < ((N + 1 : ℕ) : WithBot ℕ) := mem_degreeLT.1 (Subtype.property (p := fun q => q ∈ degreeLT ℝ (N + 1)) P)
  rcases eq_or_ne P.poly 0 with h0 | h0
  · rw [h0]; simp
  · exact Nat.lt_succ_iff.1 ((natDegree_lt_iff_degree_lt h0).2 h)

/-- The element given by a polynomial. -/
noncomputable def Ref.mk (P : ℝ[X]) (h : P.natDegree ≤ N) : Ref N :=
  (⟨P, mem_degreeLT.2 (lt_of_le_of_lt degree_le_natDegree (by exact_mod_cast Nat.lt_succ_of_le h))⟩ : degreeLT ℝ (N + 1))

@[simp] theorem Ref.poly_mk (P : ℝ[X]) (h : P.natDegree ≤ N) : (Ref.mk P h).poly = P := rfl

theorem Ref.poly_inj {P Q : Ref N} (h : P.poly = Q.poly) : P = Q := Subtype.ext h

theorem int_mul_cont (P Q : ℝ[X]) : IntervalIntegrable (fun r => P.eval r * Q.eval r) MeasureTheory.volume (-1) 1 :=
  (P.continuous.mul Q.continuous).intervalIntegrable _ _

/-- A polynomial whose square has integral zero is zero. -/
theorem poly_definite (P : ℝ[X]) (h : ∫ r in (-1 : ℝ)..1, P.eval r * P.eval r = 0) : P = 0 := by
  by_contra h0
  have hpos : 0 < ∫ r in (-1 : ℝ)..1, P.eval r * P.eval r := by
    obtain ⟨x, hx, hne⟩ : ∃ x ∈ Set.Icc (-1 : ℝ) 1, P.eval x ≠ 0 := by
      by_contra hall
      push Not at hall
      exact h0 (Polynomial.eq_zero_of_infinite_isRoot P ((Set.Icc_infinite (by norm_num : (-1 : ℝ) < 1)).mono fun x hx => hall x hx))
    exact intervalIntegral.integral_pos (by norm_num) (P.continuous.mul P.continuous).continuousOn (fun x _ => mul_self_nonneg _) ⟨x, hx, mul_self_pos.2 hne⟩
  exact hpos.ne' h

/-- The inner product: the integral of the product over the reference element. -/
@[instance_reducible] noncomputable def Ref.core (N : ℕ) : InnerProductSpace.Core ℝ (Ref N) where
  inner P Q := ∫ r in (-1 : ℝ)..1, P.poly.eval r * Q.poly.eval r
  conj_inner_symm P Q := by
    simp only [conj_trivial]
    congr 1; funext r; ring
  re_inner_nonneg P := intervalIntegral.integral_nonneg (by norm_num) fun r _ => mul_self_nonneg _
  add_left P Q R := by
    rw [← intervalIntegral.integral_add (int_mul_cont _ _) (int_mul_cont _ _)]
    congr 1; funext r
    rw [map_add, eval_add]; ring
  smul_left P Q s := by
    simp only [conj_trivial]
    rw [← intervalIntegral.integral_const_mul]
    congr 1; funext r
    rw [map_smul, eval_smul, smul_eq_mul]; ring
  definite P h := Ref.poly_inj (by rw [map_zero]; exact poly_definite _ h)

noncomputable instance (N : ℕ) : NormedAddCommGroup (Ref N) := (Ref.core N).toNormedAddCommGroup
noncomputable instance (N : ℕ) : InnerProductSpace ℝ (Ref N) := InnerProductSpace.ofCore (Ref.core N).toCore
instance (N : ℕ) : CompleteSpace (Ref N) := FiniteDimensional.complete ℝ (Ref N)

theorem Ref.inner_def (P Q : Ref N) : ⟪P, Q⟫ = ∫ r in (-1 : ℝ)..1, P.poly.eval r * Q.poly.eval r := rfl

/-- Two elements with the same inner products are equal. -/
theorem Ref.eq_of_test {P Q : Ref N} (h : ∀ T : Ref N, ⟪P, T⟫ = ⟪Q, T⟫) : P = Q := ext_inner_right ℝ h

/-- The value at a point. -/
noncomputable def Ref.ev (x : ℝ) : Ref N →L[ℝ] ℝ := LinearMap.toContinuousLinearMap ((Polynomial.leval x).comp Ref.poly)

@[simp] theorem Ref.ev_apply (x : ℝ) (P : Ref N) : Ref.ev x P = P.poly.eval x := rfl

/-- The derivative. -/
noncomputable def Ref.D : Ref N →L[ℝ] Ref N :=
  LinearMap.toContinuousLinearMap
    { toFun := fun P => Ref.mk (derivative P.poly) ((natDegree_derivative_le _).trans (by have := P.deg; omega))
      map_add' := fun P Q => Ref.poly_inj (by simp only [Ref.poly_mk, map_add])
      map_smul' := fun s P => Ref.poly_inj (by simp only [Ref.poly_mk, map_smul, RingHom.id_apply]) }

@[simp] theorem Ref.D_poly (P : Ref N) : (Ref.D P).poly = derivative P.poly := rfl

/-- The polynomial whose inner product with another is the value of the latter at -1. -/
noncomputable def Ref.left : Ref N := (InnerProductSpace.toDual ℝ (Ref N)).symm (Ref.ev (-1))

theorem Ref.inner_left (P : Ref N) : ⟪(Ref.left : Ref N), P⟫ = P.poly.eval (-1) := by
  rw [Ref.left, InnerProductSpace.toDual_symm_apply, Ref.ev_apply]

theorem Ref.inner_D (P : Ref N) : ⟪P, Ref.D P⟫ = (P.poly.eval 1 ^ 2 - P.poly.eval (-1) ^ 2) / 2 := by
  rw [Ref.inner_def]
  have h := intervalIntegral.integral_eq_sub_of_hasDerivAt (f := fun x => P.poly.eval x ^ 2 / 2) (f' := fun x => P.poly.eval x * (derivative P.poly).eval x) (a := -1) (b := 1)
    (fun x _ => (((P.poly.hasDerivAt x).fun_pow 2).div_const 2).congr_deriv (by push_cast; ring)) (int_mul_cont _ _)
  rw [Ref.D_poly, h]
  ring

variable {K : ℕ}

/-- Piecewise polynomials on `K` elements. -/
abbrev Pieces (N K : ℕ) : Type := PiLp 2 (fun _ : Fin K => Ref N)

/-- The value at the right end of the element before, 0 for the first. -/
noncomputable def upwind (P : Pieces N K) (k : Fin K) : ℝ := if h : k.1 = 0 then 0 else (P ⟨k.1 - 1, by omega⟩).poly.eval 1

/-- The upwind advection operator with factor `s` (wave speed over half the width of an element). -/
noncomputable def advOp (N K : ℕ) (s : ℝ) : Pieces N K →L[ℝ] Pieces N K :=
  LinearMap.toContinuousLinearMap
    { toFun := fun P => WithLp.toLp 2 fun k => s • (-Ref.D (P k) + (upwind P k - (P k).poly.eval (-1)) • Ref.left)
      map_add' := fun P Q => by
        ext k
        simp only [upwind, PiLp.add_apply, map_add, eval_add]
        split <;> module
      map_smul' := fun a P => by
        ext k
        simp only [upwind, PiLp.smul_apply, map_smul, eval_smul, RingHom.id_apply, smul_eq_mul]
        split <;> module }

theorem advOp_apply (s : ℝ) (P : Pieces N K) (k : Fin K) : advOp N K s P k = s • (-Ref.D (P k) + (upwind P k - (P k).poly.eval (-1)) • Ref.left) := rfl

/-- The advection operator loses energy: half the square of every jump and of the value at the outflow end. -/
theorem advOp_dissipative {s : ℝ} (hs : 0 ≤ s) : Time.Dissipative (advOp N K s) := by
  intro P
  rw [PiLp.inner_apply]
  have h1 : ∀ k : Fin K, ⟪P k, advOp N K s P k⟫ ≤ s / 2 * (upwind P k ^ 2 - (P k).poly.eval 1 ^ 2) := fun k => by
    rw [advOp_apply, real_inner_smul_right, inner_add_right, inner_neg_right, real_inner_smul_right, Ref.inner_D, real_inner_comm, Ref.inner_left]
    nlinarith [sq_nonneg (upwind P k - (P k).poly.eval (-1)), mul_nonneg hs (sq_nonneg (upwind P k - (P k).poly.eval (-1)))]
  refine le_trans (Finset.sum_le_sum fun k _ => h1 k) ?_
  rw [← Finset.mul_sum]
  have h2 : ∑ k : Fin K, (upwind P k ^ 2 - (P k).poly.eval 1 ^ 2) ≤ 0 := by
    obtain ⟨a, ha⟩ : ∃ a : ℕ → ℝ, a = fun n => if h : n = 0 then 0 else if h' : n - 1 < K then (P ⟨n - 1, h'⟩).poly.eval 1 ^ 2 else 0 := ⟨_, rfl⟩
    have e : ∀ k : Fin K, upwind P k ^ 2 - (P k).poly.eval 1 ^ 2 = a k.1 - a (k.1 + 1) := fun k => by
      simp only [ha, upwind]
      by_cases h : k.1 = 0
      · obtain ⟨n, hn⟩ := k
        obtain rfl : n = 0 := h
        simp [hn]
      · have : k.1 - 1 < K := by omega
        simp [h, this]
    have : ∑ k : Fin K, (upwind P k ^ 2 - (P k).poly.eval 1 ^ 2) = ∑ n ∈ Finset.range K, (a n - a (n + 1)) := by
      rw [← Fin.sum_univ_eq_sum_range (fun n => a n - a (n + 1)) K]
      exact Finset.sum_congr rfl fun k _ => e k
    rw [this, Finset.sum_range_sub']
    have h0 : a 0 = 0 := by simp [ha]
    have hK : 0 ≤ a K := by
      simp only [ha]
      split
      · exact le_refl _
      · split
        · positivity
        · exact le_refl _
    linarith
  nlinarith

/-- The norm of the advection operator, from bounds on the derivative and on the values at the ends. -/
theorem advOp_norm_of {N : ℕ} {a b : ℝ} (ha0 : 0 ≤ a) (hb0 : 0 ≤ b) (ha : ∀ P : Ref N, ‖Ref.D P‖ + |P.poly.eval (-1)| * ‖(Ref.left : Ref N)‖ ≤ a * ‖P‖) (hb : ∀ P : Ref N, |P.poly.eval 1| * ‖(Ref.left : Ref N)‖ ≤ b * ‖P‖)
    (K : ℕ) {s : ℝ} (hs : 0 ≤ s) : ‖advOp N K s‖ ≤ (a + b) * s := by
  refine ContinuousLinearMap.opNorm_le_bound _ (by positivity) fun P => ?_
  obtain ⟨q, hq⟩ : ∃ q : Fin K → ℝ, q = fun k => if h : k.1 = 0 then 0 else ‖P ⟨k.1 - 1, by omega⟩‖ := ⟨_, rfl⟩
  have h1 : ∀ k, ‖advOp N K s P k‖ ≤ s * (a * ‖P k‖ + b * q k) := fun k => by
    rw [advOp_apply, norm_smul, Real.norm_eq_abs, abs_of_nonneg hs]
    refine mul_le_mul_of_nonneg_left (le_trans (norm_add_le _ _) ?_) hs
    rw [norm_neg, norm_smul, Real.norm_eq_abs]
    have e1 := ha (P k)
    have e3 : |upwind P k| * ‖(Ref.left : Ref N)‖ ≤ b * q k := by
      simp only [upwind, hq]
      split
      · simp
      · exact hb _
    have e5 := mul_le_mul_of_nonneg_right (abs_sub (upwind P k) ((P k).poly.eval (-1))) (norm_nonneg (Ref.left : Ref N))
    rw [add_mul] at e5
    linarith
  have h2 : ∑ k, q k ^ 2 ≤ ∑ k, ‖P k‖ ^ 2 := by
    obtain ⟨f, hf⟩ : ∃ f : ℕ → ℝ, f = fun n => if h : n < K then ‖P ⟨n, h⟩‖ ^ 2 else 0 := ⟨_, rfl⟩
    have f0 : ∀ n, 0 ≤ f n := fun n => by
      simp only [hf]; split
      · positivity
      · exact le_refl _
    have e1 : ∑ k, ‖P k‖ ^ 2 = ∑ n ∈ Finset.range K, f n := by
      rw [← Fin.sum_univ_eq_sum_range]
      exact Finset.sum_congr rfl fun k _ => by simp [hf]
    have e2 : ∑ k, q k ^ 2 = ∑ n ∈ Finset.range K, (if n = 0 then 0 else f (n - 1)) := by
      rw [← Fin.sum_univ_eq_sum_range (fun n => if n = 0 then 0 else f (n - 1))]
      refine Finset.sum_congr rfl fun k _ => ?_
      simp only [hq, hf]
      have : k.1 - 1 < K := by omega
      by_cases h : k.1 = 0
      · simp [h]
      · simp [h, this]
    rw [e1, e2]
    rcases K with _ | K
    · simp
    · rw [Finset.sum_range_succ', Finset.sum_range_succ]
      simp only [Nat.add_sub_cancel, if_neg (Nat.succ_ne_zero _), if_true, add_zero]
      linarith [f0 K]
  have h3 : ‖advOp N K s P‖ ^ 2 ≤ ((a + b) * s * ‖P‖) ^ 2 := by
    rw [PiLp.norm_sq_eq_of_L2]
    have hP : ‖P‖ ^ 2 = ∑ k, ‖P k‖ ^ 2 := PiLp.norm_sq_eq_of_L2 _ _
    calc _ ≤ ∑ k, s ^ 2 * ((a + b) * (a * ‖P k‖ ^ 2 + b * q k ^ 2)) := by
          refine Finset.sum_le_sum fun k _ => ?_
          have := pow_le_pow_left₀ (norm_nonneg _) (h1 k) 2
          refine le_trans this ?_
          rw [mul_pow]
          exact mul_le_mul_of_nonneg_left (by nlinarith [mul_nonneg (mul_nonneg ha0 hb0) (sq_nonneg (‖P k‖ - q k))]) (sq_nonneg s)
      _ = s ^ 2 * ((a + b) * (a * ∑ k, ‖P k‖ ^ 2 + b * ∑ k, q k ^ 2)) := by
          rw [← Finset.mul_sum, ← Finset.mul_sum, Finset.sum_add_distrib, Finset.mul_sum, Finset.mul_sum]
      _ ≤ s ^ 2 * ((a + b) * (a * ‖P‖ ^ 2 + b * ‖P‖ ^ 2)) := by
          rw [hP]
          gcongr
      _ = _ := by ring
  exact le_of_sq_le_sq h3 (by positivity)

/-- The norm of the advection operator grows at most like its factor. -/
theorem advOp_norm (N : ℕ) : ∃ C, 0 ≤ C ∧ ∀ (K : ℕ) (s : ℝ), 0 ≤ s → ‖advOp N K s‖ ≤ C * s := by
  obtain ⟨a, ha⟩ : ∃ a, a = ‖(Ref.D : Ref N →L[ℝ] Ref N)‖ + ‖(Ref.ev (-1) : Ref N →L[ℝ] ℝ)‖ * ‖(Ref.left : Ref N)‖ := ⟨_, rfl⟩
  obtain ⟨b, hb⟩ : ∃ b, b = ‖(Ref.ev 1 : Ref N →L[ℝ] ℝ)‖ * ‖(Ref.left : Ref N)‖ := ⟨_, rfl⟩
  have ha0 : 0 ≤ a := by rw [ha]; positivity
  have hb0 : 0 ≤ b := by rw [hb]; positivity
  refine ⟨a + b, by positivity, fun K s hs => advOp_norm_of ha0 hb0 (fun P => ?_) (fun P => ?_) K hs⟩
  · have e1 := (Ref.D : Ref N →L[ℝ] Ref N).le_opNorm P
    have e2 := mul_le_mul_of_nonneg_right ((Ref.ev (-1) : Ref N →L[ℝ] ℝ).le_opNorm P) (norm_nonneg (Ref.left : Ref N))
    rw [Ref.ev_apply, Real.norm_eq_abs] at e2
    rw [ha]
    linarith
  · have e2 := mul_le_mul_of_nonneg_right ((Ref.ev 1 : Ref N →L[ℝ] ℝ).le_opNorm P) (norm_nonneg (Ref.left : Ref N))
    rw [Ref.ev_apply, Real.norm_eq_abs] at e2
    rw [hb]
    linarith

end Blitzdg.Drivers
