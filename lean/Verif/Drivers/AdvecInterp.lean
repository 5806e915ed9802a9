import Verif.Drivers.PolySpace
import Mathlib.LinearAlgebra.Lagrange
import Mathlib.Analysis.Calculus.IteratedDeriv.Defs
import Mathlib.Analysis.Calculus.Deriv.Prod

/-!
Interpolation of a travelling wave by piecewise polynomials: how far the interpolant is from solving the semi-discrete advection equation.  No code is modelled here.
-/

namespace Blitzdg.Drivers

open Polynomial Set
open scoped RealInnerProductSpace

/-- Nodes from -1 to 1. -/
structure Nodes (N : ℕ) (r : ℕ → ℝ) : Prop where
  first : r 0 = -1
  last : r N = 1
  mono : ∀ i j : ℕ, i < j → j ≤ N → r i < r j

variable {N : ℕ} {r : ℕ → ℝ}

theorem Nodes.range (h : Nodes N r) {i : ℕ} (hi : i ≤ N) : -1 ≤ r i ∧ r i ≤ 1 := by
  constructor
  · rcases Nat.eq_zero_or_pos i with rfl | h0
    · rw [h.first]
    · rw [← h.first]; exact (h.mono 0 i h0 hi).le
  · rcases Nat.eq_or_lt_of_le hi with rfl | h0
    · rw [h.last]
    · rw [← h.last]; exact (h.mono i N h0 (le_refl _)).le

theorem Nodes.inj (h : Nodes N r) : Function.Injective fun i : Fin (N + 1) => r i := by
  intro i j e
  rcases lt_trichotomy i.1 j.1 with h' | h' | h'
  · exact absurd e (h.mono _ _ h' (by omega)).ne
  · exact Fin.ext h'
  · exact absurd e (h.mono _ _ h' (by omega)).ne'

/-- Two polynomials of degree at most `N` with the same values at the nodes are equal. -/
theorem Nodes.unique (h : Nodes N r) {P Q : Ref N} (e : ∀ i ≤ N, P.poly.eval (r i) = Q.poly.eval (r i)) : P = Q := by
  refine Ref.poly_inj (Polynomial.eq_of_natDegree_lt_card_of_eval_eq _ _ h.inj (fun i => e i (by omega)) ?_)
  rw [Fintype.card_fin]
  have := P.deg
  have := Q.deg
  omega

/-- Interpolation at the nodes. -/
theorem Nodes.interp (h : Nodes N r) : ∃ I : (Fin (N + 1) → ℝ) →L[ℝ] Ref N, ∀ a (i : Fin (N + 1)), (I a).poly.eval (r i) = a i := by
  have hinj : Set.InjOn (fun i : Fin (N + 1) => r i) (Finset.univ : Finset (Fin (N + 1))) := fun i _ j _ e => h.inj e
  have hdeg : ∀ a : Fin (N + 1) → ℝ, (Lagrange.interpolate Finset.univ (fun i : Fin (N + 1) => r i) a).natDegree ≤ N := fun a => by
    have := Lagrange.degree_interpolate_lt a hinj
    rw [Finset.card_univ, Fintype.card_fin] at this
    generalize Lagrange.interpolate Finset.univ (fun i : Fin (N + 1) => r i) a = q at this
    rcases eq_or_ne q 0 with rfl | hq
    · simp
    · exact Nat.lt_succ_iff.1 ((natDegree_lt_iff_degree_lt hq).2 this)
  refine ⟨LinearMap.toContinuousLinearMap
    { toFun := fun a => Ref.mk _ (hdeg a)
      map_add' := fun a b => Ref.poly_inj (by simp only [Ref.poly_mk, map_add])
      map_smul' := fun s a => Ref.poly_inj (by simp only [Ref.poly_mk, map_smul, RingHom.id_apply]) }, fun a i => ?_⟩
  exact Lagrange.eval_interpolate_at_node a hinj (Finset.mem_univ i)

/-- Taylor's formula: `G j` are the derivatives of `G 0`. -/
theorem taylor_bound (n : ℕ) : ∀ (G : ℕ → ℝ → ℝ) (a b M : ℝ), (∀ j < n, ∀ x ∈ Icc a b, HasDerivWithinAt (G j) (G (j + 1) x) (Icc a b) x) → (∀ x ∈ Icc a b, |G n x| ≤ M) →
    ∀ x ∈ Icc a b, |G 0 x - ∑ j ∈ Finset.range n, G j a * (x - a) ^ j / j.factorial| ≤ M * (x - a) ^ n := by
  induction n with
  | zero => intro G a b M _ hM x hx; simpa using hM x hx
  | succ n ih =>
    intro G a b M hG hM x hx
    have hM0 : 0 ≤ M := le_trans (abs_nonneg _) (hM x hx)
    have hd : ∀ y ∈ Icc a b, HasDerivWithinAt (fun y => G 0 y - ∑ j ∈ Finset.range (n + 1), G j a * (y - a) ^ j / j.factorial)
        (G 1 y - ∑ j ∈ Finset.range n, G (j + 1) a * (y - a) ^ j / j.factorial) (Icc a b) y := by
      intro y hy
      have h2 : HasDerivAt (fun y => ∑ j ∈ Finset.range (n + 1), G j a * (y - a) ^ j / j.factorial) (∑ j ∈ Finset.range (n + 1), G j a * ((j : ℝ) * (y - a) ^ (j - 1)) / j.factorial) y :=
        HasDerivAt.fun_sum fun j _ => by
          refine (((((hasDerivAt_id' y).sub_const a).fun_pow j).const_mul (G j a)).div_const _).congr_deriv ?_
          ring
      refine ((hG 0 (by omega) y hy).sub h2.hasDerivWithinAt).congr_deriv ?_
      rw [Finset.sum_range_succ']
      simp only [Nat.cast_zero, zero_mul, mul_zero, zero_div, add_zero, Nat.add_sub_cancel]
      congr 1
      refine Finset.sum_congr rfl fun j _ => ?_
      rw [Nat.factorial_succ]
      push_cast
      field_simp
    have hih := ih (fun j => G (j + 1)) a b M (fun j hj y hy => hG (j + 1) (by omega) y hy) hM
    have hB : ∀ y : ℝ, HasDerivAt (fun y => M * (y - a) ^ (n + 1)) (M * ((n + 1 : ℝ) * (y - a) ^ n)) y := fun y => by
      refine ((((hasDerivAt_id' y).sub_const a).fun_pow (n + 1)).const_mul M).congr_deriv ?_
      rw [Nat.add_sub_cancel]
      push_cast
      ring
    have := image_norm_le_of_norm_deriv_right_le_deriv_boundary (a := a) (b := b) (fun y hy => (hd y hy).continuousWithinAt)
      (fun y hy => (hd y ⟨hy.1, hy.2.le⟩).mono_of_mem_nhdsWithin (Filter.mem_of_superset (Icc_mem_nhdsGE hy.2) (Icc_subset_Icc_left hy.1)))
      (by simp [Finset.sum_range_succ']) hB (fun y hy => by
        refine le_trans (hih y ⟨hy.1, hy.2.le⟩) ?_
        have : 0 ≤ (y - a) ^ n := pow_nonneg (by linarith [hy.1]) n
        have h1 : (1 : ℝ) ≤ n + 1 := by linarith [Nat.cast_nonneg (α := ℝ) n]
        nlinarith [mul_nonneg hM0 this, mul_nonneg (Nat.cast_nonneg (α := ℝ) n) (mul_nonneg hM0 this)]) hx
    exact this

/-- On one element, at `x = a + h (r + 1) / 2`: differentiating the interpolant or interpolating the derivative makes a difference of order `h ^ (N + 1)` (in the reference coordinate). -/
theorem Nodes.commute (hr : Nodes N r) {I : (Fin (N + 1) → ℝ) →L[ℝ] Ref N} (hI : ∀ a (i : Fin (N + 1)), (I a).poly.eval (r i) = a i) (G : ℕ → ℝ → ℝ) (a h M : ℝ) (hh : 0 ≤ h)
    (hG : ∀ j < N + 1, ∀ x ∈ Icc a (a + h), HasDerivWithinAt (G j) (G (j + 1) x) (Icc a (a + h)) x) (hM : ∀ x ∈ Icc a (a + h), |G (N + 1) x| ≤ M) :
    ‖Ref.D (I fun i => G 0 (a + h * ((r i + 1) / 2))) - (h / 2) • I fun i => G 1 (a + h * ((r i + 1) / 2))‖ ≤ ((‖(Ref.D : Ref N →L[ℝ] Ref N)‖ + 1) * ‖I‖) * (M * h ^ (N + 1)) := by
  have hx : ∀ i : Fin (N + 1), a + h * ((r i + 1) / 2) ∈ Icc a (a + h) := fun i => by
    have := hr.range (i := i) (by omega)
    constructor <;> nlinarith
  have hM0 : 0 ≤ M := le_trans (abs_nonneg _) (hM a ⟨le_refl _, by linarith⟩)
  -- the Taylor polynomial in the reference coordinate
  obtain ⟨Y, hY⟩ : ∃ Y : ℝ[X], Y = C (h / 2) * (X + 1) := ⟨_, rfl⟩
  have hYe : ∀ y, Y.eval y = h * ((y + 1) / 2) := fun y => by rw [hY]; simp only [eval_mul, eval_C, eval_add, eval_X, eval_one]; ring
  have hYd : Y.natDegree ≤ 1 := by
    rw [hY]
    exact (natDegree_C_mul_le _ _).trans (natDegree_add_le_of_degree_le natDegree_X_le (by simp))
  obtain ⟨q, hq⟩ : ∃ q : ℝ[X], q = ∑ j ∈ Finset.range (N + 1), C (G j a / j.factorial) * Y ^ j := ⟨_, rfl⟩
  have hqd : q.natDegree ≤ N := by
    rw [hq]
    refine natDegree_sum_le_of_forall_le _ _ fun j hj => (natDegree_C_mul_le _ _).trans (natDegree_pow_le.trans ?_)
    have := Finset.mem_range.1 hj
    nlinarith
  have hqe : ∀ y, q.eval y = ∑ j ∈ Finset.range (N + 1), G j a * (a + h * ((y + 1) / 2) - a) ^ j / j.factorial := fun y => by
    rw [hq, eval_finsetSum]
    refine Finset.sum_congr rfl fun j _ => ?_
    rw [eval_mul, eval_C, eval_pow, hYe, add_sub_cancel_left]
    ring
  have hqe' : ∀ y, (derivative q).eval y = h / 2 * ∑ j ∈ Finset.range N, G (j + 1) a * (a + h * ((y + 1) / 2) - a) ^ j / j.factorial := fun y => by
    rw [hq, derivative_sum, eval_finsetSum, Finset.sum_range_succ', Finset.mul_sum]
    simp only [derivative_C_mul, derivative_pow, pow_zero, eval_mul, eval_C, add_sub_cancel_left, derivative_one, eval_zero, mul_zero, add_zero]
    have d : (derivative Y).eval y = h / 2 := by rw [hY]; simp
    refine Finset.sum_congr rfl fun j _ => ?_
    rw [d, Nat.add_sub_cancel, eval_pow, hYe, Nat.factorial_succ]
    push_cast
    field_simp
  -- the interpolant of the Taylor polynomial is the polynomial itself
  have e0 : (I fun i => q.eval (r i)) = Ref.mk q hqd := hr.unique fun i hi => by
    have := hI (fun i => q.eval (r i)) ⟨i, by omega⟩
    simpa using this
  have e1 : (I fun i => (derivative q).eval (r i)) = Ref.D (Ref.mk q hqd) := hr.unique fun i hi => by
    have := hI (fun i => (derivative q).eval (r i)) ⟨i, by omega⟩
    simpa using this
  have key : Ref.D (I fun i => G 0 (a + h * ((r i + 1) / 2))) - (h / 2) • I (fun i => G 1 (a + h * ((r i + 1) / 2))) =
      Ref.D (I fun i => G 0 (a + h * ((r i + 1) / 2)) - q.eval (r i)) - I fun i => h / 2 * G 1 (a + h * ((r i + 1) / 2)) - (derivative q).eval (r i) := by
    have a1 : (fun i : Fin (N + 1) => G 0 (a + h * ((r i + 1) / 2)) - q.eval (r i)) = (fun i : Fin (N + 1) => G 0 (a + h * ((r i + 1) / 2))) - fun i : Fin (N + 1) => q.eval (r i) := rfl
    have a2 : (fun i : Fin (N + 1) => h / 2 * G 1 (a + h * ((r i + 1) / 2)) - (derivative q).eval (r i)) = ((h / 2) • fun i : Fin (N + 1) => G 1 (a + h * ((r i + 1) / 2))) - fun i : Fin (N + 1) => (derivative q).eval (r i) := rfl
    rw [a1, a2, map_sub, map_sub, map_sub, map_smul, e0, e1]
    abel
  have n0 : ‖fun i : Fin (N + 1) => G 0 (a + h * ((r i + 1) / 2)) - q.eval (r i)‖ ≤ M * h ^ (N + 1) := by
    rw [pi_norm_le_iff_of_nonneg (by positivity)]
    intro i
    rw [hqe]
    refine le_trans (taylor_bound (N + 1) G a (a + h) M hG hM _ (hx i)) ?_
    have := hx i
    gcongr
    · linarith [this.1]
    · linarith [this.2]
  have n1 : ‖fun i : Fin (N + 1) => h / 2 * G 1 (a + h * ((r i + 1) / 2)) - (derivative q).eval (r i)‖ ≤ M * h ^ (N + 1) := by
    rw [pi_norm_le_iff_of_nonneg (by positivity)]
    intro i
    rw [hqe', ← mul_sub, norm_mul, Real.norm_eq_abs, abs_of_nonneg (by linarith : 0 ≤ h / 2)]
    have t := taylor_bound N (fun j => G (j + 1)) a (a + h) M (fun j hj => hG (j + 1) (by omega)) hM _ (hx i)
    have hb : M * (a + h * ((r i + 1) / 2) - a) ^ N ≤ M * h ^ N := by
      have := hx i
      gcongr
      · linarith [this.1]
      · linarith [this.2]
    have p : 0 ≤ M * h ^ (N + 1) := by positivity
    calc h / 2 * _ ≤ h / 2 * (M * h ^ N) := mul_le_mul_of_nonneg_left (le_trans t hb) (by linarith)
      _ = (M * h ^ (N + 1)) / 2 := by ring
      _ ≤ _ := by linarith
  rw [key]
  refine le_trans (norm_sub_le _ _) ?_
  have b0 := le_trans (I.le_opNorm _) (mul_le_mul_of_nonneg_left n0 (norm_nonneg I))
  have b1 := le_trans (I.le_opNorm _) (mul_le_mul_of_nonneg_left n1 (norm_nonneg I))
  have b2 := le_trans ((Ref.D : Ref N →L[ℝ] Ref N).le_opNorm _) (mul_le_mul_of_nonneg_left b0 (norm_nonneg (Ref.D : Ref N →L[ℝ] Ref N)))
  nlinarith

variable {K : ℕ}

/-- Position of reference point `y` of element `k` (elements of width `h` from `a` on). -/
noncomputable def pos (a h : ℝ) (k : ℕ) (y : ℝ) : ℝ := a + h * k + h * ((y + 1) / 2)

/-- A piecewise polynomial is small if its pieces are. -/
theorem pieces_norm_le {P : Pieces N K} {m : ℝ} (hm : 0 ≤ m) (h : ∀ k, ‖P k‖ ≤ m) : ‖P‖ ≤ √K * m := by
  have : ‖P‖ ^ 2 ≤ (√K * m) ^ 2 := by
    rw [PiLp.norm_sq_eq_of_L2, mul_pow, Real.sq_sqrt (Nat.cast_nonneg K)]
    calc _ ≤ ∑ _k : Fin K, m ^ 2 := Finset.sum_le_sum fun k _ => pow_le_pow_left₀ (norm_nonneg _) (h k) 2
      _ = _ := by simp
  exact le_of_sq_le_sq this (by positivity)

/-- Piecewise interpolation, with the constants of the estimates. -/
theorem Nodes.wave (hr : Nodes N r) : ∃ C : ℝ, 0 ≤ C ∧ ∀ (K : ℕ) (a h c T M B g : ℝ) (F : ℝ → ℝ), 0 < K → 0 < h → 0 ≤ c → 0 ≤ T → ContDiff ℝ (N + 1) F →
    (∀ x ∈ Icc (a - c * T) (a + h * K), |iteratedDeriv (N + 1) F x| ≤ M ∧ |F x| ≤ B) → (∀ x ∈ Icc (a - c * T) a, |F x| ≤ g) →
    ∃ (w : ℝ → Pieces N K) (res : ℝ → Pieces N K), (∀ t (k : Fin K), ∀ i ≤ N, (w t k).poly.eval (r i) = F (pos a h k (r i) - c * t)) ∧
      ∀ t ∈ Icc 0 T, HasDerivWithinAt w (advOp N K (c / (h / 2)) (w t) + res t) (Icc 0 T) t ∧ ‖w t‖ ≤ C * (√K * B) ∧ ‖res t‖ ≤ C * (c * (√K * (M * h ^ N) + g / h)) := by
  obtain ⟨I, hI⟩ := hr.interp
  obtain ⟨C1, hC1⟩ : ∃ C1, C1 = (‖(Ref.D : Ref N →L[ℝ] Ref N)‖ + 1) * ‖I‖ := ⟨_, rfl⟩
  have hC1' : 0 ≤ C1 := by rw [hC1]; positivity
  refine ⟨‖I‖ + 2 * C1 + 2 * ‖(Ref.left : Ref N)‖, by positivity, fun K a h c T M B g F hK hh hc hT hF hb hg => ?_⟩
  have hder : ∀ j < N + 1, ∀ x, HasDerivAt (iteratedDeriv j F) (iteratedDeriv (j + 1) F x) x := fun j hj x => by
    have := (hF.differentiable_iteratedDeriv j (by exact_mod_cast hj)) x
    rw [iteratedDeriv_succ]
    exact this.hasDerivAt
  have hKh : 0 ≤ h * K := by positivity
  obtain ⟨val, hval⟩ : ∃ val : (ℝ → ℝ) → ℝ → Fin K → Fin (N + 1) → ℝ, val = fun f t k i => f (pos a h k (r i) - c * t) := ⟨_, rfl⟩
  obtain ⟨W, hW⟩ : ∃ W : (Fin K → Fin (N + 1) → ℝ) →L[ℝ] Pieces N K, ∀ b k, W b k = I (b k) :=
    ⟨LinearMap.toContinuousLinearMap
      { toFun := fun b => WithLp.toLp 2 fun k => I (b k)
        map_add' := fun b b' => by ext k; simp
        map_smul' := fun s b => by ext k; simp }, fun b k => rfl⟩
  refine ⟨fun t => W (val F t), fun t => W (fun k i => -c * val (iteratedDeriv 1 F) t k i) - advOp N K (c / (h / 2)) (W (val F t)), fun t k i hi => ?_, fun t ht => ?_⟩
  · have := hI (val F t k) ⟨i, by omega⟩
    rw [hW, this, hval]
  have hposx : ∀ (k : Fin K) (y : ℝ), -1 ≤ y → y ≤ 1 → a ≤ pos a h k y ∧ pos a h k y ≤ a + h * K := fun k y h1 h2 => by
    have hk : ((k : ℕ) : ℝ) + 1 ≤ K := by exact_mod_cast k.2
    have hk0 : (0 : ℝ) ≤ (k : ℕ) := Nat.cast_nonneg _
    unfold pos
    constructor
    · nlinarith [mul_nonneg hh.le hk0]
    · nlinarith
  have hct : 0 ≤ c * t ∧ c * t ≤ c * T := ⟨mul_nonneg hc ht.1, mul_le_mul_of_nonneg_left ht.2 hc⟩
  have hin : ∀ (k : Fin K) (y : ℝ), -1 ≤ y → y ≤ 1 → pos a h k y - c * t ∈ Icc (a - c * T) (a + h * K) := fun k y h1 h2 => by
    have := hposx k y h1 h2
    constructor
    · linarith [hct.2, this.1]
    · linarith [hct.1, this.2]
  have hB0 : 0 ≤ B := le_trans (abs_nonneg _) (hb a ⟨by linarith, by linarith⟩).2
  have hM0 : 0 ≤ M := le_trans (abs_nonneg _) (hb a ⟨by linarith, by linarith⟩).1
  have hg0 : 0 ≤ g := le_trans (abs_nonneg _) (hg a ⟨by linarith, le_refl a⟩)
  refine ⟨?_, ?_, ?_⟩
  · rw [add_sub_cancel]
    refine (W.hasFDerivAt.comp_hasDerivAt t ?_).hasDerivWithinAt
    rw [hasDerivAt_pi]
    intro k
    rw [hasDerivAt_pi]
    intro i
    have h1 : HasDerivAt F (iteratedDeriv 1 F (pos a h k (r i) - c * t)) (pos a h k (r i) - c * t) := by
      have := hder 0 (by omega) (pos a h k (r i) - c * t)
      rwa [iteratedDeriv_zero] at this
    have h2 : HasDerivAt (fun s => pos a h k (r i) - c * s) (-c) t := by
      simpa using ((hasDerivAt_id' t).const_mul c).const_sub (pos a h k (r i))
    rw [hval]
    exact (h1.comp t h2).congr_deriv (by ring)
  · have : ‖W (val F t)‖ ≤ √K * (‖I‖ * B) := pieces_norm_le (by positivity) fun k => by
      rw [hW]
      refine le_trans (I.le_opNorm _) (mul_le_mul_of_nonneg_left ?_ (norm_nonneg _))
      rw [pi_norm_le_iff_of_nonneg hB0]
      intro i
      have := hr.range (i := i) (by omega)
      rw [hval]
      exact (hb _ (hin k _ this.1 this.2)).2
    refine le_trans this ?_
    have q : 0 ≤ √K * B := by positivity
    nlinarith [mul_nonneg hC1' q, mul_nonneg (norm_nonneg (Ref.left : Ref N)) q]
  · -- the residual, element by element
    obtain ⟨e, he⟩ : ∃ e : Pieces N K, e = WithLp.toLp 2 fun k => (c / (h / 2)) • (Ref.D (I (val F t k)) - (h / 2) • I (val (iteratedDeriv 1 F) t k)) := ⟨_, rfl⟩
    obtain ⟨e', he'⟩ : ∃ e' : Pieces N K, e' = WithLp.toLp 2 fun k => if k.1 = 0 then (c / (h / 2) * F (a - c * t)) • Ref.left else 0 := ⟨_, rfl⟩
    have hsplit : W (fun k i => -c * val (iteratedDeriv 1 F) t k i) - advOp N K (c / (h / 2)) (W (val F t)) = e + e' := by
      ext k
      rw [PiLp.sub_apply, PiLp.add_apply, advOp_apply, hW, hW, he, he']
      simp only
      have a1 : (fun i => -c * val (iteratedDeriv 1 F) t k i) = (-c) • val (iteratedDeriv 1 F) t k := rfl
      rw [a1, map_smul]
      have v0 : (I (val F t k)).poly.eval (-1) = F (pos a h k (-1) - c * t) := by
        have := hI (val F t k) 0
        rw [Fin.val_zero, hr.first] at this
        rw [this, hval]
        simp only [Fin.val_zero, hr.first]
      have up : upwind (W (val F t)) k - (I (val F t k)).poly.eval (-1) = if k.1 = 0 then -F (a - c * t) else 0 := by
        rw [v0, upwind]
        by_cases hk : k.1 = 0
        · rw [dif_pos hk, if_pos hk, zero_sub, hk]
          congr 2
          unfold pos
          push_cast
          ring
        · rw [dif_neg hk, if_neg hk, hW]
          have := hI (val F t ⟨k.1 - 1, by omega⟩) (Fin.last N)
          rw [Fin.val_last, hr.last] at this
          rw [this, hval, sub_eq_zero]
          simp only [Fin.val_last, hr.last]
          congr 2
          unfold pos
          have : ((k.1 - 1 : ℕ) : ℝ) = k.1 - 1 := by rw [Nat.cast_sub (by omega)]; simp
          rw [this]
          ring
      rw [up]
      have hs : c = c / (h / 2) * (h / 2) := by field_simp
      split
      · rw [smul_sub, smul_smul, ← hs]
        module
      · rw [smul_sub, smul_smul, ← hs]
        module
    have n1 : ‖e‖ ≤ √K * (c / (h / 2) * (C1 * (M * h ^ (N + 1)))) := pieces_norm_le (by positivity) fun k => by
      rw [he]
      simp only
      rw [norm_smul, Real.norm_eq_abs, abs_of_nonneg (by positivity)]
      refine mul_le_mul_of_nonneg_left ?_ (by positivity)
      have hp : ∀ i : Fin (N + 1), pos a h k (r i) - c * t = (a + h * k - c * t) + h * ((r i + 1) / 2) := fun i => by unfold pos; ring
      have hc' := hr.commute hI (fun j => iteratedDeriv j F) (a + h * k - c * t) h M hh.le (fun j hj x _ => (hder j hj x).hasDerivWithinAt) (fun x hx => by
        have hk : ((k : ℕ) : ℝ) + 1 ≤ K := by exact_mod_cast k.2
        have hk0 : (0 : ℝ) ≤ (k : ℕ) := Nat.cast_nonneg _
        refine (hb x ⟨?_, ?_⟩).1
        · nlinarith [hx.1, hct.2, mul_nonneg hh.le hk0]
        · nlinarith [hx.2, hct.1])
      rw [hC1]
      simp only [iteratedDeriv_zero, ← hp] at hc'
      rw [hval]
      exact hc'
    have n2 : ‖e'‖ ≤ c / (h / 2) * g * ‖(Ref.left : Ref N)‖ := by
      have : ‖e'‖ ^ 2 ≤ (c / (h / 2) * g * ‖(Ref.left : Ref N)‖) ^ 2 := by
        rw [PiLp.norm_sq_eq_of_L2, he']
        simp only
        rw [Finset.sum_eq_single ⟨0, hK⟩]
        · simp only [if_true]
          rw [norm_smul, norm_mul, Real.norm_eq_abs, Real.norm_eq_abs, abs_of_nonneg (by positivity : 0 ≤ c / (h / 2))]
          have := hg (a - c * t) ⟨by linarith [hct.2], by linarith [hct.1]⟩
          gcongr
        · intro k _ hk
          rw [if_neg (fun h0 => hk (Fin.ext h0))]
          simp
        · intro h0; exact absurd (Finset.mem_univ _) h0
      exact le_of_sq_le_sq this (by positivity)
    simp only
    rw [hsplit]
    refine le_trans (norm_add_le _ _) (le_trans (add_le_add n1 n2) ?_)
    have r1 : √K * (c / (h / 2) * (C1 * (M * h ^ (N + 1)))) = 2 * C1 * (c * (√K * (M * h ^ N))) := by
      rw [pow_succ]; field_simp
    have r2 : c / (h / 2) * g * ‖(Ref.left : Ref N)‖ = 2 * ‖(Ref.left : Ref N)‖ * (c * (g / h)) := by field_simp
    rw [r1, r2]
    have q1 : 0 ≤ c * (√K * (M * h ^ N)) := by positivity
    have q2 : 0 ≤ c * (g / h) := by positivity
    nlinarith [mul_nonneg (norm_nonneg I) q1, mul_nonneg (norm_nonneg I) q2, mul_nonneg hC1' q2, mul_nonneg (norm_nonneg (Ref.left : Ref N)) q1]

/-- **Error of the scheme for a travelling wave.**  The constant depends only on the nodes. -/
theorem Nodes.wave_error (hr : Nodes N r) : ∃ C : ℝ, 0 < C ∧ ∀ (K : ℕ) (a h c T M B g dt : ℝ) (F : ℝ → ℝ), 0 < K → 0 < h → 0 ≤ c → 0 ≤ dt → C * (c * dt / h) ≤ 1 → ContDiff ℝ (N + 1) F →
    (∀ x ∈ Icc (a - c * T) (a + h * K), |iteratedDeriv (N + 1) F x| ≤ M ∧ |F x| ≤ B) → (∀ x ∈ Icc (a - c * T) a, |F x| ≤ g) →
    ∀ (u : ℕ → Pieces N K) (n : ℕ), n * dt ≤ T → (∀ (k : Fin K), ∀ i ≤ N, (u 0 k).poly.eval (r i) = F (pos a h k (r i))) →
      (∀ j < n, ∃ res, u (j + 1) = (Time.step (advOp N K (c / (h / 2))) dt (u j, res)).1) →
      ∃ w : Pieces N K, (∀ (k : Fin K), ∀ i ≤ N, (w k).poly.eval (r i) = F (pos a h k (r i) - c * (n * dt))) ∧
        ‖u n - w‖ ≤ C * (Real.exp (n * ((C * (c * dt / h)) ^ 5 + 1 / 10 ^ 24)) * (n * ((C * (c * dt / h)) ^ 5 + 1 / 10 ^ 24) * (√K * B) + n * dt * (c * (√K * (M * h ^ N) + g / h)))) := by
  obtain ⟨C1, h1, hw⟩ := hr.wave
  obtain ⟨C2, h2, hA⟩ := advOp_norm N
  refine ⟨C1 + 2 * C2 + 1, by positivity, fun K a h c T M B g dt F hK hh hc hdt hs hF hb hg u n hn hu0 hu => ?_⟩
  have hn0 : 0 ≤ (n : ℝ) * dt := mul_nonneg (Nat.cast_nonneg n) hdt
  have hT : 0 ≤ T := le_trans hn0 hn
  obtain ⟨w, res, w1, w2⟩ := hw K a h c T M B g F hK hh hc hT hF hb hg
  have hKh : 0 ≤ h * K := by positivity
  have hcT := mul_nonneg hc hT
  have hB0 : 0 ≤ B := le_trans (abs_nonneg _) (hb a ⟨by linarith, by linarith⟩).2
  have hM0 : 0 ≤ M := le_trans (abs_nonneg _) (hb a ⟨by linarith, by linarith⟩).1
  have hg0 : 0 ≤ g := le_trans (abs_nonneg _) (hg a ⟨by linarith, le_refl a⟩)
  have hx0 : 0 ≤ c * dt / h := by positivity
  have hnorm : dt * ‖advOp N K (c / (h / 2))‖ ≤ (C1 + 2 * C2 + 1) * (c * dt / h) := by
    calc _ ≤ dt * (C2 * (c / (h / 2))) := mul_le_mul_of_nonneg_left (hA K _ (by positivity)) hdt
      _ = 2 * C2 * (c * dt / h) := by field_simp
      _ ≤ _ := by nlinarith [mul_nonneg h1 hx0]
  have e := Time.scheme_error (advOp_dissipative (N := N) (K := K) (by positivity : 0 ≤ c / (h / 2))) (dt := dt) (ρ := C1 * (c * (√K * (M * h ^ N) + g / h))) (B := C1 * (√K * B)) (T := T) hdt
    (le_trans hnorm hs) (by positivity) (fun t ht => (w2 t ht).1) (fun t ht => (w2 t ht).2.2) (fun t ht => (w2 t ht).2.1) u n hn hu
  have h0 : u 0 = w 0 := by
    ext k
    refine hr.unique fun i hi => ?_
    rw [hu0 k i hi, w1 0 k i hi, mul_zero, sub_zero]
  refine ⟨w (n * dt), fun k i hi => w1 _ k i hi, le_trans e ?_⟩
  rw [h0, sub_self, norm_zero, zero_add]
  have hnn : 0 ≤ dt * ‖advOp N K (c / (h / 2))‖ := mul_nonneg hdt (ContinuousLinearMap.opNorm_nonneg _)
  obtain ⟨δ, hδ⟩ : ∃ δ, δ = ((C1 + 2 * C2 + 1) * (c * dt / h)) ^ 5 + 1 / 10 ^ 24 := ⟨_, rfl⟩
  have hδ' : (dt * ‖advOp N K (c / (h / 2))‖) ^ 5 + 1 / 10 ^ 24 ≤ δ := by
    rw [hδ]
    exact add_le_add_left (pow_le_pow_left₀ hnn hnorm 5) _
  have hd0 : 0 ≤ (dt * ‖advOp N K (c / (h / 2))‖) ^ 5 + 1 / 10 ^ 24 := by positivity
  have hδ0 : 0 ≤ δ := le_trans hd0 hδ'
  rw [← hδ]
  have q0 : 0 ≤ √K * B := by positivity
  have q1 : 0 ≤ c * (√K * (M * h ^ N) + g / h) := by positivity
  have hn' : (0 : ℝ) ≤ n := Nat.cast_nonneg n
  have m1 : Real.exp (n * ((dt * ‖advOp N K (c / (h / 2))‖) ^ 5 + 1 / 10 ^ 24)) ≤ Real.exp (n * δ) := Real.exp_le_exp.2 (mul_le_mul_of_nonneg_left hδ' hn')
  have m2 : n * (((dt * ‖advOp N K (c / (h / 2))‖) ^ 5 + 1 / 10 ^ 24) * (C1 * (√K * B)) + dt * (C1 * (c * (√K * (M * h ^ N) + g / h)))) ≤
      (C1 + 2 * C2 + 1) * (n * δ * (√K * B) + n * dt * (c * (√K * (M * h ^ N) + g / h))) := by
    obtain ⟨Q, hQ⟩ : ∃ Q, Q = √K * B := ⟨_, rfl⟩
    obtain ⟨S, hS⟩ : ∃ S, S = c * (√K * (M * h ^ N) + g / h) := ⟨_, rfl⟩
    rw [← hQ, ← hS]
    rw [← hQ] at q0
    rw [← hS] at q1
    calc _ ≤ n * (δ * (C1 * Q) + dt * (C1 * S)) := by gcongr
      _ = C1 * (n * δ * Q + n * dt * S) := by ring
      _ ≤ _ := mul_le_mul_of_nonneg_right (by linarith) (by positivity)
  calc _ ≤ Real.exp (n * δ) * ((C1 + 2 * C2 + 1) * (n * δ * (√K * B) + n * dt * (c * (√K * (M * h ^ N) + g / h)))) := mul_le_mul m1 m2 (by positivity) (Real.exp_pos _).le
    _ = _ := by ring

end Blitzdg.Drivers
