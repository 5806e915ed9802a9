import Mathlib.Analysis.SpecialFunctions.Exponential
import Mathlib.Analysis.InnerProductSpace.Calculus
import Mathlib.Analysis.Calculus.MeanValue
import Mathlib.Analysis.Calculus.Deriv.Pow
import Mathlib.Analysis.Normed.Operator.Mul
import Verif.Time.LSERK4Props

/-!
Linear evolution equations `u' = A u` in an inner product space whose energy does not grow, and the low-storage Runge-Kutta scheme applied to them.  No code is modelled here; Drivers/AdvecRunProps.lean applies the theorem to advec1d.
-/

namespace Blitzdg.Time

open Set

variable {E : Type*} [NormedAddCommGroup E] [InnerProductSpace ℝ E] [CompleteSpace E]

open scoped RealInnerProductSpace

/-- The energy does not grow under `u' = A u`. -/
def Dissipative (A : E →L[ℝ] E) : Prop := ∀ u, ⟪u, A u⟫ ≤ 0

/-- The solution of `u' = A u` starting with `u`. -/
noncomputable def flow (A : E →L[ℝ] E) (t : ℝ) (u : E) : E := NormedSpace.exp (t • A) u

omit [InnerProductSpace ℝ E] in
theorem flow_deriv [NormedSpace ℝ E] (A : E →L[ℝ] E) (t : ℝ) (u : E) : HasDerivAt (fun t : ℝ => NormedSpace.exp (t • A) u) (A (NormedSpace.exp (t • A) u)) t := by
  have h := hasDerivAt_exp_smul_const' (𝕂 := ℝ) A t
  exact (h.clm_apply (hasDerivAt_const t u)).congr_deriv (by simp)

omit [CompleteSpace E] in
/-- A curve driven by a dissipative operator and a bounded force grows at most linearly. -/
theorem forced_bound {A : E →L[ℝ] E} (hA : Dissipative A) {y r : ℝ → E} {a b ρ : ℝ} (hρ : 0 ≤ ρ) (hy : ∀ t ∈ Icc a b, HasDerivWithinAt y (A (y t) + r t) (Icc a b) t) (hr : ∀ t ∈ Icc a b, ‖r t‖ ≤ ρ) :
    ∀ t ∈ Icc a b, ‖y t‖ ≤ ‖y a‖ + ρ * (t - a) := by
  intro t ht
  refine le_of_forall_pos_le_add fun ε hε => ?_
  have hpos : ∀ s, 0 < ‖y s‖ ^ 2 + ε ^ 2 := fun s => by positivity
  have hd : ∀ s ∈ Icc a b, HasDerivWithinAt (fun s => √(‖y s‖ ^ 2 + ε ^ 2)) (2 * ⟪y s, A (y s) + r s⟫ / (2 * √(‖y s‖ ^ 2 + ε ^ 2))) (Icc a b) s := fun s hs => by
    have := ((hy s hs).norm_sq.add_const (ε ^ 2)).sqrt (hpos s).ne'
    exact this
  have key := image_le_of_deriv_right_le_deriv_boundary (f := fun s => √(‖y s‖ ^ 2 + ε ^ 2)) (a := a) (b := b) (f' := fun s => 2 * ⟪y s, A (y s) + r s⟫ / (2 * √(‖y s‖ ^ 2 + ε ^ 2)))
    (B := fun s => √(‖y a‖ ^ 2 + ε ^ 2) + ρ * (s - a)) (B' := fun _ => ρ) (fun s hs => (hd s hs).continuousWithinAt)
    (fun s hs => (hd s ⟨hs.1, hs.2.le⟩).mono_of_mem_nhdsWithin (Filter.mem_of_superset (Icc_mem_nhdsGE hs.2) (Icc_subset_Icc_left hs.1))) (by simp)
    (fun s => by fun_prop)
    (fun s _ => by
      have := (((hasDerivAt_id' s).sub_const a).const_mul ρ).const_add (√(‖y a‖ ^ 2 + ε ^ 2))
      rw [mul_one] at this
      exact this.hasDerivWithinAt)
    (fun s hs => by
      have hs' : s ∈ Icc a b := ⟨hs.1, hs.2.le⟩
      have h1 := hA (y s)
      have h2 : ⟪y s, r s⟫ ≤ ‖y s‖ * ρ := le_trans (real_inner_le_norm _ _) (mul_le_mul_of_nonneg_left (hr s hs') (norm_nonneg _))
      have h3 : ‖y s‖ ≤ √(‖y s‖ ^ 2 + ε ^ 2) := Real.le_sqrt_of_sq_le (by nlinarith [sq_nonneg ε])
      have h4 : 0 < √(‖y s‖ ^ 2 + ε ^ 2) := Real.sqrt_pos.2 (hpos s)
      rw [mul_div_mul_left _ _ (two_ne_zero), div_le_iff₀ h4, inner_add_right]
      nlinarith [mul_le_mul_of_nonneg_right h3 hρ])
  have k := key ht
  have h3 : ‖y t‖ ≤ √(‖y t‖ ^ 2 + ε ^ 2) := Real.le_sqrt_of_sq_le (by nlinarith [sq_nonneg ε])
  have h5 : √(‖y a‖ ^ 2 + ε ^ 2) ≤ ‖y a‖ + ε := by
    rw [Real.sqrt_le_left (by positivity)]
    nlinarith [norm_nonneg (y a)]
  linarith

/-- The flow of a dissipative operator is a contraction. -/
theorem flow_le {A : E →L[ℝ] E} (hA : Dissipative A) {t : ℝ} (ht : 0 ≤ t) (u : E) : ‖flow A t u‖ ≤ ‖u‖ := by
  have := forced_bound hA (y := fun t => flow A t u) (r := fun _ => 0) (a := 0) (b := t) (le_refl 0) (fun s _ => by
    rw [add_zero]; exact (flow_deriv A s u).hasDerivWithinAt) (fun _ _ => by simp) t ⟨ht, le_refl t⟩
  simpa [flow] using this

/-- Taylor's formula for the flow. -/
theorem flow_taylor {A : E →L[ℝ] E} (hA : Dissipative A) (u : E) (n : ℕ) : ∀ t, 0 ≤ t →
    ‖flow A t u - ∑ k ∈ Finset.range n, (t ^ k / k.factorial) • (A ^ k) u‖ ≤ ‖A‖ ^ n * t ^ n / n.factorial * ‖u‖ := by
  induction n with
  | zero => intro t ht; simpa using flow_le hA ht u
  | succ n ih =>
    intro t ht
    have hd : ∀ s, HasDerivAt (fun s : ℝ => flow A s u - ∑ k ∈ Finset.range (n + 1), (s ^ k / k.factorial) • (A ^ k) u) (A (flow A s u - ∑ k ∈ Finset.range n, (s ^ k / k.factorial) • (A ^ k) u)) s := by
      intro s
      have h2 : HasDerivAt (fun s : ℝ => ∑ k ∈ Finset.range (n + 1), (s ^ k / k.factorial) • (A ^ k) u) (∑ k ∈ Finset.range (n + 1), ((k : ℝ) * s ^ (k - 1) / k.factorial) • (A ^ k) u) s :=
        HasDerivAt.fun_sum fun k _ => ((hasDerivAt_pow k s).div_const _).smul_const _
      refine ((flow_deriv A s u).sub h2).congr_deriv ?_
      rw [map_sub, map_sum, Finset.sum_range_succ']
      simp only [Nat.cast_zero, zero_mul, zero_div, zero_smul, add_zero, map_smul, Nat.add_sub_cancel]
      congr 1
      refine Finset.sum_congr rfl fun k _ => ?_
      rw [pow_succ', Nat.factorial_succ]
      congr 1
      push_cast
      field_simp
    have hB : ∀ s : ℝ, HasDerivAt (fun s => ‖A‖ ^ (n + 1) * s ^ (n + 1) / (n + 1).factorial * ‖u‖) (‖A‖ * (‖A‖ ^ n * s ^ n / n.factorial * ‖u‖)) s := by
      intro s
      refine ((((hasDerivAt_pow (n + 1) s).const_mul (‖A‖ ^ (n + 1))).div_const _).mul_const ‖u‖).congr_deriv ?_
      rw [Nat.factorial_succ, Nat.add_sub_cancel]
      push_cast
      field_simp
      ring
    refine image_norm_le_of_norm_deriv_right_le_deriv_boundary (a := 0) (b := t) (fun s _ => (hd s).continuousAt.continuousWithinAt) (fun s _ => (hd s).hasDerivWithinAt) ?_ hB (fun s hs => ?_) ⟨ht, le_refl t⟩
    · simp [flow, Finset.sum_range_succ']
    · exact le_trans (A.le_opNorm _) (mul_le_mul_of_nonneg_left (ih s hs.1) (norm_nonneg _))

/-- The coefficients of the stability polynomial of the low-storage scheme. -/
def stab : List ℚ :=
  [1, ∑ i, tabB i, ∑ i, tabB i * tabC i, ∑ i, ∑ j, tabB i * tabA i j * tabC j, ∑ i, ∑ j, ∑ k, tabB i * tabA i j * tabA j k * tabC k, tabB 4 * tabA 4 3 * tabA 3 2 * tabA 2 1 * tabA 1 0]

theorem stab_entries : stab.getD 0 0 = 1 ∧ stab.getD 1 0 = tabB 0 + tabB 1 + tabB 2 + tabB 3 + tabB 4 ∧
    stab.getD 2 0 = tabB 1 * tabA 1 0 + tabB 2 * (tabA 2 0 + tabA 2 1) + tabB 3 * (tabA 3 0 + tabA 3 1 + tabA 3 2) + tabB 4 * (tabA 4 0 + tabA 4 1 + tabA 4 2 + tabA 4 3) ∧
    stab.getD 3 0 = tabB 2 * (tabA 2 1 * tabA 1 0) + tabB 3 * (tabA 3 1 * tabA 1 0 + tabA 3 2 * (tabA 2 0 + tabA 2 1)) +
      tabB 4 * (tabA 4 1 * tabA 1 0 + tabA 4 2 * (tabA 2 0 + tabA 2 1) + tabA 4 3 * (tabA 3 0 + tabA 3 1 + tabA 3 2)) ∧
    stab.getD 4 0 = tabB 3 * (tabA 3 2 * tabA 2 1 * tabA 1 0) + tabB 4 * (tabA 4 2 * tabA 2 1 * tabA 1 0 + tabA 4 3 * (tabA 3 1 * tabA 1 0 + tabA 3 2 * (tabA 2 0 + tabA 2 1))) ∧
    stab.getD 5 0 = tabB 4 * tabA 4 3 * tabA 3 2 * tabA 2 1 * tabA 1 0 := by
  decide +kernel

/-- Up to the fourth they are those of the exponential function. -/
theorem stab_close : ∀ k < 5, |((stab.getD k 0 : ℚ) : ℝ) - 1 / k.factorial| ≤ 1 / 10 ^ 25 := by
  intro k hk
  have h : ∀ k < 5, |stab.getD k 0 - 1 / k.factorial| ≤ 1 / 10 ^ 25 := by decide +kernel
  have := (Rat.cast_le (K := ℝ)).2 (h k hk)
  push_cast at this
  exact this

theorem stab_last : |((stab.getD 5 0 : ℚ) : ℝ)| ≤ 1 / 100 := by
  have h : |stab.getD 5 0| ≤ 1 / 100 := by decide +kernel
  have := (Rat.cast_le (K := ℝ)).2 h
  push_cast at this
  exact this

omit [InnerProductSpace ℝ E] [CompleteSpace E] in
/-- One step of the scheme for a linear right-hand side. -/
theorem step_linear [NormedSpace ℝ E] (A : E →L[ℝ] E) (dt : ℝ) (u res : E) : (step A dt (u, res)).1 = ∑ k ∈ Finset.range 6, (((stab.getD k 0 : ℚ) : ℝ) * dt ^ k) • (A ^ k) u := by
  obtain ⟨k0, k1, k2, k3, k4, h0, h1, h2, h3, h4, h⟩ := step_slopes A dt u res
  rw [h, h4, h3, h2, h1, h0]
  obtain ⟨e0, e1, e2, e3, e4, e5⟩ := stab_entries
  have p1 : ∀ v, (A ^ 1) v = A v := fun v => by simp
  have p2 : ∀ v, (A ^ 2) v = A (A v) := fun v => by rw [pow_succ', ← p1 v]; rfl
  have p3 : ∀ v, (A ^ 3) v = A (A (A v)) := fun v => by rw [pow_succ', ← p2 v]; rfl
  have p4 : ∀ v, (A ^ 4) v = A (A (A (A v))) := fun v => by rw [pow_succ', ← p3 v]; rfl
  have p5 : ∀ v, (A ^ 5) v = A (A (A (A (A v)))) := fun v => by rw [pow_succ', ← p4 v]; rfl
  simp only [Finset.sum_range_succ, Finset.sum_range_zero, e0, e1, e2, e3, e4, e5, map_add, map_smul, pow_zero, p1, p2, p3, p4, p5, zero_add, one_apply_eq_self]
  push_cast
  generalize A (A (A (A (A u)))) = v5
  generalize A (A (A (A u))) = v4
  generalize A (A (A u)) = v3
  generalize A (A u) = v2
  generalize A u = v1
  module

/-- The scheme follows the flow of a dissipative operator with an error of fifth order in the product of step and norm. -/
theorem step_flow {A : E →L[ℝ] E} (hA : Dissipative A) {dt : ℝ} (hdt : 0 ≤ dt) (hs : dt * ‖A‖ ≤ 1) (u res : E) :
    ‖(step A dt (u, res)).1 - flow A dt u‖ ≤ ((dt * ‖A‖) ^ 5 + 1 / 10 ^ 24) * ‖u‖ := by
  have hx : 0 ≤ dt * ‖A‖ := mul_nonneg hdt (norm_nonneg _)
  have ht := flow_taylor hA u 5 dt hdt
  have hp : ∀ k, ‖(A ^ k) u‖ ≤ ‖A‖ ^ k * ‖u‖ := fun k => by
    refine le_trans ((A ^ k).le_opNorm u) (mul_le_mul_of_nonneg_right ?_ (norm_nonneg _))
    rcases Nat.eq_zero_or_pos k with rfl | hk
    · rw [pow_zero, pow_zero]
      exact ContinuousLinearMap.norm_id_le
    · exact norm_pow_le' A hk
  have key : (step A dt (u, res)).1 - flow A dt u = (∑ k ∈ Finset.range 5, ((((stab.getD k 0 : ℚ) : ℝ) - 1 / k.factorial) * dt ^ k) • (A ^ k) u) + (((stab.getD 5 0 : ℚ) : ℝ) * dt ^ 5) • (A ^ 5) u -
      (flow A dt u - ∑ k ∈ Finset.range 5, (dt ^ k / k.factorial) • (A ^ k) u) := by
    rw [step_linear, Finset.sum_range_succ]
    have : ∑ k ∈ Finset.range 5, ((((stab.getD k 0 : ℚ) : ℝ) - 1 / k.factorial) * dt ^ k) • (A ^ k) u = ∑ k ∈ Finset.range 5, (((stab.getD k 0 : ℚ) : ℝ) * dt ^ k) • (A ^ k) u - ∑ k ∈ Finset.range 5, (dt ^ k / k.factorial) • (A ^ k) u := by
      rw [← Finset.sum_sub_distrib]
      refine Finset.sum_congr rfl fun k _ => ?_
      rw [← sub_smul]
      congr 1
      ring
    rw [this]
    abel
  have t1 : ‖∑ k ∈ Finset.range 5, ((((stab.getD k 0 : ℚ) : ℝ) - 1 / k.factorial) * dt ^ k) • (A ^ k) u‖ ≤ 5 * (1 / 10 ^ 25 * ‖u‖) := by
    refine le_trans (norm_sum_le_of_le (n := fun _ => 1 / 10 ^ 25 * ‖u‖) _ fun k hk => ?_) (by simp)
    rw [norm_smul, norm_mul, Real.norm_eq_abs, Real.norm_eq_abs, abs_of_nonneg (pow_nonneg hdt k)]
    have a1 := stab_close k (Finset.mem_range.1 hk)
    have a2 : dt ^ k * ‖(A ^ k) u‖ ≤ ‖u‖ := by
      calc _ ≤ dt ^ k * (‖A‖ ^ k * ‖u‖) := mul_le_mul_of_nonneg_left (hp k) (pow_nonneg hdt k)
        _ = (dt * ‖A‖) ^ k * ‖u‖ := by rw [mul_pow]; ring
        _ ≤ 1 * ‖u‖ := mul_le_mul_of_nonneg_right (pow_le_one₀ hx hs) (norm_nonneg _)
        _ = _ := one_mul _
    rw [mul_assoc]
    exact mul_le_mul a1 a2 (mul_nonneg (pow_nonneg hdt k) (norm_nonneg _)) (by norm_num)
  have t2 : ‖(((stab.getD 5 0 : ℚ) : ℝ) * dt ^ 5) • (A ^ 5) u‖ ≤ 1 / 100 * ((dt * ‖A‖) ^ 5 * ‖u‖) := by
    rw [norm_smul, norm_mul, Real.norm_eq_abs, Real.norm_eq_abs, abs_of_nonneg (pow_nonneg hdt 5), mul_assoc]
    refine mul_le_mul stab_last ?_ (mul_nonneg (pow_nonneg hdt 5) (norm_nonneg _)) (by norm_num)
    calc _ ≤ dt ^ 5 * (‖A‖ ^ 5 * ‖u‖) := mul_le_mul_of_nonneg_left (hp 5) (pow_nonneg hdt 5)
      _ = (dt * ‖A‖) ^ 5 * ‖u‖ := by rw [mul_pow]; ring
  have t3 : ‖A‖ ^ 5 * dt ^ 5 / (5 : ℕ).factorial * ‖u‖ = 1 / 120 * ((dt * ‖A‖) ^ 5 * ‖u‖) := by
    rw [mul_pow, show ((5 : ℕ).factorial : ℝ) = 120 by norm_num [Nat.factorial]]; ring
  rw [t3] at ht
  rw [key]
  refine le_trans (norm_sub_le _ _) (le_trans (add_le_add (norm_add_le _ _) ht) ?_)
  have q1 : 0 ≤ (dt * ‖A‖) ^ 5 * ‖u‖ := mul_nonneg (pow_nonneg hx 5) (norm_nonneg _)
  nlinarith [norm_nonneg u]

/-- **Fully discrete error.**  `w` satisfies the equation up to a residual bounded by `ρ` and stays within `B`; the scheme starts at `w 0`, with any contents of the register before each step. -/
theorem scheme_error {A : E →L[ℝ] E} (hA : Dissipative A) {dt ρ B T : ℝ} (hdt : 0 ≤ dt) (hs : dt * ‖A‖ ≤ 1) (hρ : 0 ≤ ρ) {w : ℝ → E} {r : ℝ → E} (hw : ∀ t ∈ Icc 0 T, HasDerivWithinAt w (A (w t) + r t) (Icc 0 T) t)
    (hr : ∀ t ∈ Icc 0 T, ‖r t‖ ≤ ρ) (hB : ∀ t ∈ Icc 0 T, ‖w t‖ ≤ B) (u : ℕ → E) (n : ℕ) (hn : n * dt ≤ T) (hu : ∀ k < n, ∃ res, u (k + 1) = (step A dt (u k, res)).1) :
    ‖u n - w (n * dt)‖ ≤ Real.exp (n * ((dt * ‖A‖) ^ 5 + 1 / 10 ^ 24)) * (‖u 0 - w 0‖ + n * (((dt * ‖A‖) ^ 5 + 1 / 10 ^ 24) * B + dt * ρ)) := by
  have hx : 0 ≤ dt * ‖A‖ := mul_nonneg hdt (norm_nonneg _)
  obtain ⟨δ, hδ⟩ : ∃ δ, δ = (dt * ‖A‖) ^ 5 + 1 / 10 ^ 24 := ⟨_, rfl⟩
  have hδ0 : 0 ≤ δ := by rw [hδ]; positivity
  rw [← hδ]
  have hflow : ∀ v, ∀ res, ‖(step A dt (v, res)).1 - flow A dt v‖ ≤ δ * ‖v‖ := fun v res => by rw [hδ]; exact step_flow hA hdt hs v res
  induction n with
  | zero => simp
  | succ n ih =>
    have hT : (n : ℝ) * dt + dt ≤ T := by push_cast at hn; linarith
    have hT' : (n : ℝ) * dt ≤ T := by linarith
    have h0 : 0 ≤ (n : ℝ) * dt := mul_nonneg (Nat.cast_nonneg n) hdt
    have e := ih hT' fun k hk => hu k (by omega)
    obtain ⟨res, hres⟩ := hu n (by omega)
    -- over one step the curve `w` follows the flow up to the residual
    have hone : ‖w (n * dt + dt) - flow A dt (w (n * dt))‖ ≤ dt * ρ := by
      have hin : ∀ s ∈ Icc 0 dt, n * dt + s ∈ Icc 0 T := fun s hs => ⟨by linarith [hs.1], by linarith [hs.2]⟩
      have := forced_bound hA (y := fun s => w (n * dt + s) - flow A s (w (n * dt))) (r := fun s => r (n * dt + s)) (a := 0) (b := dt) hρ (fun s hs => by
        have h1 : HasDerivWithinAt (fun s => w (n * dt + s)) (A (w (n * dt + s)) + r (n * dt + s)) (Icc 0 dt) s := by
          have := (hw _ (hin s hs)).scomp s (((hasDerivWithinAt_id s (Icc 0 dt)).const_add ((n : ℝ) * dt))) (fun x hx => hin x hx)
          rw [one_smul] at this
          exact this
        refine (h1.sub (flow_deriv A s (w (n * dt))).hasDerivWithinAt).congr_deriv ?_
        rw [map_sub]
        simp only [flow]
        abel) (fun s hs => hr _ (hin s hs)) dt ⟨hdt, le_refl _⟩
      simp only [add_zero, sub_zero, flow, zero_smul, NormedSpace.exp_zero, one_apply_eq_self, sub_self, norm_zero, zero_add] at this
      rw [mul_comm dt ρ]
      exact this
    have hcast : ((n + 1 : ℕ) : ℝ) * dt = n * dt + dt := by push_cast; ring
    rw [hcast, hres]
    have hBn := hB _ ⟨h0, hT'⟩
    have lin : flow A dt (u n) - flow A dt (w (n * dt)) = flow A dt (u n - w (n * dt)) := by simp [flow]
    have hc := flow_le hA hdt (u n - w (n * dt))
    have hstep := hflow (u n) res
    have hun : ‖u n‖ ≤ ‖u n - w (n * dt)‖ + B := by
      calc ‖u n‖ = ‖(u n - w (n * dt)) + w (n * dt)‖ := by simp
        _ ≤ _ := le_trans (norm_add_le _ _) (by linarith)
    have tri : ‖(step A dt (u n, res)).1 - w (n * dt + dt)‖ ≤ δ * ‖u n‖ + ‖u n - w (n * dt)‖ + dt * ρ := by
      have : (step A dt (u n, res)).1 - w (n * dt + dt) = ((step A dt (u n, res)).1 - flow A dt (u n)) + flow A dt (u n - w (n * dt)) - (w (n * dt + dt) - flow A dt (w (n * dt))) := by rw [← lin]; abel
      rw [this]
      refine le_trans (norm_sub_le _ _) (le_trans (add_le_add_left (norm_add_le _ _) _) ?_)
      linarith
    obtain ⟨q, hq⟩ : ∃ q, q = δ * B + dt * ρ := ⟨_, rfl⟩
    have hB0 : 0 ≤ B := le_trans (norm_nonneg _) hBn
    have hq0 : 0 ≤ q := by rw [hq]; positivity
    rw [← hq] at e ⊢
    obtain ⟨x, hx⟩ : ∃ x, x = ‖u n - w (n * dt)‖ := ⟨_, rfl⟩
    rw [← hx] at e tri hun
    have m1 : ‖(step A dt (u n, res)).1 - w (n * dt + dt)‖ ≤ (1 + δ) * x + q := by
      refine le_trans tri ?_
      have := mul_le_mul_of_nonneg_left hun hδ0
      rw [hq]
      nlinarith
    refine le_trans m1 ?_
    have ex : Real.exp (((n + 1 : ℕ) : ℝ) * δ) = Real.exp (n * δ) * Real.exp δ := by rw [← Real.exp_add]; congr 1; push_cast; ring
    have e1 : 1 + δ ≤ Real.exp δ := by linarith [Real.add_one_le_exp δ]
    have e2 : 1 ≤ Real.exp (((n + 1 : ℕ) : ℝ) * δ) := Real.one_le_exp (by positivity)
    have s0 : 0 ≤ ‖u 0 - w 0‖ + n * q := by positivity
    calc (1 + δ) * x + q ≤ Real.exp δ * (Real.exp (n * δ) * (‖u 0 - w 0‖ + n * q)) + Real.exp (((n + 1 : ℕ) : ℝ) * δ) * q := by
          refine add_le_add (mul_le_mul e1 e (by rw [hx]; exact norm_nonneg _) (Real.exp_pos _).le) ?_
          nlinarith
      _ = _ := by rw [ex]; push_cast; ring

end Blitzdg.Time
