import Mathlib.Analysis.SpecialFunctions.Sqrt
import Mathlib.Algebra.Order.BigOperators.Group.Finset

/-!
Bounded Lipschitz functions on a set: closure under the operations that occur in the rates of the shallow water programs.  No code is modelled here.
-/

namespace Blitzdg.Midpoint

variable {α : Type*} {d : α → α → ℝ} {D : Set α} {φ ψ : α → ℝ}

/-- `φ` is bounded on `D` and Lipschitz with respect to `d`. -/
def BL (d : α → α → ℝ) (D : Set α) (φ : α → ℝ) : Prop := ∃ B L : ℝ, 0 ≤ B ∧ 0 ≤ L ∧ ∀ a ∈ D, |φ a| ≤ B ∧ ∀ b ∈ D, |φ a - φ b| ≤ L * d a b

theorem BL.congr (h : BL d D φ) (e : ∀ a ∈ D, ψ a = φ a) : BL d D ψ := by
  obtain ⟨B, L, hB, hL, h⟩ := h
  refine ⟨B, L, hB, hL, fun a ha => ?_⟩
  rw [e a ha]
  refine ⟨(h a ha).1, fun b hb => ?_⟩
  rw [e b hb]
  exact (h a ha).2 b hb

theorem BL.const (c : ℝ) : BL d D fun _ => c := ⟨|c|, 0, abs_nonneg _, le_refl _, fun a _ => ⟨le_refl _, fun b _ => by simp⟩⟩

theorem BL.add (h1 : BL d D φ) (h2 : BL d D ψ) : BL d D fun a => φ a + ψ a := by
  obtain ⟨B1, L1, hB1, hL1, h1⟩ := h1
  obtain ⟨B2, L2, hB2, hL2, h2⟩ := h2
  refine ⟨B1 + B2, L1 + L2, by positivity, by positivity, fun a ha => ⟨le_trans (abs_add_le _ _) (add_le_add (h1 a ha).1 (h2 a ha).1), fun b hb => ?_⟩⟩
  rw [show φ a + ψ a - (φ b + ψ b) = (φ a - φ b) + (ψ a - ψ b) by ring, add_mul]
  exact le_trans (abs_add_le _ _) (add_le_add ((h1 a ha).2 b hb) ((h2 a ha).2 b hb))

theorem BL.neg (h1 : BL d D φ) : BL d D fun a => -φ a := by
  obtain ⟨B1, L1, hB1, hL1, h1⟩ := h1
  refine ⟨B1, L1, hB1, hL1, fun a ha => ⟨by rw [abs_neg]; exact (h1 a ha).1, fun b hb => ?_⟩⟩
  rw [show -φ a - -φ b = -(φ a - φ b) by ring, abs_neg]
  exact (h1 a ha).2 b hb

theorem BL.sub (h1 : BL d D φ) (h2 : BL d D ψ) : BL d D fun a => φ a - ψ a := by
  simpa only [sub_eq_add_neg] using h1.add h2.neg

theorem BL.mul (h1 : BL d D φ) (h2 : BL d D ψ) : BL d D fun a => φ a * ψ a := by
  obtain ⟨B1, L1, hB1, hL1, h1⟩ := h1
  obtain ⟨B2, L2, hB2, hL2, h2⟩ := h2
  refine ⟨B1 * B2, B1 * L2 + B2 * L1, by positivity, by positivity, fun a ha => ⟨?_, fun b hb => ?_⟩⟩
  · rw [abs_mul]
    exact mul_le_mul (h1 a ha).1 (h2 a ha).1 (abs_nonneg _) hB1
  · rw [show φ a * ψ a - φ b * ψ b = φ a * (ψ a - ψ b) + ψ b * (φ a - φ b) by ring]
    refine le_trans (abs_add_le _ _) ?_
    rw [abs_mul, abs_mul]
    have e1 := mul_le_mul (h1 a ha).1 ((h2 a ha).2 b hb) (abs_nonneg _) hB1
    have e2 := mul_le_mul (h2 b hb).1 ((h1 a ha).2 b hb) (abs_nonneg _) hB2
    linarith

theorem BL.sum {ι : Type*} (s : Finset ι) (f : ι → α → ℝ) (h : ∀ i ∈ s, BL d D (f i)) : BL d D fun a => ∑ i ∈ s, f i a := by
  classical
  induction s using Finset.induction_on with
  | empty => simpa using BL.const (d := d) (D := D) 0
  | insert i s hi ih =>
    have := (h i (Finset.mem_insert_self _ _)).add (ih fun j hj => h j (Finset.mem_insert_of_mem hj))
    exact this.congr fun a _ => Finset.sum_insert hi

theorem BL.max (h1 : BL d D φ) (h2 : BL d D ψ) (hd : ∀ a b, 0 ≤ d a b) : BL d D fun a => max (φ a) (ψ a) := by
  obtain ⟨B1, L1, hB1, hL1, h1⟩ := h1
  obtain ⟨B2, L2, hB2, hL2, h2⟩ := h2
  refine ⟨B1 + B2, L1 + L2, by positivity, by positivity, fun a ha => ⟨?_, fun b hb => ?_⟩⟩
  · have := (h1 a ha).1
    have := (h2 a ha).1
    show |Max.max (φ a) (ψ a)| ≤ B1 + B2
    rcases max_choice (φ a) (ψ a) with e | e <;> rw [e] <;> linarith
  · refine le_trans (abs_max_sub_max_le_max _ _ _ _) (max_le ?_ ?_)
    · have := (h1 a ha).2 b hb
      have := mul_nonneg hL2 (hd a b)
      linarith
    · have := (h2 a ha).2 b hb
      have := mul_nonneg hL1 (hd a b)
      linarith

theorem BL.inv (h1 : BL d D φ) {c : ℝ} (hc : 0 < c) (hφ : ∀ a ∈ D, c ≤ φ a) : BL d D fun a => (φ a)⁻¹ := by
  obtain ⟨B1, L1, hB1, hL1, h1⟩ := h1
  refine ⟨c⁻¹, L1 * (c⁻¹ * c⁻¹), by positivity, by positivity, fun a ha => ⟨?_, fun b hb => ?_⟩⟩
  · rw [abs_inv, abs_of_pos (lt_of_lt_of_le hc (hφ a ha))]
    exact inv_anti₀ hc (hφ a ha)
  · have pa := lt_of_lt_of_le hc (hφ a ha)
    have pb := lt_of_lt_of_le hc (hφ b hb)
    rw [show (φ a)⁻¹ - (φ b)⁻¹ = -(φ a - φ b) * ((φ a)⁻¹ * (φ b)⁻¹) by field_simp; ring, abs_mul, abs_neg, abs_of_pos (by positivity : 0 < (φ a)⁻¹ * (φ b)⁻¹)]
    have e : (φ a)⁻¹ * (φ b)⁻¹ ≤ c⁻¹ * c⁻¹ := mul_le_mul (inv_anti₀ hc (hφ a ha)) (inv_anti₀ hc (hφ b hb)) (by positivity) (by positivity)
    have h3 := (h1 a ha).2 b hb
    calc _ ≤ |φ a - φ b| * (c⁻¹ * c⁻¹) := mul_le_mul_of_nonneg_left e (abs_nonneg _)
      _ ≤ L1 * d a b * (c⁻¹ * c⁻¹) := mul_le_mul_of_nonneg_right h3 (by positivity)
      _ = _ := by ring

theorem BL.div (h1 : BL d D φ) (h2 : BL d D ψ) {c : ℝ} (hc : 0 < c) (hψ : ∀ a ∈ D, c ≤ ψ a) : BL d D fun a => φ a / ψ a := by
  simpa only [div_eq_mul_inv] using h1.mul (h2.inv hc hψ)

theorem BL.sqrt (h1 : BL d D φ) {c : ℝ} (hc : 0 < c) (hφ : ∀ a ∈ D, c ≤ φ a) : BL d D fun a => √(φ a) := by
  obtain ⟨B1, L1, hB1, hL1, h1⟩ := h1
  have pc := Real.sqrt_pos.2 hc
  refine ⟨√B1, L1 * (√c)⁻¹, by positivity, by positivity, fun a ha => ⟨?_, fun b hb => ?_⟩⟩
  · rw [abs_of_nonneg (Real.sqrt_nonneg _)]
    exact Real.sqrt_le_sqrt (le_trans (le_abs_self _) (h1 a ha).1)
  · have pa := lt_of_lt_of_le hc (hφ a ha)
    have pb := lt_of_lt_of_le hc (hφ b hb)
    have sa := Real.sqrt_pos.2 pa
    have sb := Real.sqrt_pos.2 pb
    have la : √c ≤ √(φ a) := Real.sqrt_le_sqrt (hφ a ha)
    have e : |√(φ a) - √(φ b)| * (√(φ a) + √(φ b)) = |φ a - φ b| := by
      have : |√(φ a) - √(φ b)| * (√(φ a) + √(φ b)) = |(√(φ a) - √(φ b)) * (√(φ a) + √(φ b))| := by rw [abs_mul, abs_of_pos (add_pos sa sb)]
      rw [this]
      congr 1
      nlinarith [Real.mul_self_sqrt pa.le, Real.mul_self_sqrt pb.le]
    have h3 := (h1 a ha).2 b hb
    rw [← e] at h3
    have h4 : |√(φ a) - √(φ b)| * √c ≤ L1 * d a b := le_trans (mul_le_mul_of_nonneg_left (by linarith) (abs_nonneg _)) h3
    rw [mul_right_comm, ← div_eq_mul_inv]
    exact (le_div_iff₀ pc).2 h4

theorem hyp_triangle (a b c e : ℝ) : |√(a * a + b * b) - √(c * c + e * e)| ≤ |a - c| + |b - e| := by
  have key : ∀ a b c e : ℝ, √(a * a + b * b) ≤ √(c * c + e * e) + (|a - c| + |b - e|) := by
    intro a b c e
    apply Real.sqrt_le_iff.2
    refine ⟨by positivity, ?_⟩
    have h0 : 0 ≤ c * c + e * e := add_nonneg (mul_self_nonneg _) (mul_self_nonneg _)
    have hs := Real.sq_sqrt h0
    have hc : |c| ≤ √(c * c + e * e) := Real.abs_le_sqrt (by nlinarith [mul_self_nonneg e])
    have he : |e| ≤ √(c * c + e * e) := Real.abs_le_sqrt (by nlinarith [mul_self_nonneg c])
    obtain ⟨s, hse⟩ : ∃ s, s = √(c * c + e * e) := ⟨_, rfl⟩
    rw [← hse] at hs hc he ⊢
    obtain ⟨p, hp⟩ : ∃ p, p = a - c := ⟨_, rfl⟩
    obtain ⟨q, hq⟩ : ∃ q, q = b - e := ⟨_, rfl⟩
    rw [show a = c + p by rw [hp]; ring, show b = e + q by rw [hq]; ring, add_sub_cancel_left, add_sub_cancel_left]
    have h1 : c * p ≤ s * |p| := le_trans (le_abs_self _) (by rw [abs_mul]; exact mul_le_mul_of_nonneg_right hc (abs_nonneg _))
    have h2 : e * q ≤ s * |q| := le_trans (le_abs_self _) (by rw [abs_mul]; exact mul_le_mul_of_nonneg_right he (abs_nonneg _))
    nlinarith [sq_abs p, sq_abs q, mul_nonneg (abs_nonneg p) (abs_nonneg q)]
  rw [abs_le]
  have h1 := key a b c e
  have h2 := key c e a b
  rw [abs_sub_comm c a, abs_sub_comm e b] at h2
  constructor <;> linarith

theorem BL.hyp (h1 : BL d D φ) (h2 : BL d D ψ) : BL d D fun a => √(φ a * φ a + ψ a * ψ a) := by
  obtain ⟨B1, L1, hB1, hL1, h1⟩ := h1
  obtain ⟨B2, L2, hB2, hL2, h2⟩ := h2
  refine ⟨B1 + B2, L1 + L2, by positivity, by positivity, fun a ha => ⟨?_, fun b hb => ?_⟩⟩
  · have := hyp_triangle (φ a) (ψ a) 0 0
    simp only [mul_zero, add_zero, Real.sqrt_zero, sub_zero] at this
    exact le_trans this (add_le_add (h1 a ha).1 (h2 a ha).1)
  · rw [add_mul]
    exact le_trans (hyp_triangle _ _ _ _) (add_le_add ((h1 a ha).2 b hb) ((h2 a ha).2 b hb))

/-- The largest of finitely many. -/
theorem BL.isMax {N : ℕ} {s : ℕ → α → ℝ} {M : α → ℝ} (h : ∀ i ≤ N, BL d D (s i)) (hM : ∀ a ∈ D, (∀ i ≤ N, s i a ≤ M a) ∧ ∃ i ≤ N, M a = s i a) (hd : ∀ a b, 0 ≤ d a b) : BL d D M := by
  induction N generalizing M with
  | zero =>
    refine (h 0 (le_refl _)).congr fun a ha => ?_
    obtain ⟨i, hi, e⟩ := (hM a ha).2
    obtain rfl : i = 0 := by omega
    exact e
  | succ N ih =>
    obtain ⟨M', hM'⟩ : ∃ M' : α → ℝ, ∀ a, (∀ i ≤ N, s i a ≤ M' a) ∧ ∃ i ≤ N, M' a = s i a := by
      have : ∀ a, ∃ m, (∀ i ≤ N, s i a ≤ m) ∧ ∃ i ≤ N, m = s i a := by
        intro a
        obtain ⟨i, hi, e⟩ := Finset.exists_max_image (Finset.range (N + 1)) (fun i => s i a) ⟨0, by simp⟩
        exact ⟨s i a, fun j hj => e j (Finset.mem_range.2 (by omega)), i, by rw [Finset.mem_range] at hi; omega, rfl⟩
      choose M' h1 using this
      exact ⟨M', h1⟩
    have h1 := ih (fun i hi => h i (by omega)) (fun a _ => hM' a)
    refine (h1.max (h (N + 1) (le_refl _)) hd).congr fun a ha => ?_
    obtain ⟨i, hi, e⟩ := (hM a ha).2
    obtain ⟨j, hj, e'⟩ := (hM' a).2
    apply le_antisymm
    · rw [e]
      rcases Nat.lt_or_ge N i with hl | hl
      · obtain rfl : i = N + 1 := by omega
        exact le_max_right _ _
      · exact le_trans ((hM' a).1 i hl) (le_max_left _ _)
    · rw [e']
      exact max_le ((hM a ha).1 j (by omega)) ((hM a ha).1 (N + 1) (le_refl _))

end Blitzdg.Midpoint
