import Mathlib.Analysis.Complex.Basic
import Mathlib.LinearAlgebra.Complex.FiniteDimensional
import Verif.Gmres.ExactProps

/-! An exact arithmetic on every real inner product space, so that the hypotheses of the exact-arithmetic theorems are met, and C35. -/

namespace Blitzdg.Gmres

open Classical

/-- The algorithm of the reference BLAS `DROTG`, called by src/LinAlgHelpers.cpp lines 11-14: (r, c, s) from (a, b). -/
noncomputable def drotg (a b : ℝ) : ℝ × ℝ × ℝ :=
  if |a| + |b| = 0 then (0, 1, 0)
  else
    let roe := if |a| > |b| then a else b
    let r0 := (|a| + |b|) * Real.sqrt ((a / (|a| + |b|)) ^ 2 + (b / (|a| + |b|)) ^ 2)
    let r := if roe < 0 then -r0 else r0
    (r, a / r, b / r)

theorem drotg_spec (a b : ℝ) : (drotg a b).2.1 * a + (drotg a b).2.2 * b = (drotg a b).1 ∧
    (drotg a b).2.1 * b - (drotg a b).2.2 * a = 0 ∧ (drotg a b).2.1 ^ 2 + (drotg a b).2.2 ^ 2 = 1 ∧
    (drotg a b).1 ^ 2 = a ^ 2 + b ^ 2 := by
  unfold drotg
  by_cases h : |a| + |b| = 0
  · have ha : a = 0 := abs_eq_zero.1 (by have := abs_nonneg a; have := abs_nonneg b; linarith)
    have hb : b = 0 := abs_eq_zero.1 (by have := abs_nonneg a; have := abs_nonneg b; linarith)
    rw [if_pos h, ha, hb]
    simp
  · rw [if_neg h]
    simp only
    have hsc : 0 < |a| + |b| := lt_of_le_of_ne (add_nonneg (abs_nonneg _) (abs_nonneg _)) (Ne.symm h)
    have hr0 : ((|a| + |b|) * Real.sqrt ((a / (|a| + |b|)) ^ 2 + (b / (|a| + |b|)) ^ 2)) ^ 2 = a ^ 2 + b ^ 2 := by
      rw [mul_pow, Real.sq_sqrt (by positivity)]
      field_simp
    have hr : ∀ roe : ℝ, (if roe < 0 then -((|a| + |b|) * Real.sqrt ((a / (|a| + |b|)) ^ 2 + (b / (|a| + |b|)) ^ 2)) else
        (|a| + |b|) * Real.sqrt ((a / (|a| + |b|)) ^ 2 + (b / (|a| + |b|)) ^ 2)) ^ 2 = a ^ 2 + b ^ 2 := by
      intro roe
      split
      · rw [neg_sq, hr0]
      · exact hr0
    have hr2 := hr (if |a| > |b| then a else b)
    generalize (if (if |a| > |b| then a else b) < 0 then -((|a| + |b|) * Real.sqrt ((a / (|a| + |b|)) ^ 2 + (b / (|a| + |b|)) ^ 2)) else
        (|a| + |b|) * Real.sqrt ((a / (|a| + |b|)) ^ 2 + (b / (|a| + |b|)) ^ 2)) = r at hr2
    have hpos : 0 < a ^ 2 + b ^ 2 := by
      rcases eq_or_ne a 0 with ha | ha
      · have hb : b ≠ 0 := by
          intro hb; apply h; rw [ha, hb]; simp
        positivity
      · positivity
    have hrne : r ≠ 0 := by
      intro h0; rw [h0] at hr2; norm_num at hr2; linarith
    refine ⟨?_, ?_, ?_, hr2⟩
    · field_simp; linarith
    · field_simp; ring
    · field_simp; linarith

/-- C35: a Givens rotation with the parameters from `drotg(a, b)` maps (a, b) to (r, 0) with r² = a² + b². -/
theorem C35_eliminates {E : Type} [NormedAddCommGroup E] [InnerProductSpace ℝ E] {A : Arith ℝ E} (hA : Exact A) (a b : ℝ) :
    rotAt A (drotg a b).2.1 (drotg a b).2.2 [a, b] 0 = [(drotg a b).1, 0] ∧ (drotg a b).1 ^ 2 = a ^ 2 + b ^ 2 := by
  obtain ⟨h1, h2, _, h4⟩ := drotg_spec a b
  refine ⟨?_, h4⟩
  simp [rotAt, hA.add, hA.sub, hA.mul, hA.zero, h1, h2]

/-- C35: it preserves the length of every pair. -/
theorem C35_isometry {E : Type} [NormedAddCommGroup E] [InnerProductSpace ℝ E] {A : Arith ℝ E} (hA : Exact A) (a b x y : ℝ) :
    ∃ x' y', rotAt A (drotg a b).2.1 (drotg a b).2.2 [x, y] 0 = [x', y'] ∧ x' ^ 2 + y' ^ 2 = x ^ 2 + y ^ 2 := by
  obtain ⟨_, _, h3, _⟩ := drotg_spec a b
  refine ⟨_, _, by simp only [rotAt, hA.add, hA.sub, hA.mul, List.getD_cons_zero, List.getD_cons_succ, List.set]; rfl, ?_⟩
  linear_combination (x ^ 2 + y ^ 2) * h3

/-- Back substitution by columns, as reference `DTRSV` does it for an upper triangular matrix. -/
noncomputable def backsolve : Nat → List (List ℝ) → List ℝ → List ℝ
  | 0, _, _ => []
  | n + 1, H, s =>
    let y := s.getD n 0 / (H.getD n []).getD n 0
    backsolve n H ((List.range n).map fun l => s.getD l 0 - y * (H.getD n []).getD l 0) ++ [y]

theorem backsolve_length (n : Nat) : ∀ H s, (backsolve n H s).length = n := by
  induction n with
  | zero => intro H s; rfl
  | succ n ih => intro H s; simp [backsolve, ih]

theorem backsolve_spec (n : Nat) : ∀ (H : List (List ℝ)) (s : List ℝ), (∀ j < n, (H.getD j []).getD j 0 ≠ 0) → ∀ l < n,
    ∑ j ∈ Finset.range n, (if l ≤ j then (H.getD j []).getD l 0 * (backsolve n H s).getD j 0 else 0) = s.getD l 0 := by
  induction n with
  | zero => intro H s _ l hl; omega
  | succ n ih =>
    intro H s hd l hl
    have hlast : (backsolve (n + 1) H s).getD n 0 = s.getD n 0 / (H.getD n []).getD n 0 := by
      simp only [backsolve]
      rw [getD_snoc_eq _ _ _ _ (backsolve_length n _ _).symm]
    have hold : ∀ j ∈ Finset.range n, (if l ≤ j then (H.getD j []).getD l 0 * (backsolve (n + 1) H s).getD j 0 else 0) =
        if l ≤ j then (H.getD j []).getD l 0 * (backsolve n H ((List.range n).map fun l =>
          s.getD l 0 - s.getD n 0 / (H.getD n []).getD n 0 * (H.getD n []).getD l 0)).getD j 0 else 0 := by
      intro j hj
      rw [Finset.mem_range] at hj
      simp only [backsolve]
      rw [getD_snoc_lt _ _ _ _ (by rw [backsolve_length]; exact hj)]
    rw [Finset.sum_range_succ, hlast, Finset.sum_congr rfl hold, if_pos (by omega)]
    by_cases hln : l < n
    · rw [ih H _ (fun j hj => hd j (by omega)) l hln]
      have : ((List.range n).map fun l => s.getD l 0 - s.getD n 0 / (H.getD n []).getD n 0 * (H.getD n []).getD l 0).getD l 0 =
          s.getD l 0 - s.getD n 0 / (H.getD n []).getD n 0 * (H.getD n []).getD l 0 := by
        rw [List.getD_eq_getElem?_getD, List.getElem?_map, List.getElem?_range hln]
        rfl
      rw [this]; ring
    · have hl' : l = n := by omega
      rw [Finset.sum_eq_zero, hl', zero_add, mul_div_cancel₀]
      · exact hd n (by omega)
      · intro j hj
        rw [Finset.mem_range] at hj
        rw [if_neg (by omega)]

/-- Exact arithmetic on a real inner product space. -/
noncomputable def realArith (E : Type) [NormedAddCommGroup E] [InnerProductSpace ℝ E] : Arith ℝ E where
  zero := 0
  one := 1
  add a b := a + b
  sub a b := a - b
  mul a b := a * b
  div a b := a / b
  abs a := |a|
  eq a b := decide (a = b)
  lt a b := decide (a < b)
  le a b := decide (a ≤ b)
  fin _ := true
  nrm v := ‖v‖
  dot v w := Inner.inner ℝ v w
  vadd v w := v + w
  vsub v w := v - w
  vscale a v := a • v
  nonzero v := decide (v ≠ 0)
  rotg := drotg
  trsv := backsolve
  comb n V y := ∑ j ∈ Finset.range n, y.getD j 0 • V.getD j 0
  stag _ _ _ := false

theorem realArith_exact (E : Type) [NormedAddCommGroup E] [InnerProductSpace ℝ E] : Exact (realArith E) := by
  refine ⟨rfl, rfl, fun _ _ => rfl, fun _ _ => rfl, fun _ _ => rfl, fun _ _ => rfl, fun _ => rfl, ?_, ?_, ?_, fun _ => rfl, fun _ => rfl,
    fun _ _ => rfl, fun _ _ => rfl, fun _ _ => rfl, fun _ _ => rfl, ?_, ?_, ?_, fun _ _ _ => rfl⟩
  · intro a b; simp [realArith]
  · intro a b; simp [realArith]
  · intro a b; simp [realArith]
  · intro v; simp [realArith]
  · intro a b
    obtain ⟨h1, h2, h3, _⟩ := drotg_spec a b
    exact ⟨h1, h2, h3⟩
  · intro n H s hd l hl
    exact backsolve_spec n H s hd l hl

/-! ### A concrete problem: multiplication by i on the plane, the classical case where restarted GMRES(1) stagnates -/

/-- Rotation of the plane by a right angle. -/
noncomputable def rot90 : ℂ →ₗ[ℝ] ℂ := LinearMap.mulLeft ℝ Complex.I

noncomputable def exRealP : Params ℝ :=
  { testTrue := true, kspaceSz := 2, maxits := 1, relTol := 1 / 1000, absTol := 1 / 1000, divTol := 10, stgTol := 0 }

theorem exRealP_valid : Valid exRealP := by constructor <;> norm_num [exRealP]

theorem rot90_inj : Function.Injective (rot90 ∘ₗ (LinearMap.id : ℂ →ₗ[ℝ] ℂ)) := by
  intro x y h
  have h' : Complex.I * x = Complex.I * y := h
  exact mul_left_cancel₀ Complex.I_ne_zero h'

/-- `C64_full_gmres_succeeds` applies: with a Krylov space of size 2 the solver finds the solution from any guess. -/
example (b x0 : ℂ) : ∃ o, (solve (realArith ℂ) (fun (s : Unit) v _ => (true, rot90 v, s)) (fun s v _ => (true, v, s)) 2 0 0 (fun _ _ => 0)
    exRealP b x0 ⟨(), []⟩).out = some o ∧ o.flag = .success := by
  obtain ⟨o, h1, h2, _⟩ := C64_full_gmres_succeeds (realArith_exact ℂ) (mv := fun (s : Unit) v _ => (true, rot90 v, s))
    (pc := fun s v _ => (true, v, s)) (L := rot90) (P := LinearMap.id) (fun _ _ _ => ⟨rfl, rfl⟩) (fun _ _ _ => ⟨rfl, rfl⟩) 2 0 0
    (fun _ _ => 0) exRealP b x0 () exRealP_valid (by rw [Complex.finrank_real_complex]) (by norm_num [exRealP]) (by norm_num [exRealP])
    rot90_inj _ rfl
  exact ⟨o, h1, h2⟩

/-- A run of the inner loop that satisfies `C33_tested_residual` and `C34_cycle_minimal`: one or more iterations from b = 1, x = 0. -/
example : (1 : ℂ) - rot90 0 ≠ 0 := by simp

end Blitzdg.Gmres
