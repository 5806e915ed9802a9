import Verif.Time.Doubles
import Verif.Time.FloatExact
import Verif.Time.TwoStep

/-!
Property C158: the Runge-Kutta coefficients as doubles.  They are the doubles nearest to the quotients in the source, Python receives the same five numbers, and the scheme with these coefficients is a Runge-Kutta scheme which satisfies the
conditions for order four up to `10⁻¹⁶` and is stable on dissipative linear systems.
-/

namespace Blitzdg.Time

open Finset

/-- Specification: the numbers a double can hold, apart from infinities: at most 53 binary digits and a bounded exponent. -/
def IsDouble (x : ℚ) : Prop := ∃ m e : ℤ, |m| < 2 ^ 53 ∧ -1074 ≤ e ∧ e ≤ 971 ∧ x = m * 2 ^ e

/-- Specification: `d` is the only double closest to `x`. -/
def NearestDouble (x d : ℚ) : Prop := IsDouble d ∧ ∀ d', IsDouble d' → d' ≠ d → |x - d| < |x - d'|

/-- A double with a full set of digits is at least one unit of its last digit away from all others. -/
theorem double_gap {m e : ℤ} (hm : 2 ^ 52 < |m|) {d : ℚ} (hd : IsDouble d) (hne : d ≠ m * 2 ^ e) : (2 : ℚ) ^ e ≤ |d - m * 2 ^ e| := by
  obtain ⟨m', e', h1, -, -, rfl⟩ := hd
  have he : (0 : ℚ) < 2 ^ e := zpow_pos (by norm_num) _
  rcases le_or_gt e e' with h | h
  · obtain ⟨k, rfl⟩ := Int.le.dest h
    have e1 : (m' : ℚ) * 2 ^ (e + k : ℤ) = ((m' * 2 ^ k : ℤ) : ℚ) * 2 ^ e := by
      rw [zpow_add₀ (by norm_num)]
      push_cast
      rw [zpow_natCast]
      ring
    rw [e1] at hne ⊢
    have hz : m' * 2 ^ k - m ≠ 0 := fun hz => hne (by rw [show m' * 2 ^ k = m by omega])
    have h2 : (1 : ℚ) ≤ |((m' * 2 ^ k - m : ℤ) : ℚ)| := by exact_mod_cast Int.one_le_abs hz
    rw [← sub_mul, abs_mul, abs_of_pos he]
    push_cast at h2 ⊢
    nlinarith
  · have h2 : (2 : ℚ) ^ e' * 2 ≤ 2 ^ e := by
      rw [← zpow_add_one₀ (by norm_num)]
      exact zpow_le_zpow_right₀ (by norm_num) (by omega)
    have he' : (0 : ℚ) < 2 ^ e' := zpow_pos (by norm_num) _
    have h3 : |(m' : ℚ)| < 2 ^ 53 := by exact_mod_cast h1
    have h4 : (2 : ℚ) ^ 52 + 1 ≤ |(m : ℚ)| := by exact_mod_cast hm
    have h5 := abs_sub_abs_le_abs_sub ((m : ℚ) * 2 ^ e) ((m' : ℚ) * 2 ^ e')
    rw [abs_mul, abs_mul, abs_of_pos he, abs_of_pos he', abs_sub_comm] at h5
    have h6 : |(m' : ℚ)| * 2 ^ e' ≤ 2 ^ 53 * 2 ^ e' := mul_le_mul_of_nonneg_right h3.le he'.le
    have h7 : ((2 : ℚ) ^ 52 + 1) * 2 ^ e ≤ |(m : ℚ)| * 2 ^ e := mul_le_mul_of_nonneg_right h4 he.le
    refine le_trans ?_ h5
    nlinarith

theorem nearest_of {x : ℚ} {m e : ℤ} (hm : 2 ^ 52 < |m|) (hm' : |m| < 2 ^ 53) (he : -1074 ≤ e) (he' : e ≤ 971) (hx : |x - m * 2 ^ e| < 2 ^ e / 2) : NearestDouble x (m * 2 ^ e) := by
  refine ⟨⟨m, e, hm', he, he', rfl⟩, fun d hd hne => ?_⟩
  have h1 := double_gap hm hd hne
  have h2 := abs_sub_le d x (m * 2 ^ e)
  rw [abs_sub_comm d x] at h2
  linarith

theorem aD : rk4aD = [0, ((-7528045540956852 : ℤ) : ℚ) * 2 ^ (-54 : ℤ), ((-5368973927761865 : ℤ) : ℚ) * 2 ^ (-52 : ℤ), ((-7646142508370105 : ℤ) : ℚ) * 2 ^ (-52 : ℤ), ((-6819275995327101 : ℤ) : ℚ) * 2 ^ (-52 : ℤ)] := by
  decide +kernel

theorem bD : rk4bD = [((5392034525666889 : ℤ) : ℚ) * 2 ^ (-55 : ℤ), ((6831245697280682 : ℤ) : ℚ) * 2 ^ (-54 : ℤ), ((7412519927379773 : ℤ) : ℚ) * 2 ^ (-53 : ℤ), ((6300089625553180 : ℤ) : ℚ) * 2 ^ (-53 : ℤ), ((5514468519325783 : ℤ) : ℚ) * 2 ^ (-55 : ℤ)] := by
  decide +kernel

theorem nearest_zero : NearestDouble 0 0 := by
  refine ⟨⟨0, 0, by norm_num, by norm_num, by norm_num, by simp⟩, fun d _ hd => ?_⟩
  simpa using hd

/-- **C158: the coefficients the program holds are the doubles nearest to the quotients written in the source.** -/
theorem C158_nearest : List.Forall₂ NearestDouble
      [0, -567301805773 / 1357537059087, -2404267990393 / 2016746695238, -3550918686646 / 2091501179385, -1275806237668 / 842570457699] rk4aD ∧
    List.Forall₂ NearestDouble
      [1432997174477 / 9575080441755, 5161836677717 / 13612068292357, 1720146321549 / 2090206949498, 3134564353537 / 4481467310338, 2277821191437 / 14882151754819] rk4bD := by
  rw [aD, bD]
  refine ⟨.cons nearest_zero (.cons ?_ (.cons ?_ (.cons ?_ (.cons ?_ .nil)))), .cons ?_ (.cons ?_ (.cons ?_ (.cons ?_ (.cons ?_ .nil))))⟩
  all_goals refine nearest_of ?_ ?_ ?_ ?_ ?_ <;> decide +kernel

/-- **C158: Python receives the same five numbers**, in the same order. -/
theorem C158_python : wrapper rk4aD = some rk4aD ∧ wrapper rk4bD = some rk4bD := by
  decide +kernel

/-- Weight of the slope of stage `j` in the solution after stage `i`, for coefficients `a` and `b`. -/
def weightOf (a b : List ℚ) (j i : ℕ) : ℚ := ((List.range' j (i + 1 - j)).map fun m => b.getD m 0 * ((List.range' (j + 1) (m - j)).map fun l => a.getD l 0).prod).sum

def tabAD (i j : Fin 5) : ℚ := if j < i then weightOf rk4aD rk4bD j (i - 1) else 0
def tabBD (j : Fin 5) : ℚ := weightOf rk4aD rk4bD j 4
def tabCD (i : Fin 5) : ℚ := ∑ j, tabAD i j

theorem tab_orderD : OrderFour 5 (fun i j => (tabAD i j : ℝ)) (fun i => (tabBD i : ℝ)) (fun i => (tabCD i : ℝ)) (1 / 10 ^ 16) := by
  have key : ∀ q : ℚ, |q| ≤ 1 / 10 ^ 16 → |(q : ℝ)| ≤ 1 / 10 ^ 16 := fun q h => by
    have := (Rat.cast_le (K := ℝ)).2 h
    push_cast at this
    exact this
  constructor
  · intro i; simp [tabCD]
  · simpa using key (∑ i, tabBD i - 1) (by decide +kernel)
  · simpa using key (∑ i, tabBD i * tabCD i - 1 / 2) (by decide +kernel)
  · simpa using key (∑ i, tabBD i * tabCD i ^ (2 : ℕ) - 1 / 3) (by decide +kernel)
  · simpa using key (∑ i, ∑ j, tabBD i * tabAD i j * tabCD j - 1 / 6) (by decide +kernel)
  · simpa using key (∑ i, tabBD i * tabCD i ^ (3 : ℕ) - 1 / 4) (by decide +kernel)
  · simpa using key (∑ i, ∑ j, tabBD i * tabCD i * tabAD i j * tabCD j - 1 / 8) (by decide +kernel)
  · simpa using key (∑ i, ∑ j, tabBD i * tabAD i j * tabCD j ^ (2 : ℕ) - 1 / 12) (by decide +kernel)
  · simpa using key (∑ i, ∑ j, ∑ k, tabBD i * tabAD i j * tabAD j k * tabCD k - 1 / 24) (by decide +kernel)

theorem tab_entriesD : tabAD 1 0 = rk4bD.getD 0 0 ∧
    tabAD 2 0 = rk4bD.getD 0 0 + rk4bD.getD 1 0 * rk4aD.getD 1 0 ∧
    tabAD 2 1 = rk4bD.getD 1 0 ∧
    tabAD 3 0 = rk4bD.getD 0 0 + rk4bD.getD 1 0 * rk4aD.getD 1 0 + rk4bD.getD 2 0 * rk4aD.getD 1 0 * rk4aD.getD 2 0 ∧
    tabAD 3 1 = rk4bD.getD 1 0 + rk4bD.getD 2 0 * rk4aD.getD 2 0 ∧
    tabAD 3 2 = rk4bD.getD 2 0 ∧
    tabAD 4 0 = rk4bD.getD 0 0 + rk4bD.getD 1 0 * rk4aD.getD 1 0 + rk4bD.getD 2 0 * rk4aD.getD 1 0 * rk4aD.getD 2 0 + rk4bD.getD 3 0 * rk4aD.getD 1 0 * rk4aD.getD 2 0 * rk4aD.getD 3 0 ∧
    tabAD 4 1 = rk4bD.getD 1 0 + rk4bD.getD 2 0 * rk4aD.getD 2 0 + rk4bD.getD 3 0 * rk4aD.getD 2 0 * rk4aD.getD 3 0 ∧
    tabAD 4 2 = rk4bD.getD 2 0 + rk4bD.getD 3 0 * rk4aD.getD 3 0 ∧
    tabAD 4 3 = rk4bD.getD 3 0 ∧
    tabBD 0 = rk4bD.getD 0 0 + rk4bD.getD 1 0 * rk4aD.getD 1 0 + rk4bD.getD 2 0 * rk4aD.getD 1 0 * rk4aD.getD 2 0 + rk4bD.getD 3 0 * rk4aD.getD 1 0 * rk4aD.getD 2 0 * rk4aD.getD 3 0 + rk4bD.getD 4 0 * rk4aD.getD 1 0 * rk4aD.getD 2 0 * rk4aD.getD 3 0 * rk4aD.getD 4 0 ∧
    tabBD 1 = rk4bD.getD 1 0 + rk4bD.getD 2 0 * rk4aD.getD 2 0 + rk4bD.getD 3 0 * rk4aD.getD 2 0 * rk4aD.getD 3 0 + rk4bD.getD 4 0 * rk4aD.getD 2 0 * rk4aD.getD 3 0 * rk4aD.getD 4 0 ∧
    tabBD 2 = rk4bD.getD 2 0 + rk4bD.getD 3 0 * rk4aD.getD 3 0 + rk4bD.getD 4 0 * rk4aD.getD 3 0 * rk4aD.getD 4 0 ∧
    tabBD 3 = rk4bD.getD 3 0 + rk4bD.getD 4 0 * rk4aD.getD 4 0 ∧
    tabBD 4 = rk4bD.getD 4 0 := by
  decide +kernel

/-- The state after each stage in terms of the slopes. -/
theorem step_slopesD {E : Type*} [AddCommGroup E] [Module ℝ E] (f : E → E) (dt : ℝ) (u res : E) : ∃ k0 k1 k2 k3 k4 : E,
    k0 = f u ∧ k1 = f (u + dt • ((tabAD 1 0 : ℝ) • k0)) ∧ k2 = f (u + dt • ((tabAD 2 0 : ℝ) • k0 + (tabAD 2 1 : ℝ) • k1)) ∧
    k3 = f (u + dt • ((tabAD 3 0 : ℝ) • k0 + (tabAD 3 1 : ℝ) • k1 + (tabAD 3 2 : ℝ) • k2)) ∧
    k4 = f (u + dt • ((tabAD 4 0 : ℝ) • k0 + (tabAD 4 1 : ℝ) • k1 + (tabAD 4 2 : ℝ) • k2 + (tabAD 4 3 : ℝ) • k3)) ∧
    (stepD f dt (u, res)).1 = u + dt • ((tabBD 0 : ℝ) • k0 + (tabBD 1 : ℝ) • k1 + (tabBD 2 : ℝ) • k2 + (tabBD 3 : ℝ) • k3 + (tabBD 4 : ℝ) • k4) := by
  have h0 : rk4aD.getD 0 0 = 0 := by rw [aD]; rfl
  obtain ⟨e0, e1, e2, e3, e4, e5, e6, e7, e8, e9, e10, e11, e12, e13, e14⟩ := tab_entriesD
  refine ⟨f u, f ((List.range 1).foldl (stageWith rk4aD rk4bD f dt) (u, res)).1, f ((List.range 2).foldl (stageWith rk4aD rk4bD f dt) (u, res)).1,
    f ((List.range 3).foldl (stageWith rk4aD rk4bD f dt) (u, res)).1, f ((List.range 4).foldl (stageWith rk4aD rk4bD f dt) (u, res)).1, ?_⟩
  rw [e0, e1, e2, e3, e4, e5, e6, e7, e8, e9, e10, e11, e12, e13, e14]
  simp only [stepD, stepWith, numStages, show List.range 5 = [0, 1, 2, 3, 4] from rfl, show List.range 4 = [0, 1, 2, 3] from rfl, show List.range 3 = [0, 1, 2] from rfl,
    show List.range 2 = [0, 1] from rfl, show List.range 1 = [0] from rfl, List.foldl_cons, List.foldl_nil, stageWith, h0]
  generalize rk4aD.getD 1 0 = a1
  generalize rk4aD.getD 2 0 = a2
  generalize rk4aD.getD 3 0 = a3
  generalize rk4aD.getD 4 0 = a4
  generalize rk4bD.getD 0 0 = b0
  generalize rk4bD.getD 1 0 = b1
  generalize rk4bD.getD 2 0 = b2
  generalize rk4bD.getD 3 0 = b3
  generalize rk4bD.getD 4 0 = b4
  push_cast
  rw [zero_smul, zero_add]
  generalize f u = k0
  refine ⟨trivial, ?_, ?_, ?_, ?_, ?_⟩
  · congr 1; module
  all_goals generalize f (u + (b0 : ℝ) • dt • k0) = k1
  · congr 1; module
  all_goals generalize f (u + (b0 : ℝ) • dt • k0 + (b1 : ℝ) • ((a1 : ℝ) • dt • k0 + dt • k1)) = k2
  · congr 1; module
  all_goals generalize f (u + (b0 : ℝ) • dt • k0 + (b1 : ℝ) • ((a1 : ℝ) • dt • k0 + dt • k1) + (b2 : ℝ) • ((a2 : ℝ) • ((a1 : ℝ) • dt • k0 + dt • k1) + dt • k2)) = k3
  · congr 1; module
  · module

/-- **C158: with the coefficients the program holds, a step is a step of an explicit five-stage Runge-Kutta scheme** which satisfies the conditions for order four up to `10⁻¹⁶`. -/
theorem C158_order.{u} : ∃ (A : Fin 5 → Fin 5 → ℝ) (b c : Fin 5 → ℝ), OrderFour 5 A b c (1 / 10 ^ 16) ∧ (∀ i j, i ≤ j → A i j = 0) ∧
    ∀ {E : Type u} [AddCommGroup E] [Module ℝ E] (f : E → E) (dt : ℝ) (u res : E), IsRKStep 5 A b f dt u (stepD f dt (u, res)).1 := by
  refine ⟨_, _, _, tab_orderD, fun i j h => by simp [tabAD, not_lt.2 h], fun f dt u res => ?_⟩
  obtain ⟨k0, k1, k2, k3, k4, h0, h1, h2, h3, h4, h⟩ := step_slopesD f dt u res
  refine ⟨![k0, k1, k2, k3, k4], ?_, ?_⟩
  · intro i
    fin_cases i
    · simpa using h0
    · simpa [Finset.sum_filter, Fin.sum_univ_succ, Fin.lt_def] using h1
    · simpa [Finset.sum_filter, Fin.sum_univ_succ, Fin.lt_def, add_assoc] using h2
    · simpa [Finset.sum_filter, Fin.sum_univ_succ, Fin.lt_def, add_assoc] using h3
    · simpa [Finset.sum_filter, Fin.sum_univ_succ, Fin.lt_def, add_assoc] using h4
  · rw [h]
    simp [Fin.sum_univ_succ, add_assoc]

/-- **C158, negative part: the rounded scheme is not exact for `u' = 1`.**  Every step advances by a little more than the step size, by the same factor each time. -/
theorem C158_defect : ∃ δ : ℝ, 1 / 10 ^ 17 < δ ∧ δ < 11 / 10 ^ 18 ∧ ∀ (dt u res : ℝ), (stepD (fun _ => 1) dt (u, res)).1 = u + dt * (1 + δ) := by
  refine ⟨((∑ i, tabBD i - 1 : ℚ) : ℝ), ?_, ?_, fun dt u res => ?_⟩
  · have h : (1 / 10 ^ 17 : ℚ) < ∑ i, tabBD i - 1 := by decide +kernel
    have := (Rat.cast_lt (K := ℝ)).2 h
    push_cast at this ⊢
    exact this
  · have h : ∑ i, tabBD i - 1 < (11 / 10 ^ 18 : ℚ) := by decide +kernel
    have := (Rat.cast_lt (K := ℝ)).2 h
    push_cast at this ⊢
    exact this
  · obtain ⟨k0, k1, k2, k3, k4, h0, h1, h2, h3, h4, h⟩ := step_slopesD (fun _ => (1 : ℝ)) dt u res
    rw [h, h0, h1, h2, h3, h4]
    rw [show ∑ i, tabBD i = tabBD 0 + tabBD 1 + tabBD 2 + tabBD 3 + tabBD 4 from Fin.sum_univ_five _]
    simp only [smul_eq_mul]
    push_cast
    ring

/-- The coefficients of the stability polynomial of the scheme with the rounded coefficients. -/
def stabD : List ℚ :=
  [1, ∑ i, tabBD i, ∑ i, tabBD i * tabCD i, ∑ i, ∑ j, tabBD i * tabAD i j * tabCD j, ∑ i, ∑ j, ∑ k, tabBD i * tabAD i j * tabAD j k * tabCD k, tabBD 4 * tabAD 4 3 * tabAD 3 2 * tabAD 2 1 * tabAD 1 0]

theorem stab_entriesD : stabD.getD 0 0 = 1 ∧ stabD.getD 1 0 = tabBD 0 + tabBD 1 + tabBD 2 + tabBD 3 + tabBD 4 ∧
    stabD.getD 2 0 = tabBD 1 * tabAD 1 0 + tabBD 2 * (tabAD 2 0 + tabAD 2 1) + tabBD 3 * (tabAD 3 0 + tabAD 3 1 + tabAD 3 2) + tabBD 4 * (tabAD 4 0 + tabAD 4 1 + tabAD 4 2 + tabAD 4 3) ∧
    stabD.getD 3 0 = tabBD 2 * (tabAD 2 1 * tabAD 1 0) + tabBD 3 * (tabAD 3 1 * tabAD 1 0 + tabAD 3 2 * (tabAD 2 0 + tabAD 2 1)) +
      tabBD 4 * (tabAD 4 1 * tabAD 1 0 + tabAD 4 2 * (tabAD 2 0 + tabAD 2 1) + tabAD 4 3 * (tabAD 3 0 + tabAD 3 1 + tabAD 3 2)) ∧
    stabD.getD 4 0 = tabBD 3 * (tabAD 3 2 * tabAD 2 1 * tabAD 1 0) + tabBD 4 * (tabAD 4 2 * tabAD 2 1 * tabAD 1 0 + tabAD 4 3 * (tabAD 3 1 * tabAD 1 0 + tabAD 3 2 * (tabAD 2 0 + tabAD 2 1))) ∧
    stabD.getD 5 0 = tabBD 4 * tabAD 4 3 * tabAD 3 2 * tabAD 2 1 * tabAD 1 0 := by
  decide +kernel

variable {E : Type*} [NormedAddCommGroup E] [InnerProductSpace ℝ E]

open scoped RealInnerProductSpace

omit [InnerProductSpace ℝ E] in
/-- One step of the scheme for a linear right-hand side. -/
theorem step_linearD [NormedSpace ℝ E] (A : E →L[ℝ] E) (dt : ℝ) (u res : E) : (stepD A dt (u, res)).1 = ∑ k ∈ Finset.range 6, (((stabD.getD k 0 : ℚ) : ℝ) * dt ^ k) • (A ^ k) u := by
  obtain ⟨k0, k1, k2, k3, k4, h0, h1, h2, h3, h4, h⟩ := step_slopesD A dt u res
  rw [h, h4, h3, h2, h1, h0]
  obtain ⟨e0, e1, e2, e3, e4, e5⟩ := stab_entriesD
  have p1 : ∀ v, (A ^ 1) v = A v := fun v => by simp
  have p2 : ∀ v, (A ^ 2) v = A (A v) := fun v => by rw [pow_succ', ← p1 v]; rfl
  have p3 : ∀ v, (A ^ 3) v = A (A (A v)) := fun v => by rw [pow_succ', ← p2 v]; rfl
  have p4 : ∀ v, (A ^ 4) v = A (A (A (A v))) := fun v => by rw [pow_succ', ← p3 v]; rfl
  have p5 : ∀ v, (A ^ 5) v = A (A (A (A (A v)))) := fun v => by rw [pow_succ', ← p4 v]; rfl
  simp only [Finset.sum_range_succ, Finset.sum_range_zero, e0, e1, e2, e3, e4, e5, map_add, map_smul, pow_zero, p1, p2, p3, p4, p5, zero_add, one_apply_eq_self]
  push_cast
  generalize A (A (A (A (A u)))) = v5
  generalize A (A (A (A u))) = v4
  generalize A (A (A u)) = v3
  generalize A (A u) = v2
  generalize A u = v1
  module

/-- The coefficients in the code are the ideal ones up to rounding. -/
theorem stab_idealD : ∀ k < 6, |((stabD.getD k 0 : ℚ) : ℝ) - ([1, 1, 1 / 2, 1 / 6, 1 / 24, 1 / 200] : List ℝ).getD k 0| ≤ 1 / 10 ^ 16 := by
  intro k hk
  have h : ∀ k < 6, |stabD.getD k 0 - ([1, 1, 1 / 2, 1 / 6, 1 / 24, 1 / 200] : List ℚ).getD k 0| ≤ 1 / 10 ^ 16 := by decide +kernel
  have := (Rat.cast_le (K := ℝ)).2 (h k hk)
  push_cast at this
  refine le_trans (le_of_eq ?_) this
  congr 2
  interval_cases k <;> norm_num

theorem step_idealD {A : E →L[ℝ] E} {dt : ℝ} (hdt : 0 ≤ dt) (hs : dt * ‖A‖ ≤ 2 / 5) (u res : E) : ‖(stepD A dt (u, res)).1 - ideal (dt • A) u‖ ≤ 1 / (5 * 10 ^ 15) * ‖u‖ := by
  have hT : ‖dt • A‖ ≤ 2 / 5 := by rw [norm_smul, Real.norm_eq_abs, abs_of_nonneg hdt]; exact hs
  have e : (stepD A dt (u, res)).1 - ideal (dt • A) u = ∑ k ∈ Finset.range 6, (((stabD.getD k 0 : ℚ) : ℝ) - ([1, 1, 1 / 2, 1 / 6, 1 / 24, 1 / 200] : List ℝ).getD k 0) • ((dt • A) ^ k) u := by
    rw [step_linearD]
    unfold ideal combo
    rw [show ([1, 1, 1 / 2, 1 / 6, 1 / 24, 1 / 200] : List ℝ).length = 6 from rfl, ← Finset.sum_sub_distrib]
    refine Finset.sum_congr rfl fun k _ => ?_
    rw [sub_smul, combo_smul_pow, smul_smul, smul_smul]
  rw [e]
  refine le_trans (norm_sum_le_of_le (n := fun k => 1 / 10 ^ 16 * ((2 / 5) ^ k * ‖u‖)) _ fun k hk => ?_) ?_
  · rw [norm_smul, Real.norm_eq_abs]
    exact mul_le_mul (stab_idealD k (Finset.mem_range.1 hk)) (pow_small hT u k) (norm_nonneg _) (by norm_num)
  · simp only [Finset.sum_range_succ, Finset.sum_range_zero]
    have := norm_nonneg u
    norm_num
    nlinarith

/-- One step. -/
theorem step_oneD {A : E →L[ℝ] E} {dt : ℝ} (hdt : 0 ≤ dt) (hs : dt * ‖A‖ ≤ 2 / 5) (u res : E) : ‖(stepD A dt (u, res)).1‖ ≤ 3 / 2 * ‖u‖ := by
  have hT : ‖dt • A‖ ≤ 2 / 5 := by rw [norm_smul, Real.norm_eq_abs, abs_of_nonneg hdt]; exact hs
  have h1 := step_idealD hdt hs u res
  have h2 := ideal_one hT u
  have h3 := norm_le_norm_add_norm_sub' (stepD A dt (u, res)).1 (ideal (dt • A) u)
  have := norm_nonneg u
  norm_num at h1 h2
  linarith

/-- **Two steps of the scheme**, with any contents of the register before each. -/
theorem step_twoD {A : E →L[ℝ] E} (hA : Dissipative A) {dt : ℝ} (hdt : 0 ≤ dt) (hs : dt * ‖A‖ ≤ 2 / 5) (u res res' : E) : ‖(stepD A dt ((stepD A dt (u, res)).1, res')).1‖ ≤ (1 + 1 / 10 ^ 15) * ‖u‖ := by
  have hT : ‖dt • A‖ ≤ 2 / 5 := by rw [norm_smul, Real.norm_eq_abs, abs_of_nonneg hdt]; exact hs
  have hD : Dissipative (dt • A) := fun v => by
    rw [smul_apply, real_inner_smul_right]
    exact mul_nonpos_of_nonneg_of_nonpos hdt (hA v)
  obtain ⟨v, hv⟩ : ∃ v, v = (stepD A dt (u, res)).1 := ⟨_, rfl⟩
  rw [← hv]
  have h1 := step_idealD hdt hs u res
  rw [← hv] at h1
  have h2 := step_idealD hdt hs v res'
  have h3 := ideal_stable hD hT u
  have h4 : ideal (dt • A) v = ideal (dt • A) (ideal (dt • A) u) + ideal (dt • A) (v - ideal (dt • A) u) := by
    unfold ideal combo
    rw [← Finset.sum_add_distrib]
    refine Finset.sum_congr rfl fun k _ => ?_
    rw [← smul_add, ← map_add]
    congr 2
    abel
  have h5 := ideal_one hT (v - ideal (dt • A) u)
  have h6 := step_oneD hdt hs u res
  rw [← hv] at h6
  have h7 := norm_le_norm_add_norm_sub' (stepD A dt (v, res')).1 (ideal (dt • A) v)
  have h8 : ‖ideal (dt • A) v‖ ≤ ‖u‖ + 1.492 * ‖v - ideal (dt • A) u‖ := by
    rw [h4]
    exact le_trans (norm_add_le _ _) (add_le_add h3 h5)
  have := norm_nonneg u
  norm_num at h1 h2 h8 ⊢
  linarith

/-- **The scheme is stable.**  Any number of steps, with any contents of the register before each: apart from the rounding of the coefficients the norm never exceeds 3/2 of the norm at the start. -/
theorem scheme_stableD {A : E →L[ℝ] E} (hA : Dissipative A) {dt : ℝ} (hdt : 0 ≤ dt) (hs : dt * ‖A‖ ≤ 2 / 5) (u : ℕ → E) (n : ℕ) (hu : ∀ k < n, ∃ res, u (k + 1) = (stepD A dt (u k, res)).1) :
    ‖u n‖ ≤ 3 / 2 * (1 + 1 / 10 ^ 15) ^ n * ‖u 0‖ := by
  have even : ∀ m, 2 * m ≤ n → ‖u (2 * m)‖ ≤ (1 + 1 / 10 ^ 15) ^ m * ‖u 0‖ := by
    intro m
    induction m with
    | zero => intro _; simp
    | succ m ih =>
      intro hm
      obtain ⟨r1, e1⟩ := hu (2 * m) (by omega)
      obtain ⟨r2, e2⟩ := hu (2 * m + 1) (by omega)
      rw [show 2 * (m + 1) = 2 * m + 1 + 1 by ring, e2, e1]
      refine le_trans (step_twoD hA hdt hs _ _ _) ?_
      rw [pow_succ]
      calc _ ≤ (1 + 1 / 10 ^ 15) * ((1 + 1 / 10 ^ 15) ^ m * ‖u 0‖) := mul_le_mul_of_nonneg_left (ih (by omega)) (by norm_num)
        _ = _ := by ring
  have hmono : ∀ m k : ℕ, m ≤ k → (1 + 1 / 10 ^ 15 : ℝ) ^ m ≤ (1 + 1 / 10 ^ 15) ^ k := fun m k h => pow_le_pow_right₀ (by norm_num) h
  have h0 := norm_nonneg (u 0)
  rcases Nat.even_or_odd' n with ⟨m, rfl | rfl⟩
  · refine le_trans (even m le_rfl) (mul_le_mul_of_nonneg_right ?_ h0)
    have := hmono m (2 * m) (by omega)
    have : (0 : ℝ) < (1 + 1 / 10 ^ 15) ^ (2 * m) := by positivity
    linarith
  · obtain ⟨r, e⟩ := hu (2 * m) (by omega)
    rw [e]
    refine le_trans (step_oneD hdt hs _ _) ?_
    have h1 := even m (by omega)
    have h2 := mul_le_mul_of_nonneg_right (hmono m (2 * m + 1) (by omega)) h0
    linarith

theorem tab_small : ∀ i j, |tabAD i j - tabA i j| ≤ 1 / 10 ^ 16 := by decide +kernel

theorem tabB_small : ∀ i, |tabBD i - tabB i| ≤ 1 / 10 ^ 16 := by decide +kernel

theorem tab_sizes : |tabA 1 0| ≤ 15 / 100 ∧ |tabA 2 0| ≤ 1 / 100 ∧ |tabA 2 1| ≤ 38 / 100 ∧ |tabA 3 0| ≤ 41 / 100 ∧ |tabA 3 1| ≤ 61 / 100 ∧ |tabA 3 2| ≤ 83 / 100 ∧ |tabA 4 0| ≤ 20 / 100 ∧ |tabA 4 1| ≤ 82 / 100 ∧ |tabA 4 2| ≤ 37 / 100 ∧ |tabA 4 3| ≤ 70 / 100 := by
  decide +kernel

theorem tab_sizesD : |tabAD 1 0| ≤ 15 / 100 ∧ |tabAD 2 0| ≤ 1 / 100 ∧ |tabAD 2 1| ≤ 38 / 100 ∧ |tabAD 3 0| ≤ 41 / 100 ∧ |tabAD 3 1| ≤ 61 / 100 ∧ |tabAD 3 2| ≤ 83 / 100 ∧ |tabAD 4 0| ≤ 20 / 100 ∧ |tabAD 4 1| ≤ 82 / 100 ∧ |tabAD 4 2| ≤ 37 / 100 ∧ |tabAD 4 3| ≤ 70 / 100 := by
  decide +kernel

theorem tabB_sizesD : |tabBD 0| ≤ 1 / 100 ∧ |tabBD 1| ≤ 35 / 100 ∧ |tabBD 2| ≤ 3 / 100 ∧ |tabBD 3| ≤ 47 / 100 ∧ |tabBD 4| ≤ 16 / 100 := by
  decide +kernel

theorem cast_abs_le {x y : ℚ} (h : |x| ≤ y) : |(x : ℝ)| ≤ (y : ℝ) := by
  have := (Rat.cast_le (K := ℝ)).2 h
  push_cast at this
  exact this

theorem smul_le {V : Type*} [NormedAddCommGroup V] [NormedSpace ℝ V] {x y : ℚ} (h : |x| ≤ y) (v : V) : ‖(x : ℝ) • v‖ ≤ y * ‖v‖ := by
  rw [norm_smul, Real.norm_eq_abs]
  exact mul_le_mul_of_nonneg_right (cast_abs_le h) (norm_nonneg _)

/-- The difference of two products, the coefficients and the vectors being close. -/
theorem smul_diff {V : Type*} [NormedAddCommGroup V] [NormedSpace ℝ V] {x x' y : ℚ} (h : |x' - x| ≤ 1 / 10 ^ 16) (h' : |x'| ≤ y) (v v' : V) : ‖(x' : ℝ) • v' - (x : ℝ) • v‖ ≤ 1 / 10 ^ 16 * ‖v‖ + y * ‖v' - v‖ := by
  have e : (x' : ℝ) • v' - (x : ℝ) • v = ((x' - x : ℚ) : ℝ) • v + (x' : ℝ) • (v' - v) := by
    push_cast
    module
  rw [e]
  refine le_trans (norm_add_le _ _) (add_le_add (le_trans (smul_le h v) (le_of_eq ?_)) (smul_le h' _))
  push_cast
  rfl

/-- **C158: the rounding of the coefficients is harmless.**  For every right-hand side with Lipschitz constant `L`, every state and every step size up to `1 / L`, the step with the rounded coefficients differs from the step with the quotients
in the source by at most `2·10⁻¹⁵` of the distance `dt ‖f u‖` an Euler step would cover. -/
theorem C158_close {V : Type*} [NormedAddCommGroup V] [NormedSpace ℝ V] (f : V → V) (L : ℝ) (hL : ∀ u v, ‖f u - f v‖ ≤ L * ‖u - v‖) (dt : ℝ) (hdt : 0 ≤ dt) (hs : L * dt ≤ 1) (u res res' : V) :
    ‖(stepD f dt (u, res)).1 - (step f dt (u, res')).1‖ ≤ 2 / 10 ^ 15 * (dt * ‖f u‖) := by
  have lip : ∀ w w' : V, ‖f (u + dt • w) - f (u + dt • w')‖ ≤ ‖w - w'‖ := fun w w' => by
    refine le_trans (hL _ _) ?_
    rw [add_sub_add_left_eq_sub, ← smul_sub, norm_smul, Real.norm_eq_abs, abs_of_nonneg hdt, ← mul_assoc]
    exact mul_le_of_le_one_left (norm_nonneg _) hs
  have lip0 : ∀ w : V, ‖f (u + dt • w)‖ ≤ ‖f u‖ + ‖w‖ := fun w => by
    have h := lip w 0
    rw [smul_zero, add_zero, sub_zero] at h
    have := norm_le_norm_add_norm_sub' (f (u + dt • w)) (f u)
    linarith
  obtain ⟨k0, k1, k2, k3, k4, h0, h1, h2, h3, h4, h⟩ := step_slopes f dt u res'
  obtain ⟨l0, l1, l2, l3, l4, g0, g1, g2, g3, g4, g⟩ := step_slopesD f dt u res
  obtain ⟨s10, s20, s21, s30, s31, s32, s40, s41, s42, s43⟩ := tab_sizes
  obtain ⟨t10, t20, t21, t30, t31, t32, t40, t41, t42, t43⟩ := tab_sizesD
  obtain ⟨b0, b1, b2, b3, b4⟩ := tabB_sizesD
  have hl0 : l0 = k0 := g0.trans h0.symm
  subst hl0
  have n1 : ‖k1‖ ≤ ‖l0‖ + (15 / 100 * ‖l0‖) := by
    rw [h1]
    refine le_trans (lip0 _) ?_
    rw [← h0]
    refine add_le_add le_rfl ?_
    have e0 := smul_le s10 l0
    push_cast at e0
    exact e0
  have n2 : ‖k2‖ ≤ ‖l0‖ + (1 / 100 * ‖l0‖ + 38 / 100 * ‖k1‖) := by
    rw [h2]
    refine le_trans (lip0 _) ?_
    rw [← h0]
    refine add_le_add le_rfl ?_
    have e0 := smul_le s20 l0
    have e1 := smul_le s21 k1
    push_cast at e0 e1
    exact (norm_add_le_of_le e0 e1)
  have n3 : ‖k3‖ ≤ ‖l0‖ + (41 / 100 * ‖l0‖ + 61 / 100 * ‖k1‖ + 83 / 100 * ‖k2‖) := by
    rw [h3]
    refine le_trans (lip0 _) ?_
    rw [← h0]
    refine add_le_add le_rfl ?_
    have e0 := smul_le s30 l0
    have e1 := smul_le s31 k1
    have e2 := smul_le s32 k2
    push_cast at e0 e1 e2
    exact (norm_add_le_of_le (norm_add_le_of_le e0 e1) e2)
  have n4 : ‖k4‖ ≤ ‖l0‖ + (20 / 100 * ‖l0‖ + 82 / 100 * ‖k1‖ + 37 / 100 * ‖k2‖ + 70 / 100 * ‖k3‖) := by
    rw [h4]
    refine le_trans (lip0 _) ?_
    rw [← h0]
    refine add_le_add le_rfl ?_
    have e0 := smul_le s40 l0
    have e1 := smul_le s41 k1
    have e2 := smul_le s42 k2
    have e3 := smul_le s43 k3
    push_cast at e0 e1 e2 e3
    exact (norm_add_le_of_le (norm_add_le_of_le (norm_add_le_of_le e0 e1) e2) e3)
  have d1 : ‖l1 - k1‖ ≤ (1 / 10 ^ 16 * ‖l0‖ + 15 / 100 * ‖l0 - l0‖) := by
    rw [h1, g1]
    refine le_trans (lip _ _) ?_
    have e0 := smul_diff (tab_small 1 0) t10 l0 l0
    push_cast at e0
    exact e0
  have d2 : ‖l2 - k2‖ ≤ (1 / 10 ^ 16 * ‖l0‖ + 1 / 100 * ‖l0 - l0‖) + (1 / 10 ^ 16 * ‖k1‖ + 38 / 100 * ‖l1 - k1‖) := by
    rw [h2, g2]
    refine le_trans (lip _ _) ?_
    have e0 := smul_diff (tab_small 2 0) t20 l0 l0
    have e1 := smul_diff (tab_small 2 1) t21 k1 l1
    push_cast at e0 e1
    rw [add_sub_add_comm]
    exact (norm_add_le_of_le e0 e1)
  have d3 : ‖l3 - k3‖ ≤ (1 / 10 ^ 16 * ‖l0‖ + 41 / 100 * ‖l0 - l0‖) + (1 / 10 ^ 16 * ‖k1‖ + 61 / 100 * ‖l1 - k1‖) + (1 / 10 ^ 16 * ‖k2‖ + 83 / 100 * ‖l2 - k2‖) := by
    rw [h3, g3]
    refine le_trans (lip _ _) ?_
    have e0 := smul_diff (tab_small 3 0) t30 l0 l0
    have e1 := smul_diff (tab_small 3 1) t31 k1 l1
    have e2 := smul_diff (tab_small 3 2) t32 k2 l2
    push_cast at e0 e1 e2
    rw [add_sub_add_comm, add_sub_add_comm]
    exact (norm_add_le_of_le (norm_add_le_of_le e0 e1) e2)
  have d4 : ‖l4 - k4‖ ≤ (1 / 10 ^ 16 * ‖l0‖ + 20 / 100 * ‖l0 - l0‖) + (1 / 10 ^ 16 * ‖k1‖ + 82 / 100 * ‖l1 - k1‖) + (1 / 10 ^ 16 * ‖k2‖ + 37 / 100 * ‖l2 - k2‖) + (1 / 10 ^ 16 * ‖k3‖ + 70 / 100 * ‖l3 - k3‖) := by
    rw [h4, g4]
    refine le_trans (lip _ _) ?_
    have e0 := smul_diff (tab_small 4 0) t40 l0 l0
    have e1 := smul_diff (tab_small 4 1) t41 k1 l1
    have e2 := smul_diff (tab_small 4 2) t42 k2 l2
    have e3 := smul_diff (tab_small 4 3) t43 k3 l3
    push_cast at e0 e1 e2 e3
    rw [add_sub_add_comm, add_sub_add_comm, add_sub_add_comm]
    exact (norm_add_le_of_le (norm_add_le_of_le (norm_add_le_of_le e0 e1) e2) e3)
  rw [g, h, add_sub_add_left_eq_sub, ← smul_sub, norm_smul, Real.norm_eq_abs, abs_of_nonneg hdt, ← h0]
  have e0 := smul_diff (tabB_small 0) b0 l0 l0
  have e1 := smul_diff (tabB_small 1) b1 k1 l1
  have e2 := smul_diff (tabB_small 2) b2 k2 l2
  have e3 := smul_diff (tabB_small 3) b3 k3 l3
  have e4 := smul_diff (tabB_small 4) b4 k4 l4
  push_cast at e0 e1 e2 e3 e4
  rw [sub_self, norm_zero] at d1 d2 d3 d4
  have key := norm_add_le_of_le (norm_add_le_of_le (norm_add_le_of_le (norm_add_le_of_le e0 e1) e2) e3) e4
  rw [← add_sub_add_comm, ← add_sub_add_comm, ← add_sub_add_comm, ← add_sub_add_comm, sub_self, norm_zero] at key
  have hn := norm_nonneg l0
  have fin : ‖(tabBD 0 : ℝ) • l0 + (tabBD 1 : ℝ) • l1 + (tabBD 2 : ℝ) • l2 + (tabBD 3 : ℝ) • l3 + (tabBD 4 : ℝ) • l4 - ((tabB 0 : ℝ) • l0 + (tabB 1 : ℝ) • k1 + (tabB 2 : ℝ) • k2 + (tabB 3 : ℝ) • k3 + (tabB 4 : ℝ) • k4)‖ ≤ 2 / 10 ^ 15 * ‖l0‖ := by
    linarith
  calc _ ≤ dt * (2 / 10 ^ 15 * ‖l0‖) := mul_le_mul_of_nonneg_left fin hdt
    _ = _ := by ring

/-- **C158: stability with the coefficients the program holds.**  On every linear system whose energy does not grow, with a step of at most `2/5` over the norm of the operator and any contents of the register before each step, `n` steps increase
the norm at most by the factor `(3/2)(1 + 10⁻¹⁵)ⁿ`. -/
theorem C158_stable (A : E →L[ℝ] E) (hA : ∀ u, ⟪u, A u⟫ ≤ 0) (dt : ℝ) (hdt : 0 ≤ dt) (hs : dt * ‖A‖ ≤ 2 / 5) (u : ℕ → E) (n : ℕ) (hu : ∀ k < n, ∃ res, u (k + 1) = (stepD A dt (u k, res)).1) :
    ‖u n‖ ≤ 3 / 2 * (1 + 1 / 10 ^ 15) ^ n * ‖u 0‖ :=
  scheme_stableD hA hdt hs u n hu

/-- The hypotheses can be met: the system `u' = -u`, steps of 2/5, the register filled with 7 at the start and left as it is between the steps. -/
example (n : ℕ) : ∃ u : ℕ → ℝ, u 0 = 1 ∧ (∀ k, ∃ res, u (k + 1) = (stepD (fun x : ℝ => -x) (2 / 5) (u k, res)).1) ∧ |u n| ≤ 3 / 2 * (1 + 1 / 10 ^ 15) ^ n := by
  obtain ⟨s, hs0, hs⟩ : ∃ s : ℕ → ℝ × ℝ, s 0 = (1, 7) ∧ ∀ k, s (k + 1) = stepD (fun x : ℝ => -x) (2 / 5) (s k) := ⟨fun n => (stepD (fun x : ℝ => -x) (2 / 5))^[n] (1, 7), rfl, fun k => Function.iterate_succ_apply' _ _ _⟩
  refine ⟨fun n => (s n).1, by simp only [hs0], fun k => ⟨(s k).2, by simp only [hs]⟩, ?_⟩
  have hn : ‖-ContinuousLinearMap.id ℝ ℝ‖ = 1 := by rw [norm_neg, ContinuousLinearMap.norm_id]
  have := C158_stable (-ContinuousLinearMap.id ℝ ℝ) (fun u => by simp [mul_self_nonneg]) (2 / 5) (by norm_num) (by rw [hn]; norm_num) (fun n => (s n).1) n fun k _ => ⟨(s k).2, by simp only [hs]; rfl⟩
  simpa [hs0] using this

/-- The hypotheses of `C158_close` can be met, by a nonlinear right-hand side: `u' = |u|`. -/
example (u : ℝ) : ‖(stepD (fun x : ℝ => |x|) 1 (u, 3)).1 - (step (fun x : ℝ => |x|) 1 (u, 5)).1‖ ≤ 2 / 10 ^ 15 * (1 * ‖|u|‖) :=
  C158_close (fun x : ℝ => |x|) 1 (fun u v => by rw [one_mul]; exact abs_abs_sub_abs_le u v) 1 (by norm_num) (by norm_num) u 3 5

end Blitzdg.Time
