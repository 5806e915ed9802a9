import Verif.Time.LSERK4
import Mathlib.Algebra.BigOperators.Fin
import Mathlib.Algebra.Order.BigOperators.Group.Finset
import Mathlib.Tactic.Module
import Mathlib.Tactic.NormNum
import Mathlib.Tactic.FinCases
import Mathlib.Tactic.Linarith
import Mathlib.Algebra.Order.Floor.Ring
import Mathlib.Algebra.Order.Archimedean.Real.Basic
import Mathlib.Data.Rat.BigOperators
import Mathlib.Algebra.Order.Ring.Abs
import Mathlib.Data.Rat.Cast.Order
import Mathlib.Algebra.Group.Nat.Even

/-! Property C49: the low-storage scheme is an explicit five-stage Runge-Kutta scheme of order four, and does not depend on the
previous contents of the residual register. Property C75: driver time loops. -/

namespace Blitzdg.Time

open Finset

variable {E : Type*} [AddCommGroup E] [Module ℝ E]

/-- Specification: `u'` is the result of one step of size `dt` of the explicit Runge-Kutta scheme with tableau `(A, b)` for `u' = f u`. -/
def IsRKStep (n : ℕ) (A : Fin n → Fin n → ℝ) (b : Fin n → ℝ) (f : E → E) (dt : ℝ) (u u' : E) : Prop :=
  ∃ k : Fin n → E, (∀ i, k i = f (u + dt • ∑ j ∈ univ.filter (· < i), A i j • k j)) ∧ u' = u + dt • ∑ j, b j • k j

/-- Specification: the eight order conditions for order four, up to `ε`; `c i` is the abscissa of stage `i`. -/
structure OrderFour (n : ℕ) (A : Fin n → Fin n → ℝ) (b c : Fin n → ℝ) (ε : ℝ) : Prop where
  abscissa : ∀ i, c i = ∑ j, A i j
  o1 : |∑ i, b i - 1| ≤ ε
  o2 : |∑ i, b i * c i - 1 / 2| ≤ ε
  o3a : |∑ i, b i * c i ^ 2 - 1 / 3| ≤ ε
  o3b : |∑ i, ∑ j, b i * A i j * c j - 1 / 6| ≤ ε
  o4a : |∑ i, b i * c i ^ 3 - 1 / 4| ≤ ε
  o4b : |∑ i, ∑ j, b i * c i * A i j * c j - 1 / 8| ≤ ε
  o4c : |∑ i, ∑ j, b i * A i j * c j ^ 2 - 1 / 12| ≤ ε
  o4d : |∑ i, ∑ j, ∑ k, b i * A i j * A j k * c k - 1 / 24| ≤ ε

/-- Weight of the slope of stage `j` in the solution after stage `i`. -/
def weight (j i : ℕ) : ℚ := ((List.range' j (i + 1 - j)).map fun m => rk4b.getD m 0 * ((List.range' (j + 1) (m - j)).map fun l => rk4a.getD l 0).prod).sum

def tabA (i j : Fin 5) : ℚ := if j < i then weight j (i - 1) else 0
def tabB (j : Fin 5) : ℚ := weight j 4
def tabC (i : Fin 5) : ℚ := ∑ j, tabA i j

/-- C49: the residual register is not read: one step gives the same result whatever it contains. -/
theorem C49_stale (f : E → E) (dt : ℝ) (u res res' : E) : step f dt (u, res) = step f dt (u, res') := by
  have h : stage f dt (u, res) 0 = stage f dt (u, res') 0 := by simp [stage, rk4a]
  simp only [step, numStages, show List.range 5 = 0 :: List.range' 1 4 from rfl, List.foldl_cons, h]

theorem tab_order : OrderFour 5 (fun i j => (tabA i j : ℝ)) (fun i => (tabB i : ℝ)) (fun i => (tabC i : ℝ)) (1 / 10 ^ 25) := by
  have key : ∀ q : ℚ, |q| ≤ 1 / 10 ^ 25 → |(q : ℝ)| ≤ 1 / 10 ^ 25 := fun q h => by
    have := (Rat.cast_le (K := ℝ)).2 h
    push_cast at this
    exact this
  constructor
  · intro i; simp [tabC]
  · simpa using key (∑ i, tabB i - 1) (by decide +kernel)
  · simpa using key (∑ i, tabB i * tabC i - 1 / 2) (by decide +kernel)
  · simpa using key (∑ i, tabB i * tabC i ^ (2 : ℕ) - 1 / 3) (by decide +kernel)
  · simpa using key (∑ i, ∑ j, tabB i * tabA i j * tabC j - 1 / 6) (by decide +kernel)
  · simpa using key (∑ i, tabB i * tabC i ^ (3 : ℕ) - 1 / 4) (by decide +kernel)
  · simpa using key (∑ i, ∑ j, tabB i * tabC i * tabA i j * tabC j - 1 / 8) (by decide +kernel)
  · simpa using key (∑ i, ∑ j, tabB i * tabA i j * tabC j ^ (2 : ℕ) - 1 / 12) (by decide +kernel)
  · simpa using key (∑ i, ∑ j, ∑ k, tabB i * tabA i j * tabA j k * tabC k - 1 / 24) (by decide +kernel)

/-- Entries of the tableau in terms of the coefficients. -/
theorem tab_entries : tabA 1 0 = rk4b.getD 0 0 ∧
    tabA 2 0 = rk4b.getD 0 0 + rk4b.getD 1 0 * rk4a.getD 1 0 ∧
    tabA 2 1 = rk4b.getD 1 0 ∧
    tabA 3 0 = rk4b.getD 0 0 + rk4b.getD 1 0 * rk4a.getD 1 0 + rk4b.getD 2 0 * rk4a.getD 1 0 * rk4a.getD 2 0 ∧
    tabA 3 1 = rk4b.getD 1 0 + rk4b.getD 2 0 * rk4a.getD 2 0 ∧
    tabA 3 2 = rk4b.getD 2 0 ∧
    tabA 4 0 = rk4b.getD 0 0 + rk4b.getD 1 0 * rk4a.getD 1 0 + rk4b.getD 2 0 * rk4a.getD 1 0 * rk4a.getD 2 0 + rk4b.getD 3 0 * rk4a.getD 1 0 * rk4a.getD 2 0 * rk4a.getD 3 0 ∧
    tabA 4 1 = rk4b.getD 1 0 + rk4b.getD 2 0 * rk4a.getD 2 0 + rk4b.getD 3 0 * rk4a.getD 2 0 * rk4a.getD 3 0 ∧
    tabA 4 2 = rk4b.getD 2 0 + rk4b.getD 3 0 * rk4a.getD 3 0 ∧
    tabA 4 3 = rk4b.getD 3 0 ∧
    tabB 0 = rk4b.getD 0 0 + rk4b.getD 1 0 * rk4a.getD 1 0 + rk4b.getD 2 0 * rk4a.getD 1 0 * rk4a.getD 2 0 + rk4b.getD 3 0 * rk4a.getD 1 0 * rk4a.getD 2 0 * rk4a.getD 3 0 + rk4b.getD 4 0 * rk4a.getD 1 0 * rk4a.getD 2 0 * rk4a.getD 3 0 * rk4a.getD 4 0 ∧
    tabB 1 = rk4b.getD 1 0 + rk4b.getD 2 0 * rk4a.getD 2 0 + rk4b.getD 3 0 * rk4a.getD 2 0 * rk4a.getD 3 0 + rk4b.getD 4 0 * rk4a.getD 2 0 * rk4a.getD 3 0 * rk4a.getD 4 0 ∧
    tabB 2 = rk4b.getD 2 0 + rk4b.getD 3 0 * rk4a.getD 3 0 + rk4b.getD 4 0 * rk4a.getD 3 0 * rk4a.getD 4 0 ∧
    tabB 3 = rk4b.getD 3 0 + rk4b.getD 4 0 * rk4a.getD 4 0 ∧
    tabB 4 = rk4b.getD 4 0 := by
  decide +kernel

/-- The state after each stage in terms of the slopes. -/
theorem step_slopes (f : E → E) (dt : ℝ) (u res : E) : ∃ k0 k1 k2 k3 k4 : E,
    k0 = f u ∧ k1 = f (u + dt • ((tabA 1 0 : ℝ) • k0)) ∧ k2 = f (u + dt • ((tabA 2 0 : ℝ) • k0 + (tabA 2 1 : ℝ) • k1)) ∧
    k3 = f (u + dt • ((tabA 3 0 : ℝ) • k0 + (tabA 3 1 : ℝ) • k1 + (tabA 3 2 : ℝ) • k2)) ∧
    k4 = f (u + dt • ((tabA 4 0 : ℝ) • k0 + (tabA 4 1 : ℝ) • k1 + (tabA 4 2 : ℝ) • k2 + (tabA 4 3 : ℝ) • k3)) ∧
    (step f dt (u, res)).1 = u + dt • ((tabB 0 : ℝ) • k0 + (tabB 1 : ℝ) • k1 + (tabB 2 : ℝ) • k2 + (tabB 3 : ℝ) • k3 + (tabB 4 : ℝ) • k4) := by
  have h0 : rk4a.getD 0 0 = 0 := rfl
  obtain ⟨e0, e1, e2, e3, e4, e5, e6, e7, e8, e9, e10, e11, e12, e13, e14⟩ := tab_entries
  refine ⟨f u, f ((List.range 1).foldl (stage f dt) (u, res)).1, f ((List.range 2).foldl (stage f dt) (u, res)).1,
    f ((List.range 3).foldl (stage f dt) (u, res)).1, f ((List.range 4).foldl (stage f dt) (u, res)).1, ?_⟩
  rw [e0, e1, e2, e3, e4, e5, e6, e7, e8, e9, e10, e11, e12, e13, e14]
  simp only [step, numStages, show List.range 5 = [0, 1, 2, 3, 4] from rfl, show List.range 4 = [0, 1, 2, 3] from rfl, show List.range 3 = [0, 1, 2] from rfl,
    show List.range 2 = [0, 1] from rfl, show List.range 1 = [0] from rfl, List.foldl_cons, List.foldl_nil, stage, h0]
  generalize rk4a.getD 1 0 = a1
  generalize rk4a.getD 2 0 = a2
  generalize rk4a.getD 3 0 = a3
  generalize rk4a.getD 4 0 = a4
  generalize rk4b.getD 0 0 = b0
  generalize rk4b.getD 1 0 = b1
  generalize rk4b.getD 2 0 = b2
  generalize rk4b.getD 3 0 = b3
  generalize rk4b.getD 4 0 = b4
  push_cast
  rw [zero_smul, zero_add]
  generalize f u = k0
  refine ⟨trivial, ?_, ?_, ?_, ?_, ?_⟩
  · congr 1; module
  all_goals generalize f (u + (b0 : ℝ) • dt • k0) = k1
  · congr 1; module
  all_goals generalize f (u + (b0 : ℝ) • dt • k0 + (b1 : ℝ) • ((a1 : ℝ) • dt • k0 + dt • k1)) = k2
  · congr 1; module
  all_goals generalize f (u + (b0 : ℝ) • dt • k0 + (b1 : ℝ) • ((a1 : ℝ) • dt • k0 + dt • k1) + (b2 : ℝ) • ((a2 : ℝ) • ((a1 : ℝ) • dt • k0 + dt • k1) + dt • k2)) = k3
  · congr 1; module
  · module

/-- C49: the low-storage step is a step of an explicit five-stage Runge-Kutta scheme, for every right-hand side, step size and state, whatever
the residual register held, and that scheme satisfies the conditions for order four up to `10⁻²⁵`. -/
theorem C49_order.{u} : ∃ (A : Fin 5 → Fin 5 → ℝ) (b c : Fin 5 → ℝ), OrderFour 5 A b c (1 / 10 ^ 25) ∧ (∀ i j, i ≤ j → A i j = 0) ∧
    ∀ {E : Type u} [AddCommGroup E] [Module ℝ E] (f : E → E) (dt : ℝ) (u res : E), IsRKStep 5 A b f dt u (step f dt (u, res)).1 := by
  refine ⟨_, _, _, tab_order, fun i j h => by simp [tabA, not_lt.2 h], fun f dt u res => ?_⟩
  obtain ⟨k0, k1, k2, k3, k4, h0, h1, h2, h3, h4, h⟩ := step_slopes f dt u res
  refine ⟨![k0, k1, k2, k3, k4], ?_, ?_⟩
  · intro i
    fin_cases i
    · simpa using h0
    · simpa [Finset.sum_filter, Fin.sum_univ_succ, Fin.lt_def] using h1
    · simpa [Finset.sum_filter, Fin.sum_univ_succ, Fin.lt_def, add_assoc] using h2
    · simpa [Finset.sum_filter, Fin.sum_univ_succ, Fin.lt_def, add_assoc] using h3
    · simpa [Finset.sum_filter, Fin.sum_univ_succ, Fin.lt_def, add_assoc] using h4
  · rw [h]
    simp [Fin.sum_univ_succ, add_assoc]

/-- The solutions after each time step, as a recursion on the step number: step `k` starts at time `k * dt`. -/
def solution (f : ℝ → E → E) (dt : ℝ) (u0 : E) : ℕ → E
  | 0 => u0
  | k + 1 => (step (f (k * dt)) dt (solution f dt u0 k, 0)).1

/-- The loop from step `k` on. -/
theorem loop_from (f : ℝ → E → E) (dt : ℝ) (hdt : 0 < dt) (bad : E → Bool) (T : ℝ) (u0 : E) (m : ℕ) : ∀ k : ℕ, k + m = ⌈T / dt⌉₊ → ∀ (fuel : ℕ) (r : Run E), m < fuel →
    r.u = solution f dt u0 k → r.t = k * dt → r.count = k → r.files = (List.range k).filter (fun i => i % 10 = 0) →
    ((∃ j, k ≤ j ∧ j < ⌈T / dt⌉₊ ∧ bad (solution f dt u0 (j + 1)) = true) ∧ loop f dt bad T fuel r = some none) ∨
    (∀ j, k ≤ j → j < ⌈T / dt⌉₊ → bad (solution f dt u0 (j + 1)) = false) ∧
      ∃ r', loop f dt bad T fuel r = some (some r') ∧ r'.u = solution f dt u0 ⌈T / dt⌉₊ ∧ r'.t = ⌈T / dt⌉₊ * dt ∧ r'.count = ⌈T / dt⌉₊ ∧
        r'.files = (List.range ⌈T / dt⌉₊).filter (fun i => i % 10 = 0) := by
  induction m with
  | zero =>
    intro k hk fuel r hf hu ht hc hfi
    obtain ⟨n, rfl⟩ : ∃ n, fuel = n + 1 := ⟨fuel - 1, by omega⟩
    rw [add_zero] at hk
    have h : ¬ r.t < T := by
      rw [ht, not_lt, ← div_le_iff₀ hdt, hk]
      exact Nat.le_ceil _
    right
    refine ⟨fun j h1 h2 => by omega, r, ?_, by rw [← hk]; exact hu, by rw [← hk]; exact ht, by rw [← hk]; exact hc, by rw [← hk]; exact hfi⟩
    simp [loop, h]
  | succ m ih =>
    intro k hk fuel r hf hu ht hc hfi
    obtain ⟨n, rfl⟩ : ∃ n, fuel = n + 1 := ⟨fuel - 1, by omega⟩
    have h : r.t < T := by
      rw [ht, ← lt_div_iff₀ hdt]
      exact Nat.lt_ceil.1 (by omega)
    have hs : (step (f r.t) dt (r.u, r.res)) = step (f (k * dt)) dt (solution f dt u0 k, 0) := by rw [hu, ht]; exact C49_stale _ _ _ _ _
    have hu' : (step (f r.t) dt (r.u, r.res)).1 = solution f dt u0 (k + 1) := by rw [hs]; rfl
    by_cases hb : bad (solution f dt u0 (k + 1)) = true
    · left
      refine ⟨⟨k, le_refl _, by omega, hb⟩, ?_⟩
      simp [loop, h, body, hu', hb]
    · have hb' : bad (solution f dt u0 (k + 1)) = false := by simpa using hb
      have hl : loop f dt bad T (n + 1) r = loop f dt bad T n ⟨solution f dt u0 (k + 1), (step (f r.t) dt (r.u, r.res)).2, r.t + dt, r.count + 1,
          if r.count % 10 = 0 then r.files ++ [r.count] else r.files⟩ := by
        simp [loop, h, body, hu', hb']
      rw [hl]
      rcases ih (k + 1) (by omega) n ⟨solution f dt u0 (k + 1), (step (f r.t) dt (r.u, r.res)).2, r.t + dt, r.count + 1,
          if r.count % 10 = 0 then r.files ++ [r.count] else r.files⟩ (by omega) rfl (by simp only [ht]; push_cast; ring) (by simp [hc])
          (by simp only [hc, hfi, List.range_succ, List.filter_append]; split <;> rename_i h10 <;> simp [h10]) with ⟨⟨j, h1, h2, h3⟩, h4⟩ | ⟨h1, h2⟩
      · left; exact ⟨⟨j, by omega, h2, h3⟩, h4⟩
      · right
        refine ⟨fun j hj hj' => ?_, h2⟩
        rcases Nat.eq_or_lt_of_le hj with rfl | hj
        · exact hb'
        · exact h1 j hj hj'

/-- C75: with a positive step size the time loop of the drivers ends after exactly `⌈T / dt⌉` steps, or with the instability error if (and only if) the solution after
some step before that is rejected. When it ends, the time is the first multiple of `dt` not below `T`, the solution is that of the recursion, and one
file was written for each step whose number is a multiple of ten. The initial contents of the residual register do not matter. -/
theorem C75_loop (f : ℝ → E → E) (dt : ℝ) (hdt : 0 < dt) (bad : E → Bool) (T : ℝ) (u0 res0 : E) (fuel : ℕ) (hf : ⌈T / dt⌉₊ < fuel) :
    ((∃ j < ⌈T / dt⌉₊, bad (solution f dt u0 (j + 1)) = true) ∧ loop f dt bad T fuel ⟨u0, res0, 0, 0, []⟩ = some none) ∨
    (∀ j < ⌈T / dt⌉₊, bad (solution f dt u0 (j + 1)) = false) ∧
      ∃ r, loop f dt bad T fuel ⟨u0, res0, 0, 0, []⟩ = some (some r) ∧ r.u = solution f dt u0 ⌈T / dt⌉₊ ∧ r.t = ⌈T / dt⌉₊ * dt ∧
        T ≤ r.t ∧ (0 < T → r.t < T + dt) ∧ r.files = (List.range ⌈T / dt⌉₊).filter (fun i => i % 10 = 0) := by
  rcases loop_from f dt hdt bad T u0 ⌈T / dt⌉₊ 0 (by omega) fuel ⟨u0, res0, 0, 0, []⟩ hf rfl (by simp) rfl (by simp) with ⟨⟨j, -, h2, h3⟩, h4⟩ | ⟨h1, r, h2, h3, h4, -, h6⟩
  · left; exact ⟨⟨j, h2, h3⟩, h4⟩
  · right
    refine ⟨fun j hj => h1 j (Nat.zero_le _) hj, r, h2, h3, h4, ?_, fun hT => ?_, h6⟩
    · rw [h4, ← div_le_iff₀ hdt]; exact Nat.le_ceil _
    · have := Nat.ceil_lt_add_one (div_nonneg hT.le hdt.le)
      rw [h4]
      calc _ < (T / dt + 1) * dt := by exact (mul_lt_mul_iff_left₀ hdt).2 this
        _ = T + dt := by field_simp

/-- Five steps of size 2/5 reach time 2 (a case with data). -/
example : ∃ r, loop (fun _ u => u) (2 / 5) (fun _ : ℝ => false) 2 100 ⟨1, 7, 0, 0, []⟩ = some (some r) ∧ r.t = 2 ∧ r.files = [0] := by
  have h : ⌈(2 : ℝ) / (2 / 5)⌉₊ = 5 := by norm_num
  rcases C75_loop (fun _ u => u) (2 / 5) (by norm_num) (fun _ : ℝ => false) 2 1 7 100 (by rw [h]; norm_num) with ⟨⟨j, -, h2⟩, -⟩ | ⟨-, r, h1, -, h2, -, -, h3⟩
  · cases h2
  · rw [h] at h2 h3
    exact ⟨r, h1, by rw [h2]; norm_num, h3⟩

/-- C75, negative part: the stages of burgers1d evaluate the boundary data at the time at which the step began, so data that varies in time is integrated
with the left-endpoint rule: for `u' = t`, `u(0) = 0` the first step returns exactly 0, whatever its size, instead of `dt²/2`. -/
theorem C75_time_data (dt : ℝ) : solution (fun t _ => t) dt (0 : ℝ) 1 = 0 := by
  simp [solution, step, numStages, stage, List.range_succ]

end Blitzdg.Time
