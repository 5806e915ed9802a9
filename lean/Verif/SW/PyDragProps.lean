import Verif.SW.PyLoop
import Verif.SW.FluxProps
import Mathlib.Analysis.Complex.ExponentialBounds

/-!
C120: the drag coefficient of sw2d_curved.py.
-/

namespace Blitzdg.SW

/-! ### Specification -/

/-- `d` is the distance of the point `(a, b)` from the nearest of the points `(xW j, yW j)`. -/
def Nearest (xW yW : List ℝ) (a b d : ℝ) : Prop :=
  (∀ j < xW.length, d ≤ √((a - xW.getD j 0) ^ 2 + (b - yW.getD j 0) ^ 2)) ∧ ∃ j < xW.length, d = √((a - xW.getD j 0) ^ 2 + (b - yW.getD j 0) ^ 2)

theorem pyMin_spec (l : List ℝ) (h : l ≠ []) : ∃ d, pyMin l = .ok d ∧ (∀ y ∈ l, d ≤ y) ∧ d ∈ l := by
  cases l with
  | nil => exact absurd rfl h
  | cons a l =>
    refine ⟨_, rfl, ?_⟩
    suffices ∀ (l : List ℝ) (a : ℝ), (l.foldl min a ≤ a ∧ ∀ y ∈ l, l.foldl min a ≤ y) ∧ (l.foldl min a = a ∨ l.foldl min a ∈ l) by
      obtain ⟨⟨h1, h2⟩, h3⟩ := this l a
      exact ⟨fun y hy => (List.mem_cons.1 hy).elim (fun e => e ▸ h1) (h2 y), List.mem_cons.2 h3⟩
    intro l
    induction l with
    | nil => intro a; simp
    | cons b l ih =>
      intro a
      obtain ⟨⟨h1, h2⟩, h3⟩ := ih (min a b)
      rw [List.foldl_cons]
      refine ⟨⟨le_trans h1 (min_le_left _ _), fun y hy => ?_⟩, ?_⟩
      · rcases List.mem_cons.1 hy with rfl | hy
        · exact le_trans h1 (min_le_right _ _)
        · exact h2 y hy
      · rcases h3 with h3 | h3
        · rcases min_choice a b with e | e
          · left; rw [h3, e]
          · right; rw [h3, e]; exact List.mem_cons_self
        · right; exact List.mem_cons_of_mem _ h3

theorem tanh_half (z : ℝ) : (1 - Real.tanh z) / 2 = 1 / (1 + Real.exp (2 * z)) := by
  rw [Real.tanh_eq_sinh_div_cosh, Real.sinh_eq, Real.cosh_eq, show 2 * z = z + z by ring, Real.exp_add, Real.exp_neg]
  have := Real.exp_pos z
  field_simp
  ring

theorem dragAt_eq (CDmax tol d : ℝ) (ht : 0 < tol) : dragAt CDmax tol d = CDmax / (1 + Real.exp (20 * (d / tol) - 10)) := by
  unfold dragAt
  have h := tanh_half ((d - 0.5 * tol) / (0.1 * tol))
  have e : 2 * ((d - 0.5 * tol) / (0.1 * tol)) = 20 * (d / tol) - 10 := by field_simp; ring
  rw [e] at h
  rw [show CDmax * 0.5 * (1 - Real.tanh ((d - 0.5 * tol) / (0.1 * tol))) = CDmax * ((1 - Real.tanh ((d - 0.5 * tol) / (0.1 * tol))) / 2) by ring, h]
  ring

/-- **C120, value.** When there is a wall node, the coefficient of every node is computed; with `d` the distance from the nearest wall node it is `CDmax/(1 + exp(20 d/tol - 10))`. -/
theorem C120_value (CDmax : ℝ) {tol : ℝ} (ht : 0 < tol) (xW yW : List ℝ) (hW : xW ≠ []) (a b : ℝ) :
    ∃ d c, Nearest xW yW a b d ∧ dragNode CDmax tol xW yW a b = .ok c ∧ c = CDmax / (1 + Real.exp (20 * (d / tol) - 10)) := by
  obtain ⟨d, h1, h2, h3⟩ := pyMin_spec ((List.range xW.length).map fun j => pyHypot (a - xW.getD j 0) (b - yW.getD j 0)) (by
    intro h
    have := congrArg List.length h
    simp at this
    exact hW this)
  refine ⟨d, _, ⟨fun j hj => h2 _ (List.mem_map.2 ⟨j, List.mem_range.2 hj, rfl⟩), ?_⟩, ?_, (dragAt_eq CDmax tol d ht)⟩
  · obtain ⟨j, hj, e⟩ := List.mem_map.1 h3
    exact ⟨j, List.mem_range.1 hj, e.symm⟩
  · unfold dragNode
    rw [h1]
    rfl

theorem nearest_unique {xW yW : List ℝ} {a b d d' : ℝ} (h : Nearest xW yW a b d) (h' : Nearest xW yW a b d') : d = d' := by
  obtain ⟨h1, j, hj, h2⟩ := h
  obtain ⟨h1', j', hj', h2'⟩ := h'
  exact le_antisymm (h2' ▸ h1 j' hj') (h2 ▸ h1' j hj)

/-- **C120, without walls** the computation raises. -/
theorem C120_no_wall (CDmax tol : ℝ) (yW : List ℝ) (a b : ℝ) : dragNode CDmax tol [] yW a b = .throws := rfl

/-- **C120, range and order.** The coefficient lies strictly between 0 and its maximum, is larger nearer to the walls, is half the maximum at half the length given, at the walls misses the maximum by less than a twenty-thousandth, and at the length
given is less than a twenty-thousandth of the maximum. -/
theorem C120_range {CDmax tol : ℝ} (hC : 0 < CDmax) (ht : 0 < tol) (xW yW : List ℝ) (hW : xW ≠ []) :
    ∃ cd : ℝ → ℝ → ℝ, (∀ a b, dragNode CDmax tol xW yW a b = .ok (cd a b)) ∧ (∀ a b, 0 < cd a b ∧ cd a b < CDmax) ∧
      (∀ a b a' b' d d', Nearest xW yW a b d → Nearest xW yW a' b' d' → (cd a b < cd a' b' ↔ d' < d)) ∧
      ∀ a b d, Nearest xW yW a b d → (d = tol / 2 → cd a b = CDmax / 2) ∧ (d = 0 → CDmax * (1 - 1 / 20000) < cd a b) ∧ (tol ≤ d → cd a b < CDmax / 20000) := by
  choose D cd hD hcd hval using C120_value CDmax ht xW yW hW
  have hbig : (20000 : ℝ) < 1 + Real.exp 10 := by
    have h1 : (2.7182818283 : ℝ) < Real.exp 1 := Real.exp_one_gt_d9
    have h2 : Real.exp 10 = Real.exp 1 ^ 10 := by rw [← Real.exp_nat_mul]; norm_num
    rw [h2]
    have : (2.7182818283 : ℝ) ^ 10 ≤ Real.exp 1 ^ 10 := by gcongr
    have : (20000 : ℝ) < 2.7182818283 ^ 10 := by norm_num
    linarith
  refine ⟨cd, hcd, fun a b => ?_, fun a b a' b' d d' h h' => ?_, fun a b d h => ⟨fun hd => ?_, fun hd => ?_, fun hd => ?_⟩⟩
  · rw [hval]
    have := Real.exp_pos (20 * (D a b / tol) - 10)
    exact ⟨by positivity, (div_lt_iff₀ (by positivity)).2 (by nlinarith)⟩
  · obtain rfl := nearest_unique h (hD a b)
    obtain rfl := nearest_unique h' (hD a' b')
    rw [hval, hval]
    have p1 := Real.exp_pos (20 * (D a b / tol) - 10)
    have p2 := Real.exp_pos (20 * (D a' b' / tol) - 10)
    rw [div_lt_div_iff_of_pos_left hC (by positivity) (by positivity), add_lt_add_iff_left, Real.exp_lt_exp, sub_lt_sub_iff_right, mul_lt_mul_iff_right₀ (by norm_num), div_lt_div_iff_of_pos_right ht]
  · obtain rfl := nearest_unique h (hD a b)
    rw [hval, hd, show 20 * (tol / 2 / tol) - 10 = 0 by field_simp; norm_num, Real.exp_zero]
    norm_num
  · obtain rfl := nearest_unique h (hD a b)
    rw [hval, hd, show 20 * (0 / tol) - 10 = -10 by simp, Real.exp_neg]
    have hp := Real.exp_pos 10
    rw [lt_div_iff₀ (by positivity), mul_assoc]
    have : (1 - 1 / 20000) * (1 + (Real.exp 10)⁻¹) < 1 := by
      have h3 : (Real.exp 10)⁻¹ < 1 / 19999 := by
        rw [inv_eq_one_div]
        exact one_div_lt_one_div_of_lt (by norm_num) (by linarith)
      linarith
    nlinarith
  · obtain rfl := nearest_unique h (hD a b)
    rw [hval]
    apply div_lt_div_of_pos_left hC (by norm_num)
    refine lt_of_lt_of_le hbig ?_
    have : 1 ≤ D a b / tol := (one_le_div ht).2 hd
    gcongr
    linarith

/-- **C120, effect.** The coefficient never vanishes, so with the C++ source terms every moving node loses energy, with any wall distance; with the source terms of rhs.py every node flowing along the y axis gains energy. -/
theorem C120_effect {CDmax tol : ℝ} (hC : 0 < CDmax) (ht : 0 < tol) (xW yW : List ℝ) (hW : xW ≠ []) (f a b h u v : ℝ) (hh : 0 < h) :
    ∃ c, dragNode CDmax tol xW yW a b = .ok c ∧
      (¬(u = 0 ∧ v = 0) → u * (sourceCpp c f ⟨h, h * u, h * v⟩).1 + v * (sourceCpp c f ⟨h, h * u, h * v⟩).2 < 0) ∧
      (v ≠ 0 → 0 < v * (sourcePy c f ⟨h, 0, h * v⟩).2) := by
  obtain ⟨cd, h1, h2, -⟩ := C120_range hC ht xW yW hW
  have e : ∀ w, h * w / h = w := fun w => by field_simp
  refine ⟨_, h1 a b, fun huv => ?_, fun hv => ?_⟩
  · have := (C52_drag (cd a b) f (h2 a b).1.le ⟨h, h * u, h * v⟩ hh).1
    simp only [e] at this
    rw [this]
    have hs : 0 < √(u ^ 2 + v ^ 2) := Real.sqrt_pos.2 (by
      rcases not_and_or.1 huv with h | h
      · positivity
      · positivity)
    have := mul_pos (h2 a b).1 (pow_pos hs 3)
    linarith
  · have := C52_python_wrong (cd a b) f (h2 a b).1 h v hh hv
    simpa only [e, zero_div, zero_mul, zero_add] using this

/-- The two coefficients, at the wall and a length away from it. -/
example : ∃ c c' : ℝ, dragNode 2.5e-3 250 [0] [0] 0 0 = .ok c ∧ dragNode 2.5e-3 250 [0] [0] 300 400 = .ok c' ∧ c' < c ∧ c' < 2.5e-3 / 20000 := by
  obtain ⟨cd, h1, h2, h3, h4⟩ := C120_range (CDmax := 2.5e-3) (tol := 250) (by norm_num) (by norm_num) [0] [0] (by simp)
  have n1 : Nearest [0] [0] 0 0 0 := ⟨fun j hj => Real.sqrt_nonneg _, 0, by simp, by simp⟩
  have n2 : Nearest [0] [0] 300 400 500 := by
    have e : √((300 - ([0] : List ℝ).getD 0 0) ^ 2 + (400 - ([0] : List ℝ).getD 0 0) ^ 2) = 500 := by
      rw [show ((300 - ([0] : List ℝ).getD 0 0) ^ 2 + (400 - ([0] : List ℝ).getD 0 0) ^ 2) = 500 ^ 2 by simp; norm_num, Real.sqrt_sq (by norm_num)]
    refine ⟨fun j hj => ?_, 0, by simp, e.symm⟩
    obtain rfl : j = 0 := by simpa using hj
    exact e.ge
  exact ⟨_, _, h1 0 0, h1 300 400, (h3 _ _ _ _ _ _ n2 n1).2 (by norm_num), (h4 _ _ _ n2).2.2 (by norm_num)⟩

end Blitzdg.SW
