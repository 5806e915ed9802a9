import Verif.SW.Flux
import Mathlib.Tactic.Linarith
import Mathlib.Analysis.Calculus.Deriv.Add
import Mathlib.Analysis.Calculus.Deriv.Inv
import Mathlib.Analysis.Calculus.Deriv.Mul
import Mathlib.Tactic.LinearCombination
import Mathlib.Tactic.FieldSimp
import Mathlib.Tactic.Ring
import Mathlib.Tactic.NormNum
import Mathlib.Algebra.Order.BigOperators.Group.List

/-! C50 (walls), C51 (numerical flux), C52 (drag), C53 (limiter), C54 (minmod). -/

namespace Blitzdg.SW

/-! ### C50, C51 -/

/-- The numerical normal flux which the code subtracts from the interior normal flux: `dFlux = F(m)·n - F*`. -/
noncomputable def numFlux (g nx ny lam : ℝ) (m p : State) : V3 where
  c1 := (fluxF g m).c1 * nx + (fluxG g m).c1 * ny - (jumpFlux g nx ny lam m p).c1
  c2 := (fluxF g m).c2 * nx + (fluxG g m).c2 * ny - (jumpFlux g nx ny lam m p).c2
  c3 := (fluxF g m).c3 * nx + (fluxG g m).c3 * ny - (jumpFlux g nx ny lam m p).c3

/-- **C50.** At a wall with unit normal the exterior state has the same depth, the opposite normal momentum, the same tangential momentum and the same kinetic energy (hence the same wave
speed), and the numerical mass flux through the wall vanishes. -/
theorem C50_wall (g nx ny lam : ℝ) (hn : nx * nx + ny * ny = 1) (q : State) :
    (wallState nx ny q).h = q.h ∧
    (wallState nx ny q).hu * nx + (wallState nx ny q).hv * ny = -(q.hu * nx + q.hv * ny) ∧
    (wallState nx ny q).hv * nx - (wallState nx ny q).hu * ny = q.hv * nx - q.hu * ny ∧
    (wallState nx ny q).hu ^ 2 + (wallState nx ny q).hv ^ 2 = q.hu ^ 2 + q.hv ^ 2 ∧
    speed g (wallState nx ny q) = speed g q ∧
    (numFlux g nx ny lam q (wallState nx ny q)).c1 = 0 ∧ (weakFlux g nx ny lam q (wallState nx ny q)).c1 = 0 := by
  have hke : (wallState nx ny q).hu ^ 2 + (wallState nx ny q).hv ^ 2 = q.hu ^ 2 + q.hv ^ 2 := by
    simp only [wallState]
    linear_combination 4 * (q.hu * nx + q.hv * ny) ^ 2 * hn
  have hnorm : (wallState nx ny q).hu * nx + (wallState nx ny q).hv * ny = -(q.hu * nx + q.hv * ny) := by
    simp only [wallState]
    linear_combination -2 * (q.hu * nx + q.hv * ny) * hn
  refine ⟨rfl, hnorm, ?_, hke, ?_, ?_, ?_⟩
  · simp only [wallState]; ring
  · unfold speed
    have e : (wallState nx ny q).hu / (wallState nx ny q).h * ((wallState nx ny q).hu / (wallState nx ny q).h) +
        (wallState nx ny q).hv / (wallState nx ny q).h * ((wallState nx ny q).hv / (wallState nx ny q).h) = q.hu / q.h * (q.hu / q.h) + q.hv / q.h * (q.hv / q.h) := by
      have h1 : (wallState nx ny q).h = q.h := rfl
      rw [h1, div_mul_div_comm, div_mul_div_comm, div_mul_div_comm, div_mul_div_comm, ← add_div, ← add_div]
      congr 1
      linear_combination hke
    rw [e]
    rfl
  · simp only [numFlux, jumpFlux, fluxF, fluxG]
    have : (wallState nx ny q).h = q.h := rfl
    rw [this]
    linear_combination (1 / 2 : ℝ) * hnorm
  · simp only [weakFlux, fluxF, fluxG]
    have : (wallState nx ny q).h = q.h := rfl
    rw [this]
    linear_combination (1 / 2 : ℝ) * hnorm

/-- **C51.** The numerical flux is single valued - seen from the other side of the face, with the opposite normal, it has the opposite sign - and consistent: for equal states it is the
normal flux of that state, with no jump.  The variant for curved elements uses the same flux. -/
theorem C51_flux (g nx ny lam : ℝ) (m p : State) :
    (numFlux g (-nx) (-ny) lam p m = ⟨-(numFlux g nx ny lam m p).c1, -(numFlux g nx ny lam m p).c2, -(numFlux g nx ny lam m p).c3⟩) ∧
    weakFlux g nx ny lam m p = numFlux g nx ny lam m p ∧
    jumpFlux g nx ny lam m m = ⟨0, 0, 0⟩ ∧
    numFlux g nx ny lam m m = ⟨m.hu * nx + m.hv * ny, (m.hu * m.hu / m.h + g * m.h ^ 2 / 2) * nx + m.hu * m.hv / m.h * ny,
      m.hu * m.hv / m.h * nx + (m.hv * m.hv / m.h + g * m.h ^ 2 / 2) * ny⟩ := by
  refine ⟨?_, ?_, ?_, ?_⟩
  · simp only [numFlux, jumpFlux, V3.mk.injEq]
    refine ⟨?_, ?_, ?_⟩ <;> ring
  · simp only [numFlux, weakFlux, jumpFlux, V3.mk.injEq]
    refine ⟨?_, ?_, ?_⟩ <;> ring
  · simp only [jumpFlux, V3.mk.injEq]
    refine ⟨?_, ?_, ?_⟩ <;> ring
  · simp only [numFlux, jumpFlux, fluxF, fluxG, V3.mk.injEq]
    refine ⟨?_, ?_, ?_⟩ <;> ring

/-- A wall with normal (3/5, 4/5). -/
example : (3 / 5 : ℝ) * (3 / 5) + 4 / 5 * (4 / 5) = 1 := by norm_num

/-- A small change of state. -/
def State.shift (q d : State) (ε : ℝ) : State := ⟨q.h + ε * d.h, q.hu + ε * d.hu, q.hv + ε * d.hv⟩

/-- `lam` is a characteristic speed in direction `n` at the state `q`: there is a direction `d ≠ 0` of state space in which the physical normal flux changes at the rate `lam d`. -/
def Characteristic (g nx ny : ℝ) (q : State) (lam : ℝ) : Prop :=
  ∃ d : State, (d.h ≠ 0 ∨ d.hu ≠ 0 ∨ d.hv ≠ 0) ∧
    HasDerivAt (fun ε => (fluxF g (q.shift d ε)).c1 * nx + (fluxG g (q.shift d ε)).c1 * ny) (lam * d.h) 0 ∧
    HasDerivAt (fun ε => (fluxF g (q.shift d ε)).c2 * nx + (fluxG g (q.shift d ε)).c2 * ny) (lam * d.hu) 0 ∧
    HasDerivAt (fun ε => (fluxF g (q.shift d ε)).c3 * nx + (fluxG g (q.shift d ε)).c3 * ny) (lam * d.hv) 0

theorem characteristic_iff (g nx ny : ℝ) (q : State) (hh : 0 < q.h) (lam : ℝ) (d : State) :
    (HasDerivAt (fun ε => (fluxF g (q.shift d ε)).c1 * nx + (fluxG g (q.shift d ε)).c1 * ny) (lam * d.h) 0 ↔ d.hu * nx + d.hv * ny = lam * d.h) ∧
    (HasDerivAt (fun ε => (fluxF g (q.shift d ε)).c2 * nx + (fluxG g (q.shift d ε)).c2 * ny) (lam * d.hu) 0 ↔
      d.hu * (q.hu / q.h * nx + q.hv / q.h * ny) + q.hu / q.h * (d.hu * nx + d.hv * ny) - q.hu / q.h * (q.hu / q.h * nx + q.hv / q.h * ny) * d.h + g * q.h * nx * d.h = lam * d.hu) ∧
    (HasDerivAt (fun ε => (fluxF g (q.shift d ε)).c3 * nx + (fluxG g (q.shift d ε)).c3 * ny) (lam * d.hv) 0 ↔
      d.hv * (q.hu / q.h * nx + q.hv / q.h * ny) + q.hv / q.h * (d.hu * nx + d.hv * ny) - q.hv / q.h * (q.hu / q.h * nx + q.hv / q.h * ny) * d.h + g * q.h * ny * d.h = lam * d.hv) := by
  have lin : ∀ a b : ℝ, HasDerivAt (fun ε : ℝ => a + ε * b) b 0 := fun a b => by
    simpa using ((hasDerivAt_id (0 : ℝ)).mul_const b).const_add a
  have hne : (q.h + 0 * d.h) ≠ 0 := by rw [zero_mul, add_zero]; exact hh.ne'
  have hH := lin q.h d.h
  have hU := lin q.hu d.hu
  have hV := lin q.hv d.hv
  have e1 := (hU.mul_const nx).add (hV.mul_const ny)
  have e2 := ((((hU.mul hU).div hH hne).add (((hH.const_mul (0.5 * g)).mul hH))).mul_const nx).add (((hU.mul hV).div hH hne).mul_const ny)
  have e3 := (((hU.mul hV).div hH hne).mul_const nx).add ((((hV.mul hV).div hH hne).add (((hH.const_mul (0.5 * g)).mul hH))).mul_const ny)
  have uniq : ∀ {f : ℝ → ℝ} {a : ℝ} (b c : ℝ), HasDerivAt f a 0 → a = c → (HasDerivAt f b 0 ↔ c = b) := by
    intro f a b c h hac
    exact ⟨fun h2 => hac ▸ h.unique h2, fun h2 => by rw [← h2, ← hac]; exact h⟩
  have hh' := hh.ne'
  refine ⟨uniq _ _ e1 rfl, uniq _ _ e2 ?_, uniq _ _ e3 ?_⟩
  · simp only [Pi.mul_apply, zero_mul, add_zero]
    field_simp
    ring
  · simp only [Pi.mul_apply, zero_mul, add_zero]
    field_simp
    ring

/-- **C51, speed.** The speed which scales the dissipation is the largest absolute value of a characteristic speed of the shallow water equations over all directions: it bounds the characteristic
speeds in every direction, and is one of them in the direction of the flow. -/
theorem C51_speed (g : ℝ) (hg : 0 ≤ g) (q : State) (hh : 0 < q.h) :
    (∀ nx ny lam, nx * nx + ny * ny = 1 → Characteristic g nx ny q lam → |lam| ≤ speed g q) ∧
    ∃ nx ny, nx * nx + ny * ny = 1 ∧ Characteristic g nx ny q (speed g q) := by
  obtain ⟨u, hu⟩ : ∃ u, u = q.hu / q.h := ⟨_, rfl⟩
  obtain ⟨v, hv⟩ : ∃ v, v = q.hv / q.h := ⟨_, rfl⟩
  have hgh : 0 ≤ g * q.h := by positivity
  have hc2 : √(g * q.h) * √(g * q.h) = g * q.h := Real.mul_self_sqrt hgh
  have hs2 : √(u * u + v * v) * √(u * u + v * v) = u * u + v * v := Real.mul_self_sqrt (by nlinarith [mul_self_nonneg u, mul_self_nonneg v])
  have hs0 := Real.sqrt_nonneg (u * u + v * v)
  have hc0 := Real.sqrt_nonneg (g * q.h)
  have hsp : speed g q = √(u * u + v * v) + √(g * q.h) := by rw [hu, hv]; rfl
  rw [hsp]
  set s := √(u * u + v * v)
  set c := √(g * q.h)
  constructor
  · rintro nx ny lam hn ⟨d, hd, h1, h2, h3⟩
    obtain ⟨i1, i2, i3⟩ := characteristic_iff g nx ny q hh lam d
    rw [i1] at h1
    rw [i2] at h2
    rw [i3] at h3
    rw [← hu, ← hv] at h2 h3
    have hun : |u * nx + v * ny| ≤ s := by
      apply abs_le_of_sq_le_sq _ hs0
      nlinarith [sq_nonneg (u * ny - v * nx)]
    have key : |lam - (u * nx + v * ny)| ≤ c := by
      by_cases hdh : d.h = 0
      · have hw : d.hu * nx + d.hv * ny = 0 := by rw [h1, hdh, mul_zero]
        rw [hw, hdh] at h2 h3
        have a2 : d.hu * (lam - (u * nx + v * ny)) = 0 := by linear_combination -h2
        have a3 : d.hv * (lam - (u * nx + v * ny)) = 0 := by linear_combination -h3
        have : lam - (u * nx + v * ny) = 0 := by
          rcases hd with hd | hd | hd
          · exact absurd hdh hd
          · exact (mul_eq_zero.1 a2).resolve_left hd
          · exact (mul_eq_zero.1 a3).resolve_left hd
        rw [this, abs_zero]
        exact hc0
      · have : d.h * ((lam - (u * nx + v * ny)) ^ 2 - c * c) = 0 := by
          rw [hc2]
          linear_combination (-nx) * h2 + (-ny) * h3 + (2 * (u * nx + v * ny) - lam) * h1 + (g * q.h * d.h) * hn
        have h4 := (mul_eq_zero.1 this).resolve_left hdh
        apply abs_le_of_sq_le_sq _ hc0
        linarith
    rw [abs_le] at *
    constructor <;> linarith [hun.1, hun.2, key.1, key.2]
  · obtain ⟨nx, ny, hn, a, b⟩ : ∃ nx ny : ℝ, nx * nx + ny * ny = 1 ∧ u = s * nx ∧ v = s * ny := by
      by_cases h0 : s = 0
      · rw [h0] at hs2
        exact ⟨1, 0, by norm_num, by rw [h0]; nlinarith [mul_self_nonneg u, mul_self_nonneg v], by rw [h0]; nlinarith [mul_self_nonneg u, mul_self_nonneg v]⟩
      · refine ⟨u / s, v / s, ?_, by field_simp, by field_simp⟩
        rw [div_mul_div_comm, div_mul_div_comm, ← add_div, hs2]
        exact div_self (by rw [← hs2]; exact mul_self_ne_zero.2 h0)
    refine ⟨nx, ny, hn, ⟨1, u + c * nx, v + c * ny⟩, Or.inl one_ne_zero, ?_⟩
    obtain ⟨i1, i2, i3⟩ := characteristic_iff g nx ny q hh (s + c) ⟨1, u + c * nx, v + c * ny⟩
    rw [i1, i2, i3, ← hu, ← hv, a, b]
    refine ⟨?_, ?_, ?_⟩
    · linear_combination (s + c) * hn
    · linear_combination nx * (s * s + 2 * s * c) * hn - nx * hc2
    · linear_combination ny * (s * s + 2 * s * c) * hn - ny * hc2

/-- A state moving along the x axis, of depth 10. -/
example : (0 : ℝ) ≤ 9.81 ∧ 0 < (⟨10, 5, 0⟩ : State).h := by norm_num

/-! ### C52 -/

/-- **C52.** The drag and Coriolis terms of the C++ solver do not add kinetic energy: their power is `-CD |u|^3`. -/
theorem C52_drag (CD f : ℝ) (hC : 0 ≤ CD) (q : State) (hh : 0 < q.h) :
    q.hu / q.h * (sourceCpp CD f q).1 + q.hv / q.h * (sourceCpp CD f q).2 = -CD * √((q.hu / q.h) ^ 2 + (q.hv / q.h) ^ 2) ^ 3 ∧
    q.hu / q.h * (sourceCpp CD f q).1 + q.hv / q.h * (sourceCpp CD f q).2 ≤ 0 := by
  have key : q.hu / q.h * (sourceCpp CD f q).1 + q.hv / q.h * (sourceCpp CD f q).2 = -CD * √((q.hu / q.h) ^ 2 + (q.hv / q.h) ^ 2) ^ 3 := by
    have e : q.hu / q.h * (q.hu / q.h) + q.hv / q.h * (q.hv / q.h) = (q.hu / q.h) ^ 2 + (q.hv / q.h) ^ 2 := by ring
    simp only [sourceCpp, e]
    have hs : √((q.hu / q.h) ^ 2 + (q.hv / q.h) ^ 2) ^ 2 = (q.hu / q.h) ^ 2 + (q.hv / q.h) ^ 2 := Real.sq_sqrt (by positivity)
    set n := √((q.hu / q.h) ^ 2 + (q.hv / q.h) ^ 2)
    have hc : q.hu / q.h * (f * q.hv) + q.hv / q.h * (-f * q.hu) = 0 := by field_simp; ring
    linear_combination hc + CD * n * hs
  refine ⟨key, ?_⟩
  rw [key]
  have := pow_nonneg (Real.sqrt_nonneg ((q.hu / q.h) ^ 2 + (q.hv / q.h) ^ 2)) 3
  nlinarith

/-- In the Python version the power of drag and Coriolis terms is `CD |u| (v² - u²)`: with the sign error in the second momentum equation ... -/
theorem C52_python_power (CD f : ℝ) (q : State) (hh : 0 < q.h) :
    q.hu / q.h * (sourcePy CD f q).1 + q.hv / q.h * (sourcePy CD f q).2 =
      CD * √((q.hu / q.h) ^ 2 + (q.hv / q.h) ^ 2) * ((q.hv / q.h) ^ 2 - (q.hu / q.h) ^ 2) := by
  have e : q.hu / q.h * (q.hu / q.h) + q.hv / q.h * (q.hv / q.h) = (q.hu / q.h) ^ 2 + (q.hv / q.h) ^ 2 := by ring
  simp only [sourcePy, e]
  have hc : q.hu / q.h * (f * q.hv) - q.hv / q.h * (f * q.hu) = 0 := by field_simp; ring
  linear_combination hc

/-- ... drag accelerates a flow along the y axis: C52 is false for swhelpers/rhs.py. -/
theorem C52_python_wrong (CD f : ℝ) (hC : 0 < CD) (h v : ℝ) (hh : 0 < h) (hv : v ≠ 0) :
    0 < (⟨h, 0, h * v⟩ : State).hu / h * (sourcePy CD f ⟨h, 0, h * v⟩).1 + (⟨h, 0, h * v⟩ : State).hv / h * (sourcePy CD f ⟨h, 0, h * v⟩).2 := by
  have := C52_python_power CD f ⟨h, 0, h * v⟩ hh
  rw [this]
  have e : h * v / h = v := by field_simp
  simp only [e, zero_div]
  have hs : 0 < √((0 : ℝ) ^ 2 + v ^ 2) := Real.sqrt_pos.2 (by positivity)
  have : 0 < v ^ 2 := by positivity
  have h2 : v ^ 2 - 0 ^ 2 = v ^ 2 := by ring
  rw [h2]
  positivity

/-! ### C53 -/

theorem colMin_le_aux (l : List ℝ) (a : ℝ) : l.foldl min a ≤ a ∧ ∀ v ∈ l, l.foldl min a ≤ v := by
  induction l generalizing a with
  | nil => simp
  | cons b l ih =>
    obtain ⟨h1, h2⟩ := ih (min a b)
    refine ⟨h1.trans (min_le_left _ _), fun v hv => ?_⟩
    rcases List.mem_cons.1 hv with rfl | hv
    · exact h1.trans (min_le_right _ _)
    · exact h2 v hv

theorem sum_ge (l : List ℝ) (m : ℝ) (h : ∀ v ∈ l, m ≤ v) : m * l.length ≤ l.sum := by
  induction l with
  | nil => simp
  | cons a l ih =>
    have h1 := ih fun v hv => h v (List.mem_cons_of_mem _ hv)
    have h2 := h a List.mem_cons_self
    rw [List.length_cons, List.sum_cons]
    push_cast
    linarith

theorem colMin_le_mean (l : List ℝ) (hl : l ≠ []) : colMin l ≤ mean l := by
  have := sum_ge l (colMin l) (colMin_le_aux l _).2
  have hp : (0 : ℝ) < l.length := by exact_mod_cast List.length_pos_of_ne_nil hl
  exact (le_div_iff₀ hp).2 this

theorem sum_affine (l : List ℝ) (a b : ℝ) : (l.map fun v => a + b * (v - a)).sum = a * l.length + b * (l.sum - a * l.length) := by
  induction l with
  | nil => simp
  | cons c l ih =>
    simp only [List.map_cons, List.sum_cons, List.length_cons, ih]
    push_cast; ring

/-- **C53, means.** Whatever the state, the limiter leaves the means of the three fields unchanged. -/
theorem C53_means (h hu hv : List ℝ) (h0 : h ≠ []) (h1 : hu ≠ []) (h2 : hv ≠ []) :
    mean (limiter h hu hv).1 = mean h ∧ mean (limiter h hu hv).2.1 = mean hu ∧ mean (limiter h hu hv).2.2 = mean hv := by
  have key : ∀ (c : List ℝ) (th : ℝ), c ≠ [] → mean (scaleCol th c) = mean c := by
    intro c th hc
    have hp : (c.length : ℝ) ≠ 0 := by exact_mod_cast (List.length_pos_of_ne_nil hc).ne'
    have e : mean c * c.length = c.sum := div_mul_cancel₀ _ hp
    have e2 : mean (scaleCol th c) = (mean c * c.length + th * (c.sum - mean c * c.length)) / c.length := by
      rw [← sum_affine]
      simp only [mean, scaleCol, List.length_map]
    rw [e2, e, sub_self, mul_zero, add_zero]
    rfl
  exact ⟨key _ _ h0, key _ _ h1, key _ _ h2⟩

/-- The scaling factor is 1 for every element with mean depth above `9e-4`, dry or not: the cut-off `1e-3` of the minimum exceeds the regularisation `1e-4`. -/
theorem theta_one (h : List ℝ) (h0 : h ≠ []) (hm : 9e-4 < mean h) : theta h = 1 := by
  have hmin := colMin_le_mean h h0
  unfold theta
  simp only
  set m := if colMin h < 1e-3 then (1e-3 : ℝ) else colMin h with hmdef
  have m1 : (1e-3 : ℝ) ≤ m := by rw [hmdef]; split_ifs <;> linarith
  have m2 : m < mean h + 1e-4 := by rw [hmdef]; split_ifs <;> norm_num at * <;> linarith
  have hd : 0 < mean h - m + 1e-4 := by linarith
  have : 1 < mean h / (mean h - m + 1e-4) := by
    rw [lt_div_iff₀ hd]
    norm_num at m1 ⊢
    linarith
  rw [if_pos this]

/-- **C53, the limiter does nothing.** Every element with mean depth above `9e-4` is returned unchanged, however negative its depth is at some nodes. -/
theorem C53_no_limiting (h hu hv : List ℝ) (h0 : h ≠ []) (hm : 9e-4 < mean h) : limiter h hu hv = (h, hu, hv) := by
  have key : ∀ c : List ℝ, scaleCol 1 c = c := by
    intro c
    unfold scaleCol
    conv_rhs => rw [← List.map_id c]
    apply List.map_congr_left
    intro v _
    simp
  simp only [limiter, theta_one h h0 hm, key]

/-- **C53 is false:** for a positive mean depth the limiter returns a negative depth. -/
theorem C53_negative_depth : ∃ h : List ℝ, mean h = 1 ∧ -1 ∈ (limiter h h h).1 := by
  refine ⟨[-1, 3], by norm_num [mean], ?_⟩
  rw [C53_no_limiting _ _ _ (by simp) (by norm_num [mean])]
  simp

/-- What is left of C53: depths that are all at least `1e-3` stay as they are, so they stay positive. -/
theorem C53_positivity_partial (h hu hv : List ℝ) (h0 : h ≠ []) (hp : ∀ v ∈ h, 1e-3 ≤ v) : limiter h hu hv = (h, hu, hv) := by
  apply C53_no_limiting _ _ _ h0
  have := sum_ge h 1e-3 hp
  have hl : (0 : ℝ) < h.length := by exact_mod_cast List.length_pos_of_ne_nil h0
  have h3 : (1e-3 : ℝ) ≤ mean h := (le_div_iff₀ hl).2 this
  norm_num at h3 ⊢
  linarith

/-- Elements meeting the hypotheses, with a negative depth. -/
example : ([-1, 3] : List ℝ) ≠ [] ∧ 9e-4 < mean [-1, 3] := ⟨by simp, by norm_num [mean]⟩

/-! ### C54 -/

/-- What is left of C54: for arguments of opposite sign (or one zero) the result is 0, for two different positive arguments it is the smaller one. -/
theorem C54_minmod_partial (a b : ℝ) : (a * b ≤ 0 → minmod a b = 0) ∧ (0 < a → 0 < b → a ≠ b → minmod a b = min a b) := by
  constructor
  · intro h
    unfold minmod
    rw [if_neg (by rintro ⟨-, h'⟩; linarith), if_neg (by rintro ⟨-, h'⟩; linarith)]
  · intro ha hb hne
    have hab : a * b > 0 := mul_pos ha hb
    unfold minmod
    rcases lt_or_gt_of_ne hne with h | h
    · rw [if_pos ⟨h, hab⟩, min_eq_left h.le]
    · rw [if_neg (by rintro ⟨h', -⟩; linarith), if_pos ⟨h, hab⟩, min_eq_right h.le]

/-- **C54 is false** for every pair of different negative numbers (the result is the one of larger magnitude) and for every pair of equal nonzero numbers (the result is 0). -/
theorem C54_minmod_wrong (a b : ℝ) (ha : a < 0) (hb : b < 0) (hne : a ≠ b) (c : ℝ) (hc : c ≠ 0) :
    |minmod a b| = max |a| |b| ∧ |minmod a b| ≠ min |a| |b| ∧ minmod c c = 0 ∧ minmod c c ≠ c := by
  have hab : a * b > 0 := mul_pos_of_neg_of_neg ha hb
  have hcc : minmod c c = 0 := by
    unfold minmod
    rw [if_neg (by rintro ⟨h', -⟩; linarith), if_neg (by rintro ⟨h', -⟩; linarith)]
  have h1 : |minmod a b| = max |a| |b| := by
    unfold minmod
    rw [abs_of_neg ha, abs_of_neg hb]
    rcases lt_or_gt_of_ne hne with h | h
    · rw [if_pos ⟨h, hab⟩, max_eq_left (by linarith), abs_of_neg ha]
    · rw [if_neg (by rintro ⟨h', -⟩; linarith), if_pos ⟨h, hab⟩, max_eq_right (by linarith), abs_of_neg hb]
  refine ⟨h1, ?_, hcc, by rw [hcc]; exact hc.symm⟩
  rw [h1, abs_of_neg ha, abs_of_neg hb]
  rcases lt_or_gt_of_ne hne with h | h
  · rw [max_eq_left (by linarith), min_eq_right (by linarith)]; intro e; linarith
  · rw [max_eq_right (by linarith), min_eq_left (by linarith)]; intro e; linarith

end Blitzdg.SW
