import Verif.Time.FloatClock
import Verif.Time.LSERK4Props
import Mathlib.Tactic.Linarith
import Mathlib.Tactic.NormNum
import Mathlib.Tactic.FieldSimp
import Mathlib.Tactic.Positivity

/-!
C128: clocks with rounding.
-/

namespace Blitzdg.Time

/-! ### Rounding -/

section
variable {R : Type} [Field R] [LinearOrder R] [IsStrictOrderedRing R] [FloorRing R]

theorem roundEven_err (y : R) : |(roundEven y : R) - y| ≤ 1 / 2 := by
  have h1 := Int.floor_le y
  have h2 := Int.lt_floor_add_one y
  unfold roundEven
  simp only
  rw [abs_le]
  split_ifs with a b c <;> push_cast <;> constructor <;> linarith

omit [IsStrictOrderedRing R] in
theorem roundEven_ge (y : R) : Int.floor y ≤ roundEven y := by
  unfold roundEven
  simp only
  split_ifs <;> omega

omit [IsStrictOrderedRing R] in
theorem roundEven_le (y : R) : roundEven y ≤ Int.floor y + 1 := by
  unfold roundEven
  simp only
  split_ifs <;> omega

theorem roundEven_int (z : Int) : roundEven (z : R) = z := by
  unfold roundEven
  simp

theorem roundEven_mono {x y : R} (h : x ≤ y) : roundEven x ≤ roundEven y := by
  rcases lt_or_eq_of_le (Int.floor_le_floor h) with h' | h'
  · have := roundEven_le x
    have := roundEven_ge y
    omega
  · unfold roundEven
    simp only
    rw [h']
    split_ifs <;> first | omega | (exfalso; linarith)

theorem two_zpow_pos (z : Int) : (0 : R) < 2 ^ z := zpow_pos (by norm_num) _

omit [IsStrictOrderedRing R] in
/-- Rounding with the exponent of the argument in view. -/
theorem fl_def (p : Nat) {x : R} (hx : x ≠ 0) : fl p x = (roundEven (x / 2 ^ (Int.log 2 |x| - (p - 1) : Int)) : R) * 2 ^ (Int.log 2 |x| - (p - 1) : Int) := by
  unfold fl
  rw [if_neg hx]

/-- **C128: rounding changes a number by at most the fraction `2^-p` of it.** -/
theorem C128_rounding (p : Nat) (x : R) : |fl p x - x| ≤ 2 ^ (-(p : Int)) * |x| := by
  by_cases hx : x = 0
  · subst hx; simp [fl]
  rw [fl_def p hx]
  set e : Int := Int.log 2 |x| - (p - 1) with he
  have h1 := roundEven_err (x / 2 ^ e)
  have hp := two_zpow_pos (R := R) e
  have h2 : (roundEven (x / 2 ^ e) : R) * 2 ^ e - x = ((roundEven (x / 2 ^ e) : R) - x / 2 ^ e) * 2 ^ e := by
    field_simp
  rw [h2, abs_mul, abs_of_pos hp]
  have h3 : (2 : R) ^ (Int.log 2 |x|) ≤ |x| := by
    have := Int.zpow_log_le_self (R := R) (b := 2) (by norm_num) (abs_pos.2 hx)
    exact_mod_cast this
  have h4 : (2 : R) ^ e = 2 ^ (-(p : Int)) * 2 * 2 ^ (Int.log 2 |x|) := by
    rw [← zpow_add_one₀ (by norm_num), ← zpow_add₀ (by norm_num)]
    congr 1
    rw [he]; ring
  calc _ ≤ 1 / 2 * (2 : R) ^ e := by exact mul_le_mul_of_nonneg_right h1 hp.le
    _ = 2 ^ (-(p : Int)) * 2 ^ (Int.log 2 |x|) := by rw [h4]; ring
    _ ≤ _ := mul_le_mul_of_nonneg_left h3 (two_zpow_pos _).le

/-- The rounded value lies in the closed binade of the argument. -/
theorem fl_binade {p : Nat} (hp : 1 ≤ p) {x : R} (hx : 0 < x) : 2 ^ (Int.log 2 x) ≤ fl p x ∧ fl p x ≤ 2 ^ (Int.log 2 x + 1) := by
  rw [fl_def p hx.ne', abs_of_pos hx]
  set e : Int := Int.log 2 x - (p - 1) with he
  have hpe := two_zpow_pos (R := R) e
  have l1 : (2 : R) ^ (Int.log 2 x) ≤ x := by exact_mod_cast Int.zpow_log_le_self (R := R) (b := 2) (by norm_num) hx
  have l2 : x < (2 : R) ^ (Int.log 2 x + 1) := by exact_mod_cast Int.lt_zpow_succ_log_self (R := R) (b := 2) (by norm_num) x
  have e1 : (2 : R) ^ (Int.log 2 x) = ((2 ^ (p - 1) : Int) : R) * 2 ^ e := by
    push_cast
    rw [← zpow_natCast, ← zpow_add₀ (by norm_num)]
    congr 1
    rw [he]; push_cast [Nat.cast_sub hp]; ring
  have e2 : (2 : R) ^ (Int.log 2 x + 1) = ((2 ^ p : Int) : R) * 2 ^ e := by
    push_cast
    rw [← zpow_natCast, ← zpow_add₀ (by norm_num)]
    congr 1
    rw [he]; ring
  constructor
  · rw [e1]
    refine mul_le_mul_of_nonneg_right ?_ hpe.le
    have := roundEven_mono (x := ((2 ^ (p - 1) : Int) : R)) (y := x / 2 ^ e) (by rw [le_div_iff₀ hpe, ← e1]; exact l1)
    rw [roundEven_int] at this
    exact_mod_cast this
  · rw [e2]
    refine mul_le_mul_of_nonneg_right ?_ hpe.le
    have := roundEven_mono (x := x / 2 ^ e) (y := ((2 ^ p : Int) : R)) (by rw [div_le_iff₀ hpe, ← e2]; exact l2.le)
    rw [roundEven_int] at this
    exact_mod_cast this

theorem fl_nonneg {p : Nat} (hp : 1 ≤ p) {x : R} (hx : 0 ≤ x) : 0 ≤ fl p x := by
  rcases hx.lt_or_eq with h | rfl
  · exact (two_zpow_pos _).le.trans (fl_binade hp h).1
  · simp [fl]

/-- **C128: rounding keeps the order of non-negative numbers.** -/
theorem C128_monotone {p : Nat} (hp : 1 ≤ p) {x y : R} (hx : 0 ≤ x) (h : x ≤ y) : fl p x ≤ fl p y := by
  rcases hx.lt_or_eq with hx | rfl
  · have hy := hx.trans_le h
    have hl : Int.log 2 x ≤ Int.log 2 y := Int.log_mono_right hx h
    rcases lt_or_eq_of_le hl with hl | hl
    · exact (fl_binade hp hx).2.trans (le_trans (zpow_le_zpow_right₀ (by norm_num) (by omega)) (fl_binade hp hy).1)
    · rw [fl_def p hx.ne', fl_def p hy.ne', abs_of_pos hx, abs_of_pos hy, hl]
      refine mul_le_mul_of_nonneg_right ?_ (two_zpow_pos _).le
      exact_mod_cast roundEven_mono (div_le_div_of_nonneg_right h (two_zpow_pos _).le)
  · have : fl p (0 : R) = 0 := by simp [fl]
    rw [this]
    exact fl_nonneg hp h

/-- Adding less than half the gap to a power of two leaves it unchanged. -/
theorem fl_stick {p : Nat} (hp : 1 ≤ p) (k : Int) {d : R} (h0 : 0 ≤ d) (hd : d < 2 ^ (k - p)) : fl p (2 ^ k + d) = 2 ^ k := by
  have hk := two_zpow_pos (R := R) k
  have hx : (0 : R) < 2 ^ k + d := by linarith
  have hdk : d < 2 ^ k := hd.trans_le (zpow_le_zpow_right₀ (by norm_num) (by omega))
  have hl : Int.log 2 (2 ^ k + d : R) = k := by
    have a : k ≤ Int.log 2 (2 ^ k + d : R) := by
      rw [← Int.zpow_le_iff_le_log (by norm_num) hx]
      push_cast
      linarith
    have b : Int.log 2 (2 ^ k + d : R) < k + 1 := by
      rw [← Int.lt_zpow_iff_log_lt (by norm_num) hx]
      push_cast
      rw [zpow_add_one₀ (by norm_num)]
      linarith
    omega
  rw [fl_def p hx.ne', abs_of_pos hx, hl]
  set e : Int := k - (p - 1) with he
  have hpe := two_zpow_pos (R := R) e
  have e1 : (2 : R) ^ k = ((2 ^ (p - 1) : Int) : R) * 2 ^ e := by
    push_cast
    rw [← zpow_natCast, ← zpow_add₀ (by norm_num)]
    congr 1
    rw [he]; push_cast [Nat.cast_sub hp]; ring
  have e2 : (2 : R) ^ (k - p : Int) = 1 / 2 * 2 ^ e := by
    rw [show e = (k - p) + 1 by rw [he]; ring, zpow_add_one₀ (by norm_num)]
    ring
  have hq : (2 ^ k + d) / 2 ^ e = ((2 ^ (p - 1) : Int) : R) + d / 2 ^ e := by rw [e1]; field_simp
  have hs : d / 2 ^ e < 1 / 2 := by rw [div_lt_iff₀ hpe, ← e2]; exact hd
  have hs0 : 0 ≤ d / 2 ^ e := div_nonneg h0 hpe.le
  have hr : roundEven ((2 ^ k + d) / 2 ^ e) = 2 ^ (p - 1) := by
    have hf : Int.floor (((2 ^ (p - 1) : Int) : R) + d / 2 ^ e) = 2 ^ (p - 1) := by
      rw [Int.floor_intCast_add, Int.floor_eq_zero_iff.2 ⟨hs0, by linarith⟩, add_zero]
    rw [hq]
    unfold roundEven
    simp only [hf]
    rw [if_pos (by linarith)]
  rw [hr, e1]

end

/-! ### The loop -/

/-- The passes a run makes: `Passes pass rnd t s ds t' s'` says that passes with the step sizes `ds` lead from clock `t` and fields `s` to `t'` and `s'`, all clocks before the last being below `T`. -/
inductive Passes {S : Type*} (rnd : ℝ → ℝ) (T : ℝ) (pass : ℝ → S → Option (ℝ × S)) : ℝ → S → List ℝ → ℝ → S → Prop
  | nil (t s) : Passes rnd T pass t s [] t s
  | cons {t s dt s' ds t' s''} : t < T → pass t s = some (dt, s') → Passes rnd T pass (rnd (t + dt)) s' ds t' s'' → Passes rnd T pass t s (dt :: ds) t' s''

variable {S : Type*}

/-- The loop ends as soon as the fuel exceeds the number of passes left, by the instability error or with the clock at or past the final time. -/
theorem drive_from (p : ℕ) (hp : 1 ≤ p) (T m M : ℝ) (pass : ℝ → S → Option (ℝ × S)) (hm : ∀ t s dt s', pass t s = some (dt, s') → m ≤ dt ∧ dt ≤ M) (δ : ℝ) (hδ : δ = 2 ^ (-(p : ℤ)) * (T + M)) (hδm : δ < m) :
    ∀ (n : ℕ) (t : ℝ) (c : ℕ) (s : S), 0 ≤ t → T - t ≤ n * (m - δ) → ∀ fuel, n < fuel → drive (fl p) T pass fuel t c s = some none ∨
      ∃ t' ds s', drive (fl p) T pass fuel t c s = some (some (t', c + ds.length, s')) ∧ Passes (fl p) T pass t s ds t' s' ∧ T ≤ t' ∧ |t' - t - ds.sum| ≤ ds.length * δ ∧ ds.length ≤ n ∧
        (t < T → t' < T + M + δ) ∧ ds.length * (m - δ) ≤ t' - t ∧ t' - t ≤ ds.length * (M + δ) ∧ (t < T → (ds.length - 1 : ℝ) * (m - δ) < T - t) := by
  have hend : ∀ (t : ℝ) (c : ℕ) (s : S) (n : ℕ), ¬ t < T → ∀ fuel, n < fuel → ∃ t' ds s', drive (fl p) T pass fuel t c s = some (some (t', c + ds.length, s')) ∧ Passes (fl p) T pass t s ds t' s' ∧ T ≤ t' ∧
      |t' - t - ds.sum| ≤ ds.length * δ ∧ ds.length ≤ n ∧
        (t < T → t' < T + M + δ) ∧ ds.length * (m - δ) ≤ t' - t ∧ t' - t ≤ ds.length * (M + δ) ∧ (t < T → (ds.length - 1 : ℝ) * (m - δ) < T - t) := by
    intro t c s n h fuel hf
    obtain ⟨k, rfl⟩ : ∃ k, fuel = k + 1 := ⟨fuel - 1, by omega⟩
    exact ⟨t, [], s, by simp [drive, h], .nil t s, not_lt.1 h, by simp, by simp, fun h' => absurd h' h, by simp, by simp, fun h' => absurd h' h⟩
  intro n
  induction n with
  | zero =>
    intro t c s h0 hT fuel hf
    exact Or.inr (hend t c s 0 (by push_cast at hT; linarith) fuel hf)
  | succ n ih =>
    intro t c s h0 hT fuel hf
    by_cases h : t < T
    swap
    · exact Or.inr (hend t c s _ h fuel hf)
    obtain ⟨k, rfl⟩ : ∃ k, fuel = k + 1 := ⟨fuel - 1, by omega⟩
    cases hps : pass t s with
    | none => left; simp [drive, h, hps]
    | some r =>
      obtain ⟨dt, s'⟩ := r
      obtain ⟨h1, h2⟩ := hm t s dt s' hps
      have hδ0 : 0 < δ := by
        by_contra hc
        have hM : 0 < T + M ∨ T + M ≤ 0 := lt_or_ge 0 _
        rcases hM with hM | hM
        · exact hc (by rw [hδ]; exact mul_pos (two_zpow_pos _) hM)
        · -- then `M ≤ -T < 0 ≤ ...`, but `m ≤ M` and `δ = u (T + M) ≥ T + M > M`
          have hu1 : (2 : ℝ) ^ (-(p : ℤ)) ≤ 1 := zpow_le_one_of_nonpos₀ (by norm_num) (by omega)
          have : T + M ≤ δ := by rw [hδ]; nlinarith
          linarith
      have hdt : 0 < dt := by linarith
      have hr := C128_rounding p (t + dt)
      rw [abs_of_nonneg (show (0 : ℝ) ≤ t + dt by linarith)] at hr
      have hr' : |fl p (t + dt) - (t + dt)| ≤ δ := by
        refine hr.trans ?_
        rw [hδ]
        exact mul_le_mul_of_nonneg_left (by linarith) (two_zpow_pos _).le
      have ha := abs_le.1 hr'
      have hd : drive (fl p) T pass (k + 1) t c s = drive (fl p) T pass k (fl p (t + dt)) (c + 1) s' := by simp [drive, h, hps]
      rw [hd]
      have hlow : T - fl p (t + dt) ≤ n * (m - δ) := by push_cast at hT; linarith [ha.1]
      rcases ih (fl p (t + dt)) (c + 1) s' (fl_nonneg hp (by linarith)) hlow k (by omega) with h' | ⟨t', ds, s'', a1, a2, a3, a4, a5, a6, a7, a8, a9⟩
      · exact Or.inl h'
      · refine Or.inr ⟨t', dt :: ds, s'', ?_, .cons h hps a2, a3, ?_, by simp; omega, fun _ => ?_, ?_, ?_, fun _ => ?_⟩
        · rw [a1]; simp; omega
        · rw [List.sum_cons, List.length_cons]
          push_cast
          have e : t' - t - (dt + ds.sum) = (t' - fl p (t + dt) - ds.sum) + (fl p (t + dt) - (t + dt)) := by ring
          rw [e]
          exact (abs_add_le _ _).trans (by linarith)
        · by_cases h3 : fl p (t + dt) < T
          · exact a6 h3
          · have : ds = [] := by
              cases a2 with
              | nil => rfl
              | cons h4 _ _ => exact absurd h4 h3
            subst this
            cases a2
            linarith [ha.2]
        · rw [List.length_cons]; push_cast; linarith [ha.1]
        · rw [List.length_cons]; push_cast; linarith [ha.2]
        · rw [List.length_cons]; push_cast
          by_cases h3 : fl p (t + dt) < T
          · have := a9 h3; linarith [ha.1]
          · have : ds = [] := by
              cases a2 with
              | nil => rfl
              | cons h4 _ _ => exact absurd h4 h3
            subst this
            simp
            linarith

/-- **C128: the time loop ends with a rounding clock.** If every step lies between `m` and `M` and the rounding error `δ = 2^-p (T + M)` of the last clocks is below `m`, then after at most `⌈T / (m - δ)⌉` passes the loop ends, by the
instability error or with the clock in `[T, T + M + δ)`. The number of passes is at least `⌈T / (M + δ)⌉`, and the clock differs from the sum of the steps by at most `δ` per pass. -/
theorem C128_ends (p : ℕ) (hp : 1 ≤ p) (T m M : ℝ) (hT : 0 < T) (pass : ℝ → S → Option (ℝ × S)) (hm : ∀ t s dt s', pass t s = some (dt, s') → m ≤ dt ∧ dt ≤ M) (hδ : 2 ^ (-(p : ℤ)) * (T + M) < m) (s : S)
    (fuel : ℕ) (hf : ⌈T / (m - 2 ^ (-(p : ℤ)) * (T + M))⌉₊ < fuel) :
    drive (fl p) T pass fuel 0 0 s = some none ∨
      ∃ t' ds s', drive (fl p) T pass fuel 0 0 s = some (some (t', ds.length, s')) ∧ Passes (fl p) T pass 0 s ds t' s' ∧ T ≤ t' ∧ t' < T + M + 2 ^ (-(p : ℤ)) * (T + M) ∧
        |t' - ds.sum| ≤ ds.length * (2 ^ (-(p : ℤ)) * (T + M)) ∧ ⌈T / (M + 2 ^ (-(p : ℤ)) * (T + M))⌉₊ ≤ ds.length ∧ ds.length ≤ ⌈T / (m - 2 ^ (-(p : ℤ)) * (T + M))⌉₊ := by
  set δ := (2 : ℝ) ^ (-(p : ℤ)) * (T + M) with hδd
  have hq : T - 0 ≤ (⌈T / (m - δ)⌉₊ : ℝ) * (m - δ) := by
    rw [sub_zero, ← div_le_iff₀ (by linarith)]
    exact Nat.le_ceil _
  rcases drive_from p hp T m M pass hm δ hδd hδ _ 0 0 s (le_refl _) hq fuel hf with h | ⟨t', ds, s', a1, a2, a3, a4, a5, a6, a7, a8, a9⟩
  · exact Or.inl h
  · refine Or.inr ⟨t', ds, s', by rw [a1, zero_add], a2, a3, a6 hT, by simpa using a4, ?_, a5⟩
    have hpos : 0 < M + δ := by
      by_contra hc
      have : (ds.length : ℝ) * (M + δ) ≤ 0 := mul_nonpos_of_nonneg_of_nonpos (by positivity) (not_lt.1 hc)
      linarith
    rw [Nat.ceil_le, div_le_iff₀ hpos]
    linarith

/-- **C128: with a constant step the number of passes is the planned one up to one.** If twice `T δ` is at most `dt (dt - δ)` (for doubles: up to about 10^7 steps) a run that ends regularly has made `⌈T / dt⌉` passes, one more or one
fewer. -/
theorem C128_off_by_one (p : ℕ) (hp : 1 ≤ p) (T dt : ℝ) (hT : 0 < T) (pass : ℝ → S → Option (ℝ × S)) (hm : ∀ t s d s', pass t s = some (d, s') → d = dt) (hδ : 2 ^ (-(p : ℤ)) * (T + dt) < dt)
    (hs : T * (2 ^ (-(p : ℤ)) * (T + dt)) ≤ dt * (dt - 2 ^ (-(p : ℤ)) * (T + dt))) (s : S) (fuel : ℕ) (hf : ⌈T / dt⌉₊ + 1 < fuel) :
    drive (fl p) T pass fuel 0 0 s = some none ∨
      ∃ t' n s', drive (fl p) T pass fuel 0 0 s = some (some (t', n, s')) ∧ T ≤ t' ∧ n ≤ ⌈T / dt⌉₊ + 1 ∧ ⌈T / dt⌉₊ ≤ n + 1 := by
  set δ := (2 : ℝ) ^ (-(p : ℤ)) * (T + dt) with hδd
  have hdt : 0 < dt := by
    have : (2 : ℝ) ^ (-(p : ℤ)) * T ≥ 0 := mul_nonneg (two_zpow_pos _).le hT.le
    have hu : (2 : ℝ) ^ (-(p : ℤ)) < 1 := zpow_lt_one_of_neg₀ (by norm_num) (by omega)
    by_contra hc
    have : (2 : ℝ) ^ (-(p : ℤ)) * dt ≥ dt := by nlinarith
    rw [hδd] at hδ
    have h2 : (2 : ℝ) ^ (-(p : ℤ)) * (T + dt) = 2 ^ (-(p : ℤ)) * T + 2 ^ (-(p : ℤ)) * dt := by ring
    linarith
  have hδ0 : 0 < δ := mul_pos (two_zpow_pos _) (by linarith)
  have hup : ⌈T / (dt - δ)⌉₊ ≤ ⌈T / dt⌉₊ + 1 := by
    rw [Nat.ceil_le]
    push_cast
    have h1 : T / (dt - δ) ≤ T / dt + 1 := by
      rw [div_add_one hdt.ne', div_le_div_iff₀ (by linarith) hdt]
      linarith
    linarith [Nat.le_ceil (T / dt)]
  have hlow : ⌈T / dt⌉₊ ≤ ⌈T / (dt + δ)⌉₊ + 1 := by
    rw [Nat.ceil_le]
    push_cast
    have h1 : T / dt ≤ T / (dt + δ) + 1 := by
      rw [div_add_one (by linarith), div_le_div_iff₀ hdt (by linarith)]
      nlinarith
    linarith [Nat.le_ceil (T / (dt + δ))]
  rcases C128_ends p hp T dt dt hT pass (fun t s d s' h => by rw [hm t s d s' h]; exact ⟨le_refl _, le_refl _⟩) hδ s fuel (by rw [← hδd]; omega) with h | ⟨t', ds, s', a1, -, a3, -, -, a6, a7⟩
  · exact Or.inl h
  rw [← hδd] at a6 a7
  exact Or.inr ⟨t', ds.length, s', a1, a3, by omega, by omega⟩

/-- The passes behind a run that has ended. -/
theorem drive_passes (rnd : ℝ → ℝ) (T : ℝ) (pass : ℝ → S → Option (ℝ × S)) : ∀ (fuel : ℕ) (t : ℝ) (c : ℕ) (s : S) {t' : ℝ} {n : ℕ} {s' : S}, drive rnd T pass fuel t c s = some (some (t', n, s')) →
    ∃ ds, n = c + ds.length ∧ Passes rnd T pass t s ds t' s' := by
  intro fuel
  induction fuel with
  | zero => intro t c s t' n s' h; cases h
  | succ k ih =>
    intro t c s t' n s' h
    unfold drive at h
    by_cases ht : t < T
    · simp only [ht, if_true] at h
      cases hp : pass t s with
      | none => rw [hp] at h; simp at h
      | some r =>
        obtain ⟨dt, s1⟩ := r
        rw [hp] at h
        obtain ⟨ds, h1, h2⟩ := ih _ _ _ h
        exact ⟨dt :: ds, by rw [h1, List.length_cons]; ring, .cons ht hp h2⟩
    · simp only [ht, if_false, Option.some.injEq, Prod.mk.injEq] at h
      obtain ⟨rfl, rfl, rfl⟩ := h
      exact ⟨[], rfl, .nil _ _⟩

/-- **C128, refuted: the time loop ends.** Whatever the number of digits, if the steps are all below `2^(k-p)` the clock never passes `2^k`, so that with a final time above `2^k` the loop runs for ever (or until the instability error). -/
theorem C128_never_ends (p : ℕ) (hp : 1 ≤ p) (k : ℤ) (T : ℝ) (hT : 2 ^ k < T) (pass : ℝ → S → Option (ℝ × S)) (hm : ∀ t s dt s', pass t s = some (dt, s') → 0 ≤ dt ∧ dt < 2 ^ (k - p)) (s : S) (fuel : ℕ) :
    drive (fl p) T pass fuel 0 0 s = none ∨ drive (fl p) T pass fuel 0 0 s = some none := by
  have key : ∀ (fuel : ℕ) (t : ℝ) (c : ℕ) (s : S), 0 ≤ t → t ≤ 2 ^ k → drive (fl p) T pass fuel t c s = none ∨ drive (fl p) T pass fuel t c s = some none := by
    intro fuel
    induction fuel with
    | zero => intro t c s _ _; exact Or.inl rfl
    | succ n ih =>
      intro t c s h0 h1
      have h : t < T := by linarith
      cases hps : pass t s with
      | none => right; simp [drive, h, hps]
      | some r =>
        obtain ⟨dt, s'⟩ := r
        obtain ⟨h2, h3⟩ := hm t s dt s' hps
        have hd : drive (fl p) T pass (n + 1) t c s = drive (fl p) T pass n (fl p (t + dt)) (c + 1) s' := by simp [drive, h, hps]
        rw [hd]
        refine ih _ _ _ (fl_nonneg hp (by linarith)) ?_
        rw [← fl_stick hp k h2 h3]
        exact C128_monotone hp (by linarith) (by linarith)
  exact key fuel 0 0 s (le_refl _) (two_zpow_pos _).le

/-! ### Runs of the advection program -/

variable {E : Type*} [AddCommGroup E] [Module ℝ E]

/-- A pass of the one-dimensional drivers in the form `drive` expects. -/
noncomputable def passOf (f : ℝ → E → E) (dt : ℝ) (bad : E → Bool) (t : ℝ) (r : Run E) : Option (ℝ × Run E) := (body f dt bad { r with t := t }).map fun r' => (dt, r')

/-- Without rounding `drive` is the loop of C75. -/
theorem C128_exact (f : ℝ → E → E) (dt : ℝ) (bad : E → Bool) (T : ℝ) (fuel : ℕ) (r : Run E) :
    (drive id T (passOf f dt bad) fuel r.t r.count r).map (Option.map fun x => (x.1, x.2.1, x.2.2.u, x.2.2.files)) = (loop f dt bad T fuel r).map (Option.map fun r' => (r'.t, r'.count, r'.u, r'.files)) := by
  induction fuel generalizing r with
  | zero => rfl
  | succ n ih =>
    unfold drive loop
    by_cases h : r.t < T
    · simp only [h, if_true]
      unfold passOf body
      by_cases hb : bad (step (f r.t) dt (r.u, r.res)).1 = true
      · simp [hb]
      · simp only [hb, Bool.false_eq_true, if_false, Option.map_some, id]
        exact ih ⟨(step (f r.t) dt (r.u, r.res)).1, (step (f r.t) dt (r.u, r.res)).2, r.t + dt, r.count + 1, if r.count % 10 = 0 then r.files ++ [r.count] else r.files⟩
    · simp [h]

/-- Passes of an autonomous problem are steps of the recursion. -/
theorem passes_solution (rnd : ℝ → ℝ) (T : ℝ) (f : E → E) (dt : ℝ) (bad : E → Bool) (u0 : E) {t : ℝ} {r : Run E} {ds : List ℝ} {t' : ℝ} {r' : Run E} (h : Passes rnd T (passOf (fun _ => f) dt bad) t r ds t' r') :
    ∀ k, r.u = solution (fun _ => f) dt u0 k → r'.u = solution (fun _ => f) dt u0 (k + ds.length) := by
  induction h with
  | nil t s => intro k hk; simpa using hk
  | @cons t s d s' ds t' s'' h1 h2 h3 ih =>
    intro k hk
    rw [List.length_cons, show k + (ds.length + 1) = (k + 1) + ds.length by ring]
    apply ih
    unfold passOf body at h2
    by_cases hb : bad (step f dt (s.u, s.res)).1 = true
    · simp [hb] at h2
    · simp only [hb, Bool.false_eq_true, if_false, Option.map_some, Option.some.injEq, Prod.mk.injEq] at h2
      rw [← h2.2]
      show (step f dt (s.u, s.res)).1 = (step f dt (solution (fun _ => f) dt u0 k, 0)).1
      rw [hk, C49_stale]

/-- **C128 for the advection program.** With the clock rounded to `p` digits a run ends by the instability error or with the fields of `n` steps of the recursion of C75, where `n` differs from `⌈T / dt⌉` by at most one. -/
theorem C128_advec (p : ℕ) (hp : 1 ≤ p) (T dt : ℝ) (hT : 0 < T) (hδ : 2 ^ (-(p : ℤ)) * (T + dt) < dt) (hs : T * (2 ^ (-(p : ℤ)) * (T + dt)) ≤ dt * (dt - 2 ^ (-(p : ℤ)) * (T + dt)))
    (f : E → E) (bad : E → Bool) (u0 res0 : E) (fuel : ℕ) (hf : ⌈T / dt⌉₊ + 1 < fuel) :
    drive (fl p) T (passOf (fun _ => f) dt bad) fuel 0 0 ⟨u0, res0, 0, 0, []⟩ = some none ∨
      ∃ t' n r', drive (fl p) T (passOf (fun _ => f) dt bad) fuel 0 0 ⟨u0, res0, 0, 0, []⟩ = some (some (t', n, r')) ∧ T ≤ t' ∧ n ≤ ⌈T / dt⌉₊ + 1 ∧ ⌈T / dt⌉₊ ≤ n + 1 ∧ r'.u = solution (fun _ => f) dt u0 n := by
  have hm : ∀ t s d s', passOf (fun _ => f) dt bad t s = some (d, s') → d = dt := by
    intro t s d s' h
    unfold passOf at h
    rw [Option.map_eq_some_iff] at h
    obtain ⟨a, -, h2⟩ := h
    exact (congrArg Prod.fst h2).symm
  rcases C128_off_by_one p hp T dt hT _ hm hδ hs (⟨u0, res0, 0, 0, []⟩ : Run E) fuel hf with h | ⟨t', n, s', a1, a2, a3, a4⟩
  · exact Or.inl h
  · refine Or.inr ⟨t', n, s', a1, a2, a3, a4, ?_⟩
    obtain ⟨ds, h1, h2⟩ := drive_passes (fl p) T (passOf (fun _ => f) dt bad) fuel 0 0 _ a1
    have := passes_solution (fl p) T f dt bad u0 h2 0 rfl
    rw [zero_add] at this h1
    rw [this, h1]

/-! ### Ten tenths are less than one -/

theorem fl_eval (p : ℕ) (k n : ℤ) {x : ℝ} (h0 : 0 < x) (h1 : 2 ^ k ≤ x) (h2 : x < 2 ^ (k + 1)) (h3 : (n : ℝ) - 1 / 2 < x / 2 ^ (k - (p - 1))) (h4 : x / 2 ^ (k - (p - 1)) < n + 1 / 2) : fl p x = n * 2 ^ (k - (p - 1)) := by
  have hl : Int.log 2 x = k := by
    have a : k ≤ Int.log 2 x := by rw [← Int.zpow_le_iff_le_log (by norm_num) h0]; exact_mod_cast h1
    have b : Int.log 2 x < k + 1 := by rw [← Int.lt_zpow_iff_log_lt (by norm_num) h0]; exact_mod_cast h2
    omega
  rw [fl_def p h0.ne', abs_of_pos h0, hl]
  congr 2
  have h5 := abs_le.1 (roundEven_err (x / 2 ^ (k - (p - 1))))
  have a : (roundEven (x / 2 ^ (k - (p - 1))) : ℝ) < n + 1 := by linarith [h5.2]
  have b : (n : ℝ) < roundEven (x / 2 ^ (k - (p - 1))) + 1 := by linarith [h5.1]
  have a' : roundEven (x / 2 ^ (k - (p - 1))) < n + 1 := by exact_mod_cast a
  have b' : n < roundEven (x / 2 ^ (k - (p - 1))) + 1 := by exact_mod_cast b
  omega

/-- The double nearest to 0.1. -/
noncomputable def tenth : ℝ := 3602879701896397 / 36028797018963968


theorem roundEven_tie {y : ℝ} {n : ℤ} (he : n % 2 = 0) (h1 : (n : ℝ) - 1 / 2 ≤ y) (h2 : y ≤ n + 1 / 2) : roundEven y = n := by
  have h5 := abs_le.1 (roundEven_err y)
  rcases h1.lt_or_eq with h1 | h1
  · rcases h2.lt_or_eq with h2 | h2
    · have a : (roundEven y : ℝ) < n + 1 := by linarith [h5.2]
      have b : (n : ℝ) < roundEven y + 1 := by linarith [h5.1]
      have a' : roundEven y < n + 1 := by exact_mod_cast a
      have b' : n < roundEven y + 1 := by exact_mod_cast b
      omega
    · have hf : Int.floor y = n := by rw [Int.floor_eq_iff]; constructor <;> linarith
      unfold roundEven
      simp only [hf]
      rw [if_neg (by linarith), if_neg (by linarith), if_pos he]
  · have hf : Int.floor y = n - 1 := by rw [Int.floor_eq_iff]; push_cast; constructor <;> linarith
    unfold roundEven
    simp only [hf]
    push_cast
    rw [if_neg (by linarith), if_neg (by linarith), if_neg (by omega)]
    ring

theorem fl_eval_even (p : ℕ) (k n : ℤ) {x : ℝ} (he : n % 2 = 0) (h0 : 0 < x) (h1 : 2 ^ k ≤ x) (h2 : x < 2 ^ (k + 1)) (h3 : (n : ℝ) - 1 / 2 ≤ x / 2 ^ (k - (p - 1))) (h4 : x / 2 ^ (k - (p - 1)) ≤ n + 1 / 2) :
    fl p x = n * 2 ^ (k - (p - 1)) := by
  have hl : Int.log 2 x = k := by
    have a : k ≤ Int.log 2 x := by rw [← Int.zpow_le_iff_le_log (by norm_num) h0]; exact_mod_cast h1
    have b : Int.log 2 x < k + 1 := by rw [← Int.lt_zpow_iff_log_lt (by norm_num) h0]; exact_mod_cast h2
    omega
  rw [fl_def p h0.ne', abs_of_pos h0, hl, roundEven_tie he h3 h4]

/-- `tenth` is the rounded quotient. -/
theorem fl_tenth : fl 53 (1 / 10 : ℝ) = tenth := by
  rw [fl_eval 53 (-4) 7205759403792794 (by norm_num) (by norm_num) (by norm_num) (by norm_num) (by norm_num), tenth]
  norm_num

theorem tick0 : fl 53 (0 + tenth : ℝ) = 3602879701896397 / 36028797018963968 := by
  unfold tenth
  rw [fl_eval 53 (-4) 7205759403792794 (by norm_num) (by norm_num) (by norm_num) (by norm_num) (by norm_num)]
  norm_num

theorem tick1 : fl 53 (3602879701896397 / 36028797018963968 + tenth : ℝ) = 3602879701896397 / 18014398509481984 := by
  unfold tenth
  rw [fl_eval 53 (-3) 7205759403792794 (by norm_num) (by norm_num) (by norm_num) (by norm_num) (by norm_num)]
  norm_num

theorem tick2 : fl 53 (3602879701896397 / 18014398509481984 + tenth : ℝ) = 1351079888211149 / 4503599627370496 := by
  unfold tenth
  rw [fl_eval_even 53 (-2) 5404319552844596 (by norm_num) (by norm_num) (by norm_num) (by norm_num) (by norm_num) (by norm_num)]
  norm_num

theorem tick3 : fl 53 (1351079888211149 / 4503599627370496 + tenth : ℝ) = 3602879701896397 / 9007199254740992 := by
  unfold tenth
  rw [fl_eval_even 53 (-2) 7205759403792794 (by norm_num) (by norm_num) (by norm_num) (by norm_num) (by norm_num) (by norm_num)]
  norm_num

theorem tick4 : fl 53 (3602879701896397 / 9007199254740992 + tenth : ℝ) = 1 / 2 := by
  unfold tenth
  rw [fl_eval 53 (-1) 4503599627370496 (by norm_num) (by norm_num) (by norm_num) (by norm_num) (by norm_num)]
  norm_num

theorem tick5 : fl 53 (1 / 2 + tenth : ℝ) = 5404319552844595 / 9007199254740992 := by
  unfold tenth
  rw [fl_eval 53 (-1) 5404319552844595 (by norm_num) (by norm_num) (by norm_num) (by norm_num) (by norm_num)]
  norm_num

theorem tick6 : fl 53 (5404319552844595 / 9007199254740992 + tenth : ℝ) = 3152519739159347 / 4503599627370496 := by
  unfold tenth
  rw [fl_eval 53 (-1) 6305039478318694 (by norm_num) (by norm_num) (by norm_num) (by norm_num) (by norm_num)]
  norm_num

theorem tick7 : fl 53 (3152519739159347 / 4503599627370496 + tenth : ℝ) = 7205759403792793 / 9007199254740992 := by
  unfold tenth
  rw [fl_eval 53 (-1) 7205759403792793 (by norm_num) (by norm_num) (by norm_num) (by norm_num) (by norm_num)]
  norm_num

theorem tick8 : fl 53 (7205759403792793 / 9007199254740992 + tenth : ℝ) = 2026619832316723 / 2251799813685248 := by
  unfold tenth
  rw [fl_eval 53 (-1) 8106479329266892 (by norm_num) (by norm_num) (by norm_num) (by norm_num) (by norm_num)]
  norm_num

theorem tick9 : fl 53 (2026619832316723 / 2251799813685248 + tenth : ℝ) = 9007199254740991 / 9007199254740992 := by
  unfold tenth
  rw [fl_eval 53 (-1) 9007199254740991 (by norm_num) (by norm_num) (by norm_num) (by norm_num) (by norm_num)]
  norm_num

theorem tick10 : fl 53 (9007199254740991 / 9007199254740992 + tenth : ℝ) = 4953959590107545 / 4503599627370496 := by
  unfold tenth
  rw [fl_eval 53 (0) 4953959590107545 (by norm_num) (by norm_num) (by norm_num) (by norm_num) (by norm_num)]
  norm_num

/-- **C128, refuted: a run with a constant step makes the planned number of passes.** With doubles, the step 0.1 and the final time 1 the plan is ten steps, in exact arithmetic on the double as well as in the formula `ceil(finalTime/dt)` of sw2d.py; the clock
after ten passes is still below 1 and every run makes eleven. -/
theorem C128_planned_refuted {S : Type*} (adv : S → S) (s : S) : ⌈(1 : ℝ) / tenth⌉₊ = 10 ∧ ⌈fl 53 ((1 : ℝ) / tenth)⌉₊ = 10 ∧ ∀ fuel, 11 < fuel →
    drive (fl 53) 1 (fun _ s => some (tenth, adv s)) fuel 0 0 s = some (some (4953959590107545 / 4503599627370496, 11, adv^[11] s)) := by
  refine ⟨?_, ?_, ?_⟩
  · rw [Nat.ceil_eq_iff (by norm_num)]
    unfold tenth
    norm_num
  · have : fl 53 ((1 : ℝ) / tenth) = 10 := by
      unfold tenth
      rw [fl_eval 53 3 5629499534213120 (by norm_num) (by norm_num) (by norm_num) (by norm_num) (by norm_num)]
      norm_num
    rw [this]
    norm_num
  · intro fuel hf
    obtain ⟨k, rfl⟩ : ∃ k, fuel = k + 12 := ⟨fuel - 12, by omega⟩
    have st : ∀ (n : ℕ) (t t' : ℝ) (c : ℕ) (s : S), t < 1 → fl 53 (t + tenth) = t' → drive (fl 53) 1 (fun _ s => some (tenth, adv s)) (n + 1) t c s = drive (fl 53) 1 (fun _ s => some (tenth, adv s)) n t' (c + 1) (adv s) := by
      intro n t t' c s h ht
      conv_lhs => unfold drive
      simp [h, ht]
    rw [st _ _ _ _ _ (by norm_num) tick0, st _ _ _ _ _ (by norm_num) tick1, st _ _ _ _ _ (by norm_num) tick2, st _ _ _ _ _ (by norm_num) tick3, st _ _ _ _ _ (by norm_num) tick4, st _ _ _ _ _ (by norm_num) tick5, st _ _ _ _ _ (by norm_num) tick6, st _ _ _ _ _ (by norm_num) tick7, st _ _ _ _ _ (by norm_num) tick8, st _ _ _ _ _ (by norm_num) tick9, st _ _ _ _ _ (by norm_num) tick10]
    unfold drive
    rw [if_neg (by norm_num)]
    rfl

/-- The hypotheses of `C128_off_by_one` (and with it of `C128_ends`) hold there. -/
example : (2 : ℝ) ^ (-((53 : ℕ) : ℤ)) * (1 + tenth) < tenth ∧ (1 : ℝ) * (2 ^ (-((53 : ℕ) : ℤ)) * (1 + tenth)) ≤ tenth * (tenth - 2 ^ (-((53 : ℕ) : ℤ)) * (1 + tenth)) := by
  unfold tenth
  norm_num

/-- The numbers of sw2dquads.py (final time 40, step 0.45 * 0.000724295) meet them too. -/
example : (2 : ℝ) ^ (-((53 : ℕ) : ℤ)) * (40 + 0.45 * 0.000724295) < 0.45 * 0.000724295 ∧
    (40 : ℝ) * (2 ^ (-((53 : ℕ) : ℤ)) * (40 + 0.45 * 0.000724295)) ≤ 0.45 * 0.000724295 * (0.45 * 0.000724295 - 2 ^ (-((53 : ℕ) : ℤ)) * (40 + 0.45 * 0.000724295)) := by
  norm_num

/-- Doubles, step 1/8: the clock stops at 2^51. -/
example (fuel : ℕ) : drive (fl 53) (2 ^ 52) (fun _ (n : ℕ) => some (1 / 8, n + 1)) fuel 0 0 0 = none ∨ drive (fl 53) (2 ^ 52) (fun _ (n : ℕ) => some (1 / 8, n + 1)) fuel 0 0 0 = some none :=
  C128_never_ends 53 (by norm_num) 51 _ (by norm_num) _ (fun t s dt s' h => by
    simp only [Option.some.injEq, Prod.mk.injEq] at h
    rw [← h.1]
    norm_num) 0 fuel

end Blitzdg.Time
