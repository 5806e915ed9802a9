import Verif.Time.FloatClockProps

/-! Numbers which rounding does not change. -/

namespace Blitzdg.Time

variable {R : Type} [Field R] [LinearOrder R] [IsStrictOrderedRing R] [FloorRing R]

/-- A number with few digits is not changed. -/
theorem fl_exact {p : ℕ} (z : ℤ) (q : ℕ) (hz : |z| < 2 ^ p) : fl p ((z : R) * 2 ^ q) = (z : R) * 2 ^ q := by
  by_cases h0 : z = 0
  · subst h0; simp [fl]
  have hx : (z : R) * 2 ^ q ≠ 0 := mul_ne_zero (by exact_mod_cast h0) (by positivity)
  rw [fl_def p hx]
  set e : ℤ := Int.log 2 |(z : R) * 2 ^ q| - (p - 1) with he
  have hlog : Int.log 2 |(z : R) * 2 ^ q| < q + p := by
    rw [← Int.lt_zpow_iff_log_lt (by norm_num) (abs_pos.2 hx)]
    rw [abs_mul, abs_of_pos (show (0 : R) < 2 ^ q by positivity)]
    have h1 : |(z : R)| < 2 ^ p := by exact_mod_cast hz
    push_cast
    rw [zpow_add₀ (by norm_num), zpow_natCast, zpow_natCast, mul_comm]
    exact mul_lt_mul_of_pos_left h1 (by positivity)
  obtain ⟨d, hd⟩ : ∃ d : ℕ, (q : ℤ) = e + d := ⟨(q - e).toNat, by omega⟩
  have hq : (z : R) * 2 ^ q / 2 ^ e = ((z * 2 ^ d : ℤ) : R) := by
    rw [← zpow_natCast, hd, zpow_add₀ (by norm_num)]
    push_cast
    rw [zpow_natCast]
    have := (two_zpow_pos (R := R) e).ne'
    field_simp
  rw [hq, roundEven_int, ← hq, div_mul_cancel₀ _ (two_zpow_pos _).ne']

theorem fl_int (z : ℤ) (hz : |z| < 2 ^ 53) : fl 53 (z : R) = z := by
  have := fl_exact (R := R) (p := 53) z 0 hz
  simpa using this

end Blitzdg.Time
