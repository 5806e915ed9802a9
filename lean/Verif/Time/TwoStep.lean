import Verif.Time.Dissipative

/-!
Two steps of the low-storage Runge-Kutta scheme on a dissipative linear system do not increase the norm, when the step times the norm of the operator is at most 2/5.  No code is modelled here;
Drivers/AdvecStableProps.lean applies the theorem to advec1d.
-/

set_option linter.unusedSimpArgs false

namespace Blitzdg.Time

variable {E : Type*} [NormedAddCommGroup E] [InnerProductSpace ℝ E]

open scoped RealInnerProductSpace

/-- Products of the vectors `T^i u` with each other. -/
noncomputable def gram (T : E →L[ℝ] E) (u : E) (i j : ℕ) : ℝ := ⟪(T ^ i) u, (T ^ j) u⟫

theorem gram_symm (T : E →L[ℝ] E) (u : E) (i j : ℕ) : gram T u i j = gram T u j i := real_inner_comm _ _

/-- The combination of the vectors `T^i u` with the coefficients `c`. -/
noncomputable def combo (T : E →L[ℝ] E) (u : E) (c : List ℝ) : E := ∑ i ∈ Finset.range c.length, c.getD i 0 • (T ^ i) u

theorem combo_norm (T : E →L[ℝ] E) (u : E) (c : List ℝ) : ‖combo T u c‖ ^ 2 = ∑ i ∈ Finset.range c.length, ∑ j ∈ Finset.range c.length, c.getD i 0 * c.getD j 0 * gram T u i j := by
  rw [← real_inner_self_eq_norm_sq, combo, sum_inner]
  refine Finset.sum_congr rfl fun i _ => ?_
  rw [inner_sum]
  refine Finset.sum_congr rfl fun j _ => ?_
  rw [real_inner_smul_left, real_inner_smul_right, gram]
  ring

theorem combo_loss {T : E →L[ℝ] E} (hT : Dissipative T) (u : E) (c : List ℝ) : ∑ i ∈ Finset.range c.length, ∑ j ∈ Finset.range c.length, c.getD i 0 * c.getD j 0 * gram T u i (j + 1) ≤ 0 := by
  have h := hT (combo T u c)
  have e : T (combo T u c) = ∑ j ∈ Finset.range c.length, c.getD j 0 • (T ^ (j + 1)) u := by
    rw [combo, map_sum]
    refine Finset.sum_congr rfl fun j _ => ?_
    rw [map_smul, pow_succ']
    rfl
  rw [e, combo, sum_inner] at h
  refine le_trans (le_of_eq ?_) h
  refine Finset.sum_congr rfl fun i _ => ?_
  rw [inner_sum]
  refine Finset.sum_congr rfl fun j _ => ?_
  rw [real_inner_smul_left, real_inner_smul_right, gram]
  ring

/-- Behind the third power the products are small. -/
theorem gram_small {T : E →L[ℝ] E} {κ : ℝ} (hs : ‖T‖ ≤ κ) (u : E) (i j : ℕ) (hi : 3 ≤ i) (hj : 3 ≤ j) : |gram T u i j| ≤ κ ^ (i + j - 6) * gram T u 3 3 := by
  have hκ : 0 ≤ κ := le_trans (norm_nonneg _) hs
  have hp : ∀ m, ‖(T ^ (m + 3)) u‖ ≤ κ ^ m * ‖(T ^ 3) u‖ := by
    intro m
    induction m with
    | zero => simp
    | succ m ih =>
      have e : (T ^ (m + 1 + 3)) u = T ((T ^ (m + 3)) u) := by rw [show m + 1 + 3 = (m + 3) + 1 by ring, pow_succ']; rfl
      rw [e]
      calc _ ≤ ‖T‖ * ‖(T ^ (m + 3)) u‖ := T.le_opNorm _
        _ ≤ κ * (κ ^ m * ‖(T ^ 3) u‖) := mul_le_mul hs ih (norm_nonneg _) hκ
        _ = _ := by ring
  obtain ⟨a, rfl⟩ := Nat.exists_eq_add_of_le' hi
  obtain ⟨b, rfl⟩ := Nat.exists_eq_add_of_le' hj
  have h33 : gram T u 3 3 = ‖(T ^ 3) u‖ * ‖(T ^ 3) u‖ := by rw [gram, real_inner_self_eq_norm_mul_norm]
  rw [h33, show a + 3 + (b + 3) - 6 = a + b by omega]
  calc _ ≤ ‖(T ^ (a + 3)) u‖ * ‖(T ^ (b + 3)) u‖ := abs_real_inner_le_norm _ _
    _ ≤ (κ ^ a * ‖(T ^ 3) u‖) * (κ ^ b * ‖(T ^ 3) u‖) := mul_le_mul (hp a) (hp b) (norm_nonneg _) (by positivity)
    _ = _ := by rw [pow_add]; ring

/-- The inequality between the products: three squares are split off, the rest is small against the product of the third vector with itself. -/
theorem gram_bound (G : ℕ → ℕ → ℝ) (hsy : ∀ i j, G i j = G j i) (hl' : ∀ c : List ℝ, ∑ i ∈ Finset.range c.length, ∑ j ∈ Finset.range c.length, c.getD i 0 * c.getD j 0 * G i (j + 1) ≤ 0)
    (hb : ∀ i j, 3 ≤ i → 3 ≤ j → |G i j| ≤ (2 / 5 : ℝ) ^ (i + j - 6) * G 3 3) (hn : ∀ i, 0 ≤ G i i) (c : List ℝ) (hc : c = [1, 2, 2, 4 / 3, 2 / 3, 13 / 50, 143 / 1800, 17 / 900, 49 / 14400, 1 / 2400, 1 / 40000]) :
    ∑ i ∈ Finset.range c.length, ∑ j ∈ Finset.range c.length, c.getD i 0 * c.getD j 0 * G i j ≤ G 0 0 := by
  have s1_0 : G 1 0 = G 0 1 := hsy _ _
  have s2_0 : G 2 0 = G 0 2 := hsy _ _
  have s3_0 : G 3 0 = G 0 3 := hsy _ _
  have s4_0 : G 4 0 = G 0 4 := hsy _ _
  have s5_0 : G 5 0 = G 0 5 := hsy _ _
  have s6_0 : G 6 0 = G 0 6 := hsy _ _
  have s7_0 : G 7 0 = G 0 7 := hsy _ _
  have s8_0 : G 8 0 = G 0 8 := hsy _ _
  have s9_0 : G 9 0 = G 0 9 := hsy _ _
  have s10_0 : G 10 0 = G 0 10 := hsy _ _
  have s2_1 : G 2 1 = G 1 2 := hsy _ _
  have s3_1 : G 3 1 = G 1 3 := hsy _ _
  have s4_1 : G 4 1 = G 1 4 := hsy _ _
  have s5_1 : G 5 1 = G 1 5 := hsy _ _
  have s6_1 : G 6 1 = G 1 6 := hsy _ _
  have s7_1 : G 7 1 = G 1 7 := hsy _ _
  have s8_1 : G 8 1 = G 1 8 := hsy _ _
  have s9_1 : G 9 1 = G 1 9 := hsy _ _
  have s10_1 : G 10 1 = G 1 10 := hsy _ _
  have s3_2 : G 3 2 = G 2 3 := hsy _ _
  have s4_2 : G 4 2 = G 2 4 := hsy _ _
  have s5_2 : G 5 2 = G 2 5 := hsy _ _
  have s6_2 : G 6 2 = G 2 6 := hsy _ _
  have s7_2 : G 7 2 = G 2 7 := hsy _ _
  have s8_2 : G 8 2 = G 2 8 := hsy _ _
  have s9_2 : G 9 2 = G 2 9 := hsy _ _
  have s10_2 : G 10 2 = G 2 10 := hsy _ _
  have s4_3 : G 4 3 = G 3 4 := hsy _ _
  have s5_3 : G 5 3 = G 3 5 := hsy _ _
  have s6_3 : G 6 3 = G 3 6 := hsy _ _
  have s7_3 : G 7 3 = G 3 7 := hsy _ _
  have s8_3 : G 8 3 = G 3 8 := hsy _ _
  have s9_3 : G 9 3 = G 3 9 := hsy _ _
  have s10_3 : G 10 3 = G 3 10 := hsy _ _
  have s5_4 : G 5 4 = G 4 5 := hsy _ _
  have s6_4 : G 6 4 = G 4 6 := hsy _ _
  have s7_4 : G 7 4 = G 4 7 := hsy _ _
  have s8_4 : G 8 4 = G 4 8 := hsy _ _
  have s9_4 : G 9 4 = G 4 9 := hsy _ _
  have s10_4 : G 10 4 = G 4 10 := hsy _ _
  have s6_5 : G 6 5 = G 5 6 := hsy _ _
  have s7_5 : G 7 5 = G 5 7 := hsy _ _
  have s8_5 : G 8 5 = G 5 8 := hsy _ _
  have s9_5 : G 9 5 = G 5 9 := hsy _ _
  have s10_5 : G 10 5 = G 5 10 := hsy _ _
  have s7_6 : G 7 6 = G 6 7 := hsy _ _
  have s8_6 : G 8 6 = G 6 8 := hsy _ _
  have s9_6 : G 9 6 = G 6 9 := hsy _ _
  have s10_6 : G 10 6 = G 6 10 := hsy _ _
  have s8_7 : G 8 7 = G 7 8 := hsy _ _
  have s9_7 : G 9 7 = G 7 9 := hsy _ _
  have s10_7 : G 10 7 = G 7 10 := hsy _ _
  have s9_8 : G 9 8 = G 8 9 := hsy _ _
  have s10_8 : G 10 8 = G 8 10 := hsy _ _
  have s10_9 : G 10 9 = G 9 10 := hsy _ _
  have hu : ∀ i j, 3 ≤ i → 3 ≤ j → G i j ≤ (2 / 5 : ℝ) ^ (i + j - 6) * G 3 3 := fun i j hi hj => (abs_le.1 (hb i j hi hj)).2
  have hl : ∀ i j, 3 ≤ i → 3 ≤ j → -G i j ≤ (2 / 5 : ℝ) ^ (i + j - 6) * G 3 3 := fun i j hi hj => by linarith [(abs_le.1 (hb i j hi hj)).1]
  have hv : ∑ i ∈ Finset.range c.length, ∑ j ∈ Finset.range c.length, c.getD i 0 * c.getD j 0 * G i j = 1 * G 0 0 + 4 * G 0 1 + 4 * G 0 2 + 8 / 3 * G 0 3 + 4 / 3 * G 0 4 + 13 / 25 * G 0 5 + 143 / 900 * G 0 6 + 17 / 450 * G 0 7 + 49 / 7200 * G 0 8 + 1 / 1200 * G 0 9 + 1 / 20000 * G 0 10 + 4 * G 1 1 + 8 * G 1 2 + 16 / 3 * G 1 3 + 8 / 3 * G 1 4 + 26 / 25 * G 1 5 + 143 / 450 * G 1 6 + 17 / 225 * G 1 7 + 49 / 3600 * G 1 8 + 1 / 600 * G 1 9 + 1 / 10000 * G 1 10 + 4 * G 2 2 + 16 / 3 * G 2 3 + 8 / 3 * G 2 4 + 26 / 25 * G 2 5 + 143 / 450 * G 2 6 + 17 / 225 * G 2 7 + 49 / 3600 * G 2 8 + 1 / 600 * G 2 9 + 1 / 10000 * G 2 10 + 16 / 9 * G 3 3 + 16 / 9 * G 3 4 + 52 / 75 * G 3 5 + 143 / 675 * G 3 6 + 34 / 675 * G 3 7 + 49 / 5400 * G 3 8 + 1 / 900 * G 3 9 + 1 / 15000 * G 3 10 + 4 / 9 * G 4 4 + 26 / 75 * G 4 5 + 143 / 1350 * G 4 6 + 17 / 675 * G 4 7 + 49 / 10800 * G 4 8 + 1 / 1800 * G 4 9 + 1 / 30000 * G 4 10 + 169 / 2500 * G 5 5 + 1859 / 45000 * G 5 6 + 221 / 22500 * G 5 7 + 637 / 360000 * G 5 8 + 13 / 60000 * G 5 9 + 13 / 1000000 * G 5 10 + 20449 / 3240000 * G 6 6 + 2431 / 810000 * G 6 7 + 7007 / 12960000 * G 6 8 + 143 / 2160000 * G 6 9 + 143 / 36000000 * G 6 10 + 289 / 810000 * G 7 7 + 833 / 6480000 * G 7 8 + 17 / 1080000 * G 7 9 + 17 / 18000000 * G 7 10 + 2401 / 207360000 * G 8 8 + 49 / 17280000 * G 8 9 + 49 / 288000000 * G 8 10 + 1 / 5760000 * G 9 9 + 1 / 48000000 * G 9 10 + 1 / 1600000000 * G 10 10 := by
    subst hc
    simp only [List.length_cons, List.length_nil, Finset.sum_range_succ, Finset.sum_range_zero, List.getD_cons_zero, List.getD_cons_succ, zero_add, s1_0, s2_0, s3_0, s4_0, s5_0, s6_0, s7_0, s8_0, s9_0, s10_0, s2_1, s3_1, s4_1, s5_1, s6_1, s7_1, s8_1, s9_1, s10_1, s3_2, s4_2, s5_2, s6_2, s7_2, s8_2, s9_2, s10_2, s4_3, s5_3, s6_3, s7_3, s8_3, s9_3, s10_3, s5_4, s6_4, s7_4, s8_4, s9_4, s10_4, s6_5, s7_5, s8_5, s9_5, s10_5, s7_6, s8_6, s9_6, s10_6, s8_7, s9_7, s10_7, s9_8, s10_8, s10_9]
    ring
  have hq1 : 1 * G 0 1 + 1 * G 0 2 + 2 / 3 * G 0 3 + 1 / 3 * G 0 4 + 13 / 100 * G 0 5 + 143 / 3600 * G 0 6 + 17 / 1800 * G 0 7 + 49 / 28800 * G 0 8 + 1 / 4800 * G 0 9 + 1 / 80000 * G 0 10 + 1 * G 1 1 + 5 / 3 * G 1 2 + 1 * G 1 3 + 139 / 300 * G 1 4 + 611 / 3600 * G 1 5 + 59 / 1200 * G 1 6 + 107 / 9600 * G 1 7 + 11 / 5760 * G 1 8 + 53 / 240000 * G 1 9 + 1 / 80000 * G 1 10 + 2 / 3 * G 2 2 + 7 / 9 * G 2 3 + 317 / 900 * G 2 4 + 91 / 720 * G 2 5 + 97 / 2700 * G 2 6 + 691 / 86400 * G 2 7 + 29 / 21600 * G 2 8 + 109 / 720000 * G 2 9 + 1 / 120000 * G 2 10 + 2 / 9 * G 3 3 + 89 / 450 * G 3 4 + 377 / 5400 * G 3 5 + 211 / 10800 * G 3 6 + 37 / 8640 * G 3 7 + 61 / 86400 * G 3 8 + 7 / 90000 * G 3 9 + 1 / 240000 * G 3 10 + 13 / 300 * G 4 4 + 4069 / 135000 * G 4 5 + 8977 / 1080000 * G 4 6 + 3877 / 2160000 * G 4 7 + 93 / 320000 * G 4 8 + 1 / 32000 * G 4 9 + 13 / 8000000 * G 4 10 + 1859 / 360000 * G 5 5 + 36361 / 12960000 * G 5 6 + 15457 / 25920000 * G 5 7 + 1963 / 20736000 * G 5 8 + 4277 / 432000000 * G 5 9 + 143 / 288000000 * G 5 10 + 2431 / 6480000 * G 6 6 + 3251 / 20736000 * G 6 7 + 631 / 25920000 * G 6 8 + 2129 / 864000000 * G 6 9 + 17 / 144000000 * G 6 10 + 833 / 51840000 * G 7 7 + 4033 / 829440000 * G 7 8 + 1633 / 3456000000 * G 7 9 + 49 / 2304000000 * G 7 10 + 49 / 138240000 * G 8 8 + 149 / 2304000000 * G 8 9 + 1 / 384000000 * G 8 10 + 1 / 384000000 * G 9 9 + 1 / 6400000000 * G 9 10 ≤ 0 := by
    refine le_trans (le_of_eq ?_) (hl' [1, 1, 2 / 3, 1 / 3, 13 / 100, 143 / 3600, 17 / 1800, 49 / 28800, 1 / 4800, 1 / 80000])
    simp only [List.length_cons, List.length_nil, Finset.sum_range_succ, Finset.sum_range_zero, List.getD_cons_zero, List.getD_cons_succ, zero_add, Nat.reduceAdd, s1_0, s2_0, s3_0, s4_0, s5_0, s6_0, s7_0, s8_0, s9_0, s10_0, s2_1, s3_1, s4_1, s5_1, s6_1, s7_1, s8_1, s9_1, s10_1, s3_2, s4_2, s5_2, s6_2, s7_2, s8_2, s9_2, s10_2, s4_3, s5_3, s6_3, s7_3, s8_3, s9_3, s10_3, s5_4, s6_4, s7_4, s8_4, s9_4, s10_4, s6_5, s7_5, s8_5, s9_5, s10_5, s7_6, s8_6, s9_6, s10_6, s8_7, s9_7, s10_7, s9_8, s10_8, s10_9]
    ring
  have hq2 : 1 * G 1 2 + 1 * G 1 3 + 61 / 100 * G 1 4 + 13 / 48 * G 1 5 + 109 / 1200 * G 1 6 + 223 / 9600 * G 1 7 + 43 / 9600 * G 1 8 + 47 / 80000 * G 1 9 + 3 / 80000 * G 1 10 + 1 * G 2 2 + 161 / 100 * G 2 3 + 1057 / 1200 * G 2 4 + 217 / 600 * G 2 5 + 73 / 640 * G 2 6 + 133 / 4800 * G 2 7 + 19 / 3750 * G 2 8 + 1 / 1600 * G 2 9 + 3 / 80000 * G 2 10 + 61 / 100 * G 3 3 + 2411 / 3750 * G 3 4 + 1229 / 4800 * G 3 5 + 6291 / 80000 * G 3 6 + 17903 / 960000 * G 3 7 + 3187 / 960000 * G 3 8 + 3167 / 8000000 * G 3 9 + 183 / 8000000 * G 3 10 + 793 / 4800 * G 4 4 + 185413 / 1440000 * G 4 5 + 111659 / 2880000 * G 4 6 + 103951 / 11520000 * G 4 7 + 452587 / 288000000 * G 4 8 + 17471 / 96000000 * G 4 9 + 13 / 1280000 * G 4 10 + 1417 / 57600 * G 5 5 + 55841 / 3840000 * G 5 6 + 19141 / 5760000 * G 5 7 + 163 / 288000 * G 5 8 + 3049 / 48000000 * G 5 9 + 109 / 32000000 * G 5 10 + 24307 / 11520000 * G 6 6 + 1163 / 1228800 * G 6 7 + 362677 / 2304000000 * G 6 8 + 13097 / 768000000 * G 6 9 + 223 / 256000000 * G 6 10 + 9589 / 92160000 * G 7 7 + 19417 / 576000000 * G 7 8 + 269 / 76800000 * G 7 9 + 43 / 256000000 * G 7 10 + 2021 / 768000000 * G 8 8 + 821 / 1600000000 * G 8 9 + 141 / 6400000000 * G 8 10 + 141 / 6400000000 * G 9 9 + 9 / 6400000000 * G 9 10 ≤ 0 := by
    refine le_trans (le_of_eq ?_) (hl' [0, 1, 1, 61 / 100, 13 / 48, 109 / 1200, 223 / 9600, 43 / 9600, 47 / 80000, 3 / 80000])
    simp only [List.length_cons, List.length_nil, Finset.sum_range_succ, Finset.sum_range_zero, List.getD_cons_zero, List.getD_cons_succ, zero_add, Nat.reduceAdd, s1_0, s2_0, s3_0, s4_0, s5_0, s6_0, s7_0, s8_0, s9_0, s10_0, s2_1, s3_1, s4_1, s5_1, s6_1, s7_1, s8_1, s9_1, s10_1, s3_2, s4_2, s5_2, s6_2, s7_2, s8_2, s9_2, s10_2, s4_3, s5_3, s6_3, s7_3, s8_3, s9_3, s10_3, s5_4, s6_4, s7_4, s8_4, s9_4, s10_4, s6_5, s7_5, s8_5, s9_5, s10_5, s7_6, s8_6, s9_6, s10_6, s8_7, s9_7, s10_7, s9_8, s10_8, s10_9]
    ring
  have hq3 : 1 * G 2 3 + 75 / 68 * G 2 4 + 47 / 68 * G 2 5 + 475 / 1632 * G 2 6 + 143 / 1632 * G 2 7 + 401 / 20400 * G 2 8 + 41 / 13600 * G 2 9 + 3 / 13600 * G 2 10 + 75 / 68 * G 3 3 + 8821 / 4624 * G 3 4 + 29225 / 27744 * G 3 5 + 45349 / 110976 * G 3 6 + 322661 / 2774400 * G 3 7 + 11419 / 462400 * G 3 8 + 3279 / 924800 * G 3 9 + 9 / 36992 * G 3 10 + 3525 / 4624 * G 4 4 + 29547 / 36992 * G 4 5 + 16525 / 55488 * G 4 6 + 9127 / 110976 * G 4 7 + 46919 / 2774400 * G 4 8 + 269 / 115600 * G 4 9 + 141 / 924800 * G 4 10 + 22325 / 110976 * G 5 5 + 386929 / 2663424 * G 5 6 + 2602781 / 66585600 * G 5 7 + 259847 / 33292800 * G 5 8 + 22859 / 22195200 * G 5 9 + 19 / 295936 * G 5 10 + 67925 / 2663424 * G 6 6 + 35687 / 2663424 * G 6 7 + 599 / 230400 * G 6 8 + 911 / 2774400 * G 6 9 + 143 / 7398400 * G 6 10 + 57343 / 33292800 * G 7 7 + 1082929 / 1664640000 * G 7 8 + 43607 / 554880000 * G 7 9 + 401 / 92480000 * G 7 10 + 16441 / 277440000 * G 8 8 + 2483 / 184960000 * G 8 9 + 123 / 184960000 * G 8 10 + 123 / 184960000 * G 9 9 + 9 / 184960000 * G 9 10 ≤ 0 := by
    refine le_trans (le_of_eq ?_) (hl' [0, 0, 1, 75 / 68, 47 / 68, 475 / 1632, 143 / 1632, 401 / 20400, 41 / 13600, 3 / 13600])
    simp only [List.length_cons, List.length_nil, Finset.sum_range_succ, Finset.sum_range_zero, List.getD_cons_zero, List.getD_cons_succ, zero_add, Nat.reduceAdd, s1_0, s2_0, s3_0, s4_0, s5_0, s6_0, s7_0, s8_0, s9_0, s10_0, s2_1, s3_1, s4_1, s5_1, s6_1, s7_1, s8_1, s9_1, s10_1, s3_2, s4_2, s5_2, s6_2, s7_2, s8_2, s9_2, s10_2, s4_3, s5_3, s6_3, s7_3, s8_3, s9_3, s10_3, s5_4, s6_4, s7_4, s8_4, s9_4, s10_4, s6_5, s7_5, s8_5, s9_5, s10_5, s7_6, s8_6, s9_6, s10_6, s8_7, s9_7, s10_7, s9_8, s10_8, s10_9]
    ring
  linear_combination hv + 4 * hq1 + 4 / 3 * hq2 + 17 / 225 * hq3 + 2501 / 170000 * hl 3 4 (by norm_num) (by norm_num) + 169 / 24480 * hl 3 5 (by norm_num) (by norm_num) + 24739 / 12240000 * hl 3 6 (by norm_num) (by norm_num) + 2519 / 6120000 * hl 3 7 (by norm_num) (by norm_num) + 517 / 12240000 * hl 3 8 (by norm_num) (by norm_num) + 109 / 25500000 * hu 3 9 (by norm_num) (by norm_num) + 19 / 17000000 * hu 3 10 (by norm_num) (by norm_num) + 23 / 3400 * hn 4 + 8057 / 1360000 * hl 4 5 (by norm_num) (by norm_num) + 743 / 489600 * hl 4 6 (by norm_num) (by norm_num) + 11737 / 48960000 * hl 4 7 (by norm_num) (by norm_num) + 1807 / 1224000000 * hu 4 8 (by norm_num) (by norm_num) + 4931 / 408000000 * hu 4 9 (by norm_num) (by norm_num) + 241 / 136000000 * hu 4 10 (by norm_num) (by norm_num) + 517 / 489600 * hn 5 + 9041 / 32640000 * hl 5 6 (by norm_num) (by norm_num) + 5159 / 97920000 * hu 5 7 (by norm_num) (by norm_num) + 379 / 8160000 * hu 5 8 (by norm_num) (by norm_num) + 3959 / 272000000 * hu 5 9 (by norm_num) (by norm_num) + 441 / 272000000 * hu 5 10 (by norm_num) (by norm_num) + 2489 / 35251200 * hu 6 6 (by norm_num) (by norm_num) + 351857 / 3525120000 * hu 6 7 (by norm_num) (by norm_num) + 191669 / 5184000000 * hu 6 8 (by norm_num) (by norm_num) + 258509 / 29376000000 * hu 6 9 (by norm_num) (by norm_num) + 8599 / 9792000000 * hu 6 10 (by norm_num) (by norm_num) + 83369 / 3525120000 * hu 7 7 (by norm_num) (by norm_num) + 1321991 / 88128000000 * hu 7 8 (by norm_num) (by norm_num) + 4763 / 1468800000 * hu 7 9 (by norm_num) (by norm_num) + 1507 / 4896000000 * hu 7 10 (by norm_num) (by norm_num) + 95839 / 44064000000 * hu 8 8 (by norm_num) (by norm_num) + 645173 / 734400000000 * hu 8 9 (by norm_num) (by norm_num) + 19609 / 244800000000 * hu 8 10 (by norm_num) (by norm_num) + 20459 / 244800000000 * hu 9 9 (by norm_num) (by norm_num) + 299 / 20400000000 * hu 9 10 (by norm_num) (by norm_num) + 1 / 1600000000 * hu 10 10 (by norm_num) (by norm_num) + 11768013419003227 / 52528381347656250000 * hn 3

theorem combo_smul_pow (A : E →L[ℝ] E) (dt : ℝ) (k : ℕ) (u : E) : ((dt • A) ^ k) u = dt ^ k • (A ^ k) u := by
  rw [smul_pow]
  rfl

/-- The scheme with the coefficients it is meant to have. -/
noncomputable def ideal (T : E →L[ℝ] E) (u : E) : E := combo T u [1, 1, 1 / 2, 1 / 6, 1 / 24, 1 / 200]

theorem ideal_two (T : E →L[ℝ] E) (u : E) : ideal T (ideal T u) = combo T u [1, 2, 2, 4 / 3, 2 / 3, 13 / 50, 143 / 1800, 17 / 900, 49 / 14400, 1 / 2400, 1 / 40000] := by
  have p : ∀ m n v, (T ^ m) ((T ^ n) v) = (T ^ (m + n)) v := fun m n v => by rw [pow_add]; rfl
  unfold ideal combo
  simp only [List.length_cons, List.length_nil, Finset.sum_range_succ, Finset.sum_range_zero, List.getD_cons_zero, List.getD_cons_succ, zero_add, map_add, map_smul, p, Nat.reduceAdd]
  module

/-- **Two steps with the ideal coefficients do not increase the norm.** -/
theorem ideal_stable {T : E →L[ℝ] E} (hT : Dissipative T) (hs : ‖T‖ ≤ 2 / 5) (u : E) : ‖ideal T (ideal T u)‖ ≤ ‖u‖ := by
  have h := gram_bound (gram T u) (gram_symm T u) (combo_loss hT u) (gram_small hs u) (fun i => by rw [gram]; exact real_inner_self_nonneg) _ rfl
  rw [← combo_norm, ← ideal_two, gram, pow_zero] at h
  refine le_of_sq_le_sq (le_trans h (le_of_eq ?_)) (norm_nonneg _)
  exact real_inner_self_eq_norm_sq u

theorem pow_small {T : E →L[ℝ] E} (hs : ‖T‖ ≤ 2 / 5) (u : E) (k : ℕ) : ‖(T ^ k) u‖ ≤ (2 / 5) ^ k * ‖u‖ := by
  induction k with
  | zero => simp
  | succ k ih =>
    have e : (T ^ (k + 1)) u = T ((T ^ k) u) := by rw [pow_succ']; rfl
    rw [e]
    calc _ ≤ ‖T‖ * ‖(T ^ k) u‖ := T.le_opNorm _
      _ ≤ 2 / 5 * ((2 / 5) ^ k * ‖u‖) := mul_le_mul hs ih (norm_nonneg _) (by norm_num)
      _ = _ := by ring

theorem ideal_one {T : E →L[ℝ] E} (hs : ‖T‖ ≤ 2 / 5) (u : E) : ‖ideal T u‖ ≤ 1.492 * ‖u‖ := by
  unfold ideal combo
  simp only [List.length_cons, List.length_nil, zero_add]
  refine le_trans (norm_sum_le _ _) ?_
  have h := fun k => pow_small hs u k
  have e : ∀ (c : ℝ) k, 0 ≤ c → ‖c • (T ^ k) u‖ ≤ c * ((2 / 5) ^ k * ‖u‖) := fun c k hc => by
    rw [norm_smul, Real.norm_eq_abs, abs_of_nonneg hc]
    exact mul_le_mul_of_nonneg_left (h k) hc
  simp only [Finset.sum_range_succ, Finset.sum_range_zero, List.getD_cons_zero, List.getD_cons_succ, zero_add]
  have e0 := e 1 0 (by norm_num)
  have e1 := e 1 1 (by norm_num)
  have e2 := e (1 / 2) 2 (by norm_num)
  have e3 := e (1 / 6) 3 (by norm_num)
  have e4 := e (1 / 24) 4 (by norm_num)
  have e5 := e (1 / 200) 5 (by norm_num)
  norm_num at e0 e1 e2 e3 e4 e5 ⊢
  linarith [norm_nonneg u]

/-- The coefficients in the code are the ideal ones up to rounding. -/
theorem stab_ideal : ∀ k < 6, |((stab.getD k 0 : ℚ) : ℝ) - ([1, 1, 1 / 2, 1 / 6, 1 / 24, 1 / 200] : List ℝ).getD k 0| ≤ 1 / 10 ^ 25 := by
  intro k hk
  have h : ∀ k < 6, |stab.getD k 0 - ([1, 1, 1 / 2, 1 / 6, 1 / 24, 1 / 200] : List ℚ).getD k 0| ≤ 1 / 10 ^ 25 := by decide +kernel
  have := (Rat.cast_le (K := ℝ)).2 (h k hk)
  push_cast at this
  refine le_trans (le_of_eq ?_) this
  congr 2
  interval_cases k <;> norm_num

theorem step_ideal {A : E →L[ℝ] E} {dt : ℝ} (hdt : 0 ≤ dt) (hs : dt * ‖A‖ ≤ 2 / 5) (u res : E) : ‖(step A dt (u, res)).1 - ideal (dt • A) u‖ ≤ 1 / (5 * 10 ^ 24) * ‖u‖ := by
  have hT : ‖dt • A‖ ≤ 2 / 5 := by rw [norm_smul, Real.norm_eq_abs, abs_of_nonneg hdt]; exact hs
  have e : (step A dt (u, res)).1 - ideal (dt • A) u = ∑ k ∈ Finset.range 6, (((stab.getD k 0 : ℚ) : ℝ) - ([1, 1, 1 / 2, 1 / 6, 1 / 24, 1 / 200] : List ℝ).getD k 0) • ((dt • A) ^ k) u := by
    rw [step_linear]
    unfold ideal combo
    rw [show ([1, 1, 1 / 2, 1 / 6, 1 / 24, 1 / 200] : List ℝ).length = 6 from rfl, ← Finset.sum_sub_distrib]
    refine Finset.sum_congr rfl fun k _ => ?_
    rw [sub_smul, combo_smul_pow, smul_smul, smul_smul]
  rw [e]
  refine le_trans (norm_sum_le_of_le (n := fun k => 1 / 10 ^ 25 * ((2 / 5) ^ k * ‖u‖)) _ fun k hk => ?_) ?_
  · rw [norm_smul, Real.norm_eq_abs]
    exact mul_le_mul (stab_ideal k (Finset.mem_range.1 hk)) (pow_small hT u k) (norm_nonneg _) (by norm_num)
  · simp only [Finset.sum_range_succ, Finset.sum_range_zero]
    have := norm_nonneg u
    norm_num
    nlinarith

/-- One step. -/
theorem step_one {A : E →L[ℝ] E} {dt : ℝ} (hdt : 0 ≤ dt) (hs : dt * ‖A‖ ≤ 2 / 5) (u res : E) : ‖(step A dt (u, res)).1‖ ≤ 3 / 2 * ‖u‖ := by
  have hT : ‖dt • A‖ ≤ 2 / 5 := by rw [norm_smul, Real.norm_eq_abs, abs_of_nonneg hdt]; exact hs
  have h1 := step_ideal hdt hs u res
  have h2 := ideal_one hT u
  have h3 := norm_le_norm_add_norm_sub' (step A dt (u, res)).1 (ideal (dt • A) u)
  have := norm_nonneg u
  norm_num at h1 h2
  linarith

/-- **Two steps of the scheme**, with any contents of the register before each. -/
theorem step_two {A : E →L[ℝ] E} (hA : Dissipative A) {dt : ℝ} (hdt : 0 ≤ dt) (hs : dt * ‖A‖ ≤ 2 / 5) (u res res' : E) : ‖(step A dt ((step A dt (u, res)).1, res')).1‖ ≤ (1 + 1 / 10 ^ 24) * ‖u‖ := by
  have hT : ‖dt • A‖ ≤ 2 / 5 := by rw [norm_smul, Real.norm_eq_abs, abs_of_nonneg hdt]; exact hs
  have hD : Dissipative (dt • A) := fun v => by
    rw [smul_apply, real_inner_smul_right]
    exact mul_nonpos_of_nonneg_of_nonpos hdt (hA v)
  obtain ⟨v, hv⟩ : ∃ v, v = (step A dt (u, res)).1 := ⟨_, rfl⟩
  rw [← hv]
  have h1 := step_ideal hdt hs u res
  rw [← hv] at h1
  have h2 := step_ideal hdt hs v res'
  have h3 := ideal_stable hD hT u
  have h4 : ideal (dt • A) v = ideal (dt • A) (ideal (dt • A) u) + ideal (dt • A) (v - ideal (dt • A) u) := by
    unfold ideal combo
    rw [← Finset.sum_add_distrib]
    refine Finset.sum_congr rfl fun k _ => ?_
    rw [← smul_add, ← map_add]
    congr 2
    abel
  have h5 := ideal_one hT (v - ideal (dt • A) u)
  have h6 := step_one hdt hs u res
  rw [← hv] at h6
  have h7 := norm_le_norm_add_norm_sub' (step A dt (v, res')).1 (ideal (dt • A) v)
  have h8 : ‖ideal (dt • A) v‖ ≤ ‖u‖ + 1.492 * ‖v - ideal (dt • A) u‖ := by
    rw [h4]
    exact le_trans (norm_add_le _ _) (add_le_add h3 h5)
  have := norm_nonneg u
  norm_num at h1 h2 h8 ⊢
  linarith

/-- **The scheme is stable.**  Any number of steps, with any contents of the register before each: apart from the rounding of the coefficients the norm never exceeds 3/2 of the norm at the start. -/
theorem scheme_stable {A : E →L[ℝ] E} (hA : Dissipative A) {dt : ℝ} (hdt : 0 ≤ dt) (hs : dt * ‖A‖ ≤ 2 / 5) (u : ℕ → E) (n : ℕ) (hu : ∀ k < n, ∃ res, u (k + 1) = (step A dt (u k, res)).1) :
    ‖u n‖ ≤ 3 / 2 * (1 + 1 / 10 ^ 24) ^ n * ‖u 0‖ := by
  have even : ∀ m, 2 * m ≤ n → ‖u (2 * m)‖ ≤ (1 + 1 / 10 ^ 24) ^ m * ‖u 0‖ := by
    intro m
    induction m with
    | zero => intro _; simp
    | succ m ih =>
      intro hm
      obtain ⟨r1, e1⟩ := hu (2 * m) (by omega)
      obtain ⟨r2, e2⟩ := hu (2 * m + 1) (by omega)
      rw [show 2 * (m + 1) = 2 * m + 1 + 1 by ring, e2, e1]
      refine le_trans (step_two hA hdt hs _ _ _) ?_
      rw [pow_succ]
      calc _ ≤ (1 + 1 / 10 ^ 24) * ((1 + 1 / 10 ^ 24) ^ m * ‖u 0‖) := mul_le_mul_of_nonneg_left (ih (by omega)) (by norm_num)
        _ = _ := by ring
  have hmono : ∀ m k : ℕ, m ≤ k → (1 + 1 / 10 ^ 24 : ℝ) ^ m ≤ (1 + 1 / 10 ^ 24) ^ k := fun m k h => pow_le_pow_right₀ (by norm_num) h
  have h0 := norm_nonneg (u 0)
  rcases Nat.even_or_odd' n with ⟨m, rfl | rfl⟩
  · refine le_trans (even m le_rfl) (mul_le_mul_of_nonneg_right ?_ h0)
    have := hmono m (2 * m) (by omega)
    have : (0 : ℝ) < (1 + 1 / 10 ^ 24) ^ (2 * m) := by positivity
    linarith
  · obtain ⟨r, e⟩ := hu (2 * m) (by omega)
    rw [e]
    refine le_trans (step_one hdt hs _ _) ?_
    have h1 := even m (by omega)
    have h2 := mul_le_mul_of_nonneg_right (hmono m (2 * m + 1) (by omega)) h0
    linarith

end Blitzdg.Time
