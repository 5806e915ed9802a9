import Mathlib.Data.List.GetD
import Mathlib.Data.List.Sort
import Mathlib.Tactic.FinCases
import Mathlib.Algebra.BigOperators.Intervals
import Verif.Curved.Headland

/-!
C140: the curve to which sw2d_curved.py fits the wall.
-/

namespace Blitzdg.Curved

/-! ### Specification -/

/-- Distance in the plane. -/
noncomputable def apart (p q : ℝ × ℝ) : ℝ := √((p.1 - q.1) ^ 2 + (p.2 - q.2) ^ 2)

/-- Point number `i`. -/
def nth (p : List (ℝ × ℝ)) (i : ℕ) : ℝ × ℝ := p.getD i (0, 0)

/-- Length of the polygon through the points, up to point `i`. -/
noncomputable def lengthTo (p : List (ℝ × ℝ)) (i : ℕ) : ℝ := ∑ m ∈ Finset.range i, apart (nth p m) (nth p (m + 1))

/-- `q` lies on the polygon through the points, at the length `t` from its beginning: on the side from point `j` to the next, divided as the lengths are. -/
def OnPolygon (p : List (ℝ × ℝ)) (t : ℝ) (q : ℝ × ℝ) : Prop :=
  ∃ j θ, j < p.length ∧ 0 ≤ θ ∧ θ ≤ 1 ∧ (j + 1 < p.length ∨ θ = 0) ∧ q = ((1 - θ) * (nth p j).1 + θ * (nth p (j + 1)).1, (1 - θ) * (nth p j).2 + θ * (nth p (j + 1)).2) ∧
    t = lengthTo p j + θ * apart (nth p j) (nth p (j + 1))

/-! ### Distances -/

def toC (p : ℝ × ℝ) : ℂ := ⟨p.1, p.2⟩

theorem apart_norm (p q : ℝ × ℝ) : apart p q = ‖toC p - toC q‖ := by
  rw [Complex.norm_eq_sqrt_sq_add_sq]
  rfl

theorem apart_comm (p q : ℝ × ℝ) : apart p q = apart q p := by rw [apart_norm, apart_norm, norm_sub_rev]

theorem apart_triangle (p q r : ℝ × ℝ) : apart p r ≤ apart p q + apart q r := by
  simp only [apart_norm]
  exact norm_sub_le_norm_sub_add_norm_sub _ _ _

theorem apart_nonneg (p q : ℝ × ℝ) : 0 ≤ apart p q := Real.sqrt_nonneg _

theorem apart_self (p : ℝ × ℝ) : apart p p = 0 := by simp [apart_norm]

theorem apart_zero {p q : ℝ × ℝ} (h : apart p q = 0) : p = q := by
  rw [apart_norm, norm_eq_zero, sub_eq_zero] at h
  exact Prod.ext (congrArg Complex.re h) (congrArg Complex.im h)

theorem gap_eq (p q : ℝ × ℝ) : gap p q = apart p q := by
  rw [apart_comm]
  rfl

theorem apart_on (a b : ℝ × ℝ) (θ η : ℝ) : apart ((1 - θ) * a.1 + θ * b.1, (1 - θ) * a.2 + θ * b.2) ((1 - η) * a.1 + η * b.1, (1 - η) * a.2 + η * b.2) = |η - θ| * apart a b := by
  unfold apart
  rw [← Real.sqrt_sq_eq_abs, ← Real.sqrt_mul (sq_nonneg _)]
  congr 1
  simp only
  ring

/-! ### Arc length -/

theorem lengthTo_succ (p : List (ℝ × ℝ)) (i : ℕ) : lengthTo p (i + 1) = lengthTo p i + apart (nth p i) (nth p (i + 1)) := Finset.sum_range_succ _ _

theorem lengthTo_mono (p : List (ℝ × ℝ)) {i j : ℕ} (h : i ≤ j) : lengthTo p i ≤ lengthTo p j :=
  Finset.sum_le_sum_of_subset_of_nonneg (Finset.range_mono h) fun _ _ _ => apart_nonneg _ _

theorem chord_le (p : List (ℝ × ℝ)) {i j : ℕ} (h : i ≤ j) : apart (nth p i) (nth p j) ≤ lengthTo p j - lengthTo p i := by
  induction j, h using Nat.le_induction with
  | base => simp [apart_self]
  | succ j hj ih =>
    rw [lengthTo_succ]
    have := apart_triangle (nth p i) (nth p j) (nth p (j + 1))
    linarith

theorem arc_aux (p : List (ℝ × ℝ)) (n : ℕ) : (List.range' 1 n).foldl (arcStep p) [0] = (List.range (n + 1)).map (lengthTo p) := by
  induction n with
  | zero => simp [lengthTo]
  | succ n ih =>
    rw [List.range'_concat, List.foldl_append, ih, List.range_succ (n := n + 1), List.map_append]
    simp only [List.foldl_cons, List.foldl_nil, arcStep, List.map_cons, List.map_nil]
    congr 2
    rw [show 1 + 1 * n - 1 = n by omega, show 1 + 1 * n = n + 1 by omega, gap_eq, lengthTo_succ]
    congr 1
    rw [List.getD_eq_getElem _ _ (by simp)]
    simp

theorem arc_eq (p : List (ℝ × ℝ)) : arcLength p = (List.range (p.length - 1 + 1)).map (lengthTo p) := arc_aux p _

theorem arc_length (p : List (ℝ × ℝ)) (hp : p ≠ []) : (arcLength p).length = p.length := by
  rw [arc_eq]
  have := List.length_pos_iff.2 hp
  simp
  omega

theorem arc_get (p : List (ℝ × ℝ)) {i : ℕ} (hi : i < p.length) : (arcLength p).getD i 0 = lengthTo p i := by
  rw [arc_eq, List.getD_eq_getElem _ _ (by simp; omega)]
  simp

/-- **C140, arc length.** The parameter of a point is the length of the polygon from the first point to it: it starts at zero, does not decrease, grows by at least the distance of the points, and two points have the same parameter only if they, and all between them, are at the same
place. -/
theorem C140_arc (p : List (ℝ × ℝ)) (hp : p ≠ []) : (arcLength p).length = p.length ∧ (arcLength p).getD 0 0 = 0 ∧ (∀ i < p.length, (arcLength p).getD i 0 = lengthTo p i) ∧
    ∀ i j, i ≤ j → j < p.length → apart (nth p i) (nth p j) ≤ (arcLength p).getD j 0 - (arcLength p).getD i 0 ∧
      ((arcLength p).getD i 0 = (arcLength p).getD j 0 → ∀ m, i ≤ m → m ≤ j → nth p m = nth p i) := by
  refine ⟨arc_length p hp, ?_, fun i hi => arc_get p hi, fun i j hij hj => ⟨?_, fun h m hm1 hm2 => ?_⟩⟩
  · rw [arc_get p (List.length_pos_iff.2 hp)]; rfl
  · rw [arc_get p hj, arc_get p (by omega)]
    exact chord_le p hij
  · rw [arc_get p hj, arc_get p (by omega)] at h
    have h1 := chord_le p hm1
    have h2 := lengthTo_mono p hm2
    exact (apart_zero (le_antisymm (by linarith) (apart_nonneg _ _))).symm

/-! ### Interpolation -/

theorem filter_mono_length (f : ℕ → ℝ) (hf : ∀ i j, i ≤ j → f i ≤ f j) (t : ℝ) (n : ℕ) : ∃ m ≤ n, ((List.range n).map f).filter (fun a => a ≤ t) = (List.range m).map f ∧ (∀ i < m, f i ≤ t) ∧ ∀ i, m ≤ i → i < n → t < f i := by
  induction n with
  | zero => exact ⟨0, le_refl _, by simp, fun i hi => by omega, fun i _ hi => by omega⟩
  | succ n ih =>
    obtain ⟨m, hm, h1, h2, h3⟩ := ih
    rw [List.range_succ, List.map_append, List.filter_append, h1]
    by_cases hn : f n ≤ t
    · have : m = n := by
        by_contra hne
        have := h3 m (le_refl _) (by omega)
        have := hf m n hm
        linarith
      subst this
      refine ⟨m + 1, le_refl _, ?_, fun i hi => ?_, fun i h4 h5 => by omega⟩
      · rw [List.range_succ, List.map_append]
        simp [hn]
      · rcases (by omega : i < m ∨ i = m) with h | rfl
        · exact h2 i h
        · exact hn
    · refine ⟨m, by omega, by simp [hn], h2, fun i h4 h5 => ?_⟩
      rcases (by omega : i < n ∨ i = n) with h | rfl
      · exact h3 i h4 h
      · exact not_le.1 hn

theorem interp_cases (p : List (ℝ × ℝ)) (hp : p ≠ []) {t : ℝ} (h0 : 0 ≤ t) : ∃ j < p.length, lengthTo p j ≤ t ∧ (∀ i, j < i → i < p.length → t < lengthTo p i) ∧
    ∀ f : List ℝ, interpAt (arcLength p) f t = if p.length ≤ j + 1 then f.getD j 0 else if lengthTo p j = t then f.getD j 0 else f.getD j 0 + (f.getD (j + 1) 0 - f.getD j 0) / (lengthTo p (j + 1) - lengthTo p j) * (t - lengthTo p j) := by
  have hl := List.length_pos_iff.2 hp
  obtain ⟨m, hm, h1, h2, h3⟩ := filter_mono_length (lengthTo p) (fun i j h => lengthTo_mono p h) t (p.length - 1 + 1)
  have hm0 : 0 < m := by
    by_contra h
    have := h3 0 (by omega) (by omega)
    have h4 : lengthTo p 0 = 0 := rfl
    linarith
  refine ⟨m - 1, by omega, h2 _ (by omega), fun i hi hi' => h3 i (by omega) (by omega), fun f => ?_⟩
  unfold interpAt
  have hj : ((arcLength p).filter fun a => a ≤ t).length - 1 = m - 1 := by rw [arc_eq, h1]; simp
  simp only [hj, arc_length p hp]
  split_ifs with c1 c2 c3 c3
  · rfl
  · rfl
  · rw [arc_get p (by omega)] at c2; exact absurd c2 c3
  · rw [arc_get p (by omega)] at c2; exact absurd c3 c2
  · rw [arc_get p (by omega), arc_get p (by omega)]

theorem map_fst (p : List (ℝ × ℝ)) {j : ℕ} (hj : j < p.length) : (p.map Prod.fst).getD j 0 = (nth p j).1 ∧ (p.map Prod.snd).getD j 0 = (nth p j).2 := by
  have h : nth p j = p[j] := List.getD_eq_getElem _ _ hj
  rw [h, List.getD_eq_getElem _ _ (by simpa using hj), List.getD_eq_getElem _ _ (by simpa using hj)]
  simp

/-- The point, the side it lies on, and no side after it begins before. -/
theorem point_spec (p : List (ℝ × ℝ)) (hp : p ≠ []) {t : ℝ} (h0 : 0 ≤ t) (h1 : t ≤ lengthTo p (p.length - 1)) : ∃ j θ, j < p.length ∧ 0 ≤ θ ∧ θ < 1 ∧ (j + 1 < p.length ∨ θ = 0) ∧
    pointAt p t = ((1 - θ) * (nth p j).1 + θ * (nth p (j + 1)).1, (1 - θ) * (nth p j).2 + θ * (nth p (j + 1)).2) ∧ t = lengthTo p j + θ * apart (nth p j) (nth p (j + 1)) ∧ ∀ i, j < i → i < p.length → t < lengthTo p i := by
  obtain ⟨j, hj, a1, a2, a3⟩ := interp_cases p hp h0
  obtain ⟨b1, b2⟩ := map_fst p hj
  have hpt : ∀ c, pointAt p t = c ↔ interpAt (arcLength p) (p.map Prod.fst) t = c.1 ∧ interpAt (arcLength p) (p.map Prod.snd) t = c.2 := fun c => Prod.ext_iff
  by_cases c1 : p.length ≤ j + 1
  · have hjl : j = p.length - 1 := by omega
    refine ⟨j, 0, hj, le_refl _, by norm_num, Or.inr rfl, ?_, ?_, a2⟩
    · rw [hpt, a3, a3, if_pos c1, if_pos c1, b1, b2]
      constructor <;> simp
    · rw [zero_mul, add_zero]
      exact le_antisymm (by rw [hjl]; exact h1) a1
  · by_cases c2 : lengthTo p j = t
    · refine ⟨j, 0, hj, le_refl _, by norm_num, Or.inr rfl, ?_, by rw [c2]; ring, a2⟩
      rw [hpt, a3, a3, if_neg c1, if_neg c1, if_pos c2, if_pos c2, b1, b2]
      constructor <;> simp
    · obtain ⟨b3, b4⟩ := map_fst p (show j + 1 < p.length by omega)
      have hlt := a2 (j + 1) (by omega) (by omega)
      have hd : 0 < lengthTo p (j + 1) - lengthTo p j := by
        have := lt_of_le_of_ne a1 c2
        linarith
      have hd' : lengthTo p (j + 1) - lengthTo p j = apart (nth p j) (nth p (j + 1)) := by rw [lengthTo_succ]; ring
      refine ⟨j, (t - lengthTo p j) / (lengthTo p (j + 1) - lengthTo p j), hj, div_nonneg (by linarith) hd.le, by rw [div_lt_one hd]; linarith, Or.inl (by omega), ?_, ?_, a2⟩
      · rw [hpt, a3, a3, if_neg c1, if_neg c1, if_neg c2, if_neg c2, b1, b2, b3, b4]
        constructor <;> simp only <;> ring
      · rw [← hd', div_mul_cancel₀ _ hd.ne']
        ring

/-- **C140, points on the curve.** For every parameter between zero and the length of the polygon the point lies on the polygon at that length from its beginning; the points given are met at their own parameters. -/
theorem C140_point (p : List (ℝ × ℝ)) (hp : p ≠ []) : (∀ t, 0 ≤ t → t ≤ lengthTo p (p.length - 1) → OnPolygon p t (pointAt p t)) ∧ ∀ i < p.length, pointAt p (lengthTo p i) = nth p i := by
  refine ⟨fun t h0 h1 => ?_, fun i hi => ?_⟩
  · obtain ⟨j, θ, a1, a2, a3, a4, a5, a6, -⟩ := point_spec p hp h0 h1
    exact ⟨j, θ, a1, a2, a3.le, a4, a5, a6⟩
  · have h0 : 0 ≤ lengthTo p i := lengthTo_mono p (Nat.zero_le i)
    obtain ⟨j, θ, a1, a2, a3, a4, a5, a6, a7⟩ := point_spec p hp h0 (lengthTo_mono p (by omega))
    have hij : i ≤ j := by
      by_contra h
      exact lt_irrefl _ (a7 i (by omega) hi)
    have hm := lengthTo_mono p hij
    have hn := mul_nonneg a2 (apart_nonneg (nth p j) (nth p (j + 1)))
    have hz : θ * apart (nth p j) (nth p (j + 1)) = 0 := by linarith
    have hc := chord_le p hij
    have he : nth p i = nth p j := apart_zero (le_antisymm (by linarith) (apart_nonneg _ _))
    rw [a5]
    rcases mul_eq_zero.1 hz with h | h
    · rw [h, he]
      ext <;> simp
    · rw [← apart_zero h, he]
      ext <;> simp only <;> ring

theorem apart_point (p : List (ℝ × ℝ)) (hp : p ≠ []) {t t' : ℝ} (h0 : 0 ≤ t) (h : t ≤ t') (h1 : t' ≤ lengthTo p (p.length - 1)) : apart (pointAt p t) (pointAt p t') ≤ t' - t := by
  obtain ⟨j, θ, a1, a2, a3, a4, a5, a6, a7⟩ := point_spec p hp h0 (h.trans h1)
  obtain ⟨k, η, b1, b2, b3, b4, b5, b6, b7⟩ := point_spec p hp (h0.trans h) h1
  have d0 := apart_nonneg (nth p j) (nth p (j + 1))
  have e0 := apart_nonneg (nth p k) (nth p (k + 1))
  have hjk : j ≤ k := by
    by_contra hc
    have := b7 j (by omega) a1
    have := mul_nonneg a2 d0
    linarith
  rcases (by omega : j = k ∨ j + 1 ≤ k) with rfl | hlt
  · rw [a5, b5, apart_on]
    rcases eq_or_lt_of_le d0 with hz | hz
    · rw [← hz, mul_zero]; linarith
    · have : θ ≤ η := by
        by_contra hc
        have := mul_lt_mul_of_pos_right (not_le.1 hc) hz
        linarith
      rw [abs_of_nonneg (by linarith)]
      nlinarith
  · have e1 : apart (pointAt p t) (nth p (j + 1)) = (1 - θ) * apart (nth p j) (nth p (j + 1)) := by
      have := apart_on (nth p j) (nth p (j + 1)) θ 1
      rw [abs_of_nonneg (by linarith)] at this
      rw [a5, ← this]
      congr 1
      ext <;> simp
    have e2 : apart (nth p k) (pointAt p t') = η * apart (nth p k) (nth p (k + 1)) := by
      have := apart_on (nth p k) (nth p (k + 1)) 0 η
      simp only [sub_zero] at this
      rw [abs_of_nonneg b2] at this
      rw [b5, ← this]
      congr 1
      ext <;> simp
    have e3 := chord_le p hlt
    have e4 := apart_triangle (pointAt p t) (nth p (j + 1)) (pointAt p t')
    have e5 := apart_triangle (nth p (j + 1)) (nth p k) (pointAt p t')
    rw [lengthTo_succ] at e3
    linarith

/-- **C140, speed.** Two points of the curve are no further apart than their parameters. -/
theorem C140_lipschitz (p : List (ℝ × ℝ)) (hp : p ≠ []) {t t' : ℝ} (h0 : 0 ≤ t) (h0' : 0 ≤ t') (h1 : t ≤ lengthTo p (p.length - 1)) (h1' : t' ≤ lengthTo p (p.length - 1)) : apart (pointAt p t) (pointAt p t') ≤ |t - t'| := by
  rcases le_total t t' with h | h
  · rw [abs_sub_comm, abs_of_nonneg (by linarith)]
    exact apart_point p hp h0 h h1'
  · rw [apart_comm, abs_of_nonneg (by linarith)]
    exact apart_point p hp h0' h h1

/-! ### The points of the splines -/

theorem order_perm {p : List (ℝ × ℝ)} {o : List ℕ} (h : IsArgsort (p.map Prod.fst) o) : (takeOrder p o).Perm p ∧ (takeOrder p o).Pairwise fun a b => a.1 ≤ b.1 := by
  obtain ⟨h1, h2⟩ := h
  rw [List.length_map] at h1
  constructor
  · have := h1.map fun i => p.getD i (0, 0)
    refine this.trans (List.Perm.of_eq ?_)
    apply List.ext_getElem
    · simp
    · intro i a b
      simp only [List.getElem_map, List.getElem_range]
      rw [List.getD_eq_getElem _ _ b]
  · unfold takeOrder
    rw [List.pairwise_map] at h2 ⊢
    refine h2.imp_of_mem fun {a b} ha hb hab => ?_
    have ha' : a < p.length := by simpa using h1.mem_iff.1 ha
    have hb' : b < p.length := by simpa using h1.mem_iff.1 hb
    rw [(map_fst p ha').1, (map_fst p hb').1] at hab
    exact hab

/-- **C140, the nodes used.** The curve goes through the wall nodes above y = 200 between x = 3250 and x = 4750, each as often as it is listed, from left to right. -/
theorem C140_nodes (w : List (ℝ × ℝ)) (o : List ℕ) (h : IsArgsort ((topPoints w).map Prod.fst) o) : (takeOrder (topPoints w) o).Perm (topPoints w) ∧ (takeOrder (topPoints w) o).Pairwise (fun a b => a.1 ≤ b.1) ∧
    ∀ q, q ∈ takeOrder (topPoints w) o ↔ q ∈ w ∧ 200 < q.2 ∧ 3250 < q.1 ∧ q.1 < 4750 := by
  obtain ⟨h1, h2⟩ := order_perm h
  refine ⟨h1, h2, fun q => ?_⟩
  rw [h1.mem_iff]
  unfold topPoints
  simp

/-- **C140, the points of the splines.** If there is such a node, 128 points are made: number `k` lies on the polygon through the sorted nodes at `k/127` of its length, the first and the last are the first and the last node, and neighbours are no further apart than a 127th of the length.  Otherwise
the program raises. -/
theorem C140_resampled (w : List (ℝ × ℝ)) (o : List ℕ) : (takeOrder (topPoints w) o = [] → resampled w o = .throws) ∧ (takeOrder (topPoints w) o ≠ [] →
    ∃ q, resampled w o = .ok q ∧ q.length = 128 ∧ nth q 0 = nth (takeOrder (topPoints w) o) 0 ∧ nth q 127 = nth (takeOrder (topPoints w) o) ((takeOrder (topPoints w) o).length - 1) ∧
      (∀ k : ℕ, k < 128 → OnPolygon (takeOrder (topPoints w) o) ((k : ℝ) / 127 * lengthTo (takeOrder (topPoints w) o) ((takeOrder (topPoints w) o).length - 1)) (nth q k)) ∧
      ∀ k : ℕ, k < 127 → apart (nth q k) (nth q (k + 1)) ≤ lengthTo (takeOrder (topPoints w) o) ((takeOrder (topPoints w) o).length - 1) / 127) := by
  obtain ⟨p, hpd⟩ : ∃ p, p = takeOrder (topPoints w) o := ⟨_, rfl⟩
  rw [← hpd]
  refine ⟨fun h => ?_, fun hp => ?_⟩
  · unfold resampled
    simp only [← hpd, if_pos h]
  · have hl := List.length_pos_iff.2 hp
    obtain ⟨T, hT⟩ : ∃ T, T = lengthTo p (p.length - 1) := ⟨_, rfl⟩
    have hT0 : 0 ≤ T := by rw [hT]; exact lengthTo_mono p (Nat.zero_le _)
    obtain ⟨q, hq⟩ : ∃ q, q = (linspace 0 T 128).map (pointAt p) := ⟨_, rfl⟩
    have hr : resampled w o = .ok q := by
      unfold resampled
      simp only [← hpd, if_neg hp]
      rw [arc_length p hp, arc_get p hl, arc_get p (by omega), ← hT, hq]
      rfl
    have hlen : q.length = 128 := by rw [hq]; simp [linspace]
    have hk : ∀ k < 128, nth q k = pointAt p (k / 127 * T) := by
      intro k hk
      have : nth q k = q[k] := List.getD_eq_getElem _ _ (by omega)
      rw [this]
      simp only [hq, linspace, List.getElem_map, List.getElem_range]
      congr 1
      split_ifs with h
      · obtain rfl : k = 127 := by omega
        norm_num
      · norm_num
        ring
    have hin : ∀ k : ℕ, k < 128 → (k : ℝ) / 127 * T ≤ T := by
      intro k hk
      have : (k : ℝ) ≤ 127 := by exact_mod_cast (by omega : k ≤ 127)
      have : (k : ℝ) / 127 ≤ 1 := by rw [div_le_one (by norm_num)]; exact this
      exact mul_le_of_le_one_left hT0 this
    obtain ⟨c1, c2⟩ := C140_point p hp
    rw [← hT]
    refine ⟨q, hr, hlen, ?_, ?_, fun k h => ?_, fun k h => ?_⟩
    · rw [hk 0 (by norm_num)]
      have := c2 0 hl
      have e : lengthTo p 0 = 0 := rfl
      rw [e] at this
      simpa using this
    · rw [hk 127 (by norm_num)]
      have := c2 (p.length - 1) (by omega)
      rw [← hT] at this
      norm_num
      exact this
    · rw [hk k h]
      exact c1 _ (by positivity) (by rw [← hT]; exact hin k h)
    · rw [hk k (by omega), hk (k + 1) (by omega)]
      refine (apart_point p hp (by positivity) ?_ (by rw [← hT]; exact hin (k + 1) (by omega))).trans (le_of_eq ?_)
      · push_cast
        have : (k : ℝ) / 127 ≤ (k + 1) / 127 := by gcongr; linarith
        exact mul_le_mul_of_nonneg_right this hT0
      · push_cast
        ring

/-- **C140, the order of the nodes.** Where the wall is a graph over x, so that nodes with the same x are at the same place, the curve does not depend on the order in which the nodes are listed nor on how `argsort` orders equal entries. -/
theorem C140_order (w w' : List (ℝ × ℝ)) (o o' : List ℕ) (hw : w.Perm w') (h : IsArgsort ((topPoints w).map Prod.fst) o) (h' : IsArgsort ((topPoints w').map Prod.fst) o') (hg : ∀ a ∈ w, ∀ b ∈ w, a.1 = b.1 → a = b) : resampled w o = resampled w' o' := by
  obtain ⟨h1, h2⟩ := order_perm h
  obtain ⟨h3, h4⟩ := order_perm h'
  have hp : (takeOrder (topPoints w) o).Perm (takeOrder (topPoints w') o') := h1.trans ((hw.filter _).trans h3.symm)
  have : takeOrder (topPoints w) o = takeOrder (topPoints w') o' := by
    refine List.Perm.eq_of_pairwise (le := fun a b => a.1 ≤ b.1) (fun a b ha hb hab hba => ?_) h2 h4 hp
    have ha' := (List.mem_filter.1 (h1.mem_iff.1 ha)).1
    have hb' := (List.mem_filter.1 (h1.mem_iff.1 (hp.mem_iff.2 hb))).1
    exact hg a ha' b hb' (le_antisymm hab hba)
  unfold resampled
  rw [this]

/-- **C140, the order of the nodes, refuted.** On a vertical piece of the wall the order is lost: the same three nodes listed in two orders, both left as they are by `argsort`, give polygons of lengths 2 and 3, the second running up and back down. -/
theorem C140_order_false : ∃ w w' : List (ℝ × ℝ), w.Perm w' ∧ IsArgsort ((topPoints w).map Prod.fst) [0, 1, 2] ∧ IsArgsort ((topPoints w').map Prod.fst) [0, 1, 2] ∧ takeOrder (topPoints w) [0, 1, 2] = w ∧ takeOrder (topPoints w') [0, 1, 2] = w' ∧
    (arcLength w).getD 2 0 = 2 ∧ (arcLength w').getD 2 0 = 3 := by
  have t1 : topPoints [(4000, 300), (4000, 301), (4000, 302)] = [(4000, 300), (4000, 301), (4000, 302)] := by
    unfold topPoints
    rw [List.filter_eq_self]
    intro a ha
    fin_cases ha <;> norm_num
  have t2 : topPoints [(4000, 300), (4000, 302), (4000, 301)] = [(4000, 300), (4000, 302), (4000, 301)] := by
    unfold topPoints
    rw [List.filter_eq_self]
    intro a ha
    fin_cases ha <;> norm_num
  refine ⟨[(4000, 300), (4000, 301), (4000, 302)], [(4000, 300), (4000, 302), (4000, 301)], (List.Perm.swap _ _ _).cons _, ?_, ?_, ?_, ?_, ?_, ?_⟩
  · rw [t1]
    exact ⟨List.Perm.refl _, by simp⟩
  · rw [t2]
    exact ⟨List.Perm.refl _, by simp⟩
  · rw [t1]; rfl
  · rw [t2]; rfl
  · rw [arc_get _ (by simp)]
    have e : ∀ a b : ℝ, apart (4000, a) (4000, b) = |b - a| := fun a b => by
      unfold apart
      rw [← Real.sqrt_sq_eq_abs]
      congr 1
      simp only
      ring
    simp only [lengthTo, Finset.sum_range_succ, Finset.sum_range_zero, nth]
    show 0 + apart (4000, 300) (4000, 301) + apart (4000, 301) (4000, 302) = 2
    rw [e, e]
    norm_num
  · rw [arc_get _ (by simp)]
    have e : ∀ a b : ℝ, apart (4000, a) (4000, b) = |b - a| := fun a b => by
      unfold apart
      rw [← Real.sqrt_sq_eq_abs]
      congr 1
      simp only
      ring
    simp only [lengthTo, Finset.sum_range_succ, Finset.sum_range_zero, nth]
    show 0 + apart (4000, 300) (4000, 302) + apart (4000, 302) (4000, 301) = 3
    rw [e, e]
    norm_num

/-- **C140, the centre.** The program goes on only if some node is within 19 of the origin: on any other mesh it raises, although the indices it looks for are not used. -/
theorem C140_centre (rows cols : ℕ) (x y : ℕ → ℕ → ℝ) : ((∃ i < rows, ∃ k < cols, apart (x i k, y i k) (0, 0) < 19) → ∃ i k, centreInds rows cols x y = .ok (i, k) ∧ i < rows ∧ k < cols ∧ apart (x i k, y i k) (0, 0) < 19) ∧
    (¬ (∃ i < rows, ∃ k < cols, apart (x i k, y i k) (0, 0) < 19) → centreInds rows cols x y = .throws) := by
  have hmem : ∀ p : ℕ × ℕ, p ∈ (((List.range (rows * cols)).map fun c => (c / cols, c % cols)).filter fun p => √(x p.1 p.2 ^ 2 + y p.1 p.2 ^ 2) < 1.9e1) ↔ p.1 < rows ∧ p.2 < cols ∧ apart (x p.1 p.2, y p.1 p.2) (0, 0) < 19 := by
    intro p
    have e : apart (x p.1 p.2, y p.1 p.2) (0, 0) = √(x p.1 p.2 ^ 2 + y p.1 p.2 ^ 2) := by unfold apart; simp
    rw [e, List.mem_filter, List.mem_map]
    constructor
    · rintro ⟨⟨c, hc, rfl⟩, h2⟩
      rw [List.mem_range] at hc
      have hcol : 0 < cols := by
        rcases Nat.eq_zero_or_pos cols with h | h
        · rw [h] at hc; omega
        · exact h
      refine ⟨(Nat.div_lt_iff_lt_mul hcol).2 hc, Nat.mod_lt _ hcol, ?_⟩
      have := of_decide_eq_true h2
      norm_num at this ⊢
      exact this
    · rintro ⟨h1, h2, h3⟩
      refine ⟨⟨p.1 * cols + p.2, ?_, ?_⟩, decide_eq_true (by norm_num at h3 ⊢; exact h3)⟩
      · rw [List.mem_range]
        calc p.1 * cols + p.2 < p.1 * cols + cols := by omega
          _ = (p.1 + 1) * cols := by ring
          _ ≤ rows * cols := Nat.mul_le_mul_right _ h1
      · refine Prod.ext ?_ ?_
        · show (p.1 * cols + p.2) / cols = p.1
          rw [Nat.add_comm, Nat.add_mul_div_right _ _ (by omega), Nat.div_eq_of_lt h2, zero_add]
        · show (p.1 * cols + p.2) % cols = p.2
          rw [Nat.add_comm, Nat.add_mul_mod_self_right, Nat.mod_eq_of_lt h2]
  unfold centreInds
  constructor
  · rintro ⟨i, hi, k, hk, h⟩
    cases hl : ((List.range (rows * cols)).map fun c => (c / cols, c % cols)).filter fun p => √(x p.1 p.2 ^ 2 + y p.1 p.2 ^ 2) < 1.9e1 with
    | nil =>
      have := (hmem (i, k)).2 ⟨hi, hk, h⟩
      rw [hl] at this
      simp at this
    | cons p l =>
      obtain ⟨h1, h2, h3⟩ := (hmem p).1 (by rw [hl]; exact List.mem_cons_self)
      exact ⟨p.1, p.2, rfl, h1, h2, h3⟩
  · intro h
    cases hl : ((List.range (rows * cols)).map fun c => (c / cols, c % cols)).filter fun p => √(x p.1 p.2 ^ 2 + y p.1 p.2 ^ 2) < 1.9e1 with
    | nil => rfl
    | cons p l =>
      obtain ⟨h1, h2, h3⟩ := (hmem p).1 (by rw [hl]; exact List.mem_cons_self)
      exact absurd ⟨p.1, h1, p.2, h2, h3⟩ h

/-! ### Cases that meet the hypotheses -/

/-- Three nodes of a wall that is a graph, one listed twice, and one out of the range: `argsort` sorts the four that are left. -/
example : IsArgsort ((topPoints [(4003, 304), (4000, 300), (4003, 304), (4006, 300), (5000, 300)]).map Prod.fst) [1, 2, 0, 3] ∧ takeOrder (topPoints [(4003, 304), (4000, 300), (4003, 304), (4006, 300), (5000, 300)]) [1, 2, 0, 3] ≠ [] ∧
    lengthTo [(4000, 300), (4003, 304), (4003, 304), (4006, 300)] 3 = 10 := by
  have t : topPoints [(4003, 304), (4000, 300), (4003, 304), (4006, 300), (5000, 300)] = [(4003, 304), (4000, 300), (4003, 304), (4006, 300)] := by
    unfold topPoints
    norm_num [List.filter_cons]
  rw [t]
  refine ⟨⟨?_, ?_⟩, by simp [takeOrder], ?_⟩
  · decide
  · norm_num
  · have h5 : ∀ a b : ℝ × ℝ, (a.1 - b.1) ^ 2 + (a.2 - b.2) ^ 2 = 5 ^ 2 → apart a b = 5 := fun a b h => by
      unfold apart
      rw [h, Real.sqrt_sq (by norm_num)]
    simp only [lengthTo, Finset.sum_range_succ, Finset.sum_range_zero, nth]
    show 0 + apart (4000, 300) (4003, 304) + apart (4003, 304) (4003, 304) + apart (4003, 304) (4006, 300) = 10
    rw [h5 _ _ (by norm_num), apart_self, h5 _ _ (by norm_num)]
    norm_num

end Blitzdg.Curved
