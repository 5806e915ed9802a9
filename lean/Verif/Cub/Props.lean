import Verif.Cub.Model
import Verif.Cub.ChecksA
import Verif.Cub.ChecksB
import Verif.Cub.ChecksC
import Verif.Cub.ChecksD
import Verif.DG2D.RefProps

/-! C58: the cubature rules integrate polynomials. -/

namespace Blitzdg.Cub

open MvPolynomial
open Blitzdg.DG2D

/-! ### Specification -/

/-- `(r_i, s_i, w_i)` integrates all polynomials of total degree at most `n` over the reference triangle up to `tol` times the sum of the absolute values of the coefficients. -/
def IsCubature (n : ℕ) (tol : ℝ) (pts : List (ℝ × ℝ × ℝ)) : Prop :=
  ∀ p : P2, p.totalDegree ≤ n → |(pts.map fun q => q.2.2 * ev q.1 q.2.1 p).sum - integ triInt p| ≤ tol * ∑ m ∈ p.support, |p.coeff m|

/-- The point lies inside the reference triangle and has positive weight. -/
def Inside (q : ℝ × ℝ × ℝ) : Prop := -1 < q.1 ∧ -1 < q.2.1 ∧ q.1 + q.2.1 < 0 ∧ 0 < q.2.2

/-! ### The integral of a monomial -/

theorem mono_int (a b : ℕ) : triInt (fun r s => r ^ a * s ^ b) = (num a b : ℝ) / (den a b : ℝ) := by
  have hi : ∀ s : ℝ, ∫ r in (-1 : ℝ)..(-s), r ^ a * s ^ b = (-1) ^ (a + 1) / (a + 1) * (s ^ (a + b + 1) - s ^ b) := by
    intro s
    rw [intervalIntegral.integral_mul_const, integral_pow, neg_pow s]
    have : (a : ℝ) + 1 ≠ 0 := by positivity
    field_simp
    ring
  unfold triInt
  simp_rw [hi]
  rw [intervalIntegral.integral_const_mul, intervalIntegral.integral_sub (by simp) (by simp), integral_pow, integral_pow]
  have h1 : (a : ℝ) + 1 ≠ 0 := by positivity
  have h2 : (b : ℝ) + 1 ≠ 0 := by positivity
  have h3 : (a : ℝ) + b + 2 ≠ 0 := by positivity
  have h4 : (a : ℝ) + b + 1 + 1 ≠ 0 := by positivity
  unfold num den
  rcases Nat.even_or_odd a with ha | ha <;> rcases Nat.even_or_odd b with hb | hb
  all_goals
    have e1 : a % 2 = a % 2 := rfl
    simp only [Nat.even_iff, Nat.odd_iff] at ha hb
  · have p1 : ((-1 : ℝ)) ^ (a + 1) = -1 := (Nat.odd_iff.2 (by omega)).neg_one_pow
    have p2 : ((-1 : ℝ)) ^ (a + b + 1 + 1) = 1 := (Nat.even_iff.2 (by omega)).neg_one_pow
    have p3 : ((-1 : ℝ)) ^ (b + 1) = -1 := (Nat.odd_iff.2 (by omega)).neg_one_pow
    rw [p1, p2, p3, if_pos ha, if_neg (by omega), if_pos hb]
    push_cast
    field_simp
    ring
  · have p1 : ((-1 : ℝ)) ^ (a + 1) = -1 := (Nat.odd_iff.2 (by omega)).neg_one_pow
    have p2 : ((-1 : ℝ)) ^ (a + b + 1 + 1) = -1 := (Nat.odd_iff.2 (by omega)).neg_one_pow
    have p3 : ((-1 : ℝ)) ^ (b + 1) = 1 := (Nat.even_iff.2 (by omega)).neg_one_pow
    rw [p1, p2, p3, if_pos ha, if_pos (by omega), if_neg (by omega)]
    push_cast
    field_simp
    ring
  · have p1 : ((-1 : ℝ)) ^ (a + 1) = 1 := (Nat.even_iff.2 (by omega)).neg_one_pow
    have p2 : ((-1 : ℝ)) ^ (a + b + 1 + 1) = -1 := (Nat.odd_iff.2 (by omega)).neg_one_pow
    have p3 : ((-1 : ℝ)) ^ (b + 1) = -1 := (Nat.odd_iff.2 (by omega)).neg_one_pow
    rw [p1, p2, p3, if_neg (by omega), if_pos (by omega), if_pos hb]
    push_cast
    field_simp
    ring
  · have p1 : ((-1 : ℝ)) ^ (a + 1) = 1 := (Nat.even_iff.2 (by omega)).neg_one_pow
    have p2 : ((-1 : ℝ)) ^ (a + b + 1 + 1) = 1 := (Nat.even_iff.2 (by omega)).neg_one_pow
    have p3 : ((-1 : ℝ)) ^ (b + 1) = 1 := (Nat.even_iff.2 (by omega)).neg_one_pow
    rw [p1, p2, p3, if_neg (by omega), if_neg (by omega), if_neg (by omega)]
    push_cast
    field_simp
    ring

/-! ### What the check means -/

/-- The real points. -/
noncomputable def real (p : Int × Int × Int) : ℝ × ℝ × ℝ := ((p.1 : ℝ) / 10 ^ 15, (p.2.1 : ℝ) / 10 ^ 15, (p.2.2 : ℝ) / 10 ^ 15)

def moment (t : List (Int × Int × Int)) (a b : ℕ) : Int := isum (t.map fun p => p.1 ^ a * (p.2.1 ^ b * p.2.2))

theorem imul_map {α : Type} (f g : α → Int) (t : List α) : imul (t.map f) (t.map g) = t.map fun p => f p * g p := by
  induction t with
  | nil => rfl
  | cons p t ih => simp [imul, ih]

theorem inner_spec (t : List (Int × Int × Int)) (b : ℕ) (k a : ℕ) (h : inner (t.map (·.1)) b k a (t.map fun p => p.1 ^ a * (p.2.1 ^ b * p.2.2)) = true) :
    ∀ j < k, good (a + j) b (moment t (a + j) b) = true := by
  induction k generalizing a with
  | zero => intro j hj; omega
  | succ k ih =>
    unfold inner at h
    rw [Bool.and_eq_true, imul_map] at h
    intro j hj
    rcases j with _ | j
    · exact h.1
    · have := ih (a + 1) (by
        have e : (fun p : Int × Int × Int => p.1 ^ (a + 1) * (p.2.1 ^ b * p.2.2)) = fun p => p.1 * (p.1 ^ a * (p.2.1 ^ b * p.2.2)) := by
          funext p
          rw [pow_succ]
          ring
        rw [e]
        exact h.2) j (by omega)
      rw [show a + 1 + j = a + (j + 1) by omega] at this
      exact this

theorem outer_spec (t : List (Int × Int × Int)) (k b : ℕ) (h : outer (t.map (·.1)) (t.map (·.2.1)) k b (t.map fun p => p.2.1 ^ b * p.2.2) = true) :
    ∀ i j, i + j < k → good i (b + j) (moment t i (b + j)) = true := by
  induction k generalizing b with
  | zero => intro i j hj; omega
  | succ k ih =>
    unfold outer at h
    rw [Bool.and_eq_true, imul_map] at h
    intro i j hj
    rcases j with _ | j
    · have := inner_spec t b (k + 1) 0 (by
        have e : (fun p : Int × Int × Int => p.1 ^ 0 * (p.2.1 ^ b * p.2.2)) = fun p => p.2.1 ^ b * p.2.2 := by
          funext p
          simp
        rw [e]
        exact h.1) i (by omega)
      simpa using this
    · have := ih (b + 1) (by
        have e : (fun p : Int × Int × Int => p.2.1 ^ (b + 1) * p.2.2) = fun p => p.2.1 * (p.2.1 ^ b * p.2.2) := by
          funext p
          rw [pow_succ]
          ring
        rw [e]
        exact h.2) i j (by omega)
      rw [show b + 1 + j = b + (j + 1) by omega] at this
      exact this

theorem good_spec {a b : ℕ} {S : Int} (h : good a b S = true) : |(S : ℝ) / 10 ^ (15 * (a + b + 1)) - (num a b : ℝ) / (den a b : ℝ)| ≤ 2e-14 := by
  have hd : (0 : ℝ) < den a b := by unfold den; positivity
  have ht : (0 : ℝ) < 10 ^ (15 * (a + b + 1)) := by positivity
  unfold good at h
  have h1 := of_decide_eq_true h
  clear h
  have eT : ((10 : ℝ)) ^ (15 * (a + b + 1)) = ((10 ^ (15 * (a + b + 1)) : ℕ) : ℝ) := by rw [Nat.cast_pow]; rfl
  rw [eT] at ht ⊢
  generalize 10 ^ (15 * (a + b + 1)) = T at h1 ht ⊢
  generalize num a b = n at h1 ⊢
  generalize den a b = d at h1 hd ⊢
  have h2 : ((((S * (d : Int) - n * (T : Int)).natAbs * 10 ^ 14 : ℕ) : ℤ) : ℝ) ≤ (((2 * d * T : ℕ) : ℤ) : ℝ) := by
    exact_mod_cast h1
  rw [Nat.cast_mul, Int.natCast_natAbs] at h2
  push_cast at h2
  rw [div_sub_div _ _ ht.ne' hd.ne', abs_div, abs_of_pos (mul_pos ht hd), div_le_iff₀ (mul_pos ht hd), mul_comm (T : ℝ) (n : ℝ)]
  linarith [h2]

theorem moment_real (t : List (Int × Int × Int)) (a b : ℕ) : ((t.map real).map fun q => q.2.2 * (q.1 ^ a * q.2.1 ^ b)).sum = (moment t a b : ℝ) / 10 ^ (15 * (a + b + 1)) := by
  unfold moment
  induction t with
  | nil => simp [isum]
  | cons p t ih =>
    simp only [List.map_cons, List.sum_cons, ih, isum, real]
    push_cast
    rw [div_pow, div_pow, add_div]
    congr 1
    rw [show 15 * (a + b + 1) = 15 * a + 15 * b + 15 by ring, pow_add, pow_add, pow_mul, pow_mul]
    field_simp

/-- Integral and sum of a polynomial, monomial by monomial. -/
theorem integ_support (p : P2) : integ triInt p = ∑ m ∈ p.support, p.coeff m * triInt (fun r s => r ^ m 0 * s ^ m 1) := by
  have hadd : ∀ (T : Finset (Fin 2 →₀ ℕ)) (f : (Fin 2 →₀ ℕ) → P2), integ triInt (∑ m ∈ T, f m) = ∑ m ∈ T, integ triInt (f m) := by
    intro T f
    classical
    induction T using Finset.induction_on with
    | empty =>
      simp [integ, triInt]
    | insert m T hm ih => rw [Finset.sum_insert hm, Finset.sum_insert hm, (triModal 0).add, ih]
  conv_lhs => rw [p.as_sum]
  rw [hadd]
  apply Finset.sum_congr rfl
  intro m _
  have e : (monomial m (p.coeff m) : P2) = C (p.coeff m) * (X 0 ^ m 0 * X 1 ^ m 1) := by
    rw [monomial_eq, Finsupp.prod_fintype _ _ (by simp), Fin.prod_univ_two]
  rw [e, (triModal 0).smul]
  simp [integ]

theorem sum_support (pts : List (ℝ × ℝ × ℝ)) (p : P2) :
    (pts.map fun q => q.2.2 * ev q.1 q.2.1 p).sum = ∑ m ∈ p.support, p.coeff m * (pts.map fun q => q.2.2 * (q.1 ^ m 0 * q.2.1 ^ m 1)).sum := by
  induction pts with
  | nil => simp
  | cons q pts ih =>
    simp only [List.map_cons, List.sum_cons, ih, mul_add, Finset.sum_add_distrib]
    congr 1
    rw [show ev q.1 q.2.1 p = ∑ m ∈ p.support, p.coeff m * (q.1 ^ m 0 * q.2.1 ^ m 1) from ?_, Finset.mul_sum]
    · apply Finset.sum_congr rfl
      intro m _
      ring
    · unfold ev
      rw [eval_eq']
      simp [Fin.prod_univ_two]

theorem check_spec {n : ℕ} {l : List Int} (h : check n l = true) : IsCubature n 2e-14 ((triples l).map real) := by
  intro p hp
  rw [integ_support, sum_support, ← Finset.sum_sub_distrib, Finset.mul_sum]
  refine (Finset.abs_sum_le_sum_abs _ _).trans (Finset.sum_le_sum fun m hm => ?_)
  have hd : m 0 + m 1 ≤ n := by
    have := le_totalDegree hm
    rw [Finsupp.sum_fintype _ _ (by simp), Fin.sum_univ_two] at this
    exact this.trans hp
  have hg := outer_spec (triples l) (n + 1) 0 (by
    have e : (fun p : Int × Int × Int => p.2.1 ^ 0 * p.2.2) = fun p => p.2.2 := by
      funext p
      simp
    rw [e]
    exact h) (m 0) (m 1) (by omega)
  rw [Nat.zero_add] at hg
  rw [← mul_sub, abs_mul, moment_real, mono_int, mul_comm]
  exact mul_le_mul_of_nonneg_right (good_spec hg) (abs_nonneg _)

theorem triples_get (rows : ℕ) (l : List Int) (h : l.length = 3 * rows) :
    (triples l).length = rows ∧ ∀ i < rows, ∃ x y w, (triples l)[i]? = some (x, y, w) ∧ l[3 * i]? = some x ∧ l[3 * i + 1]? = some y ∧ l[3 * i + 2]? = some w := by
  induction rows generalizing l with
  | zero =>
    rw [Nat.mul_zero, List.length_eq_zero_iff] at h
    subst h
    exact ⟨rfl, fun i hi => by omega⟩
  | succ rows ih =>
    match l, h with
    | a :: b :: c :: l, h =>
      obtain ⟨h1, h2⟩ := ih l (by simp at h; omega)
      refine ⟨by simp [triples, h1], fun i hi => ?_⟩
      rcases i with _ | i
      · exact ⟨a, b, c, rfl, rfl, rfl, rfl⟩
      · obtain ⟨x, y, w, g1, g2, g3, g4⟩ := h2 i (by omega)
        refine ⟨x, y, w, by simpa [triples] using g1, ?_, ?_, ?_⟩
        · rw [show 3 * (i + 1) = 3 * i + 1 + 1 + 1 by ring]; simpa using g2
        · rw [show 3 * (i + 1) + 1 = 3 * i + 1 + 1 + 1 + 1 by ring]; simpa using g3
        · rw [show 3 * (i + 1) + 2 = 3 * i + 2 + 1 + 1 + 1 by ring]; simpa using g4

theorem inside_spec {rows : ℕ} {l : List Int} (h : inside rows l = true) : l.length = 3 * rows ∧ ∀ q ∈ (triples l).map real, Inside q := by
  unfold inside at h
  rw [Bool.and_eq_true, beq_iff_eq, List.all_eq_true] at h
  refine ⟨h.1, fun q hq => ?_⟩
  obtain ⟨p, hp, rfl⟩ := List.mem_map.1 hq
  have := h.2 p hp
  simp only [Bool.and_eq_true, decide_eq_true_eq] at this
  obtain ⟨⟨⟨a, b⟩, c⟩, d⟩ := this
  have a' : (-(10 ^ 15) : ℝ) < p.1 := by exact_mod_cast a
  have b' : (-(10 ^ 15) : ℝ) < p.2.1 := by exact_mod_cast b
  have c' : (p.1 : ℝ) + p.2.1 < 0 := by exact_mod_cast c
  have d' : (0 : ℝ) < p.2.2 := by exact_mod_cast d
  unfold Inside real
  simp only
  refine ⟨?_, ?_, ?_, by positivity⟩
  · rw [lt_div_iff₀ (by positivity)]; linarith
  · rw [lt_div_iff₀ (by positivity)]; linarith
  · rw [← add_div]; exact div_neg_of_neg_of_pos c' (by positivity)

/-- What a user gets: as many points as announced, inside the triangle, with positive weights, integrating polynomials up to degree `n`. -/
structure Works (n : ℤ) (pts : List (ℝ × ℝ × ℝ)) : Prop where
  count : numPoints n = .ok pts.length
  r : rCoord n = .ok (pts.map fun q => some q.1)
  s : sCoord n = .ok (pts.map fun q => some q.2.1)
  w : weights n = .ok (pts.map fun q => some q.2.2)
  inside : ∀ q ∈ pts, Inside q
  exact : IsCubature n.toNat 2e-14 pts

theorem works {n : ℤ} {rule : Rule} (hr : ruleOf n = .ok rule) (h : (check n.toNat rule.vals && Cub.inside rule.rows rule.vals) = true) : Works n ((triples rule.vals).map real) := by
  rw [Bool.and_eq_true] at h
  obtain ⟨hl, hi⟩ := inside_spec h.2
  obtain ⟨ht, hg⟩ := triples_get rule.rows rule.vals hl
  have hcol : ∀ (j : ℕ) (f : ℝ × ℝ × ℝ → ℝ), (∀ i < rule.rows, ∀ x y w, (triples rule.vals)[i]? = some (x, y, w) → rule.vals[3 * i]? = some x → rule.vals[3 * i + 1]? = some y →
      rule.vals[3 * i + 2]? = some w → rule.entry i j = some (f (real (x, y, w)))) → column j n = .ok (((triples rule.vals).map real).map fun q => some (f q)) := by
    intro j f hf
    unfold column
    rw [hr]
    simp only [Out.bind_ok, Out.pure_eq, Out.ok.injEq]
    apply List.ext_getElem?
    intro i
    by_cases hlt : i < rule.rows
    · obtain ⟨x, y, w, g1, g2, g3, g4⟩ := hg i hlt
      rw [List.getElem?_map, List.getElem?_map, List.getElem?_map, g1, List.getElem?_range hlt]
      simp only [Option.map_some]
      rw [hf i hlt x y w g1 g2 g3 g4]
    · rw [List.getElem?_eq_none (by simpa using hlt), List.getElem?_eq_none (by simp [ht]; omega)]
  refine ⟨?_, hcol 0 _ ?_, hcol 1 _ ?_, hcol 2 _ ?_, hi, check_spec h.1⟩
  · unfold numPoints
    rw [hr]
    simp [ht]
  · intro i _ x y w _ h1 h2 h3
    simp [Rule.entry, real, h1]
  · intro i _ x y w _ h1 h2 h3
    simp [Rule.entry, real, h2]
  · intro i _ x y w _ h1 h2 h3
    simp [Rule.entry, real, h3]

/-- **C58.** For every number `NCubature` from 1 to 28 except 3 and 4 the rule is complete, its points lie inside the triangle, its weights are positive, and it integrates every polynomial of total
degree at most `NCubature`, up to `2e-14` times the sum of the absolute values of the coefficients.  Missing from the full statement: 3 and 4, see `C58_corrupt`. -/
theorem C58_rules_partial (n : ℤ) (h1 : 1 ≤ n) (h2 : n ≤ 28) (h3 : n ≠ 3) (h4 : n ≠ 4) : ∃ pts, Works n pts := by
  interval_cases n
  · exact ⟨_, works (rule := ⟨1, vals0⟩) rfl check0⟩
  · exact ⟨_, works (rule := ⟨3, vals1⟩) rfl check1⟩
  · exact absurd rfl h3
  · exact absurd rfl h4
  · exact ⟨_, works (rule := ⟨7, vals4⟩) rfl check4⟩
  · exact ⟨_, works (rule := ⟨12, vals5⟩) rfl check5⟩
  · exact ⟨_, works (rule := ⟨15, vals6⟩) rfl check6⟩
  · exact ⟨_, works (rule := ⟨16, vals7⟩) rfl check7⟩
  · exact ⟨_, works (rule := ⟨19, vals8⟩) rfl check8⟩
  · exact ⟨_, works (rule := ⟨25, vals9⟩) rfl check9⟩
  · exact ⟨_, works (rule := ⟨28, vals10⟩) rfl check10⟩
  · exact ⟨_, works (rule := ⟨36, vals11⟩) rfl check11⟩
  · exact ⟨_, works (rule := ⟨40, vals12⟩) rfl check12⟩
  · exact ⟨_, works (rule := ⟨46, vals13⟩) rfl check13⟩
  · exact ⟨_, works (rule := ⟨54, vals14⟩) rfl check14⟩
  · exact ⟨_, works (rule := ⟨58, vals15⟩) rfl check15⟩
  · exact ⟨_, works (rule := ⟨66, vals16⟩) rfl check16⟩
  · exact ⟨_, works (rule := ⟨73, vals17⟩) rfl check17⟩
  · exact ⟨_, works (rule := ⟨82, vals18⟩) rfl check18⟩
  · exact ⟨_, works (rule := ⟨85, vals19⟩) rfl check19⟩
  · exact ⟨_, works (rule := ⟨93, vals20⟩) rfl check20⟩
  · exact ⟨_, works (rule := ⟨100, vals21⟩) rfl check21⟩
  · exact ⟨_, works (rule := ⟨106, vals22⟩) rfl check22⟩
  · exact ⟨_, works (rule := ⟨118, vals23⟩) rfl check23⟩
  · exact ⟨_, works (rule := ⟨126, vals24⟩) rfl check24⟩
  · exact ⟨_, works (rule := ⟨138, vals25⟩) rfl check25⟩
  · exact ⟨_, works (rule := ⟨145, vals26⟩) rfl check26⟩
  · exact ⟨_, works (rule := ⟨225, vals27⟩) rfl check27⟩

/-- **C58, refuted for 3 and 4.** With the missing commas only five of the six points are written; whatever numbers the memory of the sixth holds, the rule does not even integrate polynomials of
degree two to within one per cent. -/
theorem C58_corrupt (n : ℤ) (hn : n = 3 ∨ n = 4) : ∃ five : List (ℝ × ℝ × ℝ), five.length = 5 ∧ numPoints n = .ok 6 ∧
    rCoord n = .ok ((five.map fun q => some q.1) ++ [none]) ∧ sCoord n = .ok ((five.map fun q => some q.2.1) ++ [none]) ∧ weights n = .ok ((five.map fun q => some q.2.2) ++ [none]) ∧
    ∀ q, ¬ IsCubature 2 1e-2 (five ++ [q]) := by
  have hr : ruleOf n = .ok ⟨6, vals2⟩ := by rcases hn with rfl | rfl <;> rfl
  refine ⟨(triples vals2).map real, rfl, ?_, ?_, ?_, ?_, ?_⟩
  · unfold numPoints
    rw [hr]
    rfl
  · simp only [rCoord, column, hr]
    simp [List.range, List.range.loop, Rule.entry, vals2, triples, real]
  · simp only [sCoord, column, hr]
    simp [List.range, List.range.loop, Rule.entry, vals2, triples, real]
  · simp only [weights, column, hr]
    simp [List.range, List.range.loop, Rule.entry, vals2, triples, real]
  · rintro ⟨x, y, w⟩ h
    have key : ∀ a : ℕ, a ≤ 2 → |(((triples vals2).map real).map fun q => q.2.2 * q.1 ^ a).sum + w * x ^ a - (num a 0 : ℝ) / (den a 0 : ℝ)| ≤ 1e-2 := by
      intro a ha
      have := h (X 0 ^ a) (by rw [totalDegree_X_pow]; exact ha)
      rw [show integ triInt (X 0 ^ a : P2) = (num a 0 : ℝ) / (den a 0 : ℝ) from ?_] at this
      · rw [List.map_append, List.sum_append] at this
        have e : ∑ m ∈ (X 0 ^ a : P2).support, |(X 0 ^ a : P2).coeff m| = 1 := by
          rw [X_pow_eq_monomial, support_monomial, if_neg one_ne_zero]
          simp
        rw [e, mul_one] at this
        simpa using this
      · rw [← mono_int]
        simp [integ]
    have k0 := key 0 (by norm_num)
    have k1 := key 1 (by norm_num)
    have k2 := key 2 (by norm_num)
    simp only [vals2, triples, real, List.map_cons, List.map_nil, List.sum_cons, List.sum_nil, num, den] at k0 k1 k2
    norm_num [abs_le] at k0 k1 k2
    nlinarith [mul_nonneg (sub_nonneg.2 k0.1) (sq_nonneg x), sq_nonneg x]

/-- **C58, range.** Any other number makes every accessor read outside the vector of rules. -/
theorem C58_range (n : ℤ) (h : n < 1 ∨ 28 < n) : numPoints n = .ub ∧ rCoord n = .ub ∧ sCoord n = .ub ∧ weights n = .ub := by
  have : ruleOf n = .ub := by
    unfold ruleOf
    split_ifs with h1
    · unfold rd
      rw [List.getElem?_eq_none]
      simp [rules]
      omega
    · rfl
  simp [numPoints, rCoord, sCoord, weights, column, this]

/-- The rule for eight, on `r^3 s^5`. -/
example : ∃ pts, Works 8 pts ∧ pts.length = 16 ∧ |(pts.map fun q => q.2.2 * ev q.1 q.2.1 (X 0 ^ 3 * X 1 ^ 5)).sum - integ triInt (X 0 ^ 3 * X 1 ^ 5)| ≤ 2e-14 := by
  obtain ⟨pts, h⟩ := C58_rules_partial 8 (by norm_num) (by norm_num) (by norm_num) (by norm_num)
  refine ⟨pts, h, ?_, ?_⟩
  · have := h.count
    have e : numPoints 8 = .ok 16 := rfl
    rw [e] at this
    injection this with this
    exact this.symm
  · have e : (X 0 ^ 3 * X 1 ^ 5 : P2) = monomial (Finsupp.single 0 3 + Finsupp.single 1 5) 1 := by
      rw [X_pow_eq_monomial, X_pow_eq_monomial, monomial_mul, one_mul]
    have := h.exact (X 0 ^ 3 * X 1 ^ 5) ((totalDegree_mul _ _).trans (by rw [totalDegree_X_pow, totalDegree_X_pow]; decide))
    have e1 : ∑ m ∈ (X 0 ^ 3 * X 1 ^ 5 : P2).support, |(X 0 ^ 3 * X 1 ^ 5 : P2).coeff m| = 1 := by
      rw [e, support_monomial, if_neg one_ne_zero]
      simp
    rw [e1, mul_one] at this
    exact this

end Blitzdg.Cub
