import Verif.Jacobi.Quad
import Verif.Jacobi.Props
import Verif.Dense.ExactEig

/-! Properties C69 (Gauss rules) and C70 (Gauss-Lobatto points). -/

namespace Blitzdg.Jacobi

open Polynomial
open Blitzdg.Sparse (DMat rowMajor)
open Blitzdg.Blitz (mset)
open Blitzdg.Dense (Done eigenSolve SyevdOk C37_eigen toMat)

variable {α β : ℝ}

/-! ### The polynomials span -/

theorem poly_zero (α β : ℝ) : poly α β 0 = C (kap α β 0) := by
  have : Q α β 0 = 1 := by simp [Q, co_zero]
  simp [poly, this]

theorem poly_span (hα : -1 < α) (hβ : -1 < β) (hab : α + β ≠ -1) (m : ℕ) (f : ℝ[X]) (hf : f.natDegree ≤ m) :
    ∃ c : ℕ → ℝ, f = ∑ k ∈ Finset.range (m + 1), C (c k) * poly α β k := by
  induction m generalizing f with
  | zero =>
    have hk := (kap_pos hα hβ hab 0).ne'
    refine ⟨fun _ => f.coeff 0 / kap α β 0, ?_⟩
    rw [Finset.sum_range_one, poly_zero, ← C_mul, div_mul_cancel₀ _ hk]
    exact eq_C_of_natDegree_le_zero hf
  | succ m ih =>
    obtain ⟨hd, hl⟩ := poly_degree hα hβ hab (m + 1)
    set l := f.coeff (m + 1) / (poly α β (m + 1)).leadingCoeff with hl'
    have hg : (f - C l * poly α β (m + 1)).natDegree ≤ m := by
      rw [natDegree_le_iff_coeff_eq_zero]
      intro k hk
      rcases Nat.lt_or_ge (m + 1) k with h | h
      · rw [coeff_sub, coeff_C_mul, coeff_eq_zero_of_natDegree_lt (by omega), coeff_eq_zero_of_natDegree_lt (by omega), mul_zero, sub_zero]
      · obtain rfl : k = m + 1 := by omega
        have : (poly α β (m + 1)).coeff (m + 1) = (poly α β (m + 1)).leadingCoeff := by rw [leadingCoeff, hd]
        rw [coeff_sub, coeff_C_mul, this, hl', div_mul_cancel₀ _ hl.ne', sub_self]
    obtain ⟨c, hc⟩ := ih _ hg
    refine ⟨fun k => if k = m + 1 then l else c k, ?_⟩
    rw [Finset.sum_range_succ]
    simp only [if_true]
    have : ∑ k ∈ Finset.range (m + 1), C (if k = m + 1 then l else c k) * poly α β k = ∑ k ∈ Finset.range (m + 1), C (c k) * poly α β k := by
      apply Finset.sum_congr rfl
      intro k hk
      rw [if_neg (by have := Finset.mem_range.1 hk; omega)]
    rw [this, ← hc]; ring

/-! ### The matrix handed to the eigenvalue routine -/

theorem foldl_mset_other (l : List (ℕ × ℕ)) (m : DMat ℝ) (f : DMat ℝ → ℕ × ℕ → ℝ) (i j : ℕ) (h : (i, j) ∉ l) :
    (l.foldl (fun m ij => mset m ij.1 ij.2 (f m ij)) m).at' i j = m.at' i j := by
  induction l generalizing m with
  | nil => rfl
  | cons p l ih =>
    rw [List.foldl_cons, ih _ (fun hm => h (List.mem_cons_of_mem _ hm))]
    have : ¬ (i = p.1 ∧ j = p.2) := fun hh => h (by rw [hh.1, hh.2]; exact List.mem_cons_self)
    simp [mset, this]

theorem foldl_mset_shape (l : List (ℕ × ℕ)) (m : DMat ℝ) (f : DMat ℝ → ℕ × ℕ → ℝ) :
    (l.foldl (fun m ij => mset m ij.1 ij.2 (f m ij)) m).rows = m.rows ∧ (l.foldl (fun m ij => mset m ij.1 ij.2 (f m ij)) m).cols = m.cols := by
  induction l generalizing m with
  | nil => exact ⟨rfl, rfl⟩
  | cons p l ih => rw [List.foldl_cons]; exact ih _

/-- Lexicographic order on positions. -/
def before (p q : ℕ × ℕ) : Prop := p.1 < q.1 ∨ (p.1 = q.1 ∧ p.2 < q.2)

theorem rowMajor_sorted (m n : ℕ) : (rowMajor m n).Pairwise before := by
  unfold rowMajor
  rw [List.pairwise_flatMap]
  refine ⟨fun i _ => ?_, ?_⟩
  · rw [List.pairwise_map]
    exact (List.pairwise_lt_range).imp fun h => .inr ⟨rfl, h⟩
  · apply (List.pairwise_lt_range).imp
    intro a b hab x hx y hy
    simp only [List.mem_map, List.mem_range] at hx hy
    obtain ⟨_, _, rfl⟩ := hx
    obtain ⟨_, _, rfl⟩ := hy
    exact .inl hab

theorem mem_rowMajor' (m n i j : ℕ) : (i, j) ∈ rowMajor m n ↔ i < m ∧ j < n := by
  simp [rowMajor, List.mem_flatMap]

/-- Folding over a strictly sorted list of positions, below-diagonal entries zero at the start. -/
theorem addTranspose_fold (n : ℕ) (l : List (ℕ × ℕ)) (m m0 : DMat ℝ) (hs : l.Pairwise before)
    (hm : ∀ i j, (i, j) ∈ l → m.at' i j = m0.at' i j)
    (hl : ∀ i j, (i, j) ∈ l → i < n ∧ j < n)
    (hdone : ∀ i j, i < n → j < n → (i, j) ∉ l → m.at' i j = m0.at' i j + m0.at' j i)
    (hprefix : ∀ i j, i < n → j < n → (i, j) ∉ l → ∀ p ∈ l, before (i, j) p)
    (hz : ∀ i j, j < i → m0.at' i j = 0) (i j : ℕ) (hi : i < n) (hj : j < n) :
    (l.foldl (fun m ij => mset m ij.1 ij.2 (m.at' ij.1 ij.2 + m.at' ij.2 ij.1)) m).at' i j = m0.at' i j + m0.at' j i := by
  induction l generalizing m with
  | nil => exact hdone i j hi hj (by simp)
  | cons p l ih =>
    obtain ⟨a, b⟩ := p
    rw [List.foldl_cons]
    rw [List.pairwise_cons] at hs
    have hnot : ∀ q ∈ l, before (a, b) q := hs.1
    have hab : (a, b) ∉ l := fun h => by
      have := hnot _ h
      rcases this with h | ⟨-, h⟩ <;> simp at h
    obtain ⟨ha, hb⟩ := hl a b List.mem_cons_self
    have hval : m.at' a b + m.at' b a = m0.at' a b + m0.at' b a := by
      rw [hm a b List.mem_cons_self]
      congr 1
      by_cases hin : (b, a) ∈ (a, b) :: l
      · exact hm b a hin
      · rw [hdone b a hb ha hin]
        -- (b,a) done before (a,b): then b < a, and m0(a,b) = 0
        have hbf := hprefix b a hb ha hin (a, b) List.mem_cons_self
        have hba : b < a := by
          rcases hbf with h | ⟨h, h'⟩
          · exact h
          · simp only at h h'; omega
        rw [hz a b hba, add_zero]
    apply ih
    · exact hs.2
    · intro i j hij
      have hne : ¬ (i = a ∧ j = b) := fun h => hab (by rw [← h.1, ← h.2]; exact hij)
      simp only [mset, hne, if_false]
      exact hm i j (List.mem_cons_of_mem _ hij)
    · exact fun i j hij => hl i j (List.mem_cons_of_mem _ hij)
    · intro i j hi hj hij
      by_cases he : i = a ∧ j = b
      · obtain ⟨rfl, rfl⟩ := he
        simp only [mset, and_self, if_true]
        exact hval
      · simp only [mset, he, if_false]
        apply hdone i j hi hj
        rw [List.mem_cons]
        rintro (h | h)
        · simp only [Prod.mk.injEq] at h; exact he h
        · exact hij h
    · intro i j hi hj hij q hq
      by_cases he : i = a ∧ j = b
      · obtain ⟨rfl, rfl⟩ := he; exact hnot q hq
      · apply hprefix i j hi hj _ q (List.mem_cons_of_mem _ hq)
        rw [List.mem_cons]
        rintro (h | h)
        · simp only [Prod.mk.injEq] at h; exact he h
        · exact hij h

/-- Off-diagonal and diagonal entries of the Jacobi matrix as the code has them. -/
noncomputable def diagEntry (α β eps : ℝ) (i : ℕ) : ℝ := if i = 0 ∧ α + β < 10 * eps then 0 else bnew α β i

theorem gaussMatrix_eq (α β eps : ℝ) (N i j : ℕ) (hi : i < N + 1) (hj : j < N + 1) :
    (addTranspose (gaussUpper α β eps N)).at' i j
      = (if j = i then diagEntry α β eps i else 0) + (if j = i + 1 then anew α β i else 0) + (if i = j + 1 then anew α β j else 0) := by
  have hz : ∀ i j, j < i → (gaussUpper α β eps N).at' i j = 0 := by
    intro i j h
    simp only [gaussUpper]
    rw [if_neg (by omega), if_neg (by omega)]
  unfold addTranspose
  rw [show rowMajor (gaussUpper α β eps N).rows (gaussUpper α β eps N).cols = rowMajor (N + 1) (N + 1) from rfl]
  rw [addTranspose_fold (N + 1) (rowMajor (N + 1) (N + 1)) (gaussUpper α β eps N) (gaussUpper α β eps N) (rowMajor_sorted _ _) (fun _ _ _ => rfl)
    (fun i j h => (mem_rowMajor' _ _ i j).1 h)
    (fun i j hi hj h => absurd ((mem_rowMajor' _ _ i j).2 ⟨hi, hj⟩) h) (fun i j hi hj h => absurd ((mem_rowMajor' _ _ i j).2 ⟨hi, hj⟩) h) hz i j hi hj]
  simp only [gaussUpper]
  rcases Nat.lt_trichotomy i j with h | h | h
  · rw [if_neg (by omega : ¬ i = j), if_neg (by omega : ¬ j = i), if_neg (by omega : ¬ (i = j + 1 ∧ j < N)), if_neg (by omega : ¬ j = i), if_neg (by omega : ¬ i = j + 1)]
    by_cases h1 : j = i + 1
    · rw [if_pos ⟨h1, by omega⟩, if_pos h1]; ring
    · rw [if_neg (by tauto), if_neg h1]; ring
  · subst h
    rw [if_pos rfl, if_pos rfl, if_neg (by omega : ¬ i = i + 1), diagEntry]
    by_cases h1 : i = 0 ∧ α + β < 10 * eps
    · rw [if_pos h1, if_pos h1]; ring
    · rw [if_neg h1, if_neg h1]
      unfold bnew
      rw [div_right_comm]
      ring
  · rw [if_neg (by omega : ¬ i = j), if_neg (by omega : ¬ (j = i + 1 ∧ i < N)), if_neg (by omega : ¬ j = i), if_neg (by omega : ¬ j = i), if_neg (by omega : ¬ j = i + 1)]
    by_cases h1 : i = j + 1
    · rw [if_pos ⟨h1, by omega⟩, if_pos h1]; ring
    · rw [if_neg (by tauto), if_neg h1]; ring

theorem gaussMatrix_shape (α β eps : ℝ) (N : ℕ) : (addTranspose (gaussUpper α β eps N)).rows = N + 1 ∧ (addTranspose (gaussUpper α β eps N)).cols = N + 1 := by
  unfold addTranspose
  exact foldl_mset_shape _ _ _

/-- One row of an eigenvector equation. -/
theorem row_sum (b a : ℕ → ℝ) (N k : ℕ) (hk : k ≤ N) (v : ℕ → ℝ) :
    ∑ l ∈ Finset.range (N + 1), ((if l = k then b k else 0) + (if l = k + 1 then a k else 0) + (if k = l + 1 then a l else 0)) * v l
      = b k * v k + (if k < N then a k * v (k + 1) else 0) + (if k = 0 then 0 else a (k - 1) * v (k - 1)) := by
  simp only [add_mul, ite_mul, zero_mul, Finset.sum_add_distrib]
  rw [Finset.sum_ite_eq' (Finset.range (N + 1)) k, Finset.sum_ite_eq' (Finset.range (N + 1)) (k + 1), if_pos (Finset.mem_range.2 (by omega))]
  congr 1
  · congr 1
    by_cases h : k < N
    · rw [if_pos h, if_pos (Finset.mem_range.2 (by omega))]
    · rw [if_neg h, if_neg (by rw [Finset.mem_range]; omega)]
  · rcases k with _ | k
    · rw [if_pos rfl]
      apply Finset.sum_eq_zero
      intro l _
      rw [if_neg (by omega)]
    · rw [if_neg (by omega), Nat.add_sub_cancel, Finset.sum_eq_single k]
      · rw [if_pos rfl]
      · intro l _ hl; rw [if_neg (by omega)]
      · intro h; exact absurd (Finset.mem_range.2 (by omega)) h

/-- The Jacobi matrix has the recurrence coefficients of the polynomials (`β` and `α` such that the special case of the code is right). -/
theorem diagEntry_ok (eps : ℝ) (h : α + β < 10 * eps → α = β) (h0 : α + β = 0 → α = β) (hab : -2 < α + β) :
    diagEntry α β eps 0 = (β - α) / (α + β + 2) := by
  unfold diagEntry
  by_cases hc : α + β < 10 * eps
  · rw [if_pos ⟨rfl, hc⟩, h hc, sub_self, zero_div]
  · rw [if_neg (by tauto)]
    unfold bnew
    simp only [Nat.cast_zero, mul_zero, zero_add]
    by_cases hs : α + β = 0
    · rw [h0 hs]; simp
    · have d2 : α + β + 2 ≠ 0 := by linarith
      field_simp
      ring

/-- Eigenvectors are proportional to the vectors of polynomial values. -/
theorem eig_values (hα : -1 < α) (hβ : -1 < β) (hab : α + β ≠ -1) (b0 : ℝ) (hb0 : b0 = (β - α) / (α + β + 2)) (N : ℕ) (v : ℕ → ℝ) (x : ℝ)
    (hrow : ∀ k ≤ N, (if k = 0 then b0 else bnew α β k) * v k + (if k < N then anew α β k * v (k + 1) else 0)
      + (if k = 0 then 0 else anew α β (k - 1) * v (k - 1)) = v k * x) :
    (∀ k ≤ N, kap α β 0 * v k = v 0 * (poly α β k).eval x) ∧ v 0 * (poly α β (N + 1)).eval x = 0 := by
  have hk0 := kap_pos hα hβ hab 0
  have r0 := congrArg (Polynomial.eval x) (poly_rec0 hα hβ hab)
  simp only [eval_mul, eval_add, eval_X, eval_C] at r0
  have rr : ∀ n, x * (poly α β (n + 1)).eval x = anew α β (n + 1) * (poly α β (n + 2)).eval x + bnew α β (n + 1) * (poly α β (n + 1)).eval x
      + anew α β n * (poly α β n).eval x := by
    intro n
    have := congrArg (Polynomial.eval x) (poly_rec hα hβ hab n)
    simpa only [eval_mul, eval_add, eval_X, eval_C] using this
  have hp0 : (poly α β 0).eval x = kap α β 0 := by rw [poly_zero, eval_C]
  have main : ∀ k ≤ N, kap α β 0 * v k = v 0 * (poly α β k).eval x := by
    intro k
    induction k using Nat.strong_induction_on with
    | _ k ih =>
      intro hk
      rcases k with _ | _ | k
      · rw [hp0]; ring
      · have h := hrow 0 (by omega)
        rw [if_pos rfl, if_pos (by omega), if_pos rfl, hb0] at h
        have ha := (anew_pos hα hβ hab 0).ne'
        apply mul_left_cancel₀ ha
        simp only [zero_add] at h ⊢
        rw [hp0] at r0
        linear_combination kap α β 0 * h + v 0 * r0
      · have h := hrow (k + 1) (by omega)
        rw [if_neg (by omega), if_pos (by omega), if_neg (by omega), Nat.add_sub_cancel] at h
        have ha := (anew_pos hα hβ hab (k + 1)).ne'
        apply mul_left_cancel₀ ha
        have i1 := ih (k + 1) (by omega) (by omega)
        have i2 := ih k (by omega) (by omega)
        have r := rr k
        linear_combination kap α β 0 * h + v 0 * r + (x - bnew α β (k + 1)) * i1 - anew α β k * i2
  refine ⟨main, ?_⟩
  have h := hrow N (le_refl _)
  rw [if_neg (by omega : ¬ N < N)] at h
  rcases N with _ | N
  · rw [if_pos rfl, if_pos rfl, hb0] at h
    have ha := (anew_pos hα hβ hab 0).ne'
    apply mul_left_cancel₀ ha
    simp only [zero_add]
    rw [hp0] at r0
    linear_combination -kap α β 0 * h - v 0 * r0
  · rw [if_neg (by omega), if_neg (by omega), Nat.add_sub_cancel] at h
    have ha := (anew_pos hα hβ hab (N + 1)).ne'
    apply mul_left_cancel₀ ha
    have i1 := main (N + 1) (by omega)
    have i2 := main N (by omega)
    have r := rr N
    linear_combination -kap α β 0 * h - v 0 * r - (x - bnew α β (N + 1)) * i1 + anew α β N * i2

/-! ### The specification of a Gauss rule -/

/-- A quadrature rule of `n` points on [-1, 1] for the weight `(1-x)^a (1+x)^b`: points strictly increasing inside the interval, weights positive, every polynomial of
degree at most `2n - 1` integrated exactly. -/
structure GaussRule (a b n : ℕ) (x w : List ℝ) : Prop where
  lx : x.length = n
  lw : w.length = n
  increasing : ∀ i j : ℕ, i < j → j < n → x.getD i 0 < x.getD j 0
  inside : ∀ i < n, -1 < x.getD i 0 ∧ x.getD i 0 < 1
  positive : ∀ i < n, 0 < w.getD i 0
  exact : ∀ p : ℝ[X], p.natDegree ≤ 2 * n - 1 →
    ∑ i ∈ Finset.range n, w.getD i 0 * p.eval (x.getD i 0) = ∫ t in (-1 : ℝ)..1, (1 - t) ^ a * (1 + t) ^ b * p.eval t

theorem wint_sq_pos (a b : ℕ) (p : ℝ[X]) (hp : ∀ x, -1 < x → x < 1 → 0 ≤ p.eval x) (hne : p ≠ 0) : 0 < wint a b p := by
  unfold wint
  have hc : Continuous (fun x => weight a b x * p.eval x) := by
    unfold weight
    have := p.continuous
    fun_prop
  have hw : ∀ x : ℝ, -1 < x → x < 1 → 0 < weight a b x := by
    intro x h1 h2
    unfold weight
    have : 0 < 1 - x := by linarith
    have : 0 < 1 + x := by linarith
    positivity
  -- a point inside where p does not vanish
  obtain ⟨c, hc1, hc2⟩ : ∃ c ∈ Set.Ioo (-1 : ℝ) 1, c ∉ (p.roots.toFinset : Set ℝ) := by
    apply Set.Infinite.exists_notMem_finset
    exact Set.Ioo_infinite (by norm_num)
  have hcp : 0 < weight a b c * p.eval c := by
    apply mul_pos (hw c hc1.1 hc1.2)
    refine lt_of_le_of_ne (hp c hc1.1 hc1.2) fun h => hc2 ?_
    simp [hne, h.symm]
  have hle : ∀ x ∈ Set.Ioc (-1 : ℝ) 1, 0 ≤ weight a b x * p.eval x := by
    -- by continuity at 1
    have hcl : IsClosed {x | 0 ≤ weight a b x * p.eval x} := isClosed_le continuous_const hc
    have hsub : closure (Set.Ioo (-1 : ℝ) 1) ⊆ {x | 0 ≤ weight a b x * p.eval x} := by
      apply hcl.closure_subset_iff.2
      intro x hx
      exact mul_nonneg (hw x hx.1 hx.2).le (hp x hx.1 hx.2)
    rw [closure_Ioo (by norm_num)] at hsub
    exact fun x hx => hsub ⟨hx.1.le, hx.2⟩
  exact intervalIntegral.integral_pos (by norm_num) hc.continuousOn hle ⟨c, ⟨hc1.1.le, hc1.2.le⟩, hcp⟩

/-- A rule exact to degree `2n - 1`, with `n` points, has all the other properties (points given in ascending order). -/
theorem gauss_of_exact (a b n : ℕ) (x w : ℕ → ℝ)
    (hex : ∀ p : ℝ[X], p.natDegree ≤ 2 * n - 1 → ∑ i ∈ Finset.range n, w i * p.eval (x i) = wint a b p) :
    ∀ i < n, 0 < w i ∧ -1 < x i ∧ x i < 1 ∧ ∀ j < n, j ≠ i → x j ≠ x i := by
  intro i hi
  set q : ℝ[X] := ∏ j ∈ (Finset.range n).erase i, (X - C (x j)) with hq
  have hq0 : q ≠ 0 := (monic_prod_of_monic _ _ fun j _ => monic_X_sub_C (x j)).ne_zero
  have hqd : q.natDegree = n - 1 := by
    rw [hq, natDegree_prod_of_monic _ _ fun j _ => monic_X_sub_C (x j)]
    simp [Finset.card_erase_of_mem (Finset.mem_range.2 hi)]
  have hqz : ∀ j < n, j ≠ i → q.eval (x j) = 0 := by
    intro j hj hji
    rw [hq, eval_prod]
    exact Finset.prod_eq_zero (Finset.mem_erase.2 ⟨hji, Finset.mem_range.2 hj⟩) (by simp)
  have key : ∀ r : ℝ[X], r.natDegree ≤ 1 → (∀ t, -1 < t → t < 1 → 0 ≤ r.eval t) → r ≠ 0 → 0 < w i * (r.eval (x i) * q.eval (x i) ^ 2) := by
    intro r hr hp hr0
    have hd : (r * q ^ 2).natDegree ≤ 2 * n - 1 := by
      refine natDegree_mul_le.trans ?_
      have : (q ^ 2).natDegree ≤ 2 * (n - 1) := natDegree_pow_le.trans (by rw [hqd])
      omega
    have h := hex (r * q ^ 2) hd
    rw [Finset.sum_eq_single i] at h
    · have hpos := wint_sq_pos a b (r * q ^ 2) (fun t h1 h2 => by
        rw [eval_mul, eval_pow]; exact mul_nonneg (hp t h1 h2) (sq_nonneg _)) (mul_ne_zero hr0 (pow_ne_zero 2 hq0))
      rw [← h, eval_mul, eval_pow] at hpos
      exact hpos
    · intro j hj hji
      rw [eval_mul, eval_pow, hqz j (Finset.mem_range.1 hj) hji]; simp
    · intro h; exact absurd (Finset.mem_range.2 hi) h
  have k1 := key 1 (by simp) (fun t _ _ => by simp) one_ne_zero
  have k2 := key (C 1 - X) (by rw [← neg_sub, natDegree_neg]; exact (natDegree_X_sub_C (1 : ℝ)).le) (fun t _ h => by simp; linarith)
    (fun h => by have := congrArg (Polynomial.eval 0) h; simp at this)
  have k3 := key (X + C 1) (natDegree_X_add_C (1 : ℝ)).le (fun t h _ => by simp; linarith)
    (fun h => by have := congrArg (Polynomial.eval 0) h; simp at this)
  simp only [eval_one, one_mul, eval_sub, eval_C, eval_X, eval_add] at k1 k2 k3
  have hsq : q.eval (x i) ≠ 0 := by
    intro h; rw [h] at k1; simp at k1
  have hsq2 : 0 < q.eval (x i) ^ 2 := by positivity
  have hw : 0 < w i := pos_of_mul_pos_left k1 hsq2.le
  refine ⟨hw, ?_, ?_, ?_⟩
  · have := pos_of_mul_pos_left (pos_of_mul_pos_right k3 hw.le) hsq2.le
    linarith
  · have := pos_of_mul_pos_left (pos_of_mul_pos_right k2 hw.le) hsq2.le
    linarith
  · intro j hj hji he
    exact hsq (by rw [← he]; exact hqz j hj hji)

/-- Discrete orthonormality implies exactness. -/
theorem exact_of_discrete (a b N : ℕ) (x w : ℕ → ℝ)
    (h1 : ∀ k ≤ N, ∀ l ≤ N, ∑ i ∈ Finset.range (N + 1), w i * ((poly a b k).eval (x i) * (poly a b l).eval (x i)) = if k = l then 1 else 0)
    (h2 : ∀ i ≤ N, w i * (poly a b (N + 1)).eval (x i) = 0) (p : ℝ[X]) (hp : p.natDegree ≤ 2 * (N + 1) - 1) :
    ∑ i ∈ Finset.range (N + 1), w i * p.eval (x i) = wint a b p := by
  have hα : (-1 : ℝ) < a := by have := Nat.cast_nonneg (α := ℝ) a; linarith
  have hβ : (-1 : ℝ) < b := by have := Nat.cast_nonneg (α := ℝ) b; linarith
  have hab : (a : ℝ) + b ≠ -1 := by have := Nat.cast_nonneg (α := ℝ) a; have := Nat.cast_nonneg (α := ℝ) b; linarith
  let L : ℝ[X] → ℝ := fun p => ∑ i ∈ Finset.range (N + 1), w i * p.eval (x i)
  have Ladd : ∀ p q, L (p + q) = L p + L q := by
    intro p q; simp only [L, eval_add, mul_add, Finset.sum_add_distrib]
  have Lsmul : ∀ c p, L (C c * p) = c * L p := by
    intro c p; simp only [L, eval_mul, eval_C, Finset.mul_sum]; exact Finset.sum_congr rfl fun i _ => by ring
  have Lsum : ∀ (s : Finset ℕ) (f : ℕ → ℝ[X]), L (∑ k ∈ s, f k) = ∑ k ∈ s, L (f k) := by
    intro s f
    induction s using Finset.induction_on with
    | empty => simp [L]
    | insert k s hk ih => rw [Finset.sum_insert hk, Finset.sum_insert hk, Ladd, ih]
  have Wsum : ∀ (s : Finset ℕ) (f : ℕ → ℝ[X]), wint a b (∑ k ∈ s, f k) = ∑ k ∈ s, wint a b (f k) := by
    intro s f
    induction s using Finset.induction_on with
    | empty => simp [wint]
    | insert k s hk ih => rw [Finset.sum_insert hk, Finset.sum_insert hk, wint_add, ih]
  -- products of basis polynomials
  have hpq : ∀ k ≤ N, ∀ l ≤ N + 1, L (poly a b k * poly a b l) = wint a b (poly a b k * poly a b l) := by
    intro k hk l hl
    have hW : wint a b (poly a b k * poly a b l) = if k = l then 1 else 0 := by
      rcases Nat.le_total l k with h | h
      · exact wint_orth a b l k h
      · rw [mul_comm, wint_orth a b k l h]
        by_cases e : k = l
        · simp [e]
        · rw [if_neg e, if_neg (Ne.symm e)]
    rw [hW]
    rcases Nat.lt_or_ge N l with h | h
    · obtain rfl : l = N + 1 := by omega
      rw [if_neg (by omega)]
      apply Finset.sum_eq_zero
      intro i hi
      have := h2 i (by have := Finset.mem_range.1 hi; omega)
      rw [eval_mul]
      linear_combination (poly a b k).eval (x i) * this
    · rw [← h1 k hk l h]
      simp only [L, eval_mul]
  -- monomials
  have hmono : ∀ m ≤ 2 * N + 1, L (X ^ m) = wint a b (X ^ m) := by
    intro m hm
    obtain ⟨i, j, hi, hj, rfl⟩ : ∃ i j, i ≤ N ∧ j ≤ N + 1 ∧ m = i + j := ⟨m - min m (N + 1), min m (N + 1), by omega, by omega, by omega⟩
    obtain ⟨c, hc⟩ := poly_span hα hβ hab i (X ^ i) (by rw [natDegree_X_pow])
    obtain ⟨d, hd⟩ := poly_span hα hβ hab j (X ^ j) (by rw [natDegree_X_pow])
    rw [pow_add, hc, hd, Finset.sum_mul_sum, Lsum, Wsum]
    apply Finset.sum_congr rfl
    intro k hk
    rw [Lsum, Wsum]
    apply Finset.sum_congr rfl
    intro l hl
    have e : C (c k) * poly a b k * (C (d l) * poly a b l) = C (c k * d l) * (poly a b k * poly a b l) := by rw [C_mul]; ring
    rw [e, Lsmul, wint_smul, hpq k (by have := Finset.mem_range.1 hk; omega) l (by have := Finset.mem_range.1 hl; omega)]
  change L p = wint a b p
  rw [p.as_sum_range_C_mul_X_pow, Lsum, Wsum]
  apply Finset.sum_congr rfl
  intro k hk
  rw [Lsmul, wint_smul, hmono k (by have := Finset.mem_range.1 hk; omega)]

/-- What a normal return of `computeJacobiQuadWeights` for `N ≥ 1` says about the outputs, for natural parameters. -/
theorem quad_core (query : Nat → Int) (dsyevd : Nat → List ℝ → Int × List ℝ × List ℝ) (hl : SyevdOk dsyevd) (a b : ℕ) (eps : ℝ) (h0 : 0 < eps) (h1 : eps ≤ 0.1)
    (N : ℕ) (hN : 1 ≤ N) (x w : List ℝ) (hx : x.length = N + 1) (hw : w.length = N + 1) :
    quadWeights query dsyevd a b eps N x w = .ok (.threw (x, w)) ∨
      ∃ x' w', quadWeights query dsyevd a b eps N x w = .ok (.ret (x', w')) ∧ GaussRule a b (N + 1) x' w' ∧
        ∀ i < N + 1, (poly a b (N + 1)).eval (x'.getD i 0) = 0 := by
  have hα : (-1 : ℝ) < a := by have := Nat.cast_nonneg (α := ℝ) a; linarith
  have hβ : (-1 : ℝ) < b := by have := Nat.cast_nonneg (α := ℝ) b; linarith
  have hab : (a : ℝ) + b ≠ -1 := by have := Nat.cast_nonneg (α := ℝ) a; have := Nat.cast_nonneg (α := ℝ) b; linarith
  have hg := gamma0_pos hα hβ hab
  unfold quadWeights
  rw [if_neg (by omega)]
  set A := addTranspose (gaussUpper a b eps N) with hA
  obtain ⟨sr, sc⟩ := gaussMatrix_shape (a : ℝ) b eps N
  rcases C37_eigen query dsyevd hl A x { rows := N + 1, cols := N + 1, at' := fun _ _ => 0 } (N + 1) ⟨sr, sc⟩ hx ⟨rfl, rfl⟩ with h | ⟨x', V, h, lx', _, _, _, hort, hasc, hsym⟩
  · left
    rw [h]; rfl
  right
  have hAsym : ∀ i j, toMat A (N + 1) (N + 1) i j = toMat A (N + 1) (N + 1) j i := by
    intro i j
    simp only [toMat]
    rw [hA, gaussMatrix_eq _ _ _ _ _ _ i.2 j.2, gaussMatrix_eq _ _ _ _ _ _ j.2 i.2]
    by_cases hij : (j : ℕ) = i
    · rw [hij]
    · rw [if_neg hij, if_neg (Ne.symm hij)]; ring
  have hev := hsym hAsym
  have hvv : toMat V (N + 1) (N + 1) * (toMat V (N + 1) (N + 1)).transpose = 1 := mul_eq_one_comm.1 hort
  have hvt : ∀ k ≤ N, ∀ l ≤ N, ∑ i ∈ Finset.range (N + 1), V.at' k i * V.at' l i = if k = l then 1 else 0 := by
    intro k hk l hl
    have := congrFun (congrFun hvv ⟨k, by omega⟩) ⟨l, by omega⟩
    rw [Matrix.mul_apply, Matrix.one_apply] at this
    simp only [toMat, Matrix.transpose_apply, Fin.mk.injEq] at this
    rw [← this, Finset.sum_range]
  have hb0 : diagEntry (a : ℝ) b eps 0 = ((b : ℝ) - a) / (a + b + 2) := by
    have hz : ∀ a b : ℕ, (a : ℝ) + b < 1 → (a : ℝ) = b := by
      intro a b h
      have : a + b < 1 := by exact_mod_cast h
      have h1 : a = 0 := by omega
      have h2 : b = 0 := by omega
      rw [h1, h2]
    apply diagEntry_ok
    · intro h; apply hz; linarith
    · intro h; apply hz; linarith
    · have := Nat.cast_nonneg (α := ℝ) a; have := Nat.cast_nonneg (α := ℝ) b; linarith
  -- the eigenvector equations row by row
  have hrow : ∀ i ≤ N, ∀ k ≤ N, (if k = 0 then diagEntry (a : ℝ) b eps 0 else bnew a b k) * V.at' k i + (if k < N then anew a b k * V.at' (k + 1) i else 0)
      + (if k = 0 then 0 else anew a b (k - 1) * V.at' (k - 1) i) = V.at' k i * x'.getD i 0 := by
    intro i hi k hk
    have h := congrFun (congrFun hev ⟨k, by omega⟩) ⟨i, by omega⟩
    rw [Matrix.mul_apply, Matrix.mul_diagonal] at h
    simp only [toMat] at h
    rw [← h, ← Finset.sum_range (fun l => A.at' k l * V.at' l i)]
    have hrs := row_sum (diagEntry (a : ℝ) b eps) (anew (a : ℝ) b) N k hk (fun l => V.at' l i)
    have e : (if k = 0 then diagEntry (a : ℝ) b eps 0 else bnew a b k) = diagEntry (a : ℝ) b eps k := by
      by_cases hk0 : k = 0
      · rw [if_pos hk0, hk0]
      · rw [if_neg hk0, diagEntry, if_neg (by tauto)]
    rw [e, ← hrs]
    apply Finset.sum_congr rfl
    intro l hl
    rw [hA, gaussMatrix_eq _ _ _ _ _ _ (by omega) (by have := Finset.mem_range.1 hl; omega)]
  have hval := fun i (hi : i ≤ N) => eig_values hα hβ hab (diagEntry (a : ℝ) b eps 0) hb0 N (fun k => V.at' k i) (x'.getD i 0) (hrow i hi)
  set w' := (List.range w.length).map fun i => V.at' 0 i * V.at' 0 i * gamma0 a b with hw'
  have hwi : ∀ i < N + 1, w'.getD i 0 = V.at' 0 i * V.at' 0 i * gamma0 a b := by
    intro i hi
    rw [hw', List.getD_eq_getElem?_getD, List.getElem?_map, List.getElem?_range (by omega)]
    rfl
  have hk0 : kap (a : ℝ) b 0 * kap a b 0 * gamma0 a b = 1 := by
    simp only [kap]
    have s := Real.mul_self_sqrt hg.le
    have s1 : Real.sqrt (gamma0 a b) ≠ 0 := (Real.sqrt_pos.2 hg).ne'
    field_simp
    rw [pow_two, s]
  have hdisc : ∀ k ≤ N, ∀ l ≤ N, ∑ i ∈ Finset.range (N + 1), w'.getD i 0 * ((poly a b k).eval (x'.getD i 0) * (poly a b l).eval (x'.getD i 0))
      = if k = l then 1 else 0 := by
    intro k hk l hl
    rw [← hvt k hk l hl]
    apply Finset.sum_congr rfl
    intro i hi
    have hi' := Finset.mem_range.1 hi
    rw [hwi i hi']
    have e1 := (hval i (by omega)).1 k hk
    have e2 := (hval i (by omega)).1 l hl
    have : V.at' 0 i * V.at' 0 i * gamma0 a b * ((poly a b k).eval (x'.getD i 0) * (poly a b l).eval (x'.getD i 0))
        = gamma0 a b * ((V.at' 0 i * (poly a b k).eval (x'.getD i 0)) * (V.at' 0 i * (poly a b l).eval (x'.getD i 0))) := by ring
    rw [this, ← e1, ← e2]
    linear_combination (V.at' k i * V.at' l i) * hk0
  have hlast : ∀ i ≤ N, w'.getD i 0 * (poly a b (N + 1)).eval (x'.getD i 0) = 0 := by
    intro i hi
    rw [hwi i (by omega)]
    have := (hval i hi).2
    linear_combination V.at' 0 i * gamma0 a b * this
  have hex := exact_of_discrete a b N (fun i => x'.getD i 0) (fun i => w'.getD i 0) hdisc hlast
  have hall := gauss_of_exact a b (N + 1) (fun i => x'.getD i 0) (fun i => w'.getD i 0) hex
  refine ⟨x', w', ?_, ⟨lx', by simp [hw', hw], ?_, fun i hi => ⟨(hall i hi).2.1, (hall i hi).2.2.1⟩, fun i hi => (hall i hi).1, hex⟩, ?_⟩
  · rw [h]
    simp only [Out.bind_ok, firstRowWeights]
    rw [if_pos (by omega)]
    rfl
  · intro i j hij hj
    refine lt_of_le_of_ne (hasc ⟨i, by omega⟩ ⟨j, hj⟩ (by simp; omega)) ?_
    exact (hall j hj).2.2.2 i (by omega) (by omega)
  · intro i hi
    rcases mul_eq_zero.1 (hlast i (by omega)) with h | h
    · exact absurd h (hall i hi).1.ne'
    · exact h

/-- **C69 (all but N = 0 with other weights; see `C69_order_zero`).** For natural parameters `a`, `b` (as used by the code), every order `N ≥ 1` and output arrays of length `N + 1`,
`computeJacobiQuadWeights` either throws and leaves its arguments alone or yields the Gauss rule of `N + 1` points for the weight `(1-x)^a (1+x)^b`;
for `a = b = 0` also with `N = 0`.  (`eps` is the machine epsilon: any positive number up to 0.1.) -/
theorem C69_gauss_partial (query : Nat → Int) (dsyevd : Nat → List ℝ → Int × List ℝ × List ℝ) (hl : SyevdOk dsyevd) (a b : ℕ) (eps : ℝ) (h0 : 0 < eps)
    (h1 : eps ≤ 0.1) (N : ℕ) (hN : 1 ≤ N ∨ (a = 0 ∧ b = 0)) (x w : List ℝ) (hx : x.length = N + 1) (hw : w.length = N + 1) :
    quadWeights query dsyevd a b eps N x w = .ok (.threw (x, w)) ∨
      ∃ x' w', quadWeights query dsyevd a b eps N x w = .ok (.ret (x', w')) ∧ GaussRule a b (N + 1) x' w' := by
  by_cases h : 1 ≤ N
  · rcases quad_core query dsyevd hl a b eps h0 h1 N h x w hx hw with h | ⟨x', w', h, hr, _⟩
    · exact .inl h
    · exact .inr ⟨x', w', h, hr⟩
  · obtain ⟨rfl, rfl⟩ : a = 0 ∧ b = 0 := by tauto
    obtain rfl : N = 0 := by omega
    right
    obtain ⟨x0, rfl⟩ := List.length_eq_one_iff.1 hx
    obtain ⟨w0, rfl⟩ := List.length_eq_one_iff.1 hw
    refine ⟨[0], [2], by simp [quadWeights, wr], rfl, rfl, by intro i j h1 h2; omega, ?_, ?_, ?_⟩
    · intro i hi
      obtain rfl : i = 0 := by omega
      simp
    · intro i hi
      obtain rfl : i = 0 := by omega
      simp
    · intro p hp
      have hp' : p.natDegree ≤ 1 := by omega
      obtain ⟨c, d, rfl⟩ := exists_eq_X_add_C_of_natDegree_le_one hp'
      simp
      rw [intervalIntegral.integral_add (by apply Continuous.intervalIntegrable; fun_prop) (by simp), intervalIntegral.integral_const_mul, integral_id]
      norm_num

/-- With an exact eigenvalue routine the call returns. -/
theorem quadWeights_returns (a b : ℕ) (eps : ℝ) (h0 : 0 < eps) (h1 : eps ≤ 0.1) (N : ℕ) (hN : 1 ≤ N) (x w : List ℝ) (hx : x.length = N + 1) (hw : w.length = N + 1) :
    ∃ x' w', quadWeights (fun _ => 0) Dense.exactSyevd a b eps N x w = .ok (.ret (x', w')) ∧ GaussRule a b (N + 1) x' w' := by
  rcases quad_core (fun _ => 0) Dense.exactSyevd Dense.exactSyevd_ok a b eps h0 h1 N hN x w hx hw with h | ⟨x', w', h, hr, _⟩
  · exfalso
    obtain ⟨sr, sc⟩ := gaussMatrix_shape (a : ℝ) b eps N
    obtain ⟨x', V', he⟩ := Dense.eigenSolve_returns (addTranspose (gaussUpper a b eps N)) x { rows := N + 1, cols := N + 1, at' := fun _ _ => 0 } (N + 1) ⟨sr, sc⟩ hx
      ⟨rfl, rfl⟩
    unfold quadWeights at h
    rw [if_neg (by omega), he] at h
    simp only [Out.bind_ok, firstRowWeights] at h
    rw [if_pos (by omega)] at h
    simp at h
  · exact ⟨x', w', h, hr⟩

/-- The hypotheses of `C69_gauss_partial` are met, for every order, by calls that return. -/
example : ∃ x' w', quadWeights (fun _ => 0) Dense.exactSyevd (0 : ℕ) (0 : ℕ) (1 / 2 ^ 52) 3 [0, 0, 0, 0] [0, 0, 0, 0] = .ok (.ret (x', w')) ∧ GaussRule 0 0 4 x' w' :=
  quadWeights_returns 0 0 _ (by norm_num) (by norm_num) 3 (by omega) _ _ rfl rfl

/-- **C69 fails for `N = 0` and other weights**: the single weight is 2 whatever the parameters, so for `a = b = 1` (the call made for the Gauss-Lobatto points of order
two) the rule does not integrate constants. -/
theorem C69_order_zero (query : Nat → Int) (dsyevd : Nat → List ℝ → Int × List ℝ × List ℝ) (eps x0 w0 : ℝ) :
    ∃ x' w', quadWeights query dsyevd (1 : ℕ) (1 : ℕ) eps 0 [x0] [w0] = .ok (.ret (x', w')) ∧ ¬ GaussRule 1 1 1 x' w' := by
  refine ⟨_, [2], rfl, fun h => ?_⟩
  have := h.exact 1 (by simp)
  have e : ∫ t in (-1 : ℝ)..1, (1 - t) ^ 1 * (1 + t) ^ 1 * eval t (1 : ℝ[X]) = wint 1 1 1 := rfl
  rw [e, wint_one] at this
  have hg : gamma0 ((1 : ℕ) : ℝ) ((1 : ℕ) : ℝ) = 4 / 3 := by
    unfold gamma0
    have e1 : Real.Gamma ((1 : ℕ) + 1 : ℝ) = 1 := by
      have := Real.Gamma_nat_eq_factorial 1; simpa using this
    have e2 : Real.Gamma (((1 : ℕ) : ℝ) + ((1 : ℕ) : ℝ) + 1) = 2 := by
      have := Real.Gamma_nat_eq_factorial 2; norm_num at this ⊢
    rw [e1, e2]
    have : (2 : ℝ) ^ (((1 : ℕ) : ℝ) + ((1 : ℕ) : ℝ) + 1) = 8 := by
      rw [show (((1 : ℕ) : ℝ) + ((1 : ℕ) : ℝ) + 1) = ((3 : ℕ) : ℝ) by norm_num, Real.rpow_natCast]; norm_num
    rw [this]; norm_num
  rw [hg] at this
  norm_num at this

/-- **C69 fails for some real parameters.**  The test `α + β < 10 eps` overwrites the first diagonal entry for every pair with a small or negative sum, not just for
`α = β = 0`.  For instance with `α = 1/2`, `β = -1/2` every rule with two or more points has mean 0, while the one-point rule has its point at `-1/2`:
they cannot both be exact for the same weight function. -/
theorem C69_small_sum (query : Nat → Int) (dsyevd : Nat → List ℝ → Int × List ℝ × List ℝ) (hl : SyevdOk dsyevd) (eps : ℝ) (h0 : 0 < eps)
    (N : ℕ) (hN : 1 ≤ N) (x w x' w' : List ℝ) (hx : x.length = N + 1) (hw : w.length = N + 1)
    (hret : quadWeights query dsyevd (1 / 2) (-1 / 2) eps N x w = .ok (.ret (x', w'))) :
    ∑ i ∈ Finset.range (N + 1), w'.getD i 0 * x'.getD i 0 = 0 ∧ quadWeights query dsyevd (1 / 2) (-1 / 2) eps 0 [0] [0] = .ok (.ret ([-1 / 2], [2])) := by
  constructor
  · unfold quadWeights at hret
    rw [if_neg (by omega)] at hret
    set A := addTranspose (gaussUpper (1 / 2) (-1 / 2) eps N) with hA
    obtain ⟨sr, sc⟩ := gaussMatrix_shape (1 / 2 : ℝ) (-1 / 2) eps N
    rcases C37_eigen query dsyevd hl A x { rows := N + 1, cols := N + 1, at' := fun _ _ => 0 } (N + 1) ⟨sr, sc⟩ hx ⟨rfl, rfl⟩ with h | ⟨x2, V, h, lx', _, _, _, hort, hasc, hsym⟩
    · rw [h] at hret; simp at hret
    rw [h] at hret
    simp only [Out.bind_ok, firstRowWeights] at hret
    rw [if_pos (by omega)] at hret
    simp only [Out.bind_ok, Out.pure_eq, Out.ok.injEq, Done.ret.injEq, Prod.mk.injEq] at hret
    obtain ⟨rfl, rfl⟩ := hret
    have hAsym : ∀ i j, toMat A (N + 1) (N + 1) i j = toMat A (N + 1) (N + 1) j i := by
      intro i j
      simp only [toMat]
      rw [hA, gaussMatrix_eq _ _ _ _ _ _ i.2 j.2, gaussMatrix_eq _ _ _ _ _ _ j.2 i.2]
      by_cases hij : (j : ℕ) = i
      · rw [hij]
      · rw [if_neg hij, if_neg (Ne.symm hij)]; ring
    have hev := hsym hAsym
    have hvv : toMat V (N + 1) (N + 1) * (toMat V (N + 1) (N + 1)).transpose = 1 := mul_eq_one_comm.1 hort
    -- A = V diag Vᵀ, entry (0,0)
    have hA0 : toMat A (N + 1) (N + 1) = toMat V (N + 1) (N + 1) * Matrix.diagonal (fun i : Fin (N + 1) => x2.getD i 0) * (toMat V (N + 1) (N + 1)).transpose := by
      rw [← hev, Matrix.mul_assoc, hvv, Matrix.mul_one]
    have h00 := congrFun (congrFun hA0 0) 0
    rw [Matrix.mul_apply] at h00
    simp only [Matrix.mul_diagonal, Matrix.transpose_apply, toMat] at h00
    have hz : A.at' 0 0 = 0 := by
      rw [hA, gaussMatrix_eq _ _ _ _ _ _ (by omega) (by omega)]
      simp only [diagEntry]
      rw [if_pos trivial, if_pos ⟨trivial, by linarith⟩, if_neg (by omega)]
      ring
    have h00' : A.at' 0 0 = ∑ i ∈ Finset.range (N + 1), V.at' 0 i * x2.getD i 0 * V.at' 0 i := by
      rw [Finset.sum_range]; exact h00
    rw [hz] at h00'
    have e : ∀ i ∈ Finset.range (N + 1), ((List.range w.length).map fun i => V.at' 0 i * V.at' 0 i * gamma0 (1 / 2) (-1 / 2)).getD i 0 * x2.getD i 0
        = gamma0 (1 / 2) (-1 / 2) * (V.at' 0 i * x2.getD i 0 * V.at' 0 i) := by
      intro i hi
      rw [List.getD_eq_getElem?_getD, List.getElem?_map, List.getElem?_range (by have := Finset.mem_range.1 hi; omega)]
      simp only [Option.map_some, Option.getD_some]
      ring
    rw [Finset.sum_congr rfl e, ← Finset.mul_sum, ← h00', mul_zero]
  · simp only [quadWeights, wr]
    norm_num

/-! ### C70: Gauss-Lobatto points -/

theorem copyInterior_eq (N : ℕ) (xJG x : List ℝ) (h1 : xJG.length = N - 1) (h2 : x.length = N + 1) (hN : 1 ≤ N) :
    ∃ x', copyInterior N xJG x = .ok x' ∧ x'.length = N + 1 ∧
      ∀ i, x'.getD i 0 = if 1 ≤ i ∧ i < N then xJG.getD (i - 1) 0 else x.getD i 0 := by
  have main : ∀ k ≤ N - 1, ∃ x', loopM (fun l k => do
      let v ← rd xJG k
      wr l (k + 1) v) x (List.range k) = .ok x' ∧ x'.length = N + 1 ∧
      ∀ i, x'.getD i 0 = if 1 ≤ i ∧ i < k + 1 then xJG.getD (i - 1) 0 else x.getD i 0 := by
    intro k
    induction k with
    | zero => intro _; exact ⟨x, rfl, h2, fun i => by rw [if_neg (by omega)]⟩
    | succ k ih =>
      intro hk
      obtain ⟨x', e, l, hv⟩ := ih (by omega)
      refine ⟨x'.set (k + 1) (xJG[k]'(by omega)), ?_, by simpa using l, fun i => ?_⟩
      · rw [List.range_succ, loopM_append, e]
        simp only [Out.bind_ok, loopM_cons, loopM_nil]
        rw [rd_of_lt (by omega : k < xJG.length)]
        simp only [Out.bind_ok]
        rw [wr_of_lt (by omega)]
        rfl
      · rw [List.getD_eq_getElem?_getD, List.getElem?_set]
        by_cases h : k + 1 = i
        · subst h
          rw [if_pos rfl, if_pos (by omega), if_pos (by omega)]
          simp [List.getD_eq_getElem?_getD, List.getElem?_eq_getElem (show k < xJG.length by omega)]
        · rw [if_neg h, ← List.getD_eq_getElem?_getD, hv i]
          by_cases h' : 1 ≤ i ∧ i < k + 1
          · rw [if_pos h', if_pos (by omega)]
          · rw [if_neg h', if_neg (by omega)]
  obtain ⟨x', e, l, hv⟩ := main (N - 1) (le_refl _)
  refine ⟨x', e, l, fun i => ?_⟩
  rw [hv i, show N - 1 + 1 = N by omega]

/-- Strictly increasing enumerations of all zeros of a symmetric polynomial are symmetric. -/
theorem zeros_symm (n : ℕ) (p : ℝ[X]) (hp : p ≠ 0) (hd : p.natDegree = n) (hs : ∀ x, p.eval x = 0 → p.eval (-x) = 0) (x : ℕ → ℝ)
    (hx : ∀ i < n, p.eval (x i) = 0) (hm : ∀ i j : ℕ, i < j → j < n → x i < x j) : ∀ i < n, x (n - 1 - i) = -x i := by
  classical
  set s := p.roots.toFinset with hs'
  have hmem : ∀ y, p.eval y = 0 → y ∈ s := fun y hy => by
    rw [hs', Multiset.mem_toFinset, mem_roots hp]; exact hy
  let f : Fin n → ℝ := fun i => x i
  have hf : StrictMono f := fun i j h => hm i j h j.2
  have hfs : ∀ i, f i ∈ s := fun i => hmem _ (hx i i.2)
  have hcard : s.card = n := by
    apply le_antisymm
    · exact (Multiset.toFinset_card_le _).trans ((card_roots' p).trans_eq hd)
    · calc n = (Finset.univ.image f).card := by rw [Finset.card_image_of_injective _ hf.injective, Finset.card_univ, Fintype.card_fin]
        _ ≤ s.card := Finset.card_le_card (fun y hy => by
            obtain ⟨i, -, rfl⟩ := Finset.mem_image.1 hy
            exact hfs i)
  let g : Fin n → ℝ := fun i => -x (n - 1 - i)
  have hg : StrictMono g := fun i j h => by
    have hlt : (i : ℕ) < j := h
    have := hm (n - 1 - j) (n - 1 - i) (by have := j.2; omega) (by have := i.2; omega)
    exact neg_lt_neg this
  have hgs : ∀ i, g i ∈ s := fun i => hmem _ (hs _ (hx _ (by have := i.2; omega)))
  have e1 := Finset.orderEmbOfFin_unique hcard hfs hf
  have e2 := Finset.orderEmbOfFin_unique hcard hgs hg
  have e : f = g := e1.trans e2.symm
  intro i hi
  have := congrFun e ⟨i, hi⟩
  simp only [f, g] at this
  rw [this, neg_neg]

/-- **C70.** For natural `α = β = a` (the code uses 0), every order `N ≥ 1` and an output array of length `N + 1`, `computeGaussLobottoPoints` either throws, or yields points that increase
strictly from -1 to 1, are symmetric about 0, and whose interior points are critical points of the polynomial of degree `N` computed by `computeJacobiPolynomial`
(all of them, as there are `N - 1`). -/
theorem C70_gauss_lobatto (query : Nat → Int) (dsyevd : Nat → List ℝ → Int × List ℝ × List ℝ) (hl : SyevdOk dsyevd) (a : ℕ) (eps : ℝ) (h0 : 0 < eps)
    (h1 : eps ≤ 0.1) (N : ℕ) (hN : 1 ≤ N) (x : List ℝ) (hx : x.length = N + 1) :
    (∃ x', gllPoints query dsyevd a a eps N x = .ok (.threw x')) ∨
      ∃ x', gllPoints query dsyevd a a eps N x = .ok (.ret x') ∧ x'.length = N + 1 ∧ x'.getD 0 0 = -1 ∧ x'.getD N 0 = 1 ∧
        (∀ i j : ℕ, i < j → j ≤ N → x'.getD i 0 < x'.getD j 0) ∧ (∀ i ≤ N, x'.getD (N - i) 0 = -x'.getD i 0) ∧
        ∀ i, 1 ≤ i → i < N → HasDerivAt (jacobiP a a N) 0 (x'.getD i 0) := by
  have hα : (-1 : ℝ) < a := by have := Nat.cast_nonneg (α := ℝ) a; linarith
  have hab : (a : ℝ) + a ≠ -1 := by have := Nat.cast_nonneg (α := ℝ) a; linarith
  have hα' : (-1 : ℝ) < ((a + 1 : ℕ) : ℝ) := by have := Nat.cast_nonneg (α := ℝ) (a + 1); linarith
  have hab' : ((a + 1 : ℕ) : ℝ) + ((a + 1 : ℕ) : ℝ) ≠ -1 := by have := Nat.cast_nonneg (α := ℝ) (a + 1); linarith
  unfold gllPoints
  by_cases hN1 : N = 1
  · subst hN1
    right
    obtain ⟨p, q, rfl⟩ := List.length_eq_two.1 hx
    refine ⟨[-1, 1], by simp [wr], rfl, rfl, rfl, ?_, ?_, by intro i h1 h2; omega⟩
    · intro i j h1 h2
      obtain rfl : i = 0 := by omega
      obtain rfl : j = 1 := by omega
      norm_num
    · intro i hi
      rcases (by omega : i = 0 ∨ i = 1) with rfl | rfl <;> simp
  rw [if_neg hN1, if_neg (by omega)]
  rw [wr_of_lt (by omega : 0 < x.length)]
  simp only [Out.bind_ok]
  rw [wr_of_lt (by simp; omega)]
  simp only [Out.bind_ok]
  -- the interior points
  have hcast : (a : ℝ) + 1 = ((a + 1 : ℕ) : ℝ) := by push_cast; rfl
  rw [hcast]
  have hint : quadWeights query dsyevd ((a + 1 : ℕ) : ℝ) ((a + 1 : ℕ) : ℝ) eps (N - 2) (List.replicate (N - 1) 0) (List.replicate (N - 1) 0)
        = .ok (.threw (List.replicate (N - 1) 0, List.replicate (N - 1) 0)) ∨
      ∃ xj wj, quadWeights query dsyevd ((a + 1 : ℕ) : ℝ) ((a + 1 : ℕ) : ℝ) eps (N - 2) (List.replicate (N - 1) 0) (List.replicate (N - 1) 0) = .ok (.ret (xj, wj)) ∧
        xj.length = N - 1 ∧ (∀ i j : ℕ, i < j → j < N - 1 → xj.getD i 0 < xj.getD j 0) ∧ (∀ i < N - 1, -1 < xj.getD i 0 ∧ xj.getD i 0 < 1) ∧
        ∀ i < N - 1, (poly ((a + 1 : ℕ) : ℝ) ((a + 1 : ℕ) : ℝ) (N - 1)).eval (xj.getD i 0) = 0 := by
    by_cases hN2 : N = 2
    · subst hN2
      right
      refine ⟨[0], [2], by simp [quadWeights, wr], rfl, by intro i j h1 h2; omega, ?_, ?_⟩
      · intro i hi
        obtain rfl : i = 0 := by omega
        simp
      · intro i hi
        obtain rfl : i = 0 := by omega
        rw [poly_eval hα' hα' hab', jacobi_closed hα' hα' hab', pt_one hα']
        simp
    · rcases quad_core query dsyevd hl (a + 1) (a + 1) eps h0 h1 (N - 2) (by omega) (List.replicate (N - 1) 0) (List.replicate (N - 1) 0)
        (by simp; omega) (by simp; omega) with h | ⟨xj, wj, h, hr, hz⟩
      · exact .inl h
      · have e : N - 2 + 1 = N - 1 := by omega
        rw [e] at hr hz
        exact .inr ⟨xj, wj, h, hr.lx, hr.increasing, hr.inside, hz⟩
  rcases hint with h | ⟨xj, wj, h, lj, hinc, hins, hzero⟩
  · left
    rw [h]
    exact ⟨_, rfl⟩
  right
  rw [h]
  simp only [Out.bind_ok]
  obtain ⟨x', e, l, hv⟩ := copyInterior_eq N xj ((x.set 0 (-1)).set N 1) lj (by simpa using hx) hN
  refine ⟨x', by rw [e]; rfl, l, ?_, ?_, ?_, ?_, ?_⟩
  · rw [hv 0, if_neg (by omega), List.getD_eq_getElem?_getD, List.getElem?_set_ne (by omega), List.getElem?_set_self (by omega)]
    rfl
  · rw [hv N, if_neg (by omega), List.getD_eq_getElem?_getD, List.getElem?_set_self (by simp; omega)]
    rfl
  all_goals
    have v0 : x'.getD 0 0 = -1 := by
      rw [hv 0, if_neg (by omega), List.getD_eq_getElem?_getD, List.getElem?_set_ne (by omega), List.getElem?_set_self (by omega)]
      rfl
    have vN : x'.getD N 0 = 1 := by
      rw [hv N, if_neg (by omega), List.getD_eq_getElem?_getD, List.getElem?_set_self (by simp; omega)]
      rfl
    have vi : ∀ i, 1 ≤ i → i < N → x'.getD i 0 = xj.getD (i - 1) 0 := fun i h1 h2 => by rw [hv i, if_pos ⟨h1, h2⟩]
  · intro i j hij hj
    rcases Nat.eq_zero_or_pos i with rfl | hi0
    · rw [v0]
      rcases Nat.lt_or_ge j N with h | h
      · rw [vi j (by omega) h]; exact (hins _ (by omega)).1
      · obtain rfl : j = N := by omega
        rw [vN]; norm_num
    · rw [vi i hi0 (by omega)]
      rcases Nat.lt_or_ge j N with h | h
      · rw [vi j (by omega) h]; exact hinc _ _ (by omega) (by omega)
      · obtain rfl : j = N := by omega
        rw [vN]; exact (hins _ (by omega)).2
  · intro i hi
    rcases Nat.eq_zero_or_pos i with rfl | hi0
    · rw [v0, Nat.sub_zero, vN]; norm_num
    · rcases Nat.lt_or_ge i N with h | h
      · rw [vi i hi0 h, vi (N - i) (by omega) (by omega)]
        obtain ⟨hd, hlc⟩ := poly_degree hα' hα' hab' (N - 1)
        have := zeros_symm (N - 1) (poly ((a + 1 : ℕ) : ℝ) ((a + 1 : ℕ) : ℝ) (N - 1)) (leadingCoeff_ne_zero.1 hlc.ne') hd
          (fun t ht => by
            rw [poly_eval hα' hα' hab'] at ht ⊢
            rw [C48_symmetry, ht, mul_zero]) (fun i => xj.getD i 0) hzero hinc (i - 1) (by omega)
        rw [← this]
        congr 1
        omega
      · obtain rfl : i = N := by omega
        rw [Nat.sub_self, v0, vN]
  · intro i h1 h2
    have hd := C68_gradient hα hα hab N (x'.getD i 0)
    refine hd.congr_deriv ?_
    unfold gradJacobi
    rw [if_neg (by omega), hcast, ← poly_eval hα' hα' hab', vi i h1 h2, hzero (i - 1) (by omega), mul_zero]

/-- With an exact eigenvalue routine the call returns. -/
theorem gll_returns (a : ℕ) (eps : ℝ) (h0 : 0 < eps) (h1 : eps ≤ 0.1) (N : ℕ) (hN : 1 ≤ N) (x : List ℝ) (hx : x.length = N + 1) :
    ∃ x', gllPoints (fun _ => 0) Dense.exactSyevd a a eps N x = .ok (.ret x') := by
  rcases C70_gauss_lobatto (fun _ => 0) Dense.exactSyevd Dense.exactSyevd_ok a eps h0 h1 N hN x hx with ⟨x', h⟩ | ⟨x', h, -⟩
  · exfalso
    unfold gllPoints at h
    by_cases hN1 : N = 1
    · subst hN1
      obtain ⟨p, q, rfl⟩ := List.length_eq_two.1 hx
      simp [wr] at h
    rw [if_neg hN1, if_neg (by omega), wr_of_lt (by omega : 0 < x.length)] at h
    simp only [Out.bind_ok] at h
    rw [wr_of_lt (by simp; omega)] at h
    simp only [Out.bind_ok] at h
    have hcast : (a : ℝ) + 1 = ((a + 1 : ℕ) : ℝ) := by push_cast; rfl
    rw [hcast] at h
    have hq : ∃ xj wj, quadWeights (fun _ => 0) Dense.exactSyevd ((a + 1 : ℕ) : ℝ) ((a + 1 : ℕ) : ℝ) eps (N - 2) (List.replicate (N - 1) 0) (List.replicate (N - 1) 0)
        = .ok (.ret (xj, wj)) ∧ xj.length = N - 1 := by
      by_cases hN2 : N = 2
      · subst hN2
        exact ⟨_, _, rfl, rfl⟩
      · obtain ⟨xj, wj, e, hr⟩ := quadWeights_returns (a + 1) (a + 1) eps h0 h1 (N - 2) (by omega) (List.replicate (N - 1) 0) (List.replicate (N - 1) 0)
          (by simp; omega) (by simp; omega)
        exact ⟨xj, wj, e, by rw [hr.lx]; omega⟩
    obtain ⟨xj, wj, e, lj⟩ := hq
    rw [e] at h
    simp only [Out.bind_ok] at h
    obtain ⟨x2, e2, -, -⟩ := copyInterior_eq N xj ((x.set 0 (-1)).set N 1) lj (by simpa using hx) hN
    rw [e2] at h
    simp at h
  · exact ⟨x', h⟩

/-- The hypotheses are met by calls that return, e.g. order 4, whose middle point is 0. -/
example : ∃ x', gllPoints (fun _ => 0) Dense.exactSyevd ((0 : ℕ) : ℝ) ((0 : ℕ) : ℝ) (1 / 2 ^ 52) 4 [0, 0, 0, 0, 0] = .ok (.ret x') ∧ x'.getD 2 0 = 0 := by
  obtain ⟨y, hy⟩ := gll_returns 0 (1 / 2 ^ 52) (by norm_num) (by norm_num) 4 (by omega) [0, 0, 0, 0, 0] rfl
  rcases C70_gauss_lobatto (fun _ => 0) Dense.exactSyevd Dense.exactSyevd_ok 0 (1 / 2 ^ 52) (by norm_num) (by norm_num) 4 (by omega) [0, 0, 0, 0, 0] rfl with
    ⟨x', h⟩ | ⟨x', h, -, -, -, -, hs, -⟩
  · rw [hy] at h; simp at h
  · refine ⟨x', h, ?_⟩
    have := hs 2 (by omega)
    simp only [show 4 - 2 = 2 by omega] at this
    linarith

end Blitzdg.Jacobi
