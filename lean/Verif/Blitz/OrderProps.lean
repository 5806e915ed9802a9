import Verif.Blitz.UniquetolProps
import Mathlib.Algebra.BigOperators.Field
import Mathlib.Algebra.Order.BigOperators.Group.Finset
import Mathlib.Tactic.FieldSimp
import Mathlib.Tactic.Ring

/-! Property C129: the order in which `uniquetol` and `uniquetolMatlab` list the representatives. -/

namespace Blitzdg.Blitz

open Blitzdg.Sparse (DMat)

variable {α : Type}

section field
variable [Field α] [LinearOrder α] [IsStrictOrderedRing α]

/-! ### Specification -/

/-- The mean of column `j`. -/
def colMean (a : DMat α) (j : Nat) : α := (∑ i ∈ Finset.range a.rows, a.at' i j) / a.rows

/-- The sum of the squared deviations of column `j` from its mean. -/
def colSpread (a : DMat α) (j : Nat) : α := ∑ i ∈ Finset.range a.rows, (a.at' i j - colMean a j) ^ 2

/-- The square of the 2-norm of column `j`. -/
def colNorm2 (a : DMat α) (j : Nat) : α := ∑ i ∈ Finset.range a.rows, a.at' i j ^ 2

/-- Row `l` comes before row `r` when the columns are compared in the order `ord`: the rows agree in the columns before some place, and there `l` has
the smaller entry. -/
def Before (a : DMat α) (ord : List Nat) (l r : Nat) : Prop :=
  ∃ p, ∃ h : p < ord.length, (∀ q (hq : q < p), a.at' l (ord[q]'(by omega)) = a.at' r (ord[q]'(by omega))) ∧ a.at' l ord[p] < a.at' r ord[p]

/-! ### Lemmas -/

omit [LinearOrder α] [IsStrictOrderedRing α] in
theorem welford_sums [CharZero α] (x : Nat → α) (n : Nat) :
    (n : α) * ((List.range n).foldl (fun s i => (s.1 + (x i - s.1) / (i + 1), s.2 + (x i - s.1) * (x i - (s.1 + (x i - s.1) / (i + 1)))))
        ((0 : α), (0 : α))).1 = ∑ i ∈ Finset.range n, x i ∧
    ((List.range n).foldl (fun s i => (s.1 + (x i - s.1) / (i + 1), s.2 + (x i - s.1) * (x i - (s.1 + (x i - s.1) / (i + 1)))))
        ((0 : α), (0 : α))).2 = ∑ i ∈ Finset.range n, x i ^ 2 -
      n * ((List.range n).foldl (fun s i => (s.1 + (x i - s.1) / (i + 1), s.2 + (x i - s.1) * (x i - (s.1 + (x i - s.1) / (i + 1)))))
        ((0 : α), (0 : α))).1 ^ 2 := by
  induction n with
  | zero => simp
  | succ n ih =>
    rw [List.range_succ, List.foldl_append, Finset.sum_range_succ, Finset.sum_range_succ]
    obtain ⟨h1, h2⟩ := ih
    generalize (List.range n).foldl (fun s i => (s.1 + (x i - s.1) / (i + 1), s.2 + (x i - s.1) * (x i - (s.1 + (x i - s.1) / (i + 1)))))
        ((0 : α), (0 : α)) = s at h1 h2
    have hn : ((n : α) + 1) ≠ 0 := by exact_mod_cast Nat.succ_ne_zero n
    simp only [List.foldl_cons, List.foldl_nil, Nat.cast_add, Nat.cast_one]
    rw [← h1, h2]
    constructor
    · field_simp; ring
    · field_simp; ring

theorem variance_eq (a : DMat α) (j : Nat) : (variance a j).2 = colSpread a j := by
  obtain ⟨h1, h2⟩ := welford_sums (fun i => a.at' i j) a.rows
  have e : variance a j = (List.range a.rows).foldl (fun s i => (s.1 + (a.at' i j - s.1) / (i + 1),
    s.2 + (a.at' i j - s.1) * (a.at' i j - (s.1 + (a.at' i j - s.1) / (i + 1))))) ((0 : α), (0 : α)) := rfl
  rw [e]
  generalize (List.range a.rows).foldl (fun s i => (s.1 + (a.at' i j - s.1) / (i + 1),
    s.2 + (a.at' i j - s.1) * (a.at' i j - (s.1 + (a.at' i j - s.1) / (i + 1))))) ((0 : α), (0 : α)) = s at h1 h2
  rw [h2]
  unfold colSpread
  rcases Nat.eq_zero_or_pos a.rows with h0 | h0
  · rw [h0]; simp
  · have hn : (a.rows : α) ≠ 0 := by exact_mod_cast h0.ne'
    have hm : colMean a j = s.1 := by unfold colMean; rw [← h1]; field_simp
    rw [hm]
    have : ∀ i, (a.at' i j - s.1) ^ 2 = a.at' i j ^ 2 - 2 * s.1 * a.at' i j + s.1 ^ 2 := fun i => by ring
    simp only [this, Finset.sum_add_distrib, Finset.sum_sub_distrib, ← Finset.mul_sum, Finset.sum_const, Finset.card_range, nsmul_eq_mul]
    rw [← h1]; ring

omit [Field α] [IsStrictOrderedRing α] in
theorem before_of_lt (a : DMat α) (l r : Nat) : ∀ ord : List Nat, ord.map (a.at' l) < ord.map (a.at' r) → Before a ord l r := by
  intro ord
  induction ord with
  | nil => intro h; simp at h
  | cons j ord ih =>
    intro h
    rw [List.map_cons, List.map_cons, List.cons_lt_cons_iff] at h
    rcases h with h | ⟨h1, h2⟩
    · exact ⟨0, by simp, by intro q hq; omega, h⟩
    · obtain ⟨p, hp, h3, h4⟩ := ih h2
      refine ⟨p + 1, by simpa using hp, ?_, by simpa using h4⟩
      intro q hq
      cases q with
      | zero => simpa using h1
      | succ q => simpa using h3 q (by omega)

omit [Field α] [IsStrictOrderedRing α] in
/-- A sorted list of columns: rearrangement by decreasing key. -/
theorem sorted_cols (sort : (Nat → Nat → Bool) → List Nat → List Nat) (hs : IsSort sort) (key : Nat → α) (n : Nat) (hn : 0 < n) :
    let ord := if n < 2 then [0] else sort (fun i j => decide (key j < key i)) (List.range n)
    ord.Perm (List.range n) ∧ ord.Pairwise (fun j k => key k ≤ key j) := by
  intro ord
  by_cases h : n < 2
  · have : n = 1 := by omega
    have e : ord = [0] := if_pos h
    rw [e, this]; exact ⟨by decide, by simp⟩
  · have e : ord = sort (fun i j => decide (key j < key i)) (List.range n) := if_neg h
    rw [e]
    refine ⟨(hs _ _).1, ?_⟩
    exact (hs (fun i j => decide (key j < key i)) (List.range n)).2 αᵒᵈ inferInstance (fun j => OrderDual.toDual (key j)) (fun _ _ => rfl)

omit [Field α] [IsStrictOrderedRing α] in
theorem sorted_rows (sort : (Nat → Nat → Bool) → List Nat → List Nat) (hs : IsSort sort) (a : DMat α) (ord g : List Nat)
    (hg : g.Sublist (sort (compareExact a ord) (List.range a.rows))) : g.Pairwise (fun l r => ord.map (a.at' l) ≤ ord.map (a.at' r)) :=
  ((hs (compareExact a ord) (List.range a.rows)).2 (List α) inferInstance (fun r => ord.map (a.at' r)) (by
    intro l r; rw [compareExact_key]; congr)).sublist hg

/-! ### C129 -/

/-- **C129 (`uniquetol`).** For every matrix with at least one column, every `tol > 0` and every sorting algorithm, `uniquetol` lists the representatives in strictly
increasing lexicographic order, comparing first the column with the greatest spread about its mean, then the next one and so on. -/
theorem C129_uniquetol (sort : (Nat → Nat → Bool) → List Nat → List Nat) (hs : IsSort sort) (a : DMat α) (hcols : 0 < a.cols)
    (tol : α) (ht : 0 < tol) :
    ∃ g sc ord, uniquetol sort a tol = .ok (g, sc) ∧ ord.Perm (List.range a.cols) ∧ ord.Pairwise (fun j k => colSpread a k ≤ colSpread a j) ∧
      g.Pairwise (Before a ord) := by
  obtain ⟨g, sc, h1, h2, h3, h4, h5, h6, h7, h8⟩ := uniquetol_full sort hs a hcols tol ht
  have hord := sorted_cols sort hs (fun j => (variance a j).2) a.cols hcols
  simp only at hord
  have e : getOrdering sort a = if a.cols < 2 then [0] else sort (fun i j => decide ((variance a j).2 < (variance a i).2)) (List.range a.cols) := rfl
  rw [← e] at hord
  refine ⟨g, sc, getOrdering sort a, h1, hord.1, ?_, ?_⟩
  · refine hord.2.imp ?_
    intro j k h
    rwa [variance_eq, variance_eq] at h
  · refine ((sorted_rows sort hs a _ g h8).and h7).imp ?_
    rintro l r ⟨hle, hfar⟩
    refine before_of_lt a l r _ (lt_of_le_of_ne hle ?_)
    intro heq
    apply hfar
    intro j hj M _ hM
    have hm : j ∈ getOrdering sort a := hord.1.mem_iff.2 (List.mem_range.2 hj)
    have := List.map_inj_left.1 heq j hm
    rw [this, sub_self, abs_zero]
    exact mul_nonneg hM ht.le

omit [IsStrictOrderedRing α] in
/-- **C129 (`uniquetolMatlab`).** For every matrix with at least one row and one column, every `tol > 0` and every sorting algorithm, no row listed by `uniquetolMatlab` comes
before an earlier listed one in the lexicographic order that compares the columns by decreasing 2-norm. -/
theorem C129_matlab (sort : (Nat → Nat → Bool) → List Nat → List Nat) (hs : IsSort sort) (a : DMat α) (hrows : 0 < a.rows) (hcols : 0 < a.cols)
    (tol : α) (ht : 0 < tol) :
    ∃ g sc ord, uniquetolMatlab sort a tol = .ok (g, sc) ∧ ord.Perm (List.range a.cols) ∧ ord.Pairwise (fun j k => colNorm2 a k ≤ colNorm2 a j) ∧
      g.Pairwise (fun l r => Before a ord l r ∨ SameRow a l r) := by
  obtain ⟨g, sc, h1, h2, -⟩ := matlabFrom_spec (compareEQ a tol) _ hrows _ (hs (compareExact a (orderColsByNorm sort a)) (List.range a.rows)).1
  have hsum : ∀ j, (List.range a.rows).foldl (fun s i => s + a.at' i j * a.at' i j) (0 : α) = colNorm2 a j := by
    intro j
    unfold colNorm2
    induction a.rows with
    | zero => rfl
    | succ n ih => rw [List.range_succ, List.foldl_append, ih, Finset.sum_range_succ]; simp [sq]
  have hord := sorted_cols sort hs (fun j => (List.range a.rows).foldl (fun s i => s + a.at' i j * a.at' i j) (0 : α)) a.cols hcols
  simp only at hord
  have e : orderColsByNorm sort a = if a.cols < 2 then [0] else sort (fun i j => decide ((List.range a.rows).foldl (fun s i' => s + a.at' i' j * a.at' i' j) (0 : α) <
    (List.range a.rows).foldl (fun s i' => s + a.at' i' i * a.at' i' i) (0 : α))) (List.range a.cols) := rfl
  rw [← e] at hord
  refine ⟨g, sc, orderColsByNorm sort a, ?_, hord.1, ?_, ?_⟩
  · unfold uniquetolMatlab
    rw [if_neg (not_le.2 ht)]
    exact h1
  · refine hord.2.imp ?_
    intro j k h
    rwa [hsum, hsum] at h
  · refine (sorted_rows sort hs a _ g h2).imp ?_
    intro l r hle
    rcases lt_or_eq_of_le hle with h | h
    · exact Or.inl (before_of_lt a l r _ h)
    · refine Or.inr ?_
      intro j hj
      exact List.map_inj_left.1 h j (hord.1.mem_iff.2 (List.mem_range.2 hj))

end field

/-- Two columns, the second with the greater spread: the representatives are listed by the second column. -/
example : uniquetol insSort { rows := 3, cols := 2, at' := fun i j => ([[1, 9], [2, 1], [3, 5]] : List (List ℚ))[i]![j]! } (1 / 100)
    = .ok ([1, 2, 0], [2, 0, 1]) := by decide +kernel

/-- Two columns of squared norms 14 and 107: the representatives are listed by the second column. -/
example : uniquetolMatlab insSort { rows := 3, cols := 2, at' := fun i j => ([[1, 9], [2, 1], [3, 5]] : List (List ℚ))[i]![j]! } (1 / 100)
    = .ok ([1, 2, 0], [2, 0, 1]) := by decide +kernel

end Blitzdg.Blitz
