import Verif.Curved.Vand
import Verif.Nodes1D.OpsProps
import Verif.Poisson.QuadProps
import Verif.Py.ExportProps

/-! C111: the Vandermonde matrices handed to Python. -/

namespace Blitzdg.Curved

open Polynomial
open Blitzdg.Sparse (DMat)
open Blitzdg.Dense (computeInverse toMat colMat C37_inverse)
open Blitzdg.Nodes1D (Lapack vandermonde uncaught vandermonde_unit exactLapack)
open Blitzdg.Jacobi (jacobiP poly)
open Blitzdg.DG2D (fresh)
open Blitzdg.Py (NdArray exportTo storage)

/-- Entry `(i, j)` of a two-dimensional array with `n` columns. -/
def entry (a : NdArray ℝ) (n i j : ℕ) : ℝ := a.data.getD (i * n + j) 0

/-- The orthonormal polynomials: one of each degree. -/
structure Orthonormal (q : ℕ → ℝ[X]) : Prop where
  deg : ∀ j, (q j).natDegree = j ∧ 0 < (q j).leadingCoeff
  orth : ∀ j k, ∫ x in (-1 : ℝ)..1, (q j).eval x * (q k).eval x = if j = k then 1 else 0
  span : ∀ m (f : ℝ[X]), f.natDegree ≤ m → ∃ c : ℕ → ℝ, f = ∑ k ∈ Finset.range (m + 1), C (c k) * q k

/-- The array holds the values of the polynomials at the points. -/
structure Values (q : ℕ → ℝ[X]) (r : List ℝ) (n : ℕ) (a : NdArray ℝ) : Prop where
  shape : a.shape = [r.length, n]
  len : a.data.length = r.length * n
  at' : ∀ i < r.length, ∀ j < n, entry a n i j = (q j).eval (r.getD i 0)

theorem export_vand (r : List ℝ) (n : ℕ) : ∃ a, (firstOf (r.length * n) (storage (vandermonde r n)) >>= fun l => exportTo [r.length, n] l) = .ok a ∧ Values (poly 0 0) r n a := by
  have hl : (storage (vandermonde r n)).length = r.length * n := Py.storage_length _
  refine ⟨⟨[r.length, n], storage (vandermonde r n)⟩, ?_, ⟨rfl, hl, fun i hi j hj => ?_⟩⟩
  · unfold firstOf
    rw [if_pos hl.ge, Out.bind_ok, List.take_of_length_le hl.le, Py.exportTo_eq _ _ (by rw [hl]; simp)]
  · unfold entry
    have := Py.storage_get (vandermonde r n) (i := i) (j := j) hi hj
    rw [List.getD_eq_getElem?_getD]
    rw [show i * n + j = i * (vandermonde r n).cols + j from rfl, this, Option.getD_some, Nodes1D.leg_eval]
    rfl

theorem poly_orthonormal : Orthonormal (poly 0 0) where
  deg := Jacobi.poly_degree (by norm_num) (by norm_num) (by norm_num)
  orth := fun j k => by
    rw [← Jacobi.C48_legendre j k]
    congr 1; funext x; rw [Nodes1D.leg_eval, Nodes1D.leg_eval]
  span := Nodes1D.leg_span

theorem integral_sum_right (f : ℝ[X]) (m : ℕ) (c : ℕ → ℝ) (q : ℕ → ℝ[X]) :
    ∫ x in (-1 : ℝ)..1, f.eval x * (∑ k ∈ Finset.range m, C (c k) * q k).eval x = ∑ k ∈ Finset.range m, c k * ∫ x in (-1 : ℝ)..1, f.eval x * (q k).eval x := by
  have : ∀ x : ℝ, f.eval x * (∑ k ∈ Finset.range m, C (c k) * q k).eval x = ∑ k ∈ Finset.range m, c k * (f.eval x * (q k).eval x) := fun x => by
    rw [eval_finsetSum, Finset.mul_sum]
    exact Finset.sum_congr rfl fun k _ => by rw [eval_mul, eval_C]; ring
  simp only [this]
  rw [intervalIntegral.integral_finsetSum fun k _ => ?_]
  · exact Finset.sum_congr rfl fun k _ => intervalIntegral.integral_const_mul _ _
  · exact (continuous_const.mul (f.continuous.mul (q k).continuous)).intervalIntegrable _ _

/-- The orthonormal polynomials with positive leading coefficients are unique. -/
theorem Orthonormal.unique {q p : ℕ → ℝ[X]} (hq : Orthonormal q) (hp : Orthonormal p) : q = p := by
  funext k
  obtain ⟨c, hc⟩ := hq.span k (p k) (hp.deg k).1.le
  have low : ∀ l < k, ∫ x in (-1 : ℝ)..1, (p k).eval x * (q l).eval x = 0 := by
    intro l hl
    obtain ⟨d, hd⟩ := hp.span l (q l) (hq.deg l).1.le
    rw [hd, integral_sum_right]
    refine Finset.sum_eq_zero fun j hj => ?_
    have := Finset.mem_range.1 hj
    rw [hp.orth, if_neg (by omega), mul_zero]
  have hz : ∀ l < k, c l = 0 := by
    intro l hl
    have h1 := low l hl
    have h2 : ∫ x in (-1 : ℝ)..1, (p k).eval x * (q l).eval x = ∫ x in (-1 : ℝ)..1, (q l).eval x * (∑ j ∈ Finset.range (k + 1), C (c j) * q j).eval x := by
      congr 1; funext x; rw [← hc, mul_comm]
    rw [h2, integral_sum_right] at h1
    simp only [hq.orth] at h1
    simpa [Finset.sum_ite_eq, show l < k + 1 by omega] using h1
  have hk : p k = C (c k) * q k := by
    rw [hc, Finset.sum_range_succ, Finset.sum_eq_zero, zero_add]
    intro l hl
    rw [hz l (Finset.mem_range.1 hl), C_0, zero_mul]
  have hn := hp.orth k k
  have h3 : ∫ x in (-1 : ℝ)..1, (p k).eval x * (p k).eval x = c k ^ 2 * ∫ x in (-1 : ℝ)..1, (q k).eval x * (q k).eval x := by
    rw [← intervalIntegral.integral_const_mul]
    congr 1; funext x; rw [hk, eval_mul, eval_C]; ring
  rw [h3, hq.orth, if_pos rfl, mul_one] at hn
  have hlead : 0 < c k := by
    have h4 := (hp.deg k).2
    rw [hk, leadingCoeff_mul, leadingCoeff_C] at h4
    exact (pos_iff_pos_of_mul_pos h4).2 (hq.deg k).2
  have h1 : c k = 1 := by nlinarith
  rw [hk, h1, C_1, one_mul]

/-- **C111, values.** There are polynomials, orthonormal on `[-1, 1]` and one of each degree, such that the matrix asked for without its inverse holds their values at the points: always, for any number of points and any order. -/
theorem C111_values : ∃ q, Orthonormal q ∧ ∀ la r order, ∃ a, buildVandermonde la r false order = .ok (a, none) ∧ Values q r (if 0 ≤ order then (order + 1).toNat else r.length) a := by
  refine ⟨poly 0 0, poly_orthonormal, fun la r order => ?_⟩
  have hc : columns r.length order = if 0 ≤ order then (order + 1).toNat else r.length := by
    unfold columns
    by_cases h : 0 ≤ order
    · rw [if_pos (by omega), if_pos h]
    · rw [if_neg (by omega), if_neg h]
  obtain ⟨a, ha, hv⟩ := export_vand r (columns r.length order)
  rw [← hc]
  refine ⟨a, ?_, hv⟩
  unfold buildVandermonde
  simp only [Bool.false_eq_true, if_false]
  cases h1 : firstOf (r.length * columns r.length order) (storage (vandermonde r (columns r.length order))) with
  | ok l =>
    rw [h1, Out.bind_ok] at ha
    simp only [Out.bind_ok, ha, Out.pure_eq]
  | throws => rw [h1] at ha; cases ha
  | ub => rw [h1] at ha; cases ha

theorem columns_eq (M : ℕ) (order : Int) : columns M order = if 0 ≤ order then (order + 1).toNat else M := by
  unfold columns
  by_cases h : 0 ≤ order
  · rw [if_pos (by omega), if_pos h]
  · rw [if_neg (by omega), if_neg h]

theorem distinct_getD {r : List ℝ} (h : r.Nodup) (i j : ℕ) (hij : i < j) (hj : j < r.length) : r.getD i 0 ≠ r.getD j 0 := by
  rw [List.getD_eq_getElem _ _ (by omega), List.getD_eq_getElem _ _ hj]
  intro e
  have := h.getElem_inj_iff.1 e
  omega

/-- **C111, inverse.** For `order + 1` distinct points (or any number of distinct points, at least one, without an order) the call returns the matrix and its inverse. -/
theorem C111_inverse : ∃ q, Orthonormal q ∧ ∀ (la : Lapack), la.Ok → ∀ (r : List ℝ) (order : Int), r.Nodup → r ≠ [] → (order < 0 ∨ (r.length : Int) = order + 1) →
    ∃ a b, buildVandermonde la r true order = .ok (a, some b) ∧ Values q r r.length a ∧ b.shape = [r.length, r.length] ∧ b.data.length = r.length * r.length ∧
      (∀ i < r.length, ∀ j < r.length, ∑ k ∈ Finset.range r.length, entry a r.length i k * entry b r.length k j = if i = j then 1 else 0) ∧
      ∀ i < r.length, ∀ j < r.length, ∑ k ∈ Finset.range r.length, entry b r.length i k * entry a r.length k j = if i = j then 1 else 0 := by
  refine ⟨poly 0 0, poly_orthonormal, fun la hla r order hd hne ho => ?_⟩
  have hc : columns r.length order = r.length := by
    rw [columns_eq]
    split_ifs <;> omega
  have hpos : 0 < r.length := List.length_pos_iff.2 hne
  obtain ⟨N, hN⟩ : ∃ N, r.length = N + 1 := ⟨r.length - 1, by omega⟩
  have hu : IsUnit (toMat (vandermonde r r.length) r.length r.length) := by
    rw [hN]
    exact vandermonde_unit N r fun i j hij hj => distinct_getD hd i j hij (by omega)
  obtain ⟨a, ha, hv⟩ := export_vand r r.length
  rcases C37_inverse la.dgetrf la.dgetri hla.getri (vandermonde r r.length) (fresh r.length r.length) r.length ⟨rfl, rfl⟩ ⟨rfl, rfl⟩ with ⟨X, hX, hr, hcl, e1, e2⟩ | ⟨-, h⟩
  swap
  · exact absurd ⟨hpos, hu⟩ h
  have hl : (storage X).length = r.length * r.length := by rw [Py.storage_length, hr, hcl]
  have ea : ∀ i < r.length, ∀ j < r.length, entry a r.length i j = (vandermonde r r.length).at' i j := fun i hi j hj => by
    rw [hv.at' i hi j hj, Nodes1D.leg_eval]; rfl
  have eb : ∀ i < r.length, ∀ j < r.length, entry ⟨[r.length, r.length], storage X⟩ r.length i j = X.at' i j := fun i hi j hj => by
    unfold entry
    have := Py.storage_get X (i := i) (j := j) (by omega) (by omega)
    rw [hcl] at this
    rw [List.getD_eq_getElem?_getD, this, Option.getD_some]
  refine ⟨a, ⟨[r.length, r.length], storage X⟩, ?_, hv, rfl, hl, fun i hi j hj => ?_, fun i hi j hj => ?_⟩
  · unfold buildVandermonde
    simp only [if_true, hc, hX, Out.bind_ok, uncaught]
    cases h1 : firstOf (r.length * r.length) (storage (vandermonde r r.length)) with
    | ok l =>
      rw [h1, Out.bind_ok] at ha
      have h2 : firstOf (r.length * r.length) (storage X) = .ok (storage X) := by
        unfold firstOf
        rw [if_pos hl.ge, List.take_of_length_le hl.le]
      simp only [Out.bind_ok, ha, h2, Py.exportTo_eq [r.length, r.length] (storage X) (by rw [hl]; simp), Out.pure_eq]
    | throws => rw [h1] at ha; cases ha
    | ub => rw [h1] at ha; cases ha
  · have h1 := congrFun (congrFun e1 ⟨i, hi⟩) ⟨j, hj⟩
    rw [Matrix.mul_apply, Matrix.one_apply] at h1
    simp only [Fin.mk.injEq] at h1
    rw [← h1, Finset.sum_range]
    exact Finset.sum_congr rfl fun k _ => by rw [ea i hi k k.2, eb k k.2 j hj]; rfl
  · have h1 := congrFun (congrFun e2 ⟨i, hi⟩) ⟨j, hj⟩
    rw [Matrix.mul_apply, Matrix.one_apply] at h1
    simp only [Fin.mk.injEq] at h1
    rw [← h1, Finset.sum_range]
    exact Finset.sum_congr rfl fun k _ => by rw [eb i hi k k.2, ea k k.2 j hj]; rfl

/-- **C111, repeated points.** With a repeated point the inverse is refused. -/
theorem C111_repeated (la : Lapack) (hla : la.Ok) (r : List ℝ) (order : Int) (hd : ¬ r.Nodup) (ho : order < 0 ∨ (r.length : Int) = order + 1) : buildVandermonde la r true order = .throws := by
  have hc : columns r.length order = r.length := by
    rw [columns_eq]
    split_ifs <;> omega
  have hs : ¬ IsUnit (toMat (vandermonde r r.length) r.length r.length) := by
    rw [List.nodup_iff_getElem?_ne_getElem?] at hd
    push Not at hd
    obtain ⟨i, j, hij, hj, e⟩ := hd
    refine Poisson.vandermonde_singular r i j (by omega) hj (by omega) ?_
    rw [List.getD_eq_getElem?_getD, List.getD_eq_getElem?_getD, e]
  unfold buildVandermonde
  rcases C37_inverse la.dgetrf la.dgetri hla.getri (vandermonde r r.length) (fresh r.length r.length) r.length ⟨rfl, rfl⟩ ⟨rfl, rfl⟩ with ⟨X, hX, hr, hcl, e1, e2⟩ | ⟨h, -⟩
  · exact absurd ⟨⟨_, _, e1, e2⟩, rfl⟩ hs
  · simp only [if_true, hc, h, Out.bind_ok, uncaught]
    rfl

/-- **C111, too few points.** With fewer points than columns the inverse overruns a buffer. -/
theorem C111_few (la : Lapack) (r : List ℝ) (order : Int) (hr : r ≠ []) (ho : (r.length : Int) < order + 1) : buildVandermonde la r true order = .ub := by
  have hpos : 0 < r.length := List.length_pos_iff.2 hr
  have hc : r.length < columns r.length order := by
    rw [columns_eq, if_pos (by omega)]
    omega
  unfold buildVandermonde computeInverse
  have : Blitz.reshapeMatTo1D (vandermonde r (columns r.length order)) (List.replicate ((vandermonde r (columns r.length order)).rows * (vandermonde r (columns r.length order)).rows) 0) false = .ub := by
    apply Blitz.C10_flatten_ub
    rw [List.length_replicate]
    exact Nat.mul_lt_mul_of_pos_left hc hpos
  simp only [if_true, this, Out.bind_ub]

/-- **C111, too many points.** With more points than columns the inverse is refused. -/
theorem C111_many (la : Lapack) (hla : la.Ok) (r : List ℝ) (order : Int) (h0 : 0 ≤ order) (ho : order + 1 < (r.length : Int)) : buildVandermonde la r true order = .throws := by
  have hl : columns r.length order < r.length := by
    rw [columns_eq, if_pos h0]
    omega
  obtain ⟨c, hc⟩ : ∃ c, c = columns r.length order := ⟨_, rfl⟩
  rw [← hc] at hl
  obtain ⟨n, hn⟩ : ∃ n, n = r.length := ⟨_, rfl⟩
  obtain ⟨a, ha, hla', -, hrest⟩ := Blitz.C10_flatten (vandermonde r c) (List.replicate (r.length * r.length) 0) false
    (by rw [List.length_replicate]; exact Nat.mul_le_mul_left _ hl.le)
  have hal : a.length = r.length * r.length := by rw [hla', List.length_replicate]
  have hrest : ∀ k, r.length * c ≤ k → a[k]? = (List.replicate (r.length * r.length) (0 : ℝ))[k]? := hrest
  rw [← hn] at ha hal hrest hl
  have hnot : ∀ B : Matrix (Fin n) (Fin n) ℝ, colMat n n a * B ≠ 1 := by
    intro B hB
    have hB' := mul_eq_one_comm.1 hB
    have := congrFun (congrFun hB' ⟨c, hl⟩) ⟨c, hl⟩
    rw [Matrix.mul_apply, Matrix.one_apply, if_pos rfl] at this
    have hz : ∀ k : Fin n, colMat n n a k ⟨c, hl⟩ = 0 := by
      intro k
      have hk : a[c * n + k]? = (List.replicate (n * n) (0 : ℝ))[c * n + k]? := hrest _ (by rw [Nat.mul_comm]; omega)
      simp only [colMat]
      rw [List.getD_eq_getElem?_getD, hk, List.getElem?_replicate]
      split_ifs <;> rfl
    simp only [hz, mul_zero, Finset.sum_const_zero] at this
    exact absurd this (by norm_num)
  have hs := hla.getri.sound n a hal
  have hcall : computeInverse la.dgetrf la.dgetri (vandermonde r c) (fresh c c) = .ok (.threw (fresh c c)) := by
    unfold computeInverse
    rw [show (vandermonde r c).rows = n from hn.symm, ha]
    simp only [Out.bind_ok]
    by_cases h1 : (la.dgetrf n a).1 < 0
    · rw [if_pos h1]
    rw [if_neg h1]
    by_cases h2 : (la.dgetrf n a).1 > 0
    · rw [if_pos h2]
    rw [if_neg h2]
    by_cases h3 : (la.dgetri n (la.dgetrf n a).2.1 (la.dgetrf n a).2.2).1 < 0
    · rw [if_pos h3]
    rw [if_neg h3]
    by_cases h4 : (la.dgetri n (la.dgetrf n a).2.1 (la.dgetrf n a).2.2).1 > 0
    · rw [if_pos h4]
    exact absurd (hs (by omega) (by omega)) (hnot _)
  unfold buildVandermonde
  simp only [if_true, ← hc, hcall, Out.bind_ok, uncaught]
  rfl

/-- **C111, interpolation.** The matrix at the points `t` times the inverse matrix at the distinct points `r`, both of the same order, interpolates: the values `f` at `r` become the values at `t` of every polynomial of
degree at most the order with `p(r_i) = f_i`. -/
theorem C111_interp (la : Lapack) (hla : la.Ok) (r t : List ℝ) (N : ℕ) (hr : r.Nodup) (hl : r.length = N + 1) :
    ∃ a b v, buildVandermonde la r true N = .ok (a, some b) ∧ buildVandermonde la t false N = .ok (v, none) ∧
      ∀ (f : ℕ → ℝ) (p : ℝ[X]), p.natDegree ≤ N → (∀ i ≤ N, p.eval (r.getD i 0) = f i) →
        ∀ i < t.length, ∑ k ∈ Finset.range (N + 1), entry v (N + 1) i k * ∑ j ∈ Finset.range (N + 1), entry b (N + 1) k j * f j = p.eval (t.getD i 0) := by
  obtain ⟨q, hq, hv⟩ := C111_values
  obtain ⟨v, e1, v1⟩ := hv la t N
  rw [if_pos (by omega), show ((N : Int) + 1).toNat = N + 1 by omega] at v1
  obtain ⟨q', hq', hi⟩ := C111_inverse
  obtain ⟨a, b, e2, a1, -, -, -, b1⟩ := hi la hla r N hr (by intro h; rw [h] at hl; simp at hl) (.inr (by omega))
  rw [hl] at a1 b1
  have hqq : ∀ k ≤ N, ∀ x, (q' k).eval x = (q k).eval x := fun k _ x => by rw [hq'.unique hq]
  refine ⟨a, b, v, e2, e1, fun f p hp hpf i hit => ?_⟩
  obtain ⟨co, hco⟩ := hq.span N p hp
  have hev : ∀ x, p.eval x = ∑ k ∈ Finset.range (N + 1), co k * (q k).eval x := fun x => by
    rw [hco, eval_finsetSum]
    exact Finset.sum_congr rfl fun k _ => by rw [eval_mul, eval_C]
  have hc : ∀ k ∈ Finset.range (N + 1), ∑ j ∈ Finset.range (N + 1), entry b (N + 1) k j * f j = co k := by
    intro k hk
    have hk := Finset.mem_range.1 hk
    have : ∀ j ∈ Finset.range (N + 1), entry b (N + 1) k j * f j = ∑ l ∈ Finset.range (N + 1), co l * (entry b (N + 1) k j * entry a (N + 1) j l) := by
      intro j hj
      have hj := Finset.mem_range.1 hj
      rw [← hpf j (by omega), hev, Finset.mul_sum]
      refine Finset.sum_congr rfl fun l hl' => ?_
      rw [a1.at' j (by omega) l (Finset.mem_range.1 hl'), hqq l (by have := Finset.mem_range.1 hl'; omega)]
      ring
    rw [Finset.sum_congr rfl this, Finset.sum_comm]
    simp only [← Finset.mul_sum]
    rw [Finset.sum_congr rfl fun l hl' => by rw [b1 k hk l (Finset.mem_range.1 hl')]]
    simp [hk]
  rw [Finset.sum_congr rfl fun k hk => by rw [hc k hk], hev]
  refine Finset.sum_congr rfl fun k hk => ?_
  rw [v1.at' i hit k (Finset.mem_range.1 hk), mul_comm]

/-- Three distinct points of order two: the matrix and its inverse are returned. -/
example : ∃ a b, buildVandermonde exactLapack [-1, 0, 1] true 2 = .ok (a, some b) ∧ a.shape = [3, 3] ∧ ∑ k ∈ Finset.range 3, entry a 3 1 k * entry b 3 k 1 = 1 := by
  obtain ⟨q, -, h⟩ := C111_inverse
  obtain ⟨a, b, e, v, -, -, h1, -⟩ := h exactLapack Nodes1D.exactLapack_ok [-1, 0, 1] 2 (by norm_num) (by simp) (.inr (by norm_num))
  exact ⟨a, b, e, v.shape, by simpa using h1 1 (by norm_num) 1 (by norm_num)⟩

/-- Without an order as well. -/
example : ∃ a b, buildVandermonde exactLapack [-1, 1/2] true (-1) = .ok (a, some b) ∧ a.shape = [2, 2] := by
  obtain ⟨q, -, h⟩ := C111_inverse
  obtain ⟨a, b, e, v, -⟩ := h exactLapack Nodes1D.exactLapack_ok [-1, 1/2] (-1) (by norm_num) (by simp) (.inl (by norm_num))
  exact ⟨a, b, e, v.shape⟩

/-- A rectangular matrix: four points, order one. -/
example : ∃ a, buildVandermonde exactLapack [-1, 0, 1/2, 1] false 1 = .ok (a, none) ∧ a.shape = [4, 2] := by
  obtain ⟨q, -, h⟩ := C111_values
  obtain ⟨a, e, v⟩ := h exactLapack [-1, 0, 1/2, 1] 1
  exact ⟨a, e, v.shape⟩

/-- `x² - x` through three points, evaluated at `x = 2` and `x = 1/2`. -/
example : ∃ b v a, buildVandermonde exactLapack [-1, 0, 1] true 2 = .ok (a, some b) ∧ buildVandermonde exactLapack [2, 1/2] false 2 = .ok (v, none) ∧
    ∑ k ∈ Finset.range 3, entry v 3 0 k * ∑ j ∈ Finset.range 3, entry b 3 k j * ([2, 0, 0] : List ℝ).getD j 0 = 2 := by
  obtain ⟨a, b, v, e1, e2, h⟩ := C111_interp exactLapack Nodes1D.exactLapack_ok [-1, 0, 1] [2, 1/2] 2 (by norm_num) rfl
  refine ⟨b, v, a, e1, e2, ?_⟩
  have hd : (X ^ 2 - X : ℝ[X]).natDegree ≤ 2 := (natDegree_sub_le _ _).trans (by simp)
  have := h (fun j => ([2, 0, 0] : List ℝ).getD j 0) (X ^ 2 - X) hd (fun i hi => by interval_cases i <;> norm_num) 0 (by norm_num)
  rw [this]
  norm_num

example : buildVandermonde exactLapack [-1, 1, 1] true 2 = .throws := C111_repeated _ Nodes1D.exactLapack_ok _ _ (by norm_num) (.inr (by norm_num))
example : buildVandermonde exactLapack [-1, 0, 1] true 1 = .throws := C111_many _ Nodes1D.exactLapack_ok _ _ (by norm_num) (by norm_num)
example : buildVandermonde exactLapack [-1, 1] true 3 = .ub := C111_few _ _ _ (by simp) (by norm_num)

end Blitzdg.Curved
