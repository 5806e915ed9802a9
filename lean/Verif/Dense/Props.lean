import Verif.Dense.Model
import Verif.Dense.Contracts
import Verif.Blitz.ReshapeProps
import Mathlib.Analysis.SpecialFunctions.Pow.NNReal

/-! C37: the dense solver wrappers under the LAPACK contracts. -/

namespace Blitzdg.Dense

open Blitzdg.Sparse (DMat)
open Blitzdg.Blitz

variable {R : Type} [CommRing R]

/-- The `m` by `n` matrix held by a dense matrix object of that shape. -/
def toMat (A : DMat R) (m n : Nat) : Matrix (Fin m) (Fin n) R := fun i j => A.at' i j

theorem mul_lt_aux {m n i j : Nat} (hi : i < m) (hj : j < n) : j * m + i < m * n := by
  have := pos_lt false m n i j hi hj
  simpa [pos] using this

/-- The wrapper's column-major copy represents the matrix. -/
theorem load (A : DMat R) (m n : Nat) (hr : A.rows = m) (hc : A.cols = n) :
    ∃ a, reshapeMatTo1D A (List.replicate (m * n) 0) false = .ok a ∧ a.length = m * n ∧ colMat m n a = toMat A m n := by
  subst hr hc
  obtain ⟨a, h1, h2, h3, _⟩ := C10_flatten A (List.replicate (A.rows * A.cols) 0) false (by simp)
  refine ⟨a, h1, by simpa using h2, ?_⟩
  funext i j
  have := h3 i j i.2 j.2
  simp only [pos, Bool.false_eq_true, if_false] at this
  simp [colMat, toMat, List.getD_eq_getElem?_getD, this]

/-- The row-major copy represents the transpose. -/
theorem loadT (A : DMat R) (n : Nat) (hr : A.rows = n) (hc : A.cols = n) :
    ∃ a, reshapeMatTo1D A (List.replicate (n * n) 0) true = .ok a ∧ a.length = n * n ∧ colMat n n a = (toMat A n n).transpose := by
  obtain ⟨a, h1, h2, h3, _⟩ := C10_flatten A (List.replicate (n * n) 0) true (by simp [hr, hc])
  refine ⟨a, h1, by simpa using h2, ?_⟩
  funext i j
  have := h3 j i (by rw [hr]; exact j.2) (by rw [hc]; exact i.2)
  simp only [pos, if_true, hc] at this
  simp [colMat, toMat, List.getD_eq_getElem?_getD, this]

/-- Copying a column-major buffer into a matrix object of the right shape. -/
theorem store (buf : List R) (X : DMat R) (m n : Nat) (hr : X.rows = m) (hc : X.cols = n) (hl : buf.length = m * n) :
    ∃ X', reshape1DToMat buf X false = .ok X' ∧ X'.rows = m ∧ X'.cols = n ∧ toMat X' m n = colMat m n buf := by
  obtain ⟨X', h1, h2, h3, h4⟩ := C10_unflatten buf X false (by rw [hr, hc, hl])
  refine ⟨X', h1, by rw [h2, hr], by rw [h3, hc], ?_⟩
  funext i j
  have := h4 i j (by rw [hr]; exact i.2) (by rw [hc]; exact j.2)
  simp only [pos, Bool.false_eq_true, if_false, hr] at this
  simp only [toMat, colMat, List.getD_eq_getElem?_getD, ← this, Option.getD_some]

theorem int_tri (z : Int) (h1 : ¬ z < 0) (h2 : ¬ z > 0) : z = 0 := by omega

/-- **C37, DirectSolver.** For an `n` by `n` matrix A and `n` by `m` matrices B, X, `solve` either throws, leaving X as it was, or sets X with A X = B;
it throws exactly when A is singular (or `n = 0`, which LAPACK rejects). -/
theorem C37_direct (dsgesv : Nat → Nat → List R → List R → Int × List R) (hl : GesvOk dsgesv) (A B X : DMat R) (n m : Nat)
    (hA : A.rows = n ∧ A.cols = n) (hB : B.rows = n ∧ B.cols = m) (hX : X.rows = n ∧ X.cols = m) :
    ((0 < n ∧ IsUnit (toMat A n n)) ∧ ∃ X', directSolve dsgesv A B X = .ok (.ret X') ∧ X'.rows = n ∧ X'.cols = m ∧
        toMat A n n * toMat X' n m = toMat B n m) ∨
      (¬ (0 < n ∧ IsUnit (toMat A n n)) ∧ directSolve dsgesv A B X = .ok (.threw X)) := by
  obtain ⟨a, ha, la, ea⟩ := load A n n hA.1 hA.2
  obtain ⟨b, hb, lb, eb⟩ := load B n m hB.1 hB.2
  have hc := hl.complete n m a b la lb
  have e0 : directSolve dsgesv A B X =
      (if (dsgesv n m a b).1 < 0 then .ok (.threw X)
       else if (dsgesv n m a b).1 > 0 then .ok (.threw X)
       else do
        let X' ← reshape1DToMat (dsgesv n m a b).2 X false
        pure (.ret X')) := by
    simp only [directSolve, hA.1, hB.2, ha, hb, Out.bind_ok]
  rw [← ea]
  by_cases hinfo : (dsgesv n m a b).1 = 0
  · left
    obtain ⟨X', hx, r, c, ex⟩ := store (dsgesv n m a b).2 X n m hX.1 hX.2 (hl.len n m a b la lb)
    refine ⟨hc.1 hinfo, X', ?_, r, c, ?_⟩
    · rw [e0, if_neg (by omega), if_neg (by omega), hx]; rfl
    · rw [ex, ← eb]; exact hl.sound n m a b la lb hinfo
  · right
    refine ⟨fun h => hinfo (hc.2 h), ?_⟩
    rw [e0]
    by_cases h1 : (dsgesv n m a b).1 < 0
    · rw [if_pos h1]
    · rw [if_neg h1, if_pos (by omega)]

/-- **C37, DenseMatrixInverter.** For a square matrix, `computeInverse` either throws, leaving its output as it was, or produces the two-sided inverse; for an
invertible nonempty matrix it does not throw. -/
theorem C37_inverse (dgetrf : Nat → List R → Int × List R × List Int) (dgetri : Nat → List R → List Int → Int × List R)
    (hl : GetriOk dgetrf dgetri) (A X : DMat R) (n : Nat) (hA : A.rows = n ∧ A.cols = n) (hX : X.rows = n ∧ X.cols = n) :
    (∃ X', computeInverse dgetrf dgetri A X = .ok (.ret X') ∧ X'.rows = n ∧ X'.cols = n ∧
        toMat A n n * toMat X' n n = 1 ∧ toMat X' n n * toMat A n n = 1) ∨
      (computeInverse dgetrf dgetri A X = .ok (.threw X) ∧ ¬ (0 < n ∧ IsUnit (toMat A n n))) := by
  obtain ⟨a, ha, la, ea⟩ := load A n n hA.1 hA.2
  have hc := hl.complete n a la
  rw [← ea]
  simp only [computeInverse, hA.1, ha, Out.bind_ok]
  by_cases h1 : (dgetrf n a).1 < 0
  · right; rw [if_pos h1]; exact ⟨rfl, fun h => by have := (hc h.1 h.2).1; omega⟩
  rw [if_neg h1]
  by_cases h2 : (dgetrf n a).1 > 0
  · right; rw [if_pos h2]; exact ⟨rfl, fun h => by have := (hc h.1 h.2).1; omega⟩
  rw [if_neg h2]
  by_cases h3 : (dgetri n (dgetrf n a).2.1 (dgetrf n a).2.2).1 < 0
  · right; rw [if_pos h3]; exact ⟨rfl, fun h => by have := (hc h.1 h.2).2; omega⟩
  rw [if_neg h3]
  by_cases h4 : (dgetri n (dgetrf n a).2.1 (dgetrf n a).2.2).1 > 0
  · right; rw [if_pos h4]; exact ⟨rfl, fun h => by have := (hc h.1 h.2).2; omega⟩
  rw [if_neg h4]
  left
  obtain ⟨X', hx, r, c, ex⟩ := store (dgetri n (dgetrf n a).2.1 (dgetrf n a).2.2).2 X n n hX.1 hX.2 (hl.len n a la)
  have hs := hl.sound n a la (int_tri _ h1 h2) (int_tri _ h3 h4)
  refine ⟨X', by rw [hx]; rfl, r, c, ?_, ?_⟩
  · rw [ex]; exact hs
  · rw [ex]; exact mul_eq_one_comm.1 hs

theorem mem_belowDiag {n i j : Nat} : (i, j) ∈ belowDiag n ↔ i < n ∧ j < i := by
  simp [belowDiag]

theorem zeroLoop (l : List (Nat × Nat)) (r : DMat R) (h : ∀ ij ∈ l, ij.2 < r.cols) :
    ∃ r', loopM (fun (m : DMat R) ij => if ij.2 < m.cols then Out.ok (mset m ij.1 ij.2 0) else .ub) r l = .ok r' ∧ r'.rows = r.rows ∧
      r'.cols = r.cols ∧ ∀ i j, r'.at' i j = if (i, j) ∈ l then 0 else r.at' i j := by
  induction l generalizing r with
  | nil => exact ⟨r, rfl, rfl, rfl, by simp⟩
  | cons x l ih =>
    obtain ⟨r', e, h1, h2, h3⟩ := ih (mset r x.1 x.2 0) (fun ij hij => h ij (List.mem_cons_of_mem _ hij))
    refine ⟨r', ?_, h1, h2, ?_⟩
    · rw [loopM_cons, if_pos (h x (List.mem_cons_self ..)), Out.bind_ok, e]
    · intro i j
      rw [h3]
      obtain ⟨p, q⟩ := x
      by_cases hm : (i, j) ∈ l
      · simp [hm]
      · by_cases hx : i = p ∧ j = q
        · simp [hx, mset]
        · simp [hm, hx, mset]

/-- **C37, Cholesky.** For an `n` by `n` matrix and an `n` by `n` output, `computeCholesky` either throws, leaving the output as it was, or produces an upper
triangular R (zeros strictly below the diagonal) with RᵀR equal to the symmetric matrix given by the upper triangle of A - hence RᵀR = A for symmetric
A. -/
theorem C37_cholesky (dpotrf : Nat → List R → Int × List R) (hl : PotrfOk dpotrf) (A r : DMat R) (n : Nat)
    (hA : A.rows = n ∧ A.cols = n) (hr : r.rows = n ∧ r.cols = n) :
    computeCholesky dpotrf A r = .ok (.threw r) ∨
      ∃ r', computeCholesky dpotrf A r = .ok (.ret r') ∧ r'.rows = n ∧ r'.cols = n ∧
        (∀ i j : Fin n, j < i → toMat r' n n i j = 0) ∧
        (toMat r' n n).transpose * toMat r' n n = symUpper (toMat A n n) ∧
        ((∀ i j, toMat A n n i j = toMat A n n j i) → (toMat r' n n).transpose * toMat r' n n = toMat A n n) := by
  obtain ⟨a, ha, la, ea⟩ := load A n n hA.1 hA.2
  simp only [computeCholesky, hA.1, ha, Out.bind_ok]
  by_cases h1 : (dpotrf n a).1 < 0
  · left; rw [if_pos h1]
  rw [if_neg h1]
  by_cases h2 : (dpotrf n a).1 > 0
  · left; rw [if_pos h2]
  rw [if_neg h2]
  right
  obtain ⟨X, hx, rr, cc, ex⟩ := store (dpotrf n a).2 r n n hr.1 hr.2 (hl.len n a la)
  obtain ⟨r', ez, r1, r2, r3⟩ := zeroLoop (belowDiag n) X (by
    intro ij hij
    obtain ⟨i, j⟩ := ij
    have := mem_belowDiag.1 hij
    rw [cc]; simp only; omega)
  have hz : zeroLower X = .ok r' := by simp only [zeroLower, rr]; exact ez
  have hup : toMat r' n n = upper (colMat n n (dpotrf n a).2) := by
    funext i j
    rw [← ex]
    simp only [toMat, upper, r3, mem_belowDiag]
    by_cases hij : i ≤ j
    · have : ¬ ((i : Nat) < n ∧ (j : Nat) < i) := by
        have : (i : Nat) ≤ j := hij
        omega
      rw [if_neg this, if_pos hij]
    · have : (j : Nat) < i := by
        have : ¬ (i : Nat) ≤ j := hij
        omega
      rw [if_pos ⟨i.2, this⟩, if_neg hij]
  have hprod : (toMat r' n n).transpose * toMat r' n n = symUpper (toMat A n n) := by
    rw [hup, ← ea]; exact hl.sound n a la (int_tri _ h1 h2)
  refine ⟨r', ?_, by rw [r1, rr], by rw [r2, cc], ?_, hprod, ?_⟩
  · rw [hx]; simp only [Out.bind_ok, hz, Out.pure_eq]
  · intro i j hij
    rw [hup]
    simp only [upper]
    rw [if_neg (not_le_of_gt hij)]
  · intro hs
    rw [hprod]
    funext i j
    simp only [symUpper]
    split
    · rfl
    · exact (hs j i)

omit [CommRing R] in
theorem copyLoop (ww w : List R) (k : Nat) (h1 : k ≤ ww.length) (h2 : k ≤ w.length) :
    copyVec ww w k = .ok (ww.take k ++ w.drop k) := by
  induction k with
  | zero => simp [copyVec]
  | succ k ih =>
    have ih' := ih (by omega) (by omega)
    unfold copyVec at ih' ⊢
    rw [List.range_succ, loopM_append, ih', Out.bind_ok, loopM_cons, rd_of_lt (by omega)]
    simp only [Out.bind_ok]
    rw [wr_of_lt (by simp; omega)]
    simp only [Out.bind_ok, loopM_nil, Out.ok.injEq]
    have : (ww.take k).length = k := by simp; omega
    rw [List.set_append_right _ _ (by omega), this, Nat.sub_self]
    rw [List.drop_eq_getElem_cons (by omega : k < w.length)]
    simp only [List.set_cons_zero]
    rw [List.take_succ_eq_append_getElem (by omega), List.append_assoc]
    rfl

/-- **C37, EigenSolver.** For an `n` by `n` matrix, a vector of `n` and an `n` by `n` output, `solve` either throws, leaving both outputs as they were, or produces
orthonormal columns V and ascending w with S V = V diag(w), where S is the symmetric matrix given by the *lower* triangle of A (the copy is transposed) - hence
A V = V diag(w) for symmetric A. -/
theorem C37_eigen [LE R] (query : Nat → Int) (dsyevd : Nat → List R → Int × List R × List R) (hl : SyevdOk dsyevd)
    (A : DMat R) (w : List R) (V : DMat R) (n : Nat) (hA : A.rows = n ∧ A.cols = n) (hw : w.length = n) (hV : V.rows = n ∧ V.cols = n) :
    eigenSolve query dsyevd A w V = .ok (.threw (w, V)) ∨
      ∃ w' V', eigenSolve query dsyevd A w V = .ok (.ret (w', V')) ∧ w'.length = n ∧ V'.rows = n ∧ V'.cols = n ∧
        symUpper (toMat A n n).transpose * toMat V' n n = toMat V' n n * Matrix.diagonal (fun i : Fin n => w'.getD i 0) ∧
        (toMat V' n n).transpose * toMat V' n n = 1 ∧ (∀ i j : Fin n, i ≤ j → w'.getD i 0 ≤ w'.getD j 0) ∧
        ((∀ i j, toMat A n n i j = toMat A n n j i) →
          toMat A n n * toMat V' n n = toMat V' n n * Matrix.diagonal (fun i : Fin n => w'.getD i 0)) := by
  obtain ⟨a, ha, la, ea⟩ := loadT A n hA.1 hA.2
  simp only [eigenSolve, hA.1, ha, Out.bind_ok]
  by_cases q1 : query n < 0
  · left; rw [if_pos q1]
  rw [if_neg q1]
  by_cases q2 : query n > 0
  · left; rw [if_pos q2]
  rw [if_neg q2]
  by_cases h1 : (dsyevd n a).1 < 0
  · left; rw [if_pos h1]
  rw [if_neg h1]
  by_cases h2 : (dsyevd n a).1 > 0
  · left; rw [if_pos h2]
  rw [if_neg h2]
  right
  obtain ⟨hlv, hlw⟩ := hl.len n a la
  obtain ⟨V', hx, rr, cc, ex⟩ := store (dsyevd n a).2.1 V n n hV.1 hV.2 hlv
  have hcp := copyLoop (dsyevd n a).2.2 w n (by omega) (by omega)
  have e1 : (dsyevd n a).2.2.take n ++ w.drop n = (dsyevd n a).2.2 := by
    rw [List.take_of_length_le (by omega), List.drop_of_length_le (by omega), List.append_nil]
  rw [e1] at hcp
  obtain ⟨s1, s2, s3⟩ := hl.sound n a la (int_tri _ h1 h2)
  rw [ea, ← ex] at s1
  refine ⟨(dsyevd n a).2.2, V', ?_, hlw, rr, cc, s1, by rw [ex]; exact s2, s3, ?_⟩
  · rw [hx]; simp only [Out.bind_ok, hcp, Out.pure_eq]
  · intro hs
    have : symUpper (toMat A n n).transpose = toMat A n n := by
      funext i j
      simp only [symUpper, Matrix.transpose_apply]
      split
      · exact hs j i
      · rfl
    rw [this] at s1
    exact s1

/-- An output matrix larger than the buffer makes a wrapper read past the end of it: the shape hypotheses are needed. -/
theorem C37_output_shape_needed (dpotrf : Nat → List R → Int × List R) (hl : PotrfOk dpotrf) (A r : DMat R) (n : Nat)
    (hA : A.rows = n ∧ A.cols = n) (hr : n * n < r.rows * r.cols)
    (hok : ∀ a, a.length = n * n → (dpotrf n a).1 = 0) : computeCholesky dpotrf A r = .ub := by
  obtain ⟨a, ha, la, ea⟩ := load A n n hA.1 hA.2
  simp only [computeCholesky, hA.1, ha, Out.bind_ok]
  rw [if_neg (by rw [hok a la]; omega), if_neg (by rw [hok a la]; omega)]
  have key : ∀ (src : List R) (l : List (Nat × Nat)) (m : DMat R) (k : Nat), k ≤ src.length → src.length < k + l.length →
      loopM (fun (s : DMat R × Nat) ij => do
        let x ← rd src s.2
        pure (mset s.1 ij.1 ij.2 x, s.2 + 1)) (m, k) l = .ub := by
    intro src l
    induction l with
    | nil => intro m k h1 h2; simp at h2; omega
    | cons x l ih =>
      intro m k h1 h2
      rw [loopM_cons]
      by_cases hk : k < src.length
      · simp only [rd_of_lt hk, Out.bind_ok, Out.pure_eq]
        exact ih _ _ (by omega) (by simp only [List.length_cons] at h2; omega)
      · have : rd src k = .ub := by
          simp only [rd]
          rw [List.getElem?_eq_none (by omega)]
        simp only [this, Out.bind_ub]
  unfold reshape1DToMat
  rw [key _ _ _ 0 (by omega) (by rw [order_length, hl.len n a la]; omega)]
  rfl

/-! ### The contracts can be met -/

section witness
variable {K : Type} [Field K]

open Classical in
/-- An exact `dsgesv`. -/
noncomputable def exactGesv (n m : Nat) (a b : List K) : Int × List K :=
  if 0 < n ∧ IsUnit (colMat n n a) then (0, flat ((colMat n n a)⁻¹ * colMat n m b)) else (1, flat (0 : Matrix (Fin n) (Fin m) K))

theorem exactGesv_ok : GesvOk (exactGesv (K := K)) := by
  refine ⟨?_, ?_, ?_⟩
  · intro n m a b _ _
    unfold exactGesv
    split <;> exact flat_length _
  · intro n m a b _ _ h
    unfold exactGesv at h ⊢
    by_cases hu : 0 < n ∧ IsUnit (colMat n n a)
    · rw [if_pos hu, colMat_flat, ← Matrix.mul_assoc, Matrix.mul_nonsing_inv _ ((Matrix.isUnit_iff_isUnit_det _).1 hu.2), Matrix.one_mul]
    · rw [if_neg hu] at h; cases h
  · intro n m a b _ _
    unfold exactGesv
    by_cases hu : 0 < n ∧ IsUnit (colMat n n a)
    · simp [hu]
    · simp [hu]

open Classical in
/-- An exact `dgetrf` (which keeps the matrix) and `dgetri`. -/
noncomputable def exactGetrf (n : Nat) (a : List K) : Int × List K × List Int :=
  (if IsUnit (colMat n n a) then 0 else 1, a, [])

/-- See `exactGetrf`. -/
noncomputable def exactGetri (n : Nat) (a : List K) (_ : List Int) : Int × List K := (0, flat (colMat n n a)⁻¹)

theorem exactGetri_ok : GetriOk (exactGetrf (K := K)) exactGetri := by
  refine ⟨fun n a _ => flat_length _, ?_, ?_⟩
  · intro n a _ h _
    by_cases hu : IsUnit (colMat n n a)
    · simp only [exactGetri, exactGetrf, colMat_flat]
      exact Matrix.mul_nonsing_inv _ ((Matrix.isUnit_iff_isUnit_det _).1 hu)
    · simp [exactGetrf, hu] at h
  · intro n a _ _ hu
    exact ⟨by simp [exactGetrf, hu], rfl⟩

/-- The hypotheses of `C37_direct` hold for a concrete system, on which `solve` succeeds. -/
example : ∃ X', directSolve (exactGesv (K := ℚ)) { rows := 2, cols := 2, at' := fun i j => if i = j then 2 else if i = 0 then 1 else 0 }
      { rows := 2, cols := 1, at' := fun _ _ => 4 } { rows := 2, cols := 1, at' := fun _ _ => 0 } = .ok (.ret X') ∧
    X'.at' 0 0 = 1 ∧ X'.at' 1 0 = 2 := by
  have hu : IsUnit (toMat (R := ℚ) { rows := 2, cols := 2, at' := fun i j => if i = j then 2 else if i = 0 then 1 else 0 } 2 2) := by
    rw [Matrix.isUnit_iff_isUnit_det, Matrix.det_fin_two]
    simp [toMat]
  rcases C37_direct (R := ℚ) exactGesv exactGesv_ok { rows := 2, cols := 2, at' := fun i j => if i = j then 2 else if i = 0 then 1 else 0 }
      { rows := 2, cols := 1, at' := fun _ _ => 4 } { rows := 2, cols := 1, at' := fun _ _ => 0 } 2 1 ⟨rfl, rfl⟩ ⟨rfl, rfl⟩ ⟨rfl, rfl⟩ with
    ⟨_, X', e, _, _, h⟩ | ⟨hn, _⟩
  · refine ⟨X', e, ?_, ?_⟩
    · have h0 := congrFun (congrFun h 0) 0
      have h1 := congrFun (congrFun h 1) 0
      simp [Matrix.mul_apply, Fin.sum_univ_two, toMat] at h0 h1
      linarith
    · have h1 := congrFun (congrFun h 1) 0
      simp [Matrix.mul_apply, Fin.sum_univ_two, toMat] at h1
      linarith
  · exact absurd ⟨by omega, hu⟩ hn

/-- The result buffer of `diagPotrf` as a matrix. -/
noncomputable def diagChol (sq : ℝ → ℝ) (n : Nat) (a : List ℝ) : Matrix (Fin n) (Fin n) ℝ :=
  Matrix.of fun i j => if i ≤ j then (if i = j then sq (colMat n n a i i) else 0) else colMat n n a i j

/-- A `dpotrf` that succeeds on matrices whose upper triangle is diagonal with squares on the diagonal (`sq` gives the roots) and rejects the others. -/
noncomputable def diagPotrf (sq : ℝ → ℝ) (n : Nat) (a : List ℝ) : Int × List ℝ := by
  classical exact
    if symUpper (colMat n n a) = Matrix.diagonal (fun i => sq (colMat n n a i i) * sq (colMat n n a i i)) then
      (0, flat (diagChol sq n a))
    else (1, flat (colMat n n a))

theorem diagPotrf_ok (sq : ℝ → ℝ) : PotrfOk (diagPotrf sq) := by
  refine ⟨?_, ?_, ?_⟩
  · intro n a _
    unfold diagPotrf
    split <;> exact flat_length _
  · intro n a _ h
    unfold diagPotrf at h ⊢
    split at h
    · rename_i hd
      rw [if_pos hd]
      simp only [colMat_flat]
      rw [hd]
      have : upper (diagChol sq n a) =
          Matrix.diagonal (fun i => sq (colMat n n a i i)) := by
        funext i j
        simp only [upper, diagChol, Matrix.of_apply, Matrix.diagonal_apply]
        by_cases h1 : i ≤ j
        · simp [h1]
        · have : i ≠ j := fun e => h1 (le_of_eq e)
          simp [h1, this]
      rw [this, Matrix.diagonal_transpose, Matrix.diagonal_mul_diagonal]
    · cases h
  · intro n a _ i j hij
    unfold diagPotrf
    split
    · simp only [colMat_flat, diagChol, Matrix.of_apply]; rw [if_neg (not_le_of_gt hij)]
    · simp only [colMat_flat]

/-- A `dsyevd` that succeeds on diagonal matrices with ascending diagonal and rejects the others. -/
noncomputable def diagSyevd (n : Nat) (a : List ℝ) : Int × List ℝ × List ℝ := by
  classical exact
    if symUpper (colMat n n a) = Matrix.diagonal (fun i => colMat n n a i i) ∧ ∀ i j, i ≤ j → colMat n n a i i ≤ colMat n n a j j then
      (0, flat (1 : Matrix (Fin n) (Fin n) ℝ), List.ofFn fun i => colMat n n a i i)
    else (1, flat (1 : Matrix (Fin n) (Fin n) ℝ), List.ofFn fun i => colMat n n a i i)

theorem diagSyevd_ok : SyevdOk diagSyevd := by
  refine ⟨?_, ?_⟩
  · intro n a _
    unfold diagSyevd
    split <;> exact ⟨flat_length _, List.length_ofFn⟩
  · intro n a _ h
    unfold diagSyevd at h ⊢
    split at h
    · rename_i hd
      rw [if_pos hd]
      have hg : ∀ i : Fin n, (List.ofFn fun i => colMat n n a i i).getD i 0 = colMat n n a i i := by
        intro i; simp [List.getD_eq_getElem?_getD]
      simp only [colMat_flat, hg]
      refine ⟨?_, by simp, hd.2⟩
      rw [hd.1]; simp
    · cases h

/-- The hypotheses of `C37_cholesky` and `C37_eigen` hold for concrete matrices, on which the wrappers succeed. -/
example : ∃ r', computeCholesky (diagPotrf Real.sqrt) { rows := 2, cols := 2, at' := fun i j => if i = j then 4 else if i < j then 0 else 7 }
    { rows := 2, cols := 2, at' := fun _ _ => 9 } = .ok (.ret r') ∧ toMat r' 2 2 1 0 = 0 := by
  rcases C37_cholesky (diagPotrf Real.sqrt) (diagPotrf_ok _)
    { rows := 2, cols := 2, at' := fun i j => if i = j then 4 else if i < j then 0 else 7 }
    { rows := 2, cols := 2, at' := fun _ _ => 9 } 2 ⟨rfl, rfl⟩ ⟨rfl, rfl⟩ with h | ⟨r', h, _, _, h0, _⟩
  · exfalso
    obtain ⟨a, ha, la, ea⟩ := load (R := ℝ) { rows := 2, cols := 2, at' := fun i j => if i = j then 4 else if i < j then 0 else 7 } 2 2 rfl rfl
    have h2 : (diagPotrf Real.sqrt 2 a).1 = 0 := by
      unfold diagPotrf
      rw [if_pos]
      rw [ea]
      funext i j
      fin_cases i <;> fin_cases j <;> simp [symUpper, toMat]
    simp only [computeCholesky] at h
    rw [ha] at h
    simp only [Out.bind_ok, h2] at h
    obtain ⟨X, hx, rr, cc, _⟩ := store (diagPotrf Real.sqrt 2 a).2 { rows := 2, cols := 2, at' := fun _ _ => (9 : ℝ) } 2 2 rfl rfl
      ((diagPotrf_ok _).len 2 a la)
    rw [hx] at h
    simp only [Out.bind_ok] at h
    cases hz : zeroLower X <;> rw [hz] at h <;> simp at h
  · exact ⟨r', h, h0 1 0 (by decide)⟩

end witness

end Blitzdg.Dense
