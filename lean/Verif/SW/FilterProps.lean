import Verif.SW.Step
import Verif.SW.MassProps
import Verif.DG2D.ModesProps

/-! The modal filter and the total of a field. -/

namespace Blitzdg.SW

open MvPolynomial
open Blitzdg.Sparse (DMat)
open Blitzdg.Dense (toMat)
open Blitzdg.DG2D

variable {P : ℕ → ℕ} {x : List ℝ} {bt : List Int} {g : Grid}

/-- The matrix product `F u`, column by column. -/
def filterProduct {n : ℕ} (F : Matrix (Fin n) (Fin n) ℝ) (u : ℕ → ℕ → ℝ) (a k : ℕ) : ℝ := if h : a < n then ∑ j : Fin n, F ⟨a, h⟩ j * u j k else u a k

theorem pair_zero (N : ℕ) : (triPairs N).getD 0 (0, 0) = (0, 0) := by
  simp [triPairs, List.range_succ_eq_map]

theorem pairs_inj {N : ℕ} {m : ℕ} (hm : m < (triPairs N).length) (h : (triPairs N).getD m (0, 0) = (0, 0)) : m = 0 := by
  have h0 : 0 < (triPairs N).length := by omega
  have := pair_zero N
  rw [List.getD_eq_getElem _ _ hm] at h
  rw [List.getD_eq_getElem _ _ h0] at this
  exact (List.Nodup.getElem_inj_iff (triModal N).nodup).1 (h.trans this.symm)

/-- The first mode is a non-zero constant. -/
theorem mode_zero : ∃ a : ℝ, a ≠ 0 ∧ triPoly (0, 0) = C a := by
  have hd : (triPoly (0, 0)).totalDegree = 0 := Nat.le_zero.1 (totalDegree_triPoly (0, 0))
  refine ⟨coeff 0 (triPoly (0, 0)), ?_, totalDegree_eq_zero_iff_eq_C.1 hd⟩
  intro h
  have h1 := triPoly_orth (0, 0) (0, 0)
  rw [totalDegree_eq_zero_iff_eq_C.1 hd, h] at h1
  simp [triInt] at h1

/-- All other modes have integral zero. -/
theorem mode_int {p : ℕ × ℕ} (hp : p ≠ (0, 0)) : integ triInt (triPoly p) = 0 := by
  obtain ⟨a, ha, h⟩ := mode_zero
  have h1 := (triModal 0).orth (0, 0) p
  rw [if_neg (Ne.symm hp), h, (triModal 0).smul] at h1
  exact (mul_eq_zero.1 h1).resolve_left ha

theorem integ_comb {N n : ℕ} (hn : (triPairs N).length = n) (h0 : 0 < n) (c : Fin n → ℝ) : integ triInt (comb (triPairs N) triPoly c) = c ⟨0, h0⟩ * integ triInt (triPoly (0, 0)) := by
  unfold comb
  rw [(triModal N).sum, Finset.sum_eq_single ⟨0, h0⟩]
  · rw [(triModal N).smul]
    unfold nth
    rw [pair_zero]
  · intro b _ hb
    rw [(triModal N).smul]
    unfold nth
    rw [mode_int, mul_zero]
    intro h
    exact hb (Fin.ext (pairs_inj (by rw [hn]; exact b.2) h))
  · simp

/-- Damping the modes other than the first leaves the total unchanged. -/
theorem GridSpec.damp_total (hg : GridSpec P x bt g) (c : Fin g.np → ℝ) (hc : ∀ m : Fin g.np, (m : ℕ) = 0 → c m = 1) (u : ℕ → ℕ → ℝ) (M : ℝ) (h : IsTotal g u M) :
    IsTotal g (filterProduct (toMat g.o.V g.np g.np * (Matrix.diagonal c * toMat g.o.Vinv g.np g.np)) u) M := by
  have hl : (triPairs g.N).length = g.np := by rw [triPairs_length]; rfl
  have hnp : 0 < g.np := by
    rw [← hl, triPairs_length]
    unfold triNp
    have : 2 ≤ (g.N + 1) * (g.N + 2) := by nlinarith
    omega
  obtain ⟨p, hp, rfl⟩ := h
  have key : ∀ k < g.K, ∃ p', IsInterp g (fun i => filterProduct (toMat g.o.V g.np g.np * (Matrix.diagonal c * toMat g.o.Vinv g.np g.np)) u i k) p' ∧ integ triInt p' = integ triInt (p k) := by
    intro k hk
    obtain ⟨a, ha⟩ := (triModal g.N).coeffs hl (hp k hk).1
    refine ⟨comb (triPairs g.N) triPoly (fun m => c m * a m), ⟨(triModal g.N).space_comb hl _, fun i hi => ?_⟩, ?_⟩
    · rw [((triModal g.N).nodal_comb hg.reg hg.nodes _ ⟨i, hi⟩).1]
      have hu : (fun j : Fin g.np => u j k) = (toMat g.o.V g.np g.np).mulVec a := by
        funext j
        refine ((hp k hk).2 j j.2).symm.trans ?_
        rw [ha, ((triModal g.N).nodal_comb hg.reg hg.nodes a j).1, hg.vand]
      unfold filterProduct
      beta_reduce
      rw [dif_pos hi]
      change _ = ((toMat g.o.V g.np g.np * (Matrix.diagonal c * toMat g.o.Vinv g.np g.np)).mulVec fun j : Fin g.np => u j k) ⟨i, hi⟩
      have hinv := hg.unisolvent
      rw [← hg.vand] at hinv ⊢
      rw [hu, Matrix.mulVec_mulVec, Matrix.mul_assoc, Matrix.mul_assoc, hinv, Matrix.mul_one, ← Matrix.mulVec_mulVec]
      congr 2
      funext m
      rw [Matrix.mulVec_diagonal]
    · rw [ha, integ_comb hl hnp, integ_comb hl hnp, hc ⟨0, hnp⟩ rfl, one_mul]
  choose! p' h1 h2 using key
  exact ⟨p', h1, Finset.sum_congr rfl fun k hk => by rw [h2 k (Finset.mem_range.1 hk)]⟩

/-- The filter of the provisioner in matrix form. -/
theorem filter_form (N : ℕ) (Nc : ℝ) (s : ℤ) (c : Fin (triNp N) → ℝ) (hc : ∀ m, filterCoef N Nc s (triDeg N m) = some (c m)) (V Vinv : Matrix (Fin (triNp N)) (Fin (triNp N)) ℝ) :
    buildFilter N Nc s V Vinv = .ok (fun i j => some ((V * (Matrix.diagonal c * Vinv)) i j)) := by
  rw [buildFilter, filterDiag_ok _ _ _ _ (le_refl _)]
  simp only [Out.bind_ok, Out.pure_eq]
  congr 1
  funext i j
  exact filterMat_some _ c (fun m => by rw [triDiag_get]; exact hc m) V Vinv i j

/-! ### Order one -/

/-- The nodes of an order-one grid in the order in which the provisioner numbers them. -/
structure Corners (g : Grid) : Prop where
  order : g.N = 1
  n0 : g.n.r.getD 0 0 = -1 ∧ g.n.s.getD 0 0 = -1
  n1 : g.n.r.getD 1 0 = 1 ∧ g.n.s.getD 1 0 = -1
  n2 : g.n.r.getD 2 0 = -1 ∧ g.n.s.getD 2 0 = 1

theorem affine_int (a b c : ℝ) : integ triInt (C a * X 0 + C b * X 1 + C c) = 2 * c - 2 / 3 * (a + b) := by
  unfold integ triInt
  have h1 : ∀ s : ℝ, ∫ r in (-1 : ℝ)..(-s), ev r s (C a * X 0 + C b * X 1 + C c) = (a / 2 - b) * s ^ 2 + (b - c) * s + (c - a / 2) := by
    intro s
    rw [intervalIntegral.integral_eq_sub_of_hasDerivAt (f := fun r => a / 2 * r ^ 2 + (b * s + c) * r)]
    · ring
    · intro r _
      have := ((hasDerivAt_pow 2 r).const_mul (a / 2)).add ((hasDerivAt_id r).const_mul (b * s + c))
      refine this.congr_deriv ?_
      simp
      ring
    · apply Continuous.intervalIntegrable
      simp
      fun_prop
  simp only [h1]
  rw [intervalIntegral.integral_eq_sub_of_hasDerivAt (f := fun s => (a / 2 - b) / 3 * s ^ 3 + (b - c) / 2 * s ^ 2 + (c - a / 2) * s)]
  · ring
  · intro s _
    have := (((hasDerivAt_pow 3 s).const_mul ((a / 2 - b) / 3)).add ((hasDerivAt_pow 2 s).const_mul ((b - c) / 2))).add ((hasDerivAt_id s).const_mul (c - a / 2))
    refine this.congr_deriv ?_
    norm_num
    ring
  · apply Continuous.intervalIntegrable
    fun_prop

theorem affine_space (a b c : ℝ) : TriSpace 1 (C a * X 0 + C b * X 1 + C c) := by
  unfold TriSpace
  refine (totalDegree_add _ _).trans (max_le ((totalDegree_add _ _).trans (max_le ?_ ?_)) ?_)
  · exact (totalDegree_mul _ _).trans (by rw [totalDegree_C, totalDegree_X])
  · exact (totalDegree_mul _ _).trans (by rw [totalDegree_C, totalDegree_X])
  · rw [totalDegree_C]; omega

theorem Corners.np (h : Corners g) : g.np = 3 := by unfold Grid.np; rw [h.order]

theorem Corners.integ (hg : GridSpec P x bt g) (h : Corners g) {v : ℕ → ℝ} {p : P2} (hp : IsInterp g v p) : integ triInt p = 2 / 3 * (v 0 + v 1 + v 2) := by
  have hi : IsInterp g v (C ((v 1 - v 0) / 2) * X 0 + C ((v 2 - v 0) / 2) * X 1 + C ((v 1 + v 2) / 2)) := by
    refine ⟨?_, fun i hi => ?_⟩
    · rw [h.order]; exact affine_space _ _ _
    · rw [h.np] at hi
      interval_cases i <;> simp only [nodal, h.n0.1, h.n0.2, h.n1.1, h.n1.2, h.n2.1, h.n2.2] <;> simp <;> ring
  rw [hg.interp_unique hp hi, affine_int]
  ring

/-- The total on such a grid: areas times the average of the three nodal values. -/
theorem Corners.total (hg : GridSpec P x bt g) (h : Corners g) (u : ℕ → ℕ → ℝ) (M : ℝ) :
    IsTotal g u M ↔ M = ∑ k ∈ Finset.range g.K, cross (g.tri k) / 4 * (2 / 3 * (u 0 k + u 1 k + u 2 k)) := by
  have key : IsTotal g u (∑ k ∈ Finset.range g.K, cross (g.tri k) / 4 * (2 / 3 * (u 0 k + u 1 k + u 2 k))) := by
    choose p hp using fun k => hg.interp_exists fun i => u i k
    exact ⟨p, fun k _ => hp k, Finset.sum_congr rfl fun k _ => by rw [h.integ hg (hp k)]⟩
  exact ⟨fun hM => hg.total_unique hM key, fun hM => hM ▸ key⟩

end Blitzdg.SW
