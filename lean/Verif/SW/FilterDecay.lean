import Verif.SW.InPlaceProps
import Verif.SW.GridLow
import Mathlib.Analysis.SpecificLimits.Basic

/-! C161: what filtering again and again does to a field on triangles. -/

namespace Blitzdg.SW

open MvPolynomial Filter Topology
open Blitzdg.Nodes1D (Lapack)
open Blitzdg.Dense (toMat)
open Blitzdg.DG2D

variable {la : Lapack} {eps ztol tol : ℝ} {N : ℕ} {m : Mesh} {P : ℕ → ℕ} {x : List ℝ} {bt : List Int} {g : Grid}

/-- `low` is the best approximation in the mean-square sense of `p` on the reference triangle by polynomials of total degree at most `Nc`; none but zero are if `Nc` is negative. -/
structure LowPart (Nc : ℝ) (p low : P2) : Prop where
  deg : low = 0 ∨ (low.totalDegree : ℝ) ≤ Nc
  orth : ∀ z : P2, (z.totalDegree : ℝ) ≤ Nc → integ triInt ((p - low) * z) = 0

theorem comb_sub {pairs : List (ℕ × ℕ)} {q : ℕ × ℕ → P2} {n : ℕ} (a b : Fin n → ℝ) : comb pairs q a - comb pairs q b = comb pairs q (fun k => a k - b k) := by
  unfold comb
  simp only [map_sub, sub_mul, Finset.sum_sub_distrib]

theorem pairs_len' (g : Grid) : (triPairs g.N).length = g.np := by rw [triPairs_length]; rfl

/-- One product with the filter matrix multiplies the coefficients. -/
theorem GridSpec.damp_step (hg : GridSpec P x bt g) (c : Fin g.np → ℝ) (u : ℕ → ℕ → ℝ) (k : ℕ) (a : Fin g.np → ℝ) (h : IsInterp g (fun i => u i k) (comb (triPairs g.N) triPoly a)) :
    IsInterp g (fun i => filterProduct (toMat g.o.V g.np g.np * (Matrix.diagonal c * toMat g.o.Vinv g.np g.np)) u i k) (comb (triPairs g.N) triPoly fun m => c m * a m) := by
  refine ⟨(triModal g.N).space_comb (pairs_len' g) _, fun i hi => ?_⟩
  rw [((triModal g.N).nodal_comb hg.reg hg.nodes _ ⟨i, hi⟩).1]
  have hu : (fun j : Fin g.np => u j k) = (toMat g.o.V g.np g.np).mulVec a := by
    funext j
    refine (h.2 j j.2).symm.trans ?_
    rw [((triModal g.N).nodal_comb hg.reg hg.nodes a j).1, hg.vand]
  unfold filterProduct
  beta_reduce
  rw [dif_pos hi]
  change _ = ((toMat g.o.V g.np g.np * (Matrix.diagonal c * toMat g.o.Vinv g.np g.np)).mulVec fun j : Fin g.np => u j k) ⟨i, hi⟩
  have hinv := hg.unisolvent
  rw [← hg.vand] at hinv ⊢
  rw [hu, Matrix.mulVec_mulVec, Matrix.mul_assoc, Matrix.mul_assoc, hinv, Matrix.mul_one, ← Matrix.mulVec_mulVec]
  congr 2
  funext m
  rw [Matrix.mulVec_diagonal]

theorem GridSpec.damp_iter (hg : GridSpec P x bt g) (c : Fin g.np → ℝ) (u : ℕ → ℕ → ℝ) (k : ℕ) (a : Fin g.np → ℝ) (h : IsInterp g (fun i => u i k) (comb (triPairs g.N) triPoly a)) (n : ℕ) :
    IsInterp g (fun i => (filterProduct (toMat g.o.V g.np g.np * (Matrix.diagonal c * toMat g.o.Vinv g.np g.np)))^[n] u i k) (comb (triPairs g.N) triPoly fun m => c m ^ n * a m) := by
  induction n with
  | zero => simpa using h
  | succ n ih =>
    have := hg.damp_step c _ k _ ih
    simp only [Function.iterate_succ_apply']
    convert this using 2
    funext m
    ring

/-- A combination of modes above the cut-off is orthogonal to all polynomials below it. -/
theorem high_orth {N n : ℕ} (Nc : ℝ) (b : Fin n → ℝ)
    (hb : ∀ k : Fin n, ((((triPairs N).getD k (0, 0)).1 + ((triPairs N).getD k (0, 0)).2 : ℕ) : ℝ) ≤ Nc → b k = 0) (z : P2) (hz : (z.totalDegree : ℝ) ≤ Nc) :
    integ triInt (comb (triPairs N) triPoly b * z) = 0 := by
  obtain ⟨e, he⟩ := (triModal z.totalDegree).coeffs rfl (show TriSpace z.totalDegree z from le_rfl)
  have h1 : comb (triPairs N) triPoly b * z = ∑ k, C (b k) * (nth (triPairs N) triPoly k * z) := by
    unfold comb
    rw [Finset.sum_mul]
    exact Finset.sum_congr rfl fun k _ => by ring
  rw [h1, (triModal N).sum]
  refine Finset.sum_eq_zero fun k _ => ?_
  rw [(triModal N).smul]
  by_cases hk : b k = 0
  · rw [hk, zero_mul]
  have hk' : Nc < _ := not_le.1 fun h => hk (hb k h)
  have h2 : nth (triPairs N) triPoly k * z = ∑ l, C (e l) * (nth (triPairs N) triPoly k * nth (triPairs z.totalDegree) triPoly l) := by
    conv_lhs => rw [he]
    unfold comb
    rw [Finset.mul_sum]
    exact Finset.sum_congr rfl fun l _ => by ring
  rw [h2, (triModal N).sum, Finset.sum_eq_zero, mul_zero]
  intro l _
  rw [(triModal N).smul]
  unfold nth
  rw [(triModal N).orth, if_neg, mul_zero]
  intro hp
  have hl := mem_triPairs.1 (getD_mem (triPairs z.totalDegree) (0, 0) l l.2)
  rw [← hp] at hl
  have : ((((triPairs N).getD k (0, 0)).1 + ((triPairs N).getD k (0, 0)).2 : ℕ) : ℝ) ≤ z.totalDegree := by exact_mod_cast hl
  linarith

theorem low_deg {N n : ℕ} (Nc : ℝ) (b : Fin n → ℝ)
    (hb : ∀ k : Fin n, Nc < ((((triPairs N).getD k (0, 0)).1 + ((triPairs N).getD k (0, 0)).2 : ℕ) : ℝ) → b k = 0) :
    comb (triPairs N) triPoly b = 0 ∨ ((comb (triPairs N) triPoly b).totalDegree : ℝ) ≤ Nc := by
  by_cases h0 : 0 ≤ Nc
  · right
    refine le_trans ?_ (Nat.floor_le h0)
    rw [Nat.cast_le]
    unfold comb
    refine totalDegree_finsetSum_le fun k _ => ?_
    by_cases hk : b k = 0
    · rw [hk]; simp
    · have hk' := not_lt.1 fun h => hk (hb k h)
      refine (totalDegree_mul _ _).trans ?_
      rw [totalDegree_C, zero_add]
      exact (totalDegree_triPoly _).trans (Nat.le_floor hk')
  · left
    unfold comb
    refine Finset.sum_eq_zero fun k _ => ?_
    rw [hb k ((not_le.1 h0).trans_le (Nat.cast_nonneg _))]
    simp

/-- **C161.** On every grid, for every cut-off other than the order and every exponent of at least one there is a factor `ρ < 1` such that, for every field and every element, `n` filterings leave
the part of degree at most `Nc` as it is, shrink the rest in the mean-square norm at least by `ρ ^ n`, never increase the mean square, and the nodal values converge to those of the kept part. -/
theorem C161_filter (h : Provisioned la eps ztol tol N m P g) (Nc : ℝ) (hNc : Nc ≠ N) (s : ℤ) (hs : 1 ≤ s) :
    ∃ F : Matrix (Fin g.np) (Fin g.np) ℝ, g.filter Nc s = .ok (fun i j => some (F i j)) ∧ ∃ ρ : ℝ, 0 ≤ ρ ∧ ρ < 1 ∧
      ∀ (u : ℕ → ℕ → ℝ) (k : ℕ) (p : P2), IsInterp g (fun i => u i k) p → ∃ low : P2, LowPart Nc p low ∧
        (∀ n, ∃ q, IsInterp g (fun i => (filterProduct F)^[n] u i k) q ∧ LowPart Nc q low ∧
          integ triInt ((q - low) * (q - low)) ≤ ρ ^ (2 * n) * integ triInt ((p - low) * (p - low)) ∧ integ triInt (q * q) ≤ integ triInt (p * p)) ∧
        ∀ i < g.np, Tendsto (fun n => (filterProduct F)^[n] u i k) atTop (𝓝 (nodal g.n.r g.n.s low i)) := by
  obtain ⟨x, hg, hN, -, -⟩ := h.spec
  rw [← hN] at hNc
  choose c hc using fun m : Fin (triNp g.N) => filterCoef_spec g.N Nc s hs hNc _ (triDeg_le g.N m)
  refine ⟨_, filter_form g.N Nc s c (fun m => (hc m).1) _ _, ?_⟩
  have hl := pairs_len' g
  have hnp : 0 < g.np := by
    rw [← hl, triPairs_length]
    unfold triNp
    have : 2 ≤ (g.N + 1) * (g.N + 2) := by nlinarith
    omega
  have hne : Nonempty (Fin g.np) := ⟨⟨0, hnp⟩⟩
  let d : Fin g.np → ℕ := fun m => triDeg g.N m
  change ∃ ρ : ℝ, 0 ≤ ρ ∧ ρ < 1 ∧ _
  obtain ⟨m0, hm0⟩ := Finite.exists_max fun m : Fin g.np => if Nc < (d m : ℝ) then c m else 0
  refine ⟨if Nc < (d m0 : ℝ) then c m0 else 0, ?_, ?_, ?_⟩
  · split_ifs
    · exact (hc m0).2.1.le
    · exact le_rfl
  · split_ifs with h1
    · exact (hc m0).2.2.2.2 h1
    · exact one_pos
  generalize (if Nc < (d m0 : ℝ) then c m0 else 0) = ρ at hm0
  have hρ : ∀ m : Fin g.np, Nc < (d m : ℝ) → c m ≤ ρ := fun m hm => by simpa [hm] using hm0 m
  intro u k p hp
  obtain ⟨a, rfl⟩ := (triModal g.N).coeffs hl hp.1
  let lo : Fin g.np → ℝ := fun m => if (d m : ℝ) ≤ Nc then a m else 0
  have hdiff : ∀ n (m : Fin g.np), c m ^ n * a m - lo m = if (d m : ℝ) ≤ Nc then 0 else c m ^ n * a m := by
    intro n m
    by_cases hm : (d m : ℝ) ≤ Nc
    · have h1 := (hc m).2.2.2.1 hm
      simp only [lo, if_pos hm, h1, one_pow, one_mul, sub_self]
    · simp only [lo, if_neg hm, sub_zero]
  have hlow : ∀ n, LowPart Nc (comb (triPairs g.N) triPoly fun m : Fin g.np => c m ^ n * a m) (comb (triPairs g.N) triPoly lo) := by
    intro n
    refine ⟨low_deg Nc lo fun m hm => if_neg (not_le.2 hm), fun z hz => ?_⟩
    rw [comb_sub]
    refine high_orth Nc _ (fun m hm => ?_) z hz
    rw [hdiff]
    exact if_pos hm
  have hone : a = fun m : Fin g.np => c m ^ 0 * a m := by funext m; rw [pow_zero, one_mul]
  refine ⟨comb (triPairs g.N) triPoly lo, by rw [hone]; exact hlow 0, fun n => ⟨_, hg.damp_iter c u k a hp n, hlow n, ?_, ?_⟩, fun i hi => ?_⟩
  · rw [comb_sub, comb_sub, (triModal g.N).dot hl, (triModal g.N).dot hl, Finset.mul_sum]
    refine Finset.sum_le_sum fun m _ => ?_
    have h0 := hdiff 0 m
    rw [pow_zero, one_mul] at h0
    rw [hdiff, h0]
    by_cases hm : (d m : ℝ) ≤ Nc
    · simp [hm]
    · rw [if_neg hm, if_neg hm]
      have h1 := pow_le_pow_left₀ (hc m).2.1.le (hρ m (not_le.1 hm)) (2 * n)
      calc c m ^ n * a m * (c m ^ n * a m) = c m ^ (2 * n) * (a m * a m) := by ring
        _ ≤ _ := mul_le_mul_of_nonneg_right h1 (mul_self_nonneg _)
  · rw [(triModal g.N).dot hl, (triModal g.N).dot hl]
    refine Finset.sum_le_sum fun m _ => ?_
    have h1 := pow_le_one₀ (n := 2 * n) (hc m).2.1.le (hc m).2.2.1
    calc c m ^ n * a m * (c m ^ n * a m) = c m ^ (2 * n) * (a m * a m) := by ring
      _ ≤ 1 * (a m * a m) := mul_le_mul_of_nonneg_right h1 (mul_self_nonneg _)
      _ = _ := one_mul _
  · rw [((triModal g.N).nodal_comb hg.reg hg.nodes lo ⟨i, hi⟩).1]
    have : (fun n => (filterProduct (n := g.np) (toMat g.o.V g.np g.np * (Matrix.diagonal (n := Fin g.np) c * toMat g.o.Vinv g.np g.np)))^[n] u i k) = fun n =>
        (toMat (modeMatrix (triPairs g.N) triMode g.n.r g.n.s) g.np g.np).mulVec (fun m : Fin g.np => c m ^ n * a m) ⟨i, hi⟩ := by
      funext n
      rw [← ((triModal g.N).nodal_comb hg.reg hg.nodes _ ⟨i, hi⟩).1]
      exact ((hg.damp_iter c u k a hp n).2 i hi).symm
    refine (congrArg (fun f => Tendsto f atTop _) this).mpr ?_
    unfold Matrix.mulVec dotProduct
    refine tendsto_finsetSum _ fun m _ => Tendsto.const_mul _ ?_
    by_cases hm : (d m : ℝ) ≤ Nc
    · have h1 := (hc m).2.2.2.1 hm
      simp only [lo, if_pos hm, h1, one_pow, one_mul]
      exact tendsto_const_nhds
    · simp only [lo, if_neg hm]
      have := (tendsto_pow_atTop_nhds_zero_of_lt_one (hc m).2.1.le ((hc m).2.2.2.2 (not_le.1 hm))).mul_const (a m)
      rwa [zero_mul] at this

/-- C161 at order three with the cut-off `0.9*N` on the unit square in two triangles: a field with a constant part, which is kept, and a cubic part, which is damped. -/
example : ∃ (g : Grid) (u : ℕ → ℕ → ℝ) (p low : P2), Provisioned Nodes1D.exactLapack (1 / 2 ^ 52) 1e-10 1e-5 3 square twoTri g ∧ IsInterp g (fun i => u i 0) p ∧ LowPart 2.7 p low ∧ low ≠ 0 ∧ p ≠ low := by
  obtain ⟨g, hg⟩ := square_grid_low 3 (by omega) (by omega)
  obtain ⟨x, -, hN, -, -⟩ := hg.spec
  have hne : ∀ q, triPoly q ≠ 0 := fun q hq => by
    have := (triModal 3).orth q q
    rw [if_pos rfl, hq, mul_zero] at this
    have h0 := (triModal 3).smul 0 0
    rw [mul_zero, zero_mul] at h0
    rw [h0] at this
    exact zero_ne_one this
  refine ⟨g, fun i _ => nodal g.n.r g.n.s (triPoly (3, 0) + triPoly (0, 0)) i, triPoly (3, 0) + triPoly (0, 0), triPoly (0, 0), hg, ⟨?_, fun _ _ => rfl⟩, ⟨Or.inr ?_, fun z hz => ?_⟩, hne _, fun h => hne (3, 0) (by simpa using h)⟩
  · rw [hN]
    exact triSpace_add (totalDegree_triPoly _) ((totalDegree_triPoly _).trans (by norm_num))
  · have : ((triPoly (0, 0)).totalDegree : ℝ) ≤ ((0 + 0 : ℕ) : ℝ) := by exact_mod_cast totalDegree_triPoly (0, 0)
    refine this.trans (by norm_num)
  · rw [add_sub_cancel_right]
    obtain ⟨e, he⟩ := (triModal z.totalDegree).coeffs rfl (show TriSpace z.totalDegree z from le_rfl)
    have h2 : triPoly (3, 0) * z = ∑ l, C (e l) * (triPoly (3, 0) * nth (triPairs z.totalDegree) triPoly l) := by
      conv_lhs => rw [he]
      unfold comb
      rw [Finset.mul_sum]
      exact Finset.sum_congr rfl fun l _ => by ring
    rw [h2, (triModal 3).sum, Finset.sum_eq_zero]
    intro l _
    rw [(triModal 3).smul]
    unfold nth
    rw [(triModal 3).orth, if_neg, mul_zero]
    intro hp
    have hl := mem_triPairs.1 (getD_mem (triPairs z.totalDegree) (0, 0) l l.2)
    rw [← hp] at hl
    have h3 : ((3 : ℕ) : ℝ) ≤ z.totalDegree := by exact_mod_cast hl
    have h4 := h3.trans hz
    norm_num at h4

end Blitzdg.SW
