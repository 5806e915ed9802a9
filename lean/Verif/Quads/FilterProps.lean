import Verif.Quads.RhsProps
import Verif.SW.FilterProps

/-! The filter of the quadrilateral provisioner: it keeps totals on parallelograms, and what it lets through has half the degree in one of the directions. -/

namespace Blitzdg.Quads

open MvPolynomial
open Blitzdg.Sparse (DMat)
open Blitzdg.Dense (toMat)
open Blitzdg.DG2D
open Blitzdg.SW (Fields npFilter)

variable {P : ℕ → ℕ} {x : List ℝ} {bt : List Int} {g : QGrid}

theorem pair_zero (N : ℕ) : (quadPairs N).getD 0 (0, 0) = (0, 0) := by
  simp [quadPairs, List.range_succ_eq_map]

theorem pairs_inj {N : ℕ} {m : ℕ} (hm : m < (quadPairs N).length) (h : (quadPairs N).getD m (0, 0) = (0, 0)) : m = 0 := by
  have h0 : 0 < (quadPairs N).length := by omega
  have := pair_zero N
  rw [List.getD_eq_getElem _ _ hm] at h
  rw [List.getD_eq_getElem _ _ h0] at this
  exact (List.Nodup.getElem_inj_iff (quadModal N).nodup).1 (h.trans this.symm)

/-- The first mode is a non-zero constant. -/
theorem mode_zero : ∃ a : ℝ, a ≠ 0 ∧ quadPoly (0, 0) = C a := by
  have hd : quadPoly (0, 0) = C (coeff 0 (quadPoly (0, 0))) := by
    ext m
    rw [coeff_C]
    split_ifs with h
    · rw [h]
    · by_contra hc
      apply h
      have hm := mem_support_iff.2 hc
      ext i
      have := degreeOf_le_iff.1 (degreeOf_quadPoly 0 (0, 0) (le_refl _) (le_refl _) i) m hm
      simp at this ⊢
      omega
  refine ⟨coeff 0 (quadPoly (0, 0)), ?_, hd⟩
  intro h
  have h1 := quadPoly_orth (0, 0) (0, 0)
  rw [hd, h] at h1
  simp [quadInt] at h1

/-- All other modes have integral zero. -/
theorem mode_int {p : ℕ × ℕ} (hp : p ≠ (0, 0)) : integ quadInt (quadPoly p) = 0 := by
  obtain ⟨a, ha, h⟩ := mode_zero
  have h1 := (quadModal 0).orth (0, 0) p
  rw [if_neg (Ne.symm hp), h, (quadModal 0).smul] at h1
  exact (mul_eq_zero.1 h1).resolve_left ha

theorem integ_comb {N n : ℕ} (hn : (quadPairs N).length = n) (h0 : 0 < n) (c : Fin n → ℝ) : integ quadInt (comb (quadPairs N) quadPoly c) = c ⟨0, h0⟩ * integ quadInt (quadPoly (0, 0)) := by
  unfold comb
  rw [(quadModal N).sum, Finset.sum_eq_single ⟨0, h0⟩]
  · rw [(quadModal N).smul]
    unfold nth
    rw [pair_zero]
  · intro b _ hb
    rw [(quadModal N).smul]
    unfold nth
    rw [mode_int, mul_zero]
    intro h
    exact hb (Fin.ext (pairs_inj (by rw [hn]; exact b.2) h))
  · simp

theorem pairs_len (g : QGrid) : (quadPairs g.N).length = g.np := quadPairs_length g.N

/-- The filter with coefficients `c` multiplies the modal coefficients of the columns. -/
theorem QSpec.damp (hg : QSpec P x bt g) (c : Fin g.np → ℝ) (u : DMat ℝ) (k : ℕ) (a : Fin g.np → ℝ) (ha : IsInterp g (fun i => u.at' i k) (comb (quadPairs g.N) quadPoly a)) :
    IsInterp g (fun i => (npFilter (toMat g.o.V g.np g.np * (Matrix.diagonal c * toMat g.o.Vinv g.np g.np)) u).at' i k) (comb (quadPairs g.N) quadPoly fun m => c m * a m) := by
  refine ⟨(quadModal g.N).space_comb (pairs_len g) _, fun i hi => ?_⟩
  rw [((quadModal g.N).nodal_comb (allReg_true g.n.r g.n.s) hg.nodes _ ⟨i, hi⟩).1]
  have hu : (fun j : Fin g.np => u.at' j k) = (toMat g.o.V g.np g.np).mulVec a := by
    funext j
    refine (ha.2 j j.2).symm.trans ?_
    rw [((quadModal g.N).nodal_comb (allReg_true g.n.r g.n.s) hg.nodes a j).1, hg.vand]
  unfold npFilter
  beta_reduce
  simp only [dif_pos hi]
  change _ = ((toMat g.o.V g.np g.np * (Matrix.diagonal c * toMat g.o.Vinv g.np g.np)).mulVec fun j : Fin g.np => u.at' j k) ⟨i, hi⟩
  have hinv := hg.unisolvent
  rw [← hg.vand] at hinv ⊢
  rw [hu, Matrix.mulVec_mulVec, Matrix.mul_assoc, Matrix.mul_assoc, hinv, Matrix.mul_one, ← Matrix.mulVec_mulVec]
  congr 2
  funext m
  rw [Matrix.mulVec_diagonal]

theorem QSpec.np_pos (_hg : QSpec P x bt g) : 0 < g.np := by unfold QGrid.np; positivity

/-- On parallelograms, damping the modes other than the first leaves the total unchanged. -/
theorem QSpec.damp_total (hg : QSpec P x bt g) (hpar : ∀ k < g.K, Parallelogram (g.quad k)) (c : Fin g.np → ℝ) (hc : ∀ m : Fin g.np, (m : ℕ) = 0 → c m = 1) (u : DMat ℝ) (M : ℝ) (h : IsTotal g u.at' M) :
    IsTotal g (npFilter (toMat g.o.V g.np g.np * (Matrix.diagonal c * toMat g.o.Vinv g.np g.np)) u).at' M := by
  obtain ⟨p, hp, rfl⟩ := h
  have key : ∀ k < g.K, ∃ p', IsInterp g (fun i => (npFilter (toMat g.o.V g.np g.np * (Matrix.diagonal c * toMat g.o.Vinv g.np g.np)) u).at' i k) p' ∧ integ quadInt p' = integ quadInt (p k) := by
    intro k hk
    obtain ⟨a, ha⟩ := (quadModal g.N).coeffs (pairs_len g) (hp k hk).1
    have hi := hp k hk
    rw [ha] at hi
    refine ⟨_, hg.damp c u k a hi, ?_⟩
    rw [ha, integ_comb (pairs_len g) hg.np_pos, integ_comb (pairs_len g) hg.np_pos, hc ⟨0, hg.np_pos⟩ rfl, one_mul]
  choose! p' h1 h2 using key
  refine ⟨p', h1, Finset.sum_congr rfl fun k hk => ?_⟩
  have hk := Finset.mem_range.1 hk
  rw [jac_affine (hpar k hk), jac_affine (hpar k hk), h2 k hk]

/-- Coefficients of the filter: the triangular numbering runs over the first `(N+1)(N+2)/2` of the `(N+1)^2` modes, the rest stays zero. -/
theorem QSpec.filter_ok (_hg : QSpec P x bt g) (Nc : ℝ) (h0 : 0 ≤ Nc) (hNc : Nc ≠ g.N) (s : ℤ) (hs : 1 ≤ s) :
    ∃ c : Fin g.np → ℝ, g.filter Nc s = .ok (fun i j => some ((toMat g.o.V g.np g.np * (Matrix.diagonal c * toMat g.o.Vinv g.np g.np)) i j)) ∧
      (∀ m : Fin g.np, (m : ℕ) = 0 → c m = 1) ∧ ∀ m : Fin g.np, (g.N + 1) * (g.N + 2) / 2 ≤ m → c m = 0 := by
  have hle : triNp g.N ≤ g.np := by
    unfold triNp QGrid.np
    have : (g.N + 1) * (g.N + 2) ≤ 2 * ((g.N + 1) * (g.N + 1)) := by nlinarith
    omega
  set d := (triPairs g.N).map (fun p => filterCoef g.N Nc s (p.1 + p.2)) ++ List.replicate (g.np - triNp g.N) (some 0) with hd
  have hlow : ∀ m, m < triNp g.N → d.getD m (some 0) = filterCoef g.N Nc s (((triPairs g.N).getD m (0, 0)).1 + ((triPairs g.N).getD m (0, 0)).2) := by
    intro m hm
    have hm' : m < (triPairs g.N).length := by rw [triPairs_length]; exact hm
    rw [hd, List.getD_eq_getElem?_getD, List.getElem?_append_left (by simpa using hm'), List.getElem?_map, List.getElem?_eq_getElem hm', List.getD_eq_getElem _ _ hm']
    rfl
  have hhigh : ∀ m, triNp g.N ≤ m → d.getD m (some 0) = some 0 := by
    intro m hm
    have hm' : (triPairs g.N).length ≤ m := by rw [triPairs_length]; exact hm
    rw [hd, List.getD_eq_getElem?_getD, List.getElem?_append_right (by simpa using hm'), List.getElem?_replicate]
    split_ifs <;> rfl
  have hc : ∀ m : Fin g.np, ∃ c : ℝ, d.getD m (some 0) = some c ∧ ((m : ℕ) = 0 → c = 1) ∧ (triNp g.N ≤ m → c = 0) := by
    intro m
    by_cases hm : (m : ℕ) < triNp g.N
    · have hm' : (m : ℕ) < (triPairs g.N).length := by rw [triPairs_length]; exact hm
      have hmem : (triPairs g.N).getD m (0, 0) ∈ triPairs g.N := by rw [List.getD_eq_getElem _ _ hm']; exact List.getElem_mem _
      obtain ⟨c, h1, -, -, h4, -⟩ := filterCoef_spec g.N Nc s hs hNc _ (mem_triPairs.1 hmem)
      refine ⟨c, (hlow m hm).trans h1, fun h => h4 ?_, fun h => by omega⟩
      rw [h, SW.pair_zero]
      simpa using h0
    · refine ⟨0, hhigh m (by omega), fun h => ?_, fun _ => rfl⟩
      have : 0 < triNp g.N := by
        unfold triNp
        have : 2 ≤ (g.N + 1) * (g.N + 2) := by nlinarith
        omega
      omega
  choose c hc using hc
  refine ⟨c, ?_, fun m => (hc m).2.1, fun m => (hc m).2.2⟩
  rw [QGrid.filter, buildFilter, filterDiag_ok _ _ _ _ hle]
  simp only [Out.bind_ok, Out.pure_eq]
  congr 1
  funext i j
  exact filterMat_some _ c (fun m => (hc m).1) _ _ i j

/-- Polynomials whose degree in the second coordinate is at most `(N+1)/2`, and their values at the nodes of an element. -/
def Low (g : QGrid) (u : ℕ → ℝ) : Prop := ∃ p, IsInterp g u p ∧ p.degreeOf 1 ≤ (g.N + 1) / 2

theorem degree_mode (p : ℕ × ℕ) : (quadPoly p).degreeOf 1 ≤ p.1 := by
  unfold quadPoly inS inR
  refine (degreeOf_mul_le _ _ _).trans ?_
  have a := degreeOf_aeval 1 1 (Jacobi.poly 0 0 p.1)
  have b := degreeOf_aeval 0 1 (Jacobi.poly 0 0 p.2)
  rw [(leg0_deg p.1).1] at a
  simp at a b ⊢
  omega

/-- What passes the filter has low degree in the second direction. -/
theorem QSpec.filter_low (hg : QSpec P x bt g) (c : Fin g.np → ℝ) (hc : ∀ m : Fin g.np, (g.N + 1) * (g.N + 2) / 2 ≤ m → c m = 0) (u : DMat ℝ) (k : ℕ) :
    Low g fun i => (npFilter (toMat g.o.V g.np g.np * (Matrix.diagonal c * toMat g.o.Vinv g.np g.np)) u).at' i k := by
  obtain ⟨p, hp⟩ := hg.interp_exists fun i => u.at' i k
  obtain ⟨a, ha⟩ := (quadModal g.N).coeffs (pairs_len g) hp.1
  rw [ha] at hp
  refine ⟨_, hg.damp c u k a hp, ?_⟩
  unfold comb
  refine (degreeOf_sum_le _ _ _).trans (Finset.sup_le fun m _ => ?_)
  by_cases hm : (g.N + 1) * (g.N + 2) / 2 ≤ m
  · beta_reduce; rw [hc m hm]; simp
  · refine (degreeOf_C_mul_le _ _ _).trans ((degree_mode _).trans ?_)
    have hlt : (m : ℕ) < (g.N + 1) * (g.N + 1) := m.2
    have hj : (m : ℕ) % (g.N + 1) ≤ g.N := by have := Nat.mod_lt (m : ℕ) (show 0 < g.N + 1 by omega); omega
    have hi : (m : ℕ) / (g.N + 1) ≤ g.N := by have := Nat.div_lt_of_lt_mul hlt; omega
    have hget := quadPairs_get hi hj
    rw [show (m : ℕ) / (g.N + 1) * (g.N + 1) + (m : ℕ) % (g.N + 1) = m by rw [Nat.mul_comm]; exact Nat.div_add_mod _ _] at hget
    rw [List.getD_eq_getElem?_getD, hget]
    show (m : ℕ) / (g.N + 1) ≤ (g.N + 1) / 2
    by_contra hb
    have h2 : g.N + 2 ≤ 2 * ((m : ℕ) / (g.N + 1)) := by omega
    have h3 := Nat.div_mul_le_self (m : ℕ) (g.N + 1)
    have h4 : (g.N + 2) * (g.N + 1) ≤ 2 * ((m : ℕ) / (g.N + 1)) * (g.N + 1) := Nat.mul_le_mul_right _ h2
    have h5 : 2 * ((m : ℕ) / (g.N + 1)) * (g.N + 1) = 2 * ((m : ℕ) / (g.N + 1) * (g.N + 1)) := by ring
    have h6 : (g.N + 2) * (g.N + 1) = (g.N + 1) * (g.N + 2) := by ring
    omega

end Blitzdg.Quads
