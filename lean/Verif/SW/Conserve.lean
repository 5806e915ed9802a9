import Verif.SW.GridProps
import Mathlib.Algebra.BigOperators.Group.Finset.Basic

/-! Discrete conservation: the integral of a flux divergence with lifted jumps is a sum of integrals over boundary faces, whatever the fluxes. -/

namespace Blitzdg.SW

open Blitzdg.Sparse (DMat)
open Blitzdg.DG2D
open Blitzdg.Dense (toMat)
open MvPolynomial (pderiv C)

variable {P : ℕ → ℕ} {x : List ℝ} {bt : List Int} {g : Grid}

/-! ### Integrals along a face from nodal values -/

/-- The integral over `[-1, 1]` of the polynomial of degree `N` with values `v i` at the points `x i`. -/
noncomputable def faceInt (N : ℕ) (x : List ℝ) (v : ℕ → ℝ) : ℝ :=
  ∫ t in (-1 : ℝ)..1, (Lagrange.interpolate (Finset.range (N + 1)) (fun i => x.getD i 0) v).eval t

theorem inc_inj {N : ℕ} {x : List ℝ} (hinc : ∀ i j : ℕ, i < j → j ≤ N → x.getD i 0 < x.getD j 0) :
    Set.InjOn (fun i => x.getD i 0) (Finset.range (N + 1) : Set ℕ) := by
  intro i hi j hj h
  simp only [Finset.coe_range, Set.mem_Iio] at hi hj
  rcases lt_trichotomy i j with h1 | h1 | h1
  · exact absurd h (hinc i j h1 (by omega)).ne
  · exact h1
  · exact absurd h (hinc j i h1 (by omega)).ne'

theorem faceInt_eq {N : ℕ} {x : List ℝ} (hinc : ∀ i j : ℕ, i < j → j ≤ N → x.getD i 0 < x.getD j 0) (p : Polynomial ℝ) (hp : p.natDegree ≤ N) (v : ℕ → ℝ)
    (hv : ∀ i ≤ N, p.eval (x.getD i 0) = v i) : ∫ t in (-1 : ℝ)..1, p.eval t = faceInt N x v := by
  unfold faceInt
  congr 1
  funext t
  congr 1
  apply Lagrange.eq_interpolate_of_eval_eq v (inc_inj hinc)
  · rw [Finset.card_range]
    exact lt_of_le_of_lt Polynomial.degree_le_natDegree (by exact_mod_cast Nat.lt_succ_of_le hp)
  · intro i hi
    exact hv i (by have := Finset.mem_range.1 hi; omega)

theorem int_neg (f : ℝ → ℝ) : ∫ t in (-1 : ℝ)..1, f (-t) = ∫ t in (-1 : ℝ)..1, f t := by
  rw [intervalIntegral.integral_comp_neg]
  norm_num

/-- The same with the nodes mirrored. -/
theorem faceInt_neg {N : ℕ} {x : List ℝ} (hinc : ∀ i j : ℕ, i < j → j ≤ N → x.getD i 0 < x.getD j 0) (p : Polynomial ℝ) (hp : p.natDegree ≤ N) (v : ℕ → ℝ)
    (hv : ∀ i ≤ N, p.eval (-x.getD i 0) = v i) : ∫ t in (-1 : ℝ)..1, p.eval t = faceInt N x v := by
  rw [← int_neg fun t => p.eval t]
  have e : ∀ t, (p.comp (-Polynomial.X)).eval t = p.eval (-t) := fun t => by rw [Polynomial.eval_comp]; simp
  simp only [← e]
  apply faceInt_eq hinc
  · refine Polynomial.natDegree_comp_le.trans ?_
    rw [Polynomial.natDegree_neg, Polynomial.natDegree_X, mul_one]
    exact hp
  · intro i hi
    rw [e]; exact hv i hi

theorem interp_exists {N : ℕ} {x : List ℝ} (hinc : ∀ i j : ℕ, i < j → j ≤ N → x.getD i 0 < x.getD j 0) (v : ℕ → ℝ) :
    ∃ p : Polynomial ℝ, p.natDegree ≤ N ∧ ∀ i ≤ N, p.eval (x.getD i 0) = v i := by
  refine ⟨Lagrange.interpolate (Finset.range (N + 1)) (fun i => x.getD i 0) v, ?_, ?_⟩
  · have := Lagrange.degree_interpolate_lt (r := v) (inc_inj hinc)
    rw [Finset.card_range] at this
    by_cases h : Lagrange.interpolate (Finset.range (N + 1)) (fun i => x.getD i 0) v = 0
    · rw [h]; simp
    · have := (Polynomial.natDegree_lt_iff_degree_lt h).2 this
      omega
  · intro i hi
    exact Lagrange.eval_interpolate_at_node v (inc_inj hinc) (Finset.mem_range.2 (by omega))

/-- Face coordinate of node `i` of face `f`. -/
def coord (f : ℕ) (x : List ℝ) (i : ℕ) : ℝ := if f = 1 then -x.getD i 0 else x.getD i 0

theorem faceInt_coord {N : ℕ} {x : List ℝ} (hinc : ∀ i j : ℕ, i < j → j ≤ N → x.getD i 0 < x.getD j 0) (f : ℕ) (p : Polynomial ℝ) (hp : p.natDegree ≤ N) (v : ℕ → ℝ)
    (hv : ∀ i ≤ N, p.eval (coord f x i) = v i) : ∫ t in (-1 : ℝ)..1, p.eval t = faceInt N x v := by
  unfold coord at hv
  by_cases h : f = 1
  · simp only [if_pos h] at hv; exact faceInt_neg hinc p hp v hv
  · simp only [if_neg h] at hv; exact faceInt_eq hinc p hp v hv

theorem interp_coord {N : ℕ} {x : List ℝ} (hinc : ∀ i j : ℕ, i < j → j ≤ N → x.getD i 0 < x.getD j 0) (f : ℕ) (v : ℕ → ℝ) :
    ∃ p : Polynomial ℝ, p.natDegree ≤ N ∧ ∀ i ≤ N, p.eval (coord f x i) = v i := by
  obtain ⟨p, h1, h2⟩ := interp_exists hinc v
  unfold coord
  by_cases h : f = 1
  · refine ⟨p.comp (-Polynomial.X), ?_, ?_⟩
    · refine Polynomial.natDegree_comp_le.trans ?_
      rw [Polynomial.natDegree_neg, Polynomial.natDegree_X, mul_one]
      exact h1
    · intro i hi
      rw [if_pos h, Polynomial.eval_comp]
      simpa using h2 i hi
  · exact ⟨p, h1, fun i hi => by rw [if_neg h]; exact h2 i hi⟩

/-- Mirrored values have the same integral. -/
theorem faceInt_mirror {N : ℕ} {x : List ℝ} (hinc : ∀ i j : ℕ, i < j → j ≤ N → x.getD i 0 < x.getD j 0) (hsym : ∀ i ≤ N, x.getD (N - i) 0 = -x.getD i 0) (v w : ℕ → ℝ)
    (h : ∀ i ≤ N, w (N - i) = v i) : faceInt N x w = faceInt N x v := by
  obtain ⟨p, h1, h2⟩ := interp_exists hinc w
  rw [← faceInt_eq hinc p h1 w h2, faceInt_neg hinc p h1 v]
  intro i hi
  rw [← hsym i hi, h2 _ (by omega), h i hi]

theorem faceInt_congr {N : ℕ} {x : List ℝ} (hinc : ∀ i j : ℕ, i < j → j ≤ N → x.getD i 0 < x.getD j 0) (v w : ℕ → ℝ) (h : ∀ i ≤ N, w i = v i) : faceInt N x w = faceInt N x v := by
  obtain ⟨p, h1, h2⟩ := interp_exists hinc w
  rw [← faceInt_eq hinc p h1 w h2, faceInt_eq hinc p h1 v]
  intro i hi
  rw [h2 i hi, h i hi]

theorem faceInt_smul (N : ℕ) (x : List ℝ) (a : ℝ) (v : ℕ → ℝ) : faceInt N x (fun i => a * v i) = a * faceInt N x v := by
  unfold faceInt
  rw [← intervalIntegral.integral_const_mul]
  congr 1
  funext t
  have : (fun i => a * v i) = a • v := rfl
  rw [this, map_smul, Polynomial.eval_smul, smul_eq_mul]

/-- Values on the two sides of a face. -/
theorem faceInt_across {P : ℕ → ℕ} {N : ℕ} {x : List ℝ} (hinc : ∀ i j : ℕ, i < j → j ≤ N → x.getD i 0 < x.getD j 0) (hsym : ∀ i ≤ N, x.getD (N - i) 0 = -x.getD i 0) (e : ℕ)
    (v w : ℕ → ℝ) (h : ∀ i ≤ N, w (across P N e i) = -v i) : faceInt N x w = -faceInt N x v := by
  have e1 : -faceInt N x v = faceInt N x fun i => -1 * v i := by rw [faceInt_smul]; ring
  rw [e1]
  unfold across at h
  by_cases h1 : P e = e
  · simp only [if_pos h1] at h
    exact faceInt_congr hinc _ _ fun i hi => by rw [h i hi]; ring
  · simp only [if_neg h1] at h
    by_cases h2 : (e % 3 = 2 ↔ P e % 3 = 2)
    · simp only [if_pos h2] at h
      exact faceInt_mirror hinc hsym _ _ fun i hi => by rw [h i hi]; ring
    · simp only [if_neg h2] at h
      exact faceInt_congr hinc _ _ fun i hi => by rw [h i hi]; ring

/-! ### Polynomials on an element -/

/-- `p` is the polynomial of the element with nodal values `u`. -/
def IsInterp (g : Grid) (u : ℕ → ℝ) (p : P2) : Prop := TriSpace g.N p ∧ ∀ i < g.np, nodal g.n.r g.n.s p i = u i

theorem GridSpec.interp_exists (hg : GridSpec P x bt g) (u : ℕ → ℝ) : ∃ p, IsInterp g u p := by
  have hp : (triPairs g.N).length = g.np := by rw [triPairs_length]; rfl
  have hV : toMat (modeMatrix (triPairs g.N) triMode g.n.r g.n.s) g.np g.np * toMat g.o.Vinv g.np g.np = 1 := mul_eq_one_comm.1 hg.unisolvent
  set c := (toMat g.o.Vinv g.np g.np).mulVec (fun i : Fin g.np => u i) with hc
  refine ⟨comb (triPairs g.N) triPoly c, (triModal g.N).space_comb hp c, fun i hi => ?_⟩
  have := ((triModal g.N).nodal_comb hg.reg hg.nodes c ⟨i, hi⟩).1
  rw [this, hc, Matrix.mulVec_mulVec, hV, Matrix.one_mulVec]

theorem GridSpec.interp_unique (hg : GridSpec P x bt g) {u : ℕ → ℝ} {p q : P2} (hp : IsInterp g u p) (hq : IsInterp g u q) : p = q := by
  have hl : (triPairs g.N).length = g.np := by rw [triPairs_length]; rfl
  obtain ⟨a, rfl⟩ := (triModal g.N).coeffs hl hp.1
  obtain ⟨b, rfl⟩ := (triModal g.N).coeffs hl hq.1
  have h : (toMat (modeMatrix (triPairs g.N) triMode g.n.r g.n.s) g.np g.np).mulVec a = (toMat (modeMatrix (triPairs g.N) triMode g.n.r g.n.s) g.np g.np).mulVec b := by
    funext i
    rw [← ((triModal g.N).nodal_comb hg.reg hg.nodes a i).1, ← ((triModal g.N).nodal_comb hg.reg hg.nodes b i).1, hp.2 i i.2, hq.2 i i.2]
  have h2 := congrArg (toMat g.o.Vinv g.np g.np).mulVec h
  rw [Matrix.mulVec_mulVec, Matrix.mulVec_mulVec, hg.unisolvent, Matrix.one_mulVec, Matrix.one_mulVec] at h2
  rw [h2]

/-! ### Geometry of the grid -/

/-- Outward normal of face `f`, half as long as the face. -/
noncomputable def nrm (T : Tri) (f : ℕ) : ℝ × ℝ := rawNormal f (triDerivOf T)

theorem nrm_pos {T : Tri} (hT : 0 < cross T) (f : ℕ) : 0 < len (nrm T f) := by
  unfold nrm rawNormal
  split_ifs <;> exact triNormal_pos T hT.ne' _

theorem nrm_ends (T : Tri) (f : ℕ) (hf : f < 3) :
    nrm T f = (((faceEnds T f).2.2 - (faceEnds T f).1.2) / 2, -(((faceEnds T f).2.1 - (faceEnds T f).1.1) / 2)) := by
  unfold nrm rawNormal faceEnds
  rcases (by omega : f = 0 ∨ f = 1 ∨ f = 2) with rfl | rfl | rfl <;> simp [triNormal, triDerivOf] <;> (try constructor) <;> ring

theorem nrm_len (T : Tri) (f : ℕ) (hf : f < 3) : len (nrm T f) = hypot ((faceEnds T f).1.1 - (faceEnds T f).2.1) ((faceEnds T f).1.2 - (faceEnds T f).2.2) / 2 := by
  rw [nrm_ends T f hf, len_neg, len_half]
  unfold hypot len
  congr 2
  ring

/-- The two sides of a face have opposite normals. -/
theorem nrm_swap {T T' : Tri} {f f' : ℕ} (hf : f < 3) (hf' : f' < 3) (h : faceEnds T' f' = (faceEnds T f).swap) : nrm T' f' = (-(nrm T f).1, -(nrm T f).2) := by
  rw [nrm_ends T' f' hf', nrm_ends T f hf, h]
  simp only [Prod.swap, Prod.mk.injEq]
  constructor <;> ring

theorem len_neg2 (v : ℝ × ℝ) : len (-v.1, -v.2) = len v := by
  unfold len; congr 1; ring

theorem GridSpec.deriv_eq (hg : GridSpec P x bt g) (i k : ℕ) (hi : i < g.np) : g.deriv i k = triDerivOf (g.tri k) := by
  obtain ⟨l1, l2, l3⟩ := tri_low g.N hg.posN
  have h := exactLinear_of_diff hg.elem.diff l1 l2 l3
  have hi' : i < g.n.r.length := by rw [hg.nodes]; exact hi
  have := triDeriv h (g.tri k) ⟨i, hi'⟩
  rw [show triDerivOf (g.tri k) = _ from this.symm]
  unfold Grid.deriv derivAt Matrix.mulVec dotProduct toMat triNodes gridX gridY
  rw [← hg.nodes]
  simp only [Finset.sum_range]

theorem GridSpec.normal_eq (hg : GridSpec P x bt g) (f i k : ℕ) (hf : f < 3) (hi : i ≤ g.N) : g.normal (f * (g.N + 1) + i) k = nrm (g.tri k) f := by
  unfold Grid.normal nrm
  have h1 : (f * (g.N + 1) + i) / (g.N + 1) = f := by
    rw [Nat.add_comm, Nat.add_mul_div_right _ _ (by omega), Nat.div_eq_of_lt (by omega)]; omega
  have h2 : (f * (g.N + 1) + i) % (g.N + 1) = i := by
    rw [Nat.add_comm, Nat.add_mul_mod_self_right, Nat.mod_eq_of_lt (by omega)]
  rw [h1, h2, hg.deriv_eq _ _ (hg.maskLt f hf i hi)]

theorem jac_triDerivOf (T : Tri) : jac (triDerivOf T) = cross T / 4 := by
  simp only [jac, triDerivOf, cross]; ring

theorem GridSpec.fscale_eq (hg : GridSpec P x bt g) (f i k : ℕ) (hf : f < 3) (hi : i ≤ g.N) :
    g.fscale (f * (g.N + 1) + i) k = len (nrm (g.tri k) f) / (cross (g.tri k) / 4) := by
  unfold Grid.fscale DG2D.fscale
  rw [hg.normal_eq f i k hf hi]
  have h1 : (f * (g.N + 1) + i) / (g.N + 1) = f := by
    rw [Nat.add_comm, Nat.add_mul_div_right _ _ (by omega), Nat.div_eq_of_lt (by omega)]; omega
  have h2 : (f * (g.N + 1) + i) % (g.N + 1) = i := by
    rw [Nat.add_comm, Nat.add_mul_mod_self_right, Nat.mod_eq_of_lt (by omega)]
  rw [h1, h2, hg.deriv_eq _ _ (hg.maskLt f hf i hi), jac_triDerivOf]

/-- Flux out of the element at node `i` of face `e`: normal flux of the element's own values minus the jump. -/
noncomputable def outFlux (g : Grid) (F G : ℕ → ℕ → ℝ) (d : DMat ℝ) (e i : ℕ) : ℝ :=
  (unit (nrm (g.tri (e / 3)) (e % 3))).1 * F (g.n.mask i (e % 3)) (e / 3) + (unit (nrm (g.tri (e / 3)) (e % 3))).2 * G (g.n.mask i (e % 3)) (e / 3)
    - d.at' (e % 3 * (g.N + 1) + i) (e / 3)

theorem triSpace_add {N : ℕ} {p q : P2} (hp : TriSpace N p) (hq : TriSpace N q) : TriSpace N (p + q) :=
  (MvPolynomial.totalDegree_add p q).trans (max_le hp hq)

theorem triSpace_smul {N : ℕ} {p : P2} (c : ℝ) (hp : TriSpace N p) : TriSpace N (C c * p) := by
  refine (MvPolynomial.totalDegree_mul _ _).trans ?_
  rw [MvPolynomial.totalDegree_C, zero_add]
  exact hp

theorem nodal_add (r s : List ℝ) (p q : P2) (i : ℕ) : nodal r s (p + q) i = nodal r s p i + nodal r s q i := by unfold nodal; rw [map_add]

theorem nodal_smul (r s : List ℝ) (c : ℝ) (p : P2) (i : ℕ) : nodal r s (C c * p) i = c * nodal r s p i := by unfold nodal; rw [map_mul]; simp

theorem sum_three (n : ℕ) (f : ℕ → ℝ) : ∑ c ∈ Finset.range (3 * n), f c = ∑ e ∈ Finset.range 3, ∑ j ∈ Finset.range n, f (e * n + j) := by
  have : 3 * n = n + n + n := by ring
  rw [this, Finset.sum_range_add, Finset.sum_range_add, Finset.sum_range_succ, Finset.sum_range_succ, Finset.sum_range_one]
  simp only [zero_mul, zero_add, one_mul]
  congr 1
  apply Finset.sum_congr rfl
  intro j _
  congr 1; ring

/-- **Balance on one element**: the integral of the right-hand side is minus the flux through the three faces. -/
theorem GridSpec.local_balance (hg : GridSpec P x bt g) (k : ℕ) (hk : k < g.K) (F G : ℕ → ℕ → ℝ) (d : DMat ℝ) (p : P2)
    (hp : IsInterp g (fun i => g.divergence F G i k + g.surface d i k) p) :
    cross (g.tri k) / 4 * integ triInt p = -∑ f ∈ Finset.range 3, len (nrm (g.tri k) f) * faceInt g.N x (outFlux g F G d (3 * k + f)) := by
  set T := g.tri k with hT
  have hc : 0 < cross T := hg.ccw k hk
  obtain ⟨pF, hF⟩ := hg.interp_exists fun i => F i k
  obtain ⟨pG, hG⟩ := hg.interp_exists fun i => G i k
  have hl := hg.nodes
  choose D hD1 hD2 using fun f => interp_coord hg.inc f fun i => d.at' (f * (g.N + 1) + i) k
  have hco : ∀ f < 3, ∀ j ≤ g.N, (if triOnS f then g.n.s else g.n.r).getD (g.n.mask j f) 0 = coord f x j := by
    intro f hf j hj
    have := hg.maskPt f hf j hj
    obtain ⟨h1, h2⟩ := Prod.mk.inj this
    unfold coord triOnS
    rcases (by omega : f = 0 ∨ f = 1 ∨ f = 2) with rfl | rfl | rfl <;> simp at h1 h2 ⊢ <;> assumption
  have hlift := fun f (hf : f < 3) => hg.elem.lift f hf (D f) (hD1 f)
  choose! w hw1 hw2 hw3 using hlift
  set m := metric (triDerivOf T) with hm
  set fs : ℕ → ℝ := fun f => len (nrm T f) / (cross T / 4) with hfs
  set W : P2 := C (-m 0 0) * pderiv 0 pF + C (-m 1 0) * pderiv 1 pF + (C (-m 0 1) * pderiv 0 pG + C (-m 1 1) * pderiv 1 pG)
    + (C (fs 0) * w 0 + C (fs 1) * w 1 + C (fs 2) * w 2) with hW
  have hWi : IsInterp g (fun i => g.divergence F G i k + g.surface d i k) W := by
    constructor
    · refine triSpace_add (triSpace_add (triSpace_add ?_ ?_) (triSpace_add ?_ ?_)) (triSpace_add (triSpace_add ?_ ?_) ?_) <;> apply triSpace_smul
      · exact tri_closed _ _ _ hF.1
      · exact tri_closed _ _ _ hF.1
      · exact tri_closed _ _ _ hG.1
      · exact tri_closed _ _ _ hG.1
      · exact hw1 0 (by norm_num)
      · exact hw1 1 (by norm_num)
      · exact hw1 2 (by norm_num)
    · intro i hi
      have hi' : i < g.n.r.length := by rw [hl]; exact hi
      rw [hW]
      simp only [nodal_add, nodal_smul]
      have dF0 : ∑ j ∈ Finset.range g.np, g.o.d.Dr.at' i j * F j k = nodal g.n.r g.n.s (pderiv 0 pF) i := by
        rw [← hg.elem.diff.dr pF hF.1 i hi', hl]
        exact Finset.sum_congr rfl fun j hj => by rw [hF.2 j (Finset.mem_range.1 hj)]
      have dF1 : ∑ j ∈ Finset.range g.np, g.o.d.Ds.at' i j * F j k = nodal g.n.r g.n.s (pderiv 1 pF) i := by
        rw [← hg.elem.diff.ds pF hF.1 i hi', hl]
        exact Finset.sum_congr rfl fun j hj => by rw [hF.2 j (Finset.mem_range.1 hj)]
      have dG0 : ∑ j ∈ Finset.range g.np, g.o.d.Dr.at' i j * G j k = nodal g.n.r g.n.s (pderiv 0 pG) i := by
        rw [← hg.elem.diff.dr pG hG.1 i hi', hl]
        exact Finset.sum_congr rfl fun j hj => by rw [hG.2 j (Finset.mem_range.1 hj)]
      have dG1 : ∑ j ∈ Finset.range g.np, g.o.d.Ds.at' i j * G j k = nodal g.n.r g.n.s (pderiv 1 pG) i := by
        rw [← hg.elem.diff.ds pG hG.1 i hi', hl]
        exact Finset.sum_congr rfl fun j hj => by rw [hG.2 j (Finset.mem_range.1 hj)]
      have hs : ∀ f < 3, ∑ j ∈ Finset.range (g.N + 1), g.o.lift.at' i (f * (g.N + 1) + j) * (g.fscale (f * (g.N + 1) + j) k * d.at' (f * (g.N + 1) + j) k)
          = fs f * nodal g.n.r g.n.s (w f) i := by
        intro f hf
        rw [← hw2 f hf i hi', Finset.mul_sum]
        apply Finset.sum_congr rfl
        intro j hj
        have hj' : j ≤ g.N := by have := Finset.mem_range.1 hj; omega
        beta_reduce
        rw [hg.fscale_eq f j k hf hj', hco f hf j hj', hD2 f j hj']
        ring
      have hsurf : g.surface d i k = fs 0 * nodal g.n.r g.n.s (w 0) i + fs 1 * nodal g.n.r g.n.s (w 1) i + fs 2 * nodal g.n.r g.n.s (w 2) i := by
        unfold Grid.surface
        rw [sum_three, Finset.sum_range_succ, Finset.sum_range_succ, Finset.sum_range_one, hs 0 (by norm_num), hs 1 (by norm_num), hs 2 (by norm_num)]
      rw [hsurf]
      unfold Grid.divergence
      rw [dF0, dF1, dG0, dG1, hg.deriv_eq i k hi]
      ring
  obtain rfl := hg.interp_unique hp hWi
  have hM := triModal g.N
  have hone : ∀ f < 3, integ triInt (w f) = ∫ t in (-1 : ℝ)..1, (D f).eval t := by
    intro f hf
    have := hw3 f hf 1 (tri_low g.N hg.posN).1
    simpa using this
  have htr : ∀ f < 3, ∀ q : P2, TriSpace g.N q → ∃ u : Polynomial ℝ, u.natDegree ≤ g.N ∧ ∀ t, u.eval t = ev (triEdge f t).1 (triEdge f t).2 q :=
    fun f hf q hq => triTrace g.N f hf q hq
  choose! u hu1 hu2 using htr
  have hout : ∀ f < 3, faceInt g.N x (outFlux g F G d (3 * k + f)) = (unit (nrm T f)).1 * (∫ t in (-1 : ℝ)..1, (u f pF).eval t)
      + (unit (nrm T f)).2 * (∫ t in (-1 : ℝ)..1, (u f pG).eval t) - ∫ t in (-1 : ℝ)..1, (D f).eval t := by
    intro f hf
    set Φ : Polynomial ℝ := Polynomial.C (unit (nrm T f)).1 * u f pF + Polynomial.C (unit (nrm T f)).2 * u f pG - D f with hΦ
    have hdeg : Φ.natDegree ≤ g.N := by
      rw [hΦ]
      refine (Polynomial.natDegree_sub_le_of_le (Polynomial.natDegree_add_le_of_degree_le ?_ ?_) (hD1 f)).trans (max_self g.N).le
      · exact (Polynomial.natDegree_C_mul_le _ _).trans (hu1 f hf pF hF.1)
      · exact (Polynomial.natDegree_C_mul_le _ _).trans (hu1 f hf pG hG.1)
    have hE : ∀ i ≤ g.N, triEdge f (coord f x i) = triFacePt f (x.getD i 0) := by
      intro i _
      unfold triEdge coord triFacePt
      rcases (by omega : f = 0 ∨ f = 1 ∨ f = 2) with rfl | rfl | rfl <;> simp
    have hval : ∀ i ≤ g.N, ∀ (q : P2) (v : ℕ → ℝ), IsInterp g v q → (u f q).eval (coord f x i) = v (g.n.mask i f) := by
      intro i hi q v hq
      rw [hu2 f hf q hq.1, hE i hi, ← hg.maskPt f hf i hi, ← hq.2 _ (hg.maskLt f hf i hi)]
      rfl
    rw [← faceInt_coord hg.inc f Φ hdeg]
    · rw [hΦ]
      simp only [Polynomial.eval_sub, Polynomial.eval_add, Polynomial.eval_mul, Polynomial.eval_C]
      have c1 : ∀ q : Polynomial ℝ, Continuous fun t => q.eval t := fun q => q.continuous
      have ci : ∀ (a : ℝ) (q : Polynomial ℝ), IntervalIntegrable (fun t => a * q.eval t) MeasureTheory.volume (-1) 1 :=
        fun a q => ((c1 q).const_mul a).intervalIntegrable _ _
      rw [intervalIntegral.integral_sub ((ci _ _).add (ci _ _)) ((c1 _).intervalIntegrable _ _), intervalIntegral.integral_add (ci _ _) (ci _ _),
        intervalIntegral.integral_const_mul, intervalIntegral.integral_const_mul]
    · intro i hi
      rw [hΦ]
      simp only [Polynomial.eval_sub, Polynomial.eval_add, Polynomial.eval_mul, Polynomial.eval_C]
      rw [hval i hi pF _ hF, hval i hi pG _ hG, hD2 f i hi]
      unfold outFlux
      rw [show (3 * k + f) / 3 = k by omega, show (3 * k + f) % 3 = f by omega]
  have hA : ∀ q : P2, TriSpace g.N q → integ triInt (pderiv 0 q) = (∫ t in (-1 : ℝ)..1, (u 1 q).eval t) - ∫ t in (-1 : ℝ)..1, (u 2 q).eval t := by
    intro q hq
    rw [green_r]
    congr 1
    · rw [← int_neg]
      congr 1; funext t
      rw [hu2 1 (by norm_num) q hq]; simp [triEdge]
    · congr 1; funext t
      rw [hu2 2 (by norm_num) q hq]; simp [triEdge]
  have hB : ∀ q : P2, TriSpace g.N q → integ triInt (pderiv 1 q) = (∫ t in (-1 : ℝ)..1, (u 1 q).eval t) - ∫ t in (-1 : ℝ)..1, (u 0 q).eval t := by
    intro q hq
    rw [green_s]
    congr 1
    · rw [← int_neg]
      congr 1; funext t
      rw [hu2 1 (by norm_num) q hq]; simp [triEdge]
    · congr 1; funext t
      rw [hu2 0 (by norm_num) q hq]; simp [triEdge]
  have hn : ∀ f, len (nrm T f) * (unit (nrm T f)).1 = (nrm T f).1 ∧ len (nrm T f) * (unit (nrm T f)).2 = (nrm T f).2 := by
    intro f
    have := (nrm_pos hc f).ne'
    unfold unit
    constructor <;> field_simp
  rw [hW]
  simp only [hM.add, hM.smul]
  rw [hA pF hF.1, hB pF hF.1, hA pG hG.1, hB pG hG.1, hone 0 (by norm_num), hone 1 (by norm_num), hone 2 (by norm_num)]
  rw [Finset.sum_range_succ, Finset.sum_range_succ, Finset.sum_range_one, hout 0 (by norm_num), hout 1 (by norm_num), hout 2 (by norm_num)]
  generalize (∫ t in (-1 : ℝ)..1, (u 0 pF).eval t) = a0
  generalize (∫ t in (-1 : ℝ)..1, (u 1 pF).eval t) = a1
  generalize (∫ t in (-1 : ℝ)..1, (u 2 pF).eval t) = a2
  generalize (∫ t in (-1 : ℝ)..1, (u 0 pG).eval t) = b0
  generalize (∫ t in (-1 : ℝ)..1, (u 1 pG).eval t) = b1
  generalize (∫ t in (-1 : ℝ)..1, (u 2 pG).eval t) = b2
  generalize (∫ t in (-1 : ℝ)..1, (D 0).eval t) = d0
  generalize (∫ t in (-1 : ℝ)..1, (D 1).eval t) = d1
  generalize (∫ t in (-1 : ℝ)..1, (D 2).eval t) = d2
  have hJ : cross T / 4 ≠ 0 := by positivity
  have hfs' : ∀ f, cross T / 4 * fs f = len (nrm T f) := fun f => by rw [hfs]; field_simp
  have hm' : cross T / 4 * m 0 0 = (triDerivOf T).ys ∧ cross T / 4 * m 0 1 = -(triDerivOf T).xs ∧ cross T / 4 * m 1 0 = -(triDerivOf T).yr ∧ cross T / 4 * m 1 1 = (triDerivOf T).xr := by
    rw [hm]
    unfold metric
    rw [jac_triDerivOf]
    refine ⟨?_, ?_, ?_, ?_⟩ <;> simp <;> field_simp
  obtain ⟨m1, m2, m3, m4⟩ := hm'
  have x0 : len (nrm T 0) * (unit (nrm T 0)).1 = (triDerivOf T).yr := (hn 0).1
  have y0 : len (nrm T 0) * (unit (nrm T 0)).2 = -(triDerivOf T).xr := (hn 0).2
  have x1 : len (nrm T 1) * (unit (nrm T 1)).1 = (triDerivOf T).ys - (triDerivOf T).yr := (hn 1).1
  have y1 : len (nrm T 1) * (unit (nrm T 1)).2 = -(triDerivOf T).xs + (triDerivOf T).xr := (hn 1).2
  have x2 : len (nrm T 2) * (unit (nrm T 2)).1 = -(triDerivOf T).ys := (hn 2).1
  have y2 : len (nrm T 2) * (unit (nrm T 2)).2 = (triDerivOf T).xs := (hn 2).2
  linear_combination (-(a1 - a2)) * m1 - (a1 - a0) * m3 - (b1 - b2) * m2 - (b1 - b0) * m4 + d0 * hfs' 0 + d1 * hfs' 1 + d2 * hfs' 2
    + a0 * x0 + b0 * y0 + a1 * x1 + b1 * y1 + a2 * x2 + b2 * y2

/-! ### The whole grid -/

/-- Integral over the domain of a field given by nodal values: the sum over the elements of the area factor times the integral of the polynomial on the reference triangle. -/
def IsTotal (g : Grid) (u : ℕ → ℕ → ℝ) (M : ℝ) : Prop :=
  ∃ p : ℕ → P2, (∀ k < g.K, IsInterp g (fun i => u i k) (p k)) ∧ M = ∑ k ∈ Finset.range g.K, cross (g.tri k) / 4 * integ triInt (p k)

theorem GridSpec.total_exists (hg : GridSpec P x bt g) (u : ℕ → ℕ → ℝ) : ∃ M, IsTotal g u M := by
  choose p hp using fun k => hg.interp_exists fun i => u i k
  exact ⟨_, p, fun k _ => hp k, rfl⟩

theorem GridSpec.total_unique (hg : GridSpec P x bt g) {u : ℕ → ℕ → ℝ} {M M' : ℝ} (h : IsTotal g u M) (h' : IsTotal g u M') : M = M' := by
  obtain ⟨p, h1, rfl⟩ := h
  obtain ⟨p', h1', rfl⟩ := h'
  apply Finset.sum_congr rfl
  intro k hk
  rw [hg.interp_unique (h1 k (Finset.mem_range.1 hk)) (h1' k (Finset.mem_range.1 hk))]

/-- Length of face `e`. -/
noncomputable def faceLen (g : Grid) (e : ℕ) : ℝ :=
  hypot ((faceEnds (g.tri (e / 3)) (e % 3)).1.1 - (faceEnds (g.tri (e / 3)) (e % 3)).2.1) ((faceEnds (g.tri (e / 3)) (e % 3)).1.2 - (faceEnds (g.tri (e / 3)) (e % 3)).2.2)

theorem sum_faces (K : ℕ) (f : ℕ → ℝ) : ∑ k ∈ Finset.range K, ∑ j ∈ Finset.range 3, f (3 * k + j) = ∑ e ∈ Finset.range (3 * K), f e := by
  induction K with
  | zero => simp
  | succ K ih =>
    rw [Finset.sum_range_succ, ih, show 3 * (K + 1) = 3 * K + 3 by ring, Finset.sum_range_add]

/-- Sums over paired faces leave the boundary. -/
theorem sum_pairs (n : ℕ) (P : ℕ → ℕ) (hlt : ∀ e < n, P e < n) (hinv : ∀ e < n, P (P e) = e) (q : ℕ → ℝ) (hq : ∀ e < n, P e ≠ e → q (P e) = -q e) :
    ∑ e ∈ Finset.range n, q e = ∑ e ∈ (Finset.range n).filter (fun e => P e = e), q e := by
  rw [← Finset.sum_filter_add_sum_filter_not (Finset.range n) (fun e => P e = e)]
  have : ∑ e ∈ (Finset.range n).filter (fun e => ¬ P e = e), q e = 0 := by
    apply Finset.sum_involution fun e _ => P e
    · intro e he
      obtain ⟨h1, h2⟩ := Finset.mem_filter.1 he
      rw [hq e (Finset.mem_range.1 h1) h2]; ring
    · intro e he _
      exact (Finset.mem_filter.1 he).2
    · intro e he
      obtain ⟨h1, h2⟩ := Finset.mem_filter.1 he
      have h1 := Finset.mem_range.1 h1
      refine Finset.mem_filter.2 ⟨Finset.mem_range.2 (hlt e h1), ?_⟩
      rw [hinv e h1]
      exact fun h => h2 h.symm
    · intro e he
      exact hinv e (Finset.mem_range.1 (Finset.mem_filter.1 he).1)
  rw [this, add_zero]

/-- **Balance on the grid**: if what leaves an element through a node of an interior face enters its neighbour, the total changes by the boundary fluxes only. -/
theorem GridSpec.balance (hg : GridSpec P x bt g) (F G : ℕ → ℕ → ℝ) (d : DMat ℝ)
    (hanti : ∀ e < 3 * g.K, P e ≠ e → ∀ i ≤ g.N, outFlux g F G d (P e) (across P g.N e i) = -outFlux g F G d e i) :
    IsTotal g (fun i k => g.divergence F G i k + g.surface d i k)
      (-∑ e ∈ (Finset.range (3 * g.K)).filter (fun e => P e = e), faceLen g e / 2 * faceInt g.N x (outFlux g F G d e)) := by
  obtain ⟨M, hM⟩ := hg.total_exists fun i k => g.divergence F G i k + g.surface d i k
  obtain ⟨p, h1, h2⟩ := hM
  refine ⟨p, h1, ?_⟩
  have e1 : ∀ k ∈ Finset.range g.K, cross (g.tri k) / 4 * integ triInt (p k) = -∑ f ∈ Finset.range 3, faceLen g (3 * k + f) / 2 * faceInt g.N x (outFlux g F G d (3 * k + f)) := by
    intro k hk
    have hk := Finset.mem_range.1 hk
    rw [hg.local_balance k hk F G d (p k) (h1 k hk)]
    congr 1
    apply Finset.sum_congr rfl
    intro f hf
    have hf := Finset.mem_range.1 hf
    unfold faceLen
    rw [show (3 * k + f) / 3 = k by omega, show (3 * k + f) % 3 = f by omega, nrm_len _ f hf]
  rw [Finset.sum_congr rfl e1, Finset.sum_neg_distrib, sum_faces g.K fun e => faceLen g e / 2 * faceInt g.N x (outFlux g F G d e)]
  congr 1
  symm
  apply sum_pairs _ P hg.lt hg.inv
  intro e he hne
  rw [faceInt_across hg.inc hg.sym e _ _ (hanti e he hne)]
  have : faceLen g (P e) = faceLen g e := by
    unfold faceLen
    rw [hg.meet e he hne]
    exact hypot_comm _ _ _ _
  rw [this]
  ring

end Blitzdg.SW
