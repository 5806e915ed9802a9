import Verif.Quads.GridProps

/-! Geometry of a quadrilateral grid, and discrete conservation on parallelograms: there the integral of a flux divergence with lifted jumps is a sum of integrals over boundary faces, whatever the fluxes. -/

namespace Blitzdg.Quads

open Blitzdg.Sparse (DMat)
open Blitzdg.DG2D
open Blitzdg.Dense (toMat)
open Blitzdg.SW (Mesh hypot faceInt faceInt_eq faceInt_congr faceInt_smul faceInt_mirror sum_pairs nodal_add nodal_smul hasDerivAt_line continuous_line exists_primitive pderiv_comm hypot_comm)
open MvPolynomial (pderiv C)

variable {P : ℕ → ℕ} {x : List ℝ} {bt : List Int} {g : QGrid}

/-! ### The divergence theorem on the reference square -/

theorem inner_sq (R : P2) (s : ℝ) : ∫ r in (-1 : ℝ)..1, ev r s (pderiv 0 R) = ev 1 s R - ev (-1) s R := by
  have h : ∀ r, HasDerivAt (fun r => ev r s R) (ev r s (pderiv 0 R)) r := by
    intro r
    have := hasDerivAt_line R Polynomial.X (Polynomial.C s) r
    simpa using this
  have hc : Continuous fun r => ev r s (pderiv 0 R) := by
    have := continuous_line (pderiv 0 R) Polynomial.X (Polynomial.C s)
    simpa using this
  rw [intervalIntegral.integral_eq_sub_of_hasDerivAt (f := fun r => ev r s R) (fun r _ => h r) (hc.intervalIntegrable _ _)]

theorem cont_s (c : ℝ) (p : P2) : Continuous fun s : ℝ => ev c s p := by
  have := continuous_line p (Polynomial.C c) Polynomial.X
  simpa using this

theorem square_r (p : P2) : integ quadInt (pderiv 0 p) = (∫ s in (-1 : ℝ)..1, ev 1 s p) - ∫ s in (-1 : ℝ)..1, ev (-1) s p := by
  unfold integ quadInt
  simp only [inner_sq]
  rw [intervalIntegral.integral_sub ((cont_s 1 p).intervalIntegrable _ _) ((cont_s (-1) p).intervalIntegrable _ _)]

theorem square_s (p : P2) : integ quadInt (pderiv 1 p) = (∫ r in (-1 : ℝ)..1, ev r 1 p) - ∫ r in (-1 : ℝ)..1, ev r (-1) p := by
  obtain ⟨R, hR⟩ := exists_primitive p
  have hcomm : pderiv 0 (pderiv 1 R) = pderiv 1 p := by
    rw [← hR]
    exact pderiv_comm R
  unfold integ quadInt
  have e1 : ∀ s : ℝ, ∫ r in (-1 : ℝ)..1, ev r s (pderiv 1 p) = ev 1 s (pderiv 1 R) - ev (-1) s (pderiv 1 R) := by
    intro s; rw [← hcomm, inner_sq]
  simp only [e1]
  have hd : ∀ s : ℝ, HasDerivAt (fun s => ev 1 s R - ev (-1) s R) (ev 1 s (pderiv 1 R) - ev (-1) s (pderiv 1 R)) s := by
    intro s
    have h1 := hasDerivAt_line R (Polynomial.C 1) Polynomial.X s
    have h2 := hasDerivAt_line R (Polynomial.C (-1)) Polynomial.X s
    refine ((h1.sub h2).congr_of_eventuallyEq (Filter.Eventually.of_forall fun t => by simp)).congr_deriv ?_
    simp
  rw [intervalIntegral.integral_eq_sub_of_hasDerivAt (f := fun s => ev 1 s R - ev (-1) s R) (fun s _ => hd s) (((cont_s 1 _).sub (cont_s (-1) _)).intervalIntegrable _ _)]
  have hb : ∀ s : ℝ, ∫ r in (-1 : ℝ)..1, ev r s p = ev 1 s R - ev (-1) s R := by
    intro s; rw [← hR, inner_sq]
  rw [hb, hb]

/-! ### Values on the two sides of a face -/

theorem faceInt_across {P : ℕ → ℕ} {N : ℕ} {x : List ℝ} (hinc : ∀ i j : ℕ, i < j → j ≤ N → x.getD i 0 < x.getD j 0) (hsym : ∀ i ≤ N, x.getD (N - i) 0 = -x.getD i 0) (e : ℕ)
    (v w : ℕ → ℝ) (h : ∀ i ≤ N, w (across P N e i) = -v i) : faceInt N x w = -faceInt N x v := by
  have e1 : -faceInt N x v = faceInt N x fun i => -1 * v i := by rw [faceInt_smul]; ring
  rw [e1]
  unfold across at h
  by_cases h1 : P e = e
  · simp only [if_pos h1] at h
    exact faceInt_congr hinc _ _ fun i hi => by rw [h i hi]; ring
  · simp only [if_neg h1] at h
    by_cases h2 : (2 ≤ e % 4 ↔ 2 ≤ P e % 4)
    · simp only [if_pos h2] at h
      exact faceInt_mirror hinc hsym _ _ fun i hi => by rw [h i hi]; ring
    · simp only [if_neg h2] at h
      exact faceInt_congr hinc _ _ fun i hi => by rw [h i hi]; ring

/-! ### Polynomials on an element -/

/-- `p` is the polynomial of the element with nodal values `u`. -/
def IsInterp (g : QGrid) (u : ℕ → ℝ) (p : P2) : Prop := QuadSpace g.N p ∧ ∀ i < g.np, nodal g.n.r g.n.s p i = u i

theorem allReg_true (r s : List ℝ) : AllReg (fun _ _ => True) r s := fun _ _ => trivial

theorem QSpec.interp_exists (hg : QSpec P x bt g) (u : ℕ → ℝ) : ∃ p, IsInterp g u p := by
  have hp : (quadPairs g.N).length = g.np := by rw [quadPairs_length]; rfl
  have hV : toMat (modeMatrix (quadPairs g.N) quadMode g.n.r g.n.s) g.np g.np * toMat g.o.Vinv g.np g.np = 1 := mul_eq_one_comm.1 hg.unisolvent
  set c := (toMat g.o.Vinv g.np g.np).mulVec (fun i : Fin g.np => u i) with hc
  refine ⟨comb (quadPairs g.N) quadPoly c, (quadModal g.N).space_comb hp c, fun i hi => ?_⟩
  have := ((quadModal g.N).nodal_comb (allReg_true g.n.r g.n.s) hg.nodes c ⟨i, hi⟩).1
  rw [this, hc, Matrix.mulVec_mulVec, hV, Matrix.one_mulVec]

theorem QSpec.interp_unique (hg : QSpec P x bt g) {u : ℕ → ℝ} {p q : P2} (hp : IsInterp g u p) (hq : IsInterp g u q) : p = q := by
  have hl : (quadPairs g.N).length = g.np := by rw [quadPairs_length]; rfl
  obtain ⟨a, rfl⟩ := (quadModal g.N).coeffs hl hp.1
  obtain ⟨b, rfl⟩ := (quadModal g.N).coeffs hl hq.1
  have h : (toMat (modeMatrix (quadPairs g.N) quadMode g.n.r g.n.s) g.np g.np).mulVec a = (toMat (modeMatrix (quadPairs g.N) quadMode g.n.r g.n.s) g.np g.np).mulVec b := by
    funext i
    rw [← ((quadModal g.N).nodal_comb (allReg_true g.n.r g.n.s) hg.nodes a i).1, ← ((quadModal g.N).nodal_comb (allReg_true g.n.r g.n.s) hg.nodes b i).1, hp.2 i i.2, hq.2 i i.2]
  have h2 := congrArg (toMat g.o.Vinv g.np g.np).mulVec h
  rw [Matrix.mulVec_mulVec, Matrix.mulVec_mulVec, hg.unisolvent, Matrix.one_mulVec, Matrix.one_mulVec] at h2
  rw [h2]

/-! ### Geometry of the grid -/

/-- Outward normal of face `f`, half as long as the face. -/
noncomputable def nrm (Q : Quad) (f : ℕ) : ℝ × ℝ := (((ends Q f).2.2 - (ends Q f).1.2) / 2, -(((ends Q f).2.1 - (ends Q f).1.1) / 2))

theorem nrm_len (Q : Quad) (f : ℕ) : len (nrm Q f) = hypot ((ends Q f).1.1 - (ends Q f).2.1) ((ends Q f).1.2 - (ends Q f).2.2) / 2 := by
  unfold nrm
  rw [len_neg, len_half]
  unfold hypot len
  congr 2
  ring

theorem nrm_pos {Q : Quad} (hQ : ConvexCcw Q) (f : ℕ) (hf : f < 4) : 0 < len (nrm Q f) := by
  rw [nrm_len]
  exact half_pos (quad_ends_pos Q hQ f hf)

/-- The two sides of a face have opposite normals. -/
theorem nrm_swap {Q Q' : Quad} {f f' : ℕ} (h : ends Q' f' = (ends Q f).swap) : nrm Q' f' = (-(nrm Q f).1, -(nrm Q f).2) := by
  unfold nrm
  rw [h]
  simp only [Prod.swap, Prod.mk.injEq]
  constructor <;> ring

/-- Derivatives of the map of element `k` at node `i`, exact. -/
noncomputable def derivOf (g : QGrid) (i k : ℕ) : Deriv := quadDeriv (g.quad k) (g.n.r.getD i 0) (g.n.s.getD i 0)

theorem QSpec.deriv_eq (hg : QSpec P x bt g) (i k : ℕ) (hi : i < g.np) : g.deriv i k = derivOf g i k := by
  have h := C42_quad_built hg.posN hg.elem
  have hi' : i < g.n.r.length := by rw [hg.nodes]; exact hi
  have := quadDeriv_eq h (g.quad k) ⟨i, hi'⟩
  rw [show derivOf g i k = _ from this.symm]
  unfold QGrid.deriv derivAt Matrix.mulVec dotProduct toMat quadNodes nodeX nodeY
  rw [← hg.nodes]
  simp only [Finset.sum_range]

theorem QSpec.jac_pos (hg : QSpec P x bt g) {i k : ℕ} (hi : i < g.np) (hk : k < g.K) : 0 < jac (derivOf g i k) :=
  quad_jac_pos _ (hg.convex k hk) _ _ (hg.inSquare i hi).1 (hg.inSquare i hi).2

theorem div_mod_row {N f i : ℕ} (hi : i ≤ N) : (f * (N + 1) + i) / (N + 1) = f ∧ (f * (N + 1) + i) % (N + 1) = i := by
  constructor
  · rw [Nat.add_comm, Nat.add_mul_div_right _ _ (by omega), Nat.div_eq_of_lt (by omega)]; omega
  · rw [Nat.add_comm, Nat.add_mul_mod_self_right, Nat.mod_eq_of_lt (by omega)]

theorem rawNormal_eq (Q : Quad) (f : ℕ) (hf : f < 4) (t r s : ℝ) (h : (r, s) = quadEdge f t) : rawNormal f (quadDeriv Q r s) = nrm Q f := by
  obtain ⟨h1, h2⟩ := Prod.mk.inj h
  unfold rawNormal nrm
  rcases (by omega : f = 0 ∨ f = 1 ∨ f = 2 ∨ f = 3) with rfl | rfl | rfl | rfl <;> simp at h1 h2 ⊢ <;> subst h1 h2
  · exact quadNormal_eq Q 0 _ _ rfl
  · exact quadNormal_eq Q 1 _ _ rfl
  · exact quadNormal_eq Q 2 _ _ rfl
  · exact quadNormal_eq Q 3 _ _ rfl

theorem QSpec.normal_eq (hg : QSpec P x bt g) (f i k : ℕ) (hf : f < 4) (hi : i ≤ g.N) : g.normal (f * (g.N + 1) + i) k = nrm (g.quad k) f := by
  unfold QGrid.normal
  rw [(div_mod_row hi).1, (div_mod_row hi).2, hg.deriv_eq _ _ (hg.maskLt f hf i hi)]
  exact rawNormal_eq _ f hf _ _ _ (hg.maskPt f hf i hi)

theorem QSpec.fscale_eq (hg : QSpec P x bt g) (f i k : ℕ) (hf : f < 4) (hi : i ≤ g.N) :
    g.fscale (f * (g.N + 1) + i) k = len (nrm (g.quad k) f) / jac (derivOf g (g.n.mask i f) k) := by
  unfold QGrid.fscale DG2D.fscale
  rw [hg.normal_eq f i k hf hi, (div_mod_row hi).1, (div_mod_row hi).2, hg.deriv_eq _ _ (hg.maskLt f hf i hi)]

/-- Flux out of the element at node `i` of face `e`: normal flux of the element's own values minus the jump. -/
noncomputable def outFlux (g : QGrid) (F G : ℕ → ℕ → ℝ) (d : DMat ℝ) (e i : ℕ) : ℝ :=
  (unit (nrm (g.quad (e / 4)) (e % 4))).1 * F (g.n.mask i (e % 4)) (e / 4) + (unit (nrm (g.quad (e / 4)) (e % 4))).2 * G (g.n.mask i (e % 4)) (e / 4)
    - d.at' (e % 4 * (g.N + 1) + i) (e / 4)

theorem sum_four (n : ℕ) (f : ℕ → ℝ) : ∑ c ∈ Finset.range (4 * n), f c = ∑ e ∈ Finset.range 4, ∑ j ∈ Finset.range n, f (e * n + j) := by
  have : 4 * n = n + n + n + n := by ring
  rw [this, Finset.sum_range_add, Finset.sum_range_add, Finset.sum_range_add, Finset.sum_range_succ, Finset.sum_range_succ, Finset.sum_range_succ, Finset.sum_range_one]
  simp only [zero_mul, zero_add, one_mul]
  congr 1
  · congr 1
    apply Finset.sum_congr rfl
    intro j _
    congr 1; ring
  · apply Finset.sum_congr rfl
    intro j _
    congr 1; ring

theorem quadSpace_add {N : ℕ} {p q : P2} (hp : QuadSpace N p) (hq : QuadSpace N q) : QuadSpace N (p + q) :=
  fun i => (MvPolynomial.degreeOf_add_le i p q).trans (max_le (hp i) (hq i))

theorem quadSpace_smul {N : ℕ} {p : P2} (c : ℝ) (hp : QuadSpace N p) : QuadSpace N (C c * p) :=
  fun i => (MvPolynomial.degreeOf_C_mul_le p i c).trans (hp i)

/-- Opposite sides are parallel and equally long. -/
def Parallelogram (Q : Quad) : Prop := Q.xa + Q.xc = Q.xb + Q.xd ∧ Q.ya + Q.yc = Q.yb + Q.yd

/-- On a parallelogram the map is affine. -/
theorem affine_deriv {Q : Quad} (h : Parallelogram Q) (r s : ℝ) : quadDeriv Q r s = quadDeriv Q 0 0 := by
  obtain ⟨h1, h2⟩ := h
  simp only [quadDeriv, Deriv.mk.injEq]
  refine ⟨?_, ?_, ?_, ?_⟩
  · linear_combination s / 4 * h1
  · linear_combination r / 4 * h1
  · linear_combination s / 4 * h2
  · linear_combination r / 4 * h2

/-- **Balance on one parallelogram**: the integral of the right-hand side is minus the flux through the four faces. -/
theorem QSpec.local_balance (hg : QSpec P x bt g) (k : ℕ) (hk : k < g.K) (hpar : Parallelogram (g.quad k)) (F G : ℕ → ℕ → ℝ) (d : DMat ℝ) (p : P2)
    (hp : IsInterp g (fun i => g.divergence F G i k + g.surface d i k) p) :
    jac (quadDeriv (g.quad k) 0 0) * integ quadInt p = -∑ f ∈ Finset.range 4, len (nrm (g.quad k) f) * faceInt g.N x (outFlux g F G d (4 * k + f)) := by
  set Q := g.quad k with hQ
  set J := jac (quadDeriv Q 0 0) with hJd
  have hJ0 : 0 < J := quad_jac_pos _ (hg.convex k hk) _ _ (by simp) (by simp)
  have hdv : ∀ i, derivOf g i k = quadDeriv Q 0 0 := fun i => affine_deriv hpar _ _
  obtain ⟨pF, hF⟩ := hg.interp_exists fun i => F i k
  obtain ⟨pG, hG⟩ := hg.interp_exists fun i => G i k
  have hl := hg.nodes
  choose D hD1 hD2 using fun f => SW.interp_exists hg.inc fun i => d.at' (f * (g.N + 1) + i) k
  have hco : ∀ f < 4, ∀ j ≤ g.N, (if quadOnS f then g.n.s else g.n.r).getD (g.n.mask j f) 0 = x.getD j 0 := by
    intro f hf j hj
    have := hg.maskPt f hf j hj
    obtain ⟨h1, h2⟩ := Prod.mk.inj this
    unfold quadOnS
    rcases (by omega : f = 0 ∨ f = 1 ∨ f = 2 ∨ f = 3) with rfl | rfl | rfl | rfl <;> simp at h1 h2 ⊢ <;> assumption
  have hlift := fun f (hf : f < 4) => hg.elem.lift f hf (D f) (hD1 f)
  choose! w hw1 hw2 hw3 using hlift
  set m := metric (quadDeriv Q 0 0) with hm
  set fs : ℕ → ℝ := fun f => len (nrm Q f) / J with hfs
  set W : P2 := C (-m 0 0) * pderiv 0 pF + C (-m 1 0) * pderiv 1 pF + (C (-m 0 1) * pderiv 0 pG + C (-m 1 1) * pderiv 1 pG)
    + (C (fs 0) * w 0 + C (fs 1) * w 1 + C (fs 2) * w 2 + C (fs 3) * w 3) with hW
  have hWi : IsInterp g (fun i => g.divergence F G i k + g.surface d i k) W := by
    constructor
    · refine quadSpace_add (quadSpace_add (quadSpace_add ?_ ?_) (quadSpace_add ?_ ?_)) (quadSpace_add (quadSpace_add (quadSpace_add ?_ ?_) ?_) ?_) <;> apply quadSpace_smul
      · exact quad_closed _ _ _ hF.1
      · exact quad_closed _ _ _ hF.1
      · exact quad_closed _ _ _ hG.1
      · exact quad_closed _ _ _ hG.1
      · exact hw1 0 (by norm_num)
      · exact hw1 1 (by norm_num)
      · exact hw1 2 (by norm_num)
      · exact hw1 3 (by norm_num)
    · intro i hi
      have hi' : i < g.n.r.length := by rw [hl]; exact hi
      rw [hW]
      simp only [nodal_add, nodal_smul]
      have dF0 : ∑ j ∈ Finset.range g.np, g.o.d.Dr.at' i j * F j k = nodal g.n.r g.n.s (pderiv 0 pF) i := by
        rw [← hg.elem.diff.dr pF hF.1 i hi', hl]
        exact Finset.sum_congr rfl fun j hj => by rw [hF.2 j (Finset.mem_range.1 hj)]
      have dF1 : ∑ j ∈ Finset.range g.np, g.o.d.Ds.at' i j * F j k = nodal g.n.r g.n.s (pderiv 1 pF) i := by
        rw [← hg.elem.diff.ds pF hF.1 i hi', hl]
        exact Finset.sum_congr rfl fun j hj => by rw [hF.2 j (Finset.mem_range.1 hj)]
      have dG0 : ∑ j ∈ Finset.range g.np, g.o.d.Dr.at' i j * G j k = nodal g.n.r g.n.s (pderiv 0 pG) i := by
        rw [← hg.elem.diff.dr pG hG.1 i hi', hl]
        exact Finset.sum_congr rfl fun j hj => by rw [hG.2 j (Finset.mem_range.1 hj)]
      have dG1 : ∑ j ∈ Finset.range g.np, g.o.d.Ds.at' i j * G j k = nodal g.n.r g.n.s (pderiv 1 pG) i := by
        rw [← hg.elem.diff.ds pG hG.1 i hi', hl]
        exact Finset.sum_congr rfl fun j hj => by rw [hG.2 j (Finset.mem_range.1 hj)]
      have hs : ∀ f < 4, ∑ j ∈ Finset.range (g.N + 1), g.o.lift.at' i (f * (g.N + 1) + j) * (g.fscale (f * (g.N + 1) + j) k * d.at' (f * (g.N + 1) + j) k)
          = fs f * nodal g.n.r g.n.s (w f) i := by
        intro f hf
        rw [← hw2 f hf i hi', Finset.mul_sum]
        apply Finset.sum_congr rfl
        intro j hj
        have hj' : j ≤ g.N := by have := Finset.mem_range.1 hj; omega
        beta_reduce
        rw [hg.fscale_eq f j k hf hj', hdv, hco f hf j hj', hD2 f j hj']
        ring
      have hsurf : g.surface d i k = fs 0 * nodal g.n.r g.n.s (w 0) i + fs 1 * nodal g.n.r g.n.s (w 1) i + fs 2 * nodal g.n.r g.n.s (w 2) i + fs 3 * nodal g.n.r g.n.s (w 3) i := by
        unfold QGrid.surface
        rw [sum_four, Finset.sum_range_succ, Finset.sum_range_succ, Finset.sum_range_succ, Finset.sum_range_one, hs 0 (by norm_num), hs 1 (by norm_num), hs 2 (by norm_num), hs 3 (by norm_num)]
      rw [hsurf]
      unfold QGrid.divergence
      rw [dF0, dF1, dG0, dG1, hg.deriv_eq i k hi, hdv]
      ring
  obtain rfl := hg.interp_unique hp hWi
  have hM := quadModal g.N
  have hone : ∀ f < 4, integ quadInt (w f) = ∫ t in (-1 : ℝ)..1, (D f).eval t := by
    intro f hf
    have := hw3 f hf 1 (quad_low g.N hg.posN).1
    simpa using this
  have htr : ∀ f < 4, ∀ q : P2, QuadSpace g.N q → ∃ u : Polynomial ℝ, u.natDegree ≤ g.N ∧ ∀ t, u.eval t = ev (quadEdge f t).1 (quadEdge f t).2 q :=
    fun f hf q hq => quadTrace g.N f hf q hq
  choose! u hu1 hu2 using htr
  have hout : ∀ f < 4, faceInt g.N x (outFlux g F G d (4 * k + f)) = (unit (nrm Q f)).1 * (∫ t in (-1 : ℝ)..1, (u f pF).eval t)
      + (unit (nrm Q f)).2 * (∫ t in (-1 : ℝ)..1, (u f pG).eval t) - ∫ t in (-1 : ℝ)..1, (D f).eval t := by
    intro f hf
    set Φ : Polynomial ℝ := Polynomial.C (unit (nrm Q f)).1 * u f pF + Polynomial.C (unit (nrm Q f)).2 * u f pG - D f with hΦ
    have hdeg : Φ.natDegree ≤ g.N := by
      rw [hΦ]
      refine (Polynomial.natDegree_sub_le_of_le (Polynomial.natDegree_add_le_of_degree_le ?_ ?_) (hD1 f)).trans (max_self g.N).le
      · exact (Polynomial.natDegree_C_mul_le _ _).trans (hu1 f hf pF hF.1)
      · exact (Polynomial.natDegree_C_mul_le _ _).trans (hu1 f hf pG hG.1)
    have hval : ∀ i ≤ g.N, ∀ (q : P2) (v : ℕ → ℝ), IsInterp g v q → (u f q).eval (x.getD i 0) = v (g.n.mask i f) := by
      intro i hi q v hq
      rw [hu2 f hf q hq.1, ← hg.maskPt f hf i hi, ← hq.2 _ (hg.maskLt f hf i hi)]
      rfl
    rw [← faceInt_eq hg.inc Φ hdeg]
    · rw [hΦ]
      simp only [Polynomial.eval_sub, Polynomial.eval_add, Polynomial.eval_mul, Polynomial.eval_C]
      have c1 : ∀ q : Polynomial ℝ, Continuous fun t => q.eval t := fun q => q.continuous
      have ci : ∀ (a : ℝ) (q : Polynomial ℝ), IntervalIntegrable (fun t => a * q.eval t) MeasureTheory.volume (-1) 1 :=
        fun a q => ((c1 q).const_mul a).intervalIntegrable _ _
      rw [intervalIntegral.integral_sub ((ci _ _).add (ci _ _)) ((c1 _).intervalIntegrable _ _), intervalIntegral.integral_add (ci _ _) (ci _ _),
        intervalIntegral.integral_const_mul, intervalIntegral.integral_const_mul]
    · intro i hi
      rw [hΦ]
      simp only [Polynomial.eval_sub, Polynomial.eval_add, Polynomial.eval_mul, Polynomial.eval_C]
      rw [hval i hi pF _ hF, hval i hi pG _ hG, hD2 f i hi]
      unfold outFlux
      rw [show (4 * k + f) / 4 = k by omega, show (4 * k + f) % 4 = f by omega]
  have hA : ∀ q : P2, QuadSpace g.N q → integ quadInt (pderiv 0 q) = (∫ t in (-1 : ℝ)..1, (u 1 q).eval t) - ∫ t in (-1 : ℝ)..1, (u 3 q).eval t := by
    intro q hq
    rw [square_r]
    congr 1 <;> congr 1 <;> funext t
    · rw [hu2 1 (by norm_num) q hq]; simp [quadEdge]
    · rw [hu2 3 (by norm_num) q hq]; simp [quadEdge]
  have hB : ∀ q : P2, QuadSpace g.N q → integ quadInt (pderiv 1 q) = (∫ t in (-1 : ℝ)..1, (u 2 q).eval t) - ∫ t in (-1 : ℝ)..1, (u 0 q).eval t := by
    intro q hq
    rw [square_s]
    congr 1 <;> congr 1 <;> funext t
    · rw [hu2 2 (by norm_num) q hq]; simp [quadEdge]
    · rw [hu2 0 (by norm_num) q hq]; simp [quadEdge]
  have hn : ∀ f < 4, len (nrm Q f) * (unit (nrm Q f)).1 = (nrm Q f).1 ∧ len (nrm Q f) * (unit (nrm Q f)).2 = (nrm Q f).2 := by
    intro f hf
    have : len (nrm Q f) ≠ 0 := (nrm_pos (hg.convex k hk) f hf).ne'
    unfold unit
    constructor <;> field_simp
  rw [hW]
  simp only [hM.add, hM.smul]
  rw [hA pF hF.1, hB pF hF.1, hA pG hG.1, hB pG hG.1, hone 0 (by norm_num), hone 1 (by norm_num), hone 2 (by norm_num), hone 3 (by norm_num)]
  rw [Finset.sum_range_succ, Finset.sum_range_succ, Finset.sum_range_succ, Finset.sum_range_one, hout 0 (by norm_num), hout 1 (by norm_num), hout 2 (by norm_num), hout 3 (by norm_num)]
  generalize (∫ t in (-1 : ℝ)..1, (u 0 pF).eval t) = a0
  generalize (∫ t in (-1 : ℝ)..1, (u 1 pF).eval t) = a1
  generalize (∫ t in (-1 : ℝ)..1, (u 2 pF).eval t) = a2
  generalize (∫ t in (-1 : ℝ)..1, (u 3 pF).eval t) = a3
  generalize (∫ t in (-1 : ℝ)..1, (u 0 pG).eval t) = b0
  generalize (∫ t in (-1 : ℝ)..1, (u 1 pG).eval t) = b1
  generalize (∫ t in (-1 : ℝ)..1, (u 2 pG).eval t) = b2
  generalize (∫ t in (-1 : ℝ)..1, (u 3 pG).eval t) = b3
  generalize (∫ t in (-1 : ℝ)..1, (D 0).eval t) = d0
  generalize (∫ t in (-1 : ℝ)..1, (D 1).eval t) = d1
  generalize (∫ t in (-1 : ℝ)..1, (D 2).eval t) = d2
  generalize (∫ t in (-1 : ℝ)..1, (D 3).eval t) = d3
  have hfs' : ∀ f, J * fs f = len (nrm Q f) := fun f => by rw [hfs]; field_simp
  have hm' : J * m 0 0 = (quadDeriv Q 0 0).ys ∧ J * m 0 1 = -(quadDeriv Q 0 0).xs ∧ J * m 1 0 = -(quadDeriv Q 0 0).yr ∧ J * m 1 1 = (quadDeriv Q 0 0).xr := by
    rw [hm]
    unfold metric
    rw [← hJd]
    refine ⟨?_, ?_, ?_, ?_⟩ <;> simp <;> field_simp
  obtain ⟨m1, m2, m3, m4⟩ := hm'
  have hr : ∀ f < 4, nrm Q f = rawNormal f (quadDeriv Q 0 0) := by
    intro f hf
    rw [← rawNormal_eq Q f hf 0 _ _ rfl]
    rw [affine_deriv hpar]
  have x0 : len (nrm Q 0) * (unit (nrm Q 0)).1 = (quadDeriv Q 0 0).yr := by rw [(hn 0 (by norm_num)).1, hr 0 (by norm_num)]; rfl
  have y0 : len (nrm Q 0) * (unit (nrm Q 0)).2 = -(quadDeriv Q 0 0).xr := by rw [(hn 0 (by norm_num)).2, hr 0 (by norm_num)]; rfl
  have x1 : len (nrm Q 1) * (unit (nrm Q 1)).1 = (quadDeriv Q 0 0).ys := by rw [(hn 1 (by norm_num)).1, hr 1 (by norm_num)]; rfl
  have y1 : len (nrm Q 1) * (unit (nrm Q 1)).2 = -(quadDeriv Q 0 0).xs := by rw [(hn 1 (by norm_num)).2, hr 1 (by norm_num)]; rfl
  have x2 : len (nrm Q 2) * (unit (nrm Q 2)).1 = -(quadDeriv Q 0 0).yr := by rw [(hn 2 (by norm_num)).1, hr 2 (by norm_num)]; rfl
  have y2 : len (nrm Q 2) * (unit (nrm Q 2)).2 = (quadDeriv Q 0 0).xr := by rw [(hn 2 (by norm_num)).2, hr 2 (by norm_num)]; rfl
  have x3 : len (nrm Q 3) * (unit (nrm Q 3)).1 = -(quadDeriv Q 0 0).ys := by rw [(hn 3 (by norm_num)).1, hr 3 (by norm_num)]; rfl
  have y3 : len (nrm Q 3) * (unit (nrm Q 3)).2 = (quadDeriv Q 0 0).xs := by rw [(hn 3 (by norm_num)).2, hr 3 (by norm_num)]; rfl
  linear_combination (-(a1 - a3)) * m1 - (a2 - a0) * m3 - (b1 - b3) * m2 - (b2 - b0) * m4 + d0 * hfs' 0 + d1 * hfs' 1 + d2 * hfs' 2 + d3 * hfs' 3
    + a0 * x0 + b0 * y0 + a1 * x1 + b1 * y1 + a2 * x2 + b2 * y2 + a3 * x3 + b3 * y3

/-! ### The whole grid -/

/-- Integral over the domain of a field given by nodal values: the sum over the elements of the integral, over the reference square, of the Jacobian of the map times the polynomial. -/
def IsTotal (g : QGrid) (u : ℕ → ℕ → ℝ) (M : ℝ) : Prop :=
  ∃ p : ℕ → P2, (∀ k < g.K, IsInterp g (fun i => u i k) (p k)) ∧ M = ∑ k ∈ Finset.range g.K, quadInt fun r s => jac (quadDeriv (g.quad k) r s) * ev r s (p k)

theorem QSpec.total_exists (hg : QSpec P x bt g) (u : ℕ → ℕ → ℝ) : ∃ M, IsTotal g u M := by
  choose p hp using fun k => hg.interp_exists fun i => u i k
  exact ⟨_, p, fun k _ => hp k, rfl⟩

theorem QSpec.total_unique (hg : QSpec P x bt g) {u : ℕ → ℕ → ℝ} {M M' : ℝ} (h : IsTotal g u M) (h' : IsTotal g u M') : M = M' := by
  obtain ⟨p, h1, rfl⟩ := h
  obtain ⟨p', h1', rfl⟩ := h'
  apply Finset.sum_congr rfl
  intro k hk
  rw [hg.interp_unique (h1 k (Finset.mem_range.1 hk)) (h1' k (Finset.mem_range.1 hk))]

theorem IsTotal.congr {u v : ℕ → ℕ → ℝ} (h : ∀ i < g.np, ∀ k < g.K, u i k = v i k) {M : ℝ} (hM : IsTotal g u M) : IsTotal g v M := by
  obtain ⟨p, h1, h2⟩ := hM
  exact ⟨p, fun k hk => ⟨(h1 k hk).1, fun i hi => ((h1 k hk).2 i hi).trans (h i hi k hk)⟩, h2⟩

theorem jac_affine {Q : Quad} (h : Parallelogram Q) (p : P2) : (quadInt fun r s => jac (quadDeriv Q r s) * ev r s p) = jac (quadDeriv Q 0 0) * integ quadInt p := by
  have : (fun r s => jac (quadDeriv Q r s) * ev r s p) = fun r s => ev r s (C (jac (quadDeriv Q 0 0)) * p) := by
    funext r s
    rw [affine_deriv h]
    simp
  rw [this]
  exact (quadModal 0).smul _ _

/-- Length of face `e`. -/
noncomputable def faceLen (g : QGrid) (e : ℕ) : ℝ :=
  hypot ((ends (g.quad (e / 4)) (e % 4)).1.1 - (ends (g.quad (e / 4)) (e % 4)).2.1) ((ends (g.quad (e / 4)) (e % 4)).1.2 - (ends (g.quad (e / 4)) (e % 4)).2.2)

theorem sum_faces (K : ℕ) (f : ℕ → ℝ) : ∑ k ∈ Finset.range K, ∑ j ∈ Finset.range 4, f (4 * k + j) = ∑ e ∈ Finset.range (4 * K), f e := by
  induction K with
  | zero => simp
  | succ K ih =>
    rw [Finset.sum_range_succ, ih, show 4 * (K + 1) = 4 * K + 4 by ring, Finset.sum_range_add]

/-- **Balance on a grid of parallelograms**: if what leaves an element through a node of an interior face enters its neighbour, the total changes by the boundary fluxes only. -/
theorem QSpec.balance (hg : QSpec P x bt g) (hpar : ∀ k < g.K, Parallelogram (g.quad k)) (F G : ℕ → ℕ → ℝ) (d : DMat ℝ)
    (hanti : ∀ e < 4 * g.K, P e ≠ e → ∀ i ≤ g.N, outFlux g F G d (P e) (across P g.N e i) = -outFlux g F G d e i) :
    IsTotal g (fun i k => g.divergence F G i k + g.surface d i k)
      (-∑ e ∈ (Finset.range (4 * g.K)).filter (fun e => P e = e), faceLen g e / 2 * faceInt g.N x (outFlux g F G d e)) := by
  obtain ⟨M, hM⟩ := hg.total_exists fun i k => g.divergence F G i k + g.surface d i k
  obtain ⟨p, h1, h2⟩ := hM
  refine ⟨p, h1, ?_⟩
  have e1 : ∀ k ∈ Finset.range g.K, (quadInt fun r s => jac (quadDeriv (g.quad k) r s) * ev r s (p k))
      = -∑ f ∈ Finset.range 4, faceLen g (4 * k + f) / 2 * faceInt g.N x (outFlux g F G d (4 * k + f)) := by
    intro k hk
    have hk := Finset.mem_range.1 hk
    rw [jac_affine (hpar k hk), hg.local_balance k hk (hpar k hk) F G d (p k) (h1 k hk)]
    congr 1
    apply Finset.sum_congr rfl
    intro f hf
    have hf := Finset.mem_range.1 hf
    unfold faceLen
    rw [show (4 * k + f) / 4 = k by omega, show (4 * k + f) % 4 = f by omega, nrm_len _ f]
  rw [Finset.sum_congr rfl e1, Finset.sum_neg_distrib, sum_faces g.K fun e => faceLen g e / 2 * faceInt g.N x (outFlux g F G d e)]
  congr 1
  symm
  apply sum_pairs _ P hg.lt hg.inv
  intro e he hne
  rw [faceInt_across hg.inc hg.sym e _ _ (hanti e he hne)]
  have : faceLen g (P e) = faceLen g e := by
    unfold faceLen
    rw [hg.meet e he hne]
    exact hypot_comm _ _ _ _
  rw [this]
  ring

end Blitzdg.Quads
