import Verif.Poisson.CubProps

/-! C103: the face terms of the operator, for all tags and all piecewise polynomials. -/

namespace Blitzdg.Poisson

open MvPolynomial
open Blitzdg.Sparse (DMat Csc Triplet Represents)
open Blitzdg.Nodes1D (Lapack exactLapack)
open Blitzdg.DG2D
open Blitzdg.SW (Grid Mesh GridSpec Provisioned gridX gridY faceEnds lerp)
open Blitzdg.Ctx (GaussFace Cubature GaussSpec CubatureSpec diagOf atNode atGauss atPoint along)

variable {g : Grid} {m : Mesh} {P : ℕ → ℕ} {x : List ℝ} {bt : List Int}

/-! ### What the face terms are -/

/-- Value of `V` at Gauss point `i` of face `e`, from inside. -/
noncomputable def traceM (gc : GaussFace) (NG e : ℕ) (V : ℕ → P2) (i : ℕ) : ℝ := atGauss gc (V (e / 3)) (e / 3) (e % 3 * NG + i)

/-- The value from the other side which the code puts beside it.  The points of the two sides run in opposite directions, so it should be at point `NG - 1 - i` of the other face; it is at the later one
of the points `i` and `NG - 1 - i`. -/
noncomputable def traceP (gc : GaussFace) (P : ℕ → ℕ) (NG e : ℕ) (U : ℕ → P2) (i : ℕ) : ℝ := atGauss gc (U (P e / 3)) (P e / 3) (P e % 3 * NG + max i (NG - 1 - i))

/-- Normal derivative of `V` which the code puts at Gauss point `i` of face `e`: that at point `i` of the first face of the element. -/
noncomputable def slopeM (g : Grid) (gc : GaussFace) (e : ℕ) (V : ℕ → P2) (i : ℕ) : ℝ :=
  (outward g e).1 * atGauss gc (pderiv 0 (V (e / 3))) (e / 3) i + (outward g e).2 * atGauss gc (pderiv 1 (V (e / 3))) (e / 3) i

/-- The same from the other side: at point `i` of the first face of the other element, times the ratio of the two areas. -/
noncomputable def slopeP (g : Grid) (gc : GaussFace) (P : ℕ → ℕ) (e : ℕ) (U : ℕ → P2) (i : ℕ) : ℝ :=
  cross (g.tri (P e / 3)) / cross (g.tri (e / 3)) *
    ((outward g e).1 * atGauss gc (pderiv 0 (U (P e / 3))) (P e / 3) i + (outward g e).2 * atGauss gc (pderiv 1 (U (P e / 3))) (P e / 3) i)

/-- Contribution of face `e` to `vᵀ OP u`.  With the interior penalty form it would be, for weights `w` and the penalty `τ`, `Σ w (-V ∂U - ∂V U + τ V U)` on a Dirichlet face and
`Σ w (-½ V (∂U + ∂U⁺) - ½ ∂V (U - U⁺) + ½ τ V (U - U⁺))` on an interior one. -/
noncomputable def gaussTerm (g : Grid) (m : Mesh) (P : ℕ → ℕ) (gc : GaussFace) (NG e : ℕ) (v u : ℕ → ℝ) (V U : ℕ → P2) : ℝ :=
  let w := fun i => gc.W.at' (e % 3 * NG + i) (e / 3)
  let s := fun h : ℕ → ℝ => ∑ i ∈ Finset.range NG, w i * h i
  if tagOf m e = 6 then s fun i => -(slopeM g gc e V i * traceM gc NG e U i) - traceM gc NG e V i * traceM gc NG e U i + penalty g P e * (traceM gc NG e V i * traceM gc NG e U i)
  else if tagOf m e = 7 ∨ tagOf m e = 3 then 0
  else
    (s fun i => -(1 / 2) * (traceM gc NG e V i * (slopeM g gc e U i + slopeP g gc P e U i)) - 1 / 2 * (slopeM g gc e V i * (traceM gc NG e U i - traceP gc P NG e U i))
      + 1 / 2 * (penalty g P e * (traceM gc NG e V i * traceM gc NG e U i)))
    - 1 / 2 * (penalty g P e * segLen (seg g e) * ((∑ i ∈ Finset.range g.np, v (i + g.np * (e / 3))) * ∑ i ∈ Finset.range g.np, u (i + g.np * (P e / 3))))

/-! ### The locals of one pass -/

/-- The assignment leaves the second half of the rows as it is and mirrors it into the first half. -/
theorem reverse_rows (n : ℕ) (a : ℕ → ℕ → ℝ) (i : ℕ) (hi : i < n) (j : ℕ) : reverseInPlace n a i j = a (max i (n - 1 - i)) j := by
  unfold reverseInPlace
  have : ∀ p ≤ n, ∀ i < n, (List.range p).foldl (fun a i => fun i' j => if i' = i then a (n - 1 - i) j else a i' j) a i j = a (if i < p then max i (n - 1 - i) else i) j := by
    intro p
    induction p with
    | zero => intro _ i _; simp
    | succ p ih =>
      intro hp i hi
      rw [List.range_succ, List.foldl_append]
      simp only [List.foldl_cons, List.foldl_nil]
      by_cases h : i = p
      · subst h
        rw [if_pos rfl, ih (by omega) _ (by omega), if_pos (by omega : i < i + 1)]
        congr 1
        split_ifs <;> omega
      · rw [if_neg h, ih (by omega) _ hi]
        congr 1
        split_ifs <;> omega
  rw [this n le_rfl i hi, if_pos hi]

theorem metricBy_scale (d : Deriv) {J J' : ℝ} (hJ : J ≠ 0) (a b : ℕ) : metricBy d J' a b = J / J' * metricBy d J a b := by
  unfold metricBy
  split_ifs <;> field_simp

/-- The locals of one pass, applied to nodal values of polynomials. -/
structure GFaceVals (g : Grid) (P : ℕ → ℕ) (NG : ℕ) (gc : GaussFace) (e : ℕ) (F : GFace) : Prop where
  gw : ∀ i, F.gw i = gc.W.at' (e % 3 * NG + i) (e / 3)
  gVM : ∀ v V, OnElem g (e / 3) v V → ∀ i < NG, ∑ j ∈ Finset.range g.np, F.gVM i j * v j = atGauss gc V (e / 3) (e % 3 * NG + i)
  gVP : ∀ v V, OnElem g (P e / 3) v V → ∀ i < NG, ∑ j ∈ Finset.range g.np, F.gVP i j * v j = atGauss gc V (P e / 3) (P e % 3 * NG + max i (NG - 1 - i))
  gDnM : ∀ v V, OnElem g (e / 3) v V → ∀ i < NG, ∑ j ∈ Finset.range g.np, F.gDnM i j * v j
    = (outward g e).1 * atGauss gc (pderiv 0 V) (e / 3) i + (outward g e).2 * atGauss gc (pderiv 1 V) (e / 3) i
  gDnP : ∀ v V, OnElem g (P e / 3) v V → ∀ i < NG, ∑ j ∈ Finset.range g.np, F.gDnP i j * v j
    = cross (g.tri (P e / 3)) / cross (g.tri (e / 3)) * ((outward g e).1 * atGauss gc (pderiv 0 V) (P e / 3) i + (outward g e).2 * atGauss gc (pderiv 1 V) (P e / 3) i)

theorem interp_elem {NG : ℕ} {gc : GaussFace} (hgc : GaussSpec g P bt NG gc) {k : ℕ} (hk : k < g.K) {v : ℕ → ℝ} {V : P2} (hv : OnElem g k v V) {i : ℕ} (hi : i < 3 * NG) :
    ∑ j ∈ Finset.range g.np, gc.interp.at' i j * v j = atGauss gc V k i := by
  rw [← hgc.interp V hv.1 i hi k hk]
  refine Finset.sum_congr rfl fun j hj => ?_
  rw [← hv.2 j (Finset.mem_range.1 hj)]
  rfl

theorem gface_vals (hg : GridSpec P x bt g) (m : Mesh) (hm : Conn 3 g.K m.E m.F P) {NG : ℕ} {gc : GaussFace} (hgc : GaussSpec g P bt NG gc) (eps : ℝ) {k f : ℕ} (hk : k < g.K) (hf : f < 3) {F : GFace}
    (h : (ctxOf g m).gface (nodeX g) (nodeY g) eps gc k f = .ok F) : GFaceVals g P NG gc (3 * k + f) F := by
  have he : 3 * k + f < 3 * g.K := by omega
  have hd : (3 * k + f) / 3 = k ∧ (3 * k + f) % 3 = f := by omega
  have hPe := hg.lt _ he
  have hK : 0 < g.K := by omega
  have r1 : rd m.E (3 * k + f) = .ok (P (3 * k + f) / 3) := rd_eq_ok.2 (hm.e _ he)
  have r2 : rd m.F (3 * k + f) = .ok (P (3 * k + f) % 3) := rd_eq_ok.2 (hm.f _ he)
  have hP3 : P (3 * k + f) / 3 < g.K := by omega
  have hrow : ∀ f < 3, ∀ i < NG, f * NG + i < 3 * NG := by
    intro f hf i hi
    have : (f + 1) * NG ≤ 3 * NG := Nat.mul_le_mul_right _ hf
    rw [Nat.succ_mul] at this; omega
  have hlow : ∀ i < NG, i < 3 * NG := fun i hi => by omega
  have d1 : ∀ k', ∀ i < NG, derivAt g.np (msum g.np gc.interp.at' g.o.d.Dr.at') (msum g.np gc.interp.at' g.o.d.Ds.at') (fun j => gridX (g.tri k') g.n j) (fun j => gridY (g.tri k') g.n j) i
      = triDerivOf (g.tri k') := fun k' i hi => map_deriv hg _ i (interp_one hgc hK (hlow i hi)) k'
  have hn : ∀ i < NG, gc.nx.at' (i + f * NG) k = (outward g (3 * k + f)).1 ∧ gc.ny.at' (i + f * NG) k = (outward g (3 * k + f)).2 := by
    intro i hi
    obtain ⟨a, b, c⟩ := hgc.normal k hk f hf i hi
    rw [add_comm (f * NG) i] at a b
    unfold outward seg segNormal
    rw [hd.1, hd.2]
    have c' : segLen (faceEnds (g.tri k) f) ≠ 0 := ne_of_gt c
    exact ⟨(eq_div_iff c').2 a, (eq_div_iff c').2 (b.trans (by ring))⟩
  have ap : ∀ k' < g.K, ∀ v V, OnElem g k' v V → ∀ b : Fin 2, ∀ i < NG, ∑ j ∈ Finset.range g.np,
      cart (derivAt g.np (msum g.np gc.interp.at' g.o.d.Dr.at') (msum g.np gc.interp.at' g.o.d.Ds.at') (fun j => gridX (g.tri k') g.n j) (fun j => gridY (g.tri k') g.n j))
      (fun i => jac (derivAt g.np (msum g.np gc.interp.at' g.o.d.Dr.at') (msum g.np gc.interp.at' g.o.d.Ds.at') (fun j => gridX (g.tri k) g.n j) (fun j => gridY (g.tri k) g.n j) i))
      (msum g.np gc.interp.at' g.o.d.Dr.at') (msum g.np gc.interp.at' g.o.d.Ds.at') b i j * v j = cross (g.tri k') / cross (g.tri k) * atGauss gc (pderiv b V) k' i := by
    intro k' hk' v V hv b i hi
    have h1 := cart_apply hg m gc.interp.at' i hk' hv _ (d1 k' i hi) b
    have h2 : ∑ l ∈ Finset.range g.np, gc.interp.at' i l * sample g k' (pderiv b V) l = atGauss gc (pderiv b V) k' i := hgc.interp (pderiv b V) (tri_closed g.N b V hv.1) i (hlow i hi) k' hk'
    rw [← h2, ← h1, Finset.mul_sum]
    refine Finset.sum_congr rfl fun j _ => ?_
    have hc : cross (g.tri k') / 4 ≠ 0 := by have := hg.ccw k' hk'; positivity
    unfold cart
    simp only [d1 k' i hi, d1 k i hi, SW.jac_triDerivOf]
    rw [metricBy_scale (triDerivOf (g.tri k')) (J' := cross (g.tri k) / 4) hc 0, metricBy_scale (triDerivOf (g.tri k')) (J' := cross (g.tri k) / 4) hc 1]
    rw [show cross (g.tri k') / 4 / (cross (g.tri k) / 4) = cross (g.tri k') / cross (g.tri k) from div_div_div_cancel_right₀ (by norm_num) _ _]
    ring
  have lin : ∀ (p q : ℝ) (A B : ℕ → ℕ → ℝ) (v : ℕ → ℝ) (i : ℕ), ∑ j ∈ Finset.range g.np, (p * A i j + q * B i j) * v j
      = p * ∑ j ∈ Finset.range g.np, A i j * v j + q * ∑ j ∈ Finset.range g.np, B i j * v j := by
    intro p q A B v i
    rw [Finset.mul_sum, Finset.mul_sum, ← Finset.sum_add_distrib]
    exact Finset.sum_congr rfl fun j _ => by ring
  unfold Ctx.gface at h
  simp only [show (ctxOf g m).E = m.E from rfl, show (ctxOf g m).F = m.F from rfl, show (ctxOf g m).nf = 3 from rfl, show (ctxOf g m).nfp = g.N + 1 from rfl,
    show (ctxOf g m).Np = g.np from rfl, show (ctxOf g m).K = g.K from rfl, show (ctxOf g m).Dr = g.o.d.Dr.at' from rfl, show (ctxOf g m).Ds = g.o.d.Ds.at' from rfl, r1, r2, Out.bind_ok, hgc.count] at h
  rw [if_pos ⟨hP3, by omega⟩] at h
  simp only [nodeX, nodeY] at h
  split_ifs at h with c1 c2 c3
  simp only [pure] at h
  injection h with h
  subst h
  have self : cross (g.tri k) / cross (g.tri k) = 1 := div_self (ne_of_gt (hg.ccw k hk))
  constructor <;> try rw [hd.1]
  all_goals try rw [hd.2]
  · intro i; show gc.W.at' (i + f * NG) k = _; rw [add_comm]
  · exact fun v V hv i hi => interp_elem hgc hk hv (hrow f hf i hi)
  · intro v V hv i hi
    simp only [reverse_rows NG _ i hi]
    exact interp_elem hgc hP3 hv (hrow _ (by omega) _ (by omega))
  · intro v V hv i hi
    have a0 := ap k hk v V hv 0 i hi
    have a1 := ap k hk v V hv 1 i hi
    rw [self, one_mul] at a0 a1
    refine (lin _ _ _ _ v i).trans ?_
    rw [(hn i hi).1, (hn i hi).2]
    exact congrArg₂ (· + ·) (congrArg _ a0) (congrArg _ a1)
  · intro v V hv i hi
    have a0 := ap _ hP3 v V hv 0 i hi
    have a1 := ap _ hP3 v V hv 1 i hi
    refine (lin _ _ _ _ v i).trans ?_
    rw [(hn i hi).1, (hn i hi).2, mul_add]
    exact congrArg₂ (· + ·) ((congrArg _ a0).trans (by ring)) ((congrArg _ a1).trans (by ring))

theorem bil_const (n : ℕ) (a : ℝ) (v u : ℕ → ℝ) : bil n (fun _ _ => a) v u = a * ((∑ i ∈ Finset.range n, v i) * ∑ j ∈ Finset.range n, u j) := by
  unfold bil
  rw [Finset.sum_mul_sum, Finset.mul_sum]
  refine Finset.sum_congr rfl fun i _ => ?_
  rw [Finset.mul_sum]
  exact Finset.sum_congr rfl fun j _ => by ring

theorem gface_term {NG : ℕ} {gc : GaussFace} {e : ℕ} {F : GFace} (h : GFaceData g P NG e F) (h' : GFaceVals g P NG gc e F) {v u : ℕ → ℝ} {V U : ℕ → P2}
    (hv : OnElem g (e / 3) (loc g.np v (e / 3)) (V (e / 3))) (hu : OnElem g (e / 3) (loc g.np u (e / 3)) (U (e / 3))) (hu2 : OnElem g (P e / 3) (loc g.np u (P e / 3)) (U (P e / 3))) :
    gfaceForm g.np NG (tagOf m e) F (loc g.np v (e / 3)) (loc g.np u (e / 3)) (loc g.np u (P e / 3)) = gaussTerm g m P gc NG e v u V U := by
  have w1 : ∀ (z : ℕ → ℝ) k, ∑ i ∈ Finset.range g.np, F.wVM k i * z i = F.gw k * ∑ i ∈ Finset.range g.np, F.gVM k i * z i := fun z k => by
    unfold GFace.wVM; rw [Finset.mul_sum]; exact Finset.sum_congr rfl fun i _ => by ring
  have w2 : ∀ (z : ℕ → ℝ) k, ∑ i ∈ Finset.range g.np, F.wVP k i * z i = F.gw k * ∑ i ∈ Finset.range g.np, F.gVP k i * z i := fun z k => by
    unfold GFace.wVP; rw [Finset.mul_sum]; exact Finset.sum_congr rfl fun i _ => by ring
  have t7 : ∑ a ∈ Finset.range g.np, ∑ b ∈ Finset.range g.np, ∑ k ∈ Finset.range NG, F.wVM k a * F.gVP k b = segLen (seg g e) := by
    have := bil_tsum g.np NG F.wVM F.gVP one one
    rw [bil_one] at this
    refine this.trans ?_
    rw [← h.gw]
    exact Finset.sum_congr rfl fun k hk => by
      rw [w1]
      have a := h.gVM k (Finset.mem_range.1 hk)
      have b := h.gVP k (Finset.mem_range.1 hk)
      simp only [one, mul_one, a, b]
  unfold gfaceForm gaussTerm
  simp only [← h'.gw]
  split_ifs
  · have : F.dirichlet NG = fun i j => (fun i j => -tsum NG F.gDnM F.wVM i j - tsum NG F.gVM F.wVM i j) i j + (fun i j => F.tau * tsum NG F.gVM F.wVM i j) i j := rfl
    rw [this, bil_add, bil_sub, bil_neg, bil_smul, bil_tsum, bil_tsum, h.tau, Finset.mul_sum, ← Finset.sum_neg_distrib, ← Finset.sum_sub_distrib, ← Finset.sum_add_distrib]
    refine Finset.sum_congr rfl fun k hk => ?_
    have hk' := Finset.mem_range.1 hk
    rw [w1, h'.gVM _ _ hu k hk', h'.gVM _ _ hv k hk', h'.gDnM _ _ hv k hk']
    unfold slopeM traceM
    ring
  · rfl
  · have e1 : F.own NG = fun i j => (fun i j => -(0.5 * tsum NG F.wVM F.gDnM i j) - 0.5 * tsum NG F.gDnM F.wVM i j) i j + (fun i j => 0.5 * F.tau * tsum NG F.wVM F.gVM i j) i j := rfl
    have e2 : F.cross g.np NG = fun i j => (fun i j => (fun _ _ => -0.5 * F.tau * segLen (seg g e)) i j - 0.5 * tsum NG F.wVM F.gDnP i j) i j + (fun i j => 0.5 * tsum NG F.gDnM F.wVP i j) i j := by
      funext i j; unfold GFace.cross; rw [t7]
    rw [e1, e2, bil_add, bil_add, bil_sub, bil_sub, bil_neg, bil_smul, bil_smul, bil_smul, bil_smul, bil_smul, bil_smul, bil_const, bil_tsum, bil_tsum, bil_tsum, bil_tsum, bil_tsum, h.tau]
    have fin : ∀ a b c d f s r : ℝ, s = -(0.5 * a) - 0.5 * b + c - 0.5 * d + 0.5 * f →
        -(0.5 * a) - 0.5 * b + c + (-0.5 * penalty g P e * (segLen (seg g e) * r) - 0.5 * d + 0.5 * f) = s - 1 / 2 * (penalty g P e * segLen (seg g e) * r) := by
      intro a b c d f s r hs; rw [hs]; ring
    refine fin _ _ _ _ _ _ _ ?_
    rw [Finset.mul_sum, Finset.mul_sum, Finset.mul_sum, Finset.mul_sum, Finset.mul_sum, ← Finset.sum_neg_distrib, ← Finset.sum_sub_distrib, ← Finset.sum_add_distrib, ← Finset.sum_sub_distrib, ← Finset.sum_add_distrib]
    refine Finset.sum_congr rfl fun k hk => ?_
    have hk' := Finset.mem_range.1 hk
    rw [w1, w1, w2, h'.gVM _ _ hu k hk', h'.gVM _ _ hv k hk', h'.gDnM _ _ hv k hk', h'.gDnM _ _ hu k hk', h'.gDnP _ _ hu2 k hk', h'.gVP _ _ hu2 k hk']
    unfold slopeM slopeP traceM traceP
    ring

/-! ### C103 -/

variable {la : Lapack} {eps ztol tol : ℝ} {N : ℕ} {NG NC : ℕ} {gc : GaussFace} {cc : Cubature}

/-- **C103, all of the operator.** Whenever the constructor ends normally, `vᵀ OP u` is, for all piecewise polynomials, the cubature of `∇U·∇V` plus the sum of `gaussTerm` over the faces, whatever the tags. -/
theorem C103_faces (h : Provisioned la eps ztol tol N m P g) (hi : Fits g false) (hgc : GaussSpec g P m.bcType NG gc) (hcc : CubatureSpec g NC cc) {op mm : Csc ℝ}
    (hop : cubOperator eps g m gc cc = .ok (op, mm)) {A : ℕ → ℕ → ℝ} (hA : Represents op A) (v u : ℕ → ℝ) (V U : ℕ → P2) (hv : HasNodes g v V) (hu : HasNodes g u U) :
    ∑ i ∈ Finset.range (g.np * g.K), ∑ j ∈ Finset.range (g.np * g.K), v i * (A i j * u j)
      = ∑ k ∈ Finset.range g.K, cubGrad cc k (V k) (U k) + ∑ e ∈ Finset.range (3 * g.K), gaussTerm g m P gc NG e v u V U := by
  obtain ⟨x, hg, -, hK, -⟩ := h.spec
  have hm := Provisioned.conn' h hK
  obtain ⟨F, hF, hD⟩ := able hg hm (Provisioned.bc' h hK) hgc eps
  have hi1 : (1 + 3) * g.np * g.np * g.K ≤ intMax := by have := hi.1; simpa using this
  have hi2 : g.np * g.K ≤ intMax := by have := hi.2; simpa using this
  rcases hF.build (cc := cc) hi1 hi2 with ⟨e, -⟩ | ⟨hall, op', mm', A', M, e, d1, d2, d3, d4, r1, r2, f1, f2⟩
  · rw [show cubOperator eps g m gc cc = .throws from e] at hop; simp at hop
  have e' : cubOperator eps g m gc cc = .ok (op', mm') := e
  rw [e'] at hop
  injection hop with hop
  injection hop with ho1 ho2
  subst ho1
  have hAA : ∀ i j, j < g.np * g.K → A i j = A' i j := fun i j hj => hA.unique r1 i j (by rw [d2]; exact hj)
  have hbil : ∑ i ∈ Finset.range (g.np * g.K), ∑ j ∈ Finset.range (g.np * g.K), v i * (A i j * u j) = bil (g.np * g.K) A' v u :=
    Finset.sum_congr rfl fun i _ => Finset.sum_congr rfl fun j hj => by rw [hAA i j (Finset.mem_range.1 hj)]
  rw [hbil]
  refine (f1 v u).trans ?_
  rw [← SW.sum_faces g.K (fun e => gaussTerm g m P gc NG e v u V U), ← Finset.sum_add_distrib]
  refine Finset.sum_congr rfl fun k hk => ?_
  have hk' := Finset.mem_range.1 hk
  unfold gelemForm
  refine congrArg₂ (· + ·) (stiff_form hg m hcc hk' (hv k hk') (hu k hk')) (Finset.sum_congr rfl fun f hf => ?_)
  have hf' : f < 3 := Finset.mem_range.1 hf
  have hok := hall k hk' f hf'
  have hd : (3 * k + f) / 3 = k := by omega
  have hPe := hg.lt (3 * k + f) (by omega)
  have hns : ¬ TooSmall g NG eps gc k (P (3 * k + f) / 3) := by
    rcases gface_grid hg m hm hgc eps hk' hf' with ⟨-, h2⟩ | ⟨h1, -⟩
    · rw [h2] at hok; simp at hok
    · exact h1
  have hdat := hD k hk' f hf' hns
  have := gface_term (m := m) (v := v) (u := u) (V := V) (U := U) hdat (gface_vals hg m hm hgc eps hk' hf' hok) (by rw [hd]; exact hv k hk') (by rw [hd]; exact hu k hk') (hu _ (by omega))
  rw [hd] at this
  rw [hgc.count, hdat.k2]
  exact this

/-- The hypotheses are met on the square cut into two triangles, with Dirichlet, Neuman and wall sides and the diagonal between the elements. -/
example : ∃ g gc cc op mm A, Provisioned exactLapack (1 / 2 ^ 52) 1e-10 1e-5 1 (squareTags [6, 0, 3, 7, 6, 0]) twoTri g ∧ cubOperator (1 / 2 ^ 52) g (squareTags [6, 0, 3, 7, 6, 0]) gc cc = .ok (op, mm) ∧
    Represents op A ∧ ∀ v u V U, HasNodes g v V → HasNodes g u U → ∑ i ∈ Finset.range 6, ∑ j ∈ Finset.range 6, v i * (A i j * u j)
      = ∑ k ∈ Finset.range 2, cubGrad cc k (V k) (U k) + ∑ e ∈ Finset.range 6, gaussTerm g (squareTags [6, 0, 3, 7, 6, 0]) twoTri gc 1 e v u V U := by
  obtain ⟨g, gc, cc, hg, h1, h2, hgc, hb, hcc, hcb, op, mm, hop⟩ := square_contexts [6, 0, 3, 7, 6, 0] (by decide)
  rcases C103_forms_partial hg (square_fits h1 h2 _) hgc hcc with ⟨e, -⟩ | ⟨-, op', mm', A, M, e, d1, d2, -, -, r1, -⟩
  · rw [e] at hop; simp at hop
  · have := C103_faces hg (square_fits h1 h2 _) hgc hcc e r1
    rw [h1, h2] at this
    exact ⟨g, gc, cc, op', mm', A, hg, e, r1, this⟩

end Blitzdg.Poisson
