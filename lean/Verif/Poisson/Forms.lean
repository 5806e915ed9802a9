import Verif.Poisson.Field
import Verif.Poisson.Assemble

/-! The blocks of the operator as integrals of piecewise polynomials. -/

namespace Blitzdg.Poisson

open MvPolynomial
open Blitzdg.Sparse (DMat rowMajor mem_rowMajor)
open Blitzdg.Nodes1D (Lapack vandermonde trans)
open Blitzdg.Dense (toMat)
open Blitzdg.DG2D
open Blitzdg.SW (Grid Mesh GridSpec IsInterp gridX gridY faceEnds lerp ori nrm across faceLen jac_triDerivOf inc_inj int_neg)

variable {P : ℕ → ℕ} {x : List ℝ} {bt : List Int} {g : Grid}

/-! ### One element -/

/-- `U` is the polynomial of degree at most `N` with the nodal values `u` on element `k`. -/
def OnElem (g : Grid) (k : ℕ) (u : ℕ → ℝ) (U : P2) : Prop := U.totalDegree ≤ g.N ∧ ∀ i < g.np, val U (gridX (g.tri k) g.n i, gridY (g.tri k) g.n i) = u i

theorem OnElem.interp {k : ℕ} {u : ℕ → ℝ} {U : P2} (h : OnElem g k u U) : IsInterp g u (pull (g.tri k) U) :=
  ⟨(pull_deg _ _).trans h.1, fun i hi => (nodal_pull _ _ _ _).trans (h.2 i hi)⟩

/-- Every array of nodal values comes from one polynomial. -/
theorem onElem_exists (hg : GridSpec P x bt g) {k : ℕ} (hk : k < g.K) (u : ℕ → ℝ) : ∃ U, OnElem g k u U := by
  obtain ⟨p, h1, h2⟩ := hg.interp_exists u
  refine ⟨push (g.tri k) p, (push_deg _ _).trans h1, fun i hi => ?_⟩
  rw [← place_node, val_push _ (hg.ccw k hk).ne']
  exact h2 i hi

theorem field_exists (hg : GridSpec P x bt g) (u : ℕ → ℕ → ℝ) : ∃ U, IsField g u U := by
  have : ∀ k, ∃ U, k < g.K → OnElem g k (fun i => u i k) U := by
    intro k
    by_cases hk : k < g.K
    · obtain ⟨U, hU⟩ := onElem_exists hg hk fun i => u i k
      exact ⟨U, fun _ => hU⟩
    · exact ⟨0, fun h => absurd h hk⟩
  choose U hU using this
  exact ⟨U, fun k hk => hU k hk⟩

/-- Nodal values of a polynomial. -/
noncomputable def sample (g : Grid) (k : ℕ) (U : P2) (i : ℕ) : ℝ := val U (gridX (g.tri k) g.n i, gridY (g.tri k) g.n i)

theorem onElem_sample {k : ℕ} {U : P2} (h : U.totalDegree ≤ g.N) : OnElem g k (sample g k U) U := ⟨h, fun _ _ => rfl⟩

theorem dn_deg (n : ℝ × ℝ) (U : P2) {N : ℕ} (h : U.totalDegree ≤ N) : (dn n U).totalDegree ≤ N :=
  SW.triSpace_add (SW.triSpace_smul _ (tri_closed N 0 U h)) (SW.triSpace_smul _ (tri_closed N 1 U h))

theorem val_dn (n : ℝ × ℝ) (U : P2) (z : ℝ × ℝ) : val (dn n U) z = n.1 * val (pderiv 0 U) z + n.2 * val (pderiv 1 U) z := by
  unfold val dn; simp

/-- The physical derivatives at the nodes. -/
theorem dx_apply (hg : GridSpec P x bt g) (m : Mesh) {k : ℕ} (hk : k < g.K) {u : ℕ → ℝ} {U : P2} (h : OnElem g k u U) (i : ℕ) (hi : i < g.np) :
    ∑ j ∈ Finset.range g.np, (ctxOf g m).dx k i j * u j = sample g k (pderiv 0 U) i ∧ ∑ j ∈ Finset.range g.np, (ctxOf g m).dy k i j * u j = sample g k (pderiv 1 U) i := by
  have hi' : i < g.n.r.length := by rw [hg.nodes]; exact hi
  have hnp : 0 < g.np := by omega
  have a1 := hg.elem.diff.dr _ h.interp.1 i hi'
  have a2 := hg.elem.diff.ds _ h.interp.1 i hi'
  rw [hg.nodes] at a1 a2
  have e1 : ∑ j ∈ Finset.range g.np, g.o.d.Dr.at' i j * u j = nodal g.n.r g.n.s (pderiv 0 (pull (g.tri k) U)) i := by
    rw [← a1]
    exact Finset.sum_congr rfl fun j hj => by rw [h.interp.2 j (Finset.mem_range.1 hj)]
  have e2 : ∑ j ∈ Finset.range g.np, g.o.d.Ds.at' i j * u j = nodal g.n.r g.n.s (pderiv 1 (pull (g.tri k) U)) i := by
    rw [← a2]
    exact Finset.sum_congr rfl fun j hj => by rw [h.interp.2 j (Finset.mem_range.1 hj)]
  have hd := hg.deriv_eq 0 k hnp
  have hJ : jac (triDerivOf (g.tri k)) ≠ 0 := by
    rw [jac_triDerivOf]; have := hg.ccw k hk; positivity
  have lin : ∀ a b : ℝ, ∑ j ∈ Finset.range g.np, (a * g.o.d.Dr.at' i j + b * g.o.d.Ds.at' i j) * u j
      = a * ((triDerivOf (g.tri k)).xr * sample g k (pderiv 0 U) i + (triDerivOf (g.tri k)).yr * sample g k (pderiv 1 U) i)
        + b * ((triDerivOf (g.tri k)).xs * sample g k (pderiv 0 U) i + (triDerivOf (g.tri k)).ys * sample g k (pderiv 1 U) i) := by
    intro a b
    have : ∀ j, (a * g.o.d.Dr.at' i j + b * g.o.d.Ds.at' i j) * u j = a * (g.o.d.Dr.at' i j * u j) + b * (g.o.d.Ds.at' i j * u j) := fun j => by ring
    simp only [this, Finset.sum_add_distrib, ← Finset.mul_sum]
    rw [e1, e2, (pderiv_pull _ _).1, (pderiv_pull _ _).2]
    simp only [SW.nodal_add, SW.nodal_smul, nodal_pull]
    rfl
  have hJ' : (triDerivOf (g.tri k)).xr * (triDerivOf (g.tri k)).ys - (triDerivOf (g.tri k)).xs * (triDerivOf (g.tri k)).yr ≠ 0 := by
    have : jac (triDerivOf (g.tri k)) = (triDerivOf (g.tri k)).xr * (triDerivOf (g.tri k)).ys - (triDerivOf (g.tri k)).xs * (triDerivOf (g.tri k)).yr := by unfold jac; ring
    rwa [← this]
  refine ⟨(lin _ _).trans ?_, (lin _ _).trans ?_⟩ <;>
  simp only [ctxOf, hd, metric, Matrix.of_apply, Matrix.cons_val', Matrix.cons_val_zero, Matrix.cons_val_one, Matrix.cons_val_fin_one]
  · field_simp; unfold jac; ring
  · field_simp; unfold jac; ring

theorem dn_apply (hg : GridSpec P x bt g) (m : Mesh) {k : ℕ} (hk : k < g.K) {u : ℕ → ℝ} {U : P2} (h : OnElem g k u U) (n : ℝ × ℝ) (i : ℕ) (hi : i < g.np) :
    ∑ j ∈ Finset.range g.np, (n.1 * (ctxOf g m).dx k i j + n.2 * (ctxOf g m).dy k i j) * u j = sample g k (dn n U) i := by
  obtain ⟨h1, h2⟩ := dx_apply hg m hk h i hi
  have : ∀ j, (n.1 * (ctxOf g m).dx k i j + n.2 * (ctxOf g m).dy k i j) * u j = n.1 * ((ctxOf g m).dx k i j * u j) + n.2 * ((ctxOf g m).dy k i j * u j) := fun j => by ring
  simp only [this, Finset.sum_add_distrib, ← Finset.mul_sum]
  rw [h1, h2]
  exact (val_dn n U _).symm

/-- The reference mass matrix integrates products. -/
theorem mass_form (hg : GridSpec P x bt g) (m : Mesh) {a b : ℕ → ℝ} {p q : P2} (hp : IsInterp g a p) (hq : IsInterp g b q) : bil g.np (ctxOf g m).mass a b = integ triInt (p * q) := by
  have hl : (triPairs g.N).length = g.np := by rw [triPairs_length]; rfl
  have key : ∀ (a : ℕ → ℝ) (p : P2), IsInterp g a p → ∃ α : Fin g.np → ℝ, p = comb (triPairs g.N) triPoly α ∧ ∀ k : Fin g.np, ∑ i ∈ Finset.range g.np, g.o.Vinv.at' k i * a i = α k := by
    intro a p hp
    obtain ⟨α, hα⟩ := (triModal g.N).coeffs hl hp.1
    refine ⟨α, hα, fun k => ?_⟩
    have := congrFun (congrArg (toMat g.o.Vinv g.np g.np).mulVec (show (fun i : Fin g.np => a i) = (toMat (modeMatrix (triPairs g.N) triMode g.n.r g.n.s) g.np g.np).mulVec α from
      funext fun i => by rw [← ((triModal g.N).nodal_comb hg.reg hg.nodes α i).1, ← hα, hp.2 i i.2])) k
    rw [Matrix.mulVec_mulVec, hg.unisolvent, Matrix.one_mulVec] at this
    rw [← this, Finset.sum_range]
    rfl
  obtain ⟨α, hα, eα⟩ := key a p hp
  obtain ⟨β, hβ, eβ⟩ := key b q hq
  rw [hα, hβ, (triModal g.N).dot hl]
  simp only [← eα, ← eβ]
  rw [← Finset.sum_range fun k => (∑ i ∈ Finset.range g.np, g.o.Vinv.at' k i * a i) * ∑ i ∈ Finset.range g.np, g.o.Vinv.at' k i * b i]
  unfold bil Ctx.mass
  simp only [ctxOf, Finset.sum_mul, Finset.mul_sum]
  rw [Finset.sum_comm]
  refine Eq.trans (Finset.sum_congr rfl fun j _ => Finset.sum_comm) ?_
  refine Eq.trans Finset.sum_comm ?_
  refine Finset.sum_congr rfl fun k _ => Finset.sum_congr rfl fun j _ => Finset.sum_congr rfl fun i _ => ?_
  ring

theorem val_mul (U V : P2) (z : ℝ × ℝ) : val (U * V) z = val U z * val V z := by unfold val; rw [map_mul]
theorem val_add (U V : P2) (z : ℝ × ℝ) : val (U + V) z = val U z + val V z := by unfold val; rw [map_add]

theorem integ_pull (T : Tri) (U : P2) : cross T / 4 * integ triInt (pull T U) = triIntegral T (val U) := by
  unfold triIntegral integ
  congr 2
  funext r s
  exact ev_pull T U r s

/-- **Mass matrix of an element.** -/
theorem elem_mass (hg : GridSpec P x bt g) (m : Mesh) {k : ℕ} {u v : ℕ → ℝ} {U V : P2} (hu : OnElem g k u U) (hv : OnElem g k v V) :
    bil g.np (fun i j => (ctxOf g m).J 0 k * (ctxOf g m).mass i j) v u = triIntegral (g.tri k) fun z => val V z * val U z := by
  have hnp : 0 < g.np := by unfold Grid.np; have := hg.posN; exact Nat.div_pos (by nlinarith) (by omega)
  rw [bil_smul, mass_form hg m hv.interp hu.interp, ← map_mul]
  simp only [ctxOf, hg.deriv_eq 0 k hnp, jac_triDerivOf]
  rw [integ_pull]
  congr 1
  funext z
  exact val_mul _ _ _

/-- `vᵀ Dᵀ M D' u`. -/
theorem bil_conj (n : ℕ) (D D' M : ℕ → ℕ → ℝ) (v u : ℕ → ℝ) :
    bil n (fun i j => ∑ b ∈ Finset.range n, (∑ a ∈ Finset.range n, D a i * M a b) * D' b j) v u
      = bil n M (fun a => ∑ i ∈ Finset.range n, D a i * v i) (fun b => ∑ j ∈ Finset.range n, D' b j * u j) := by
  unfold bil
  simp only [Finset.sum_mul, Finset.mul_sum]
  -- i j b a  →  a b i j
  refine Eq.trans (Finset.sum_congr rfl fun i _ => (Finset.sum_congr rfl fun j _ => Finset.sum_comm).trans Finset.sum_comm) ?_
  refine Eq.trans Finset.sum_comm ?_
  refine Finset.sum_congr rfl fun a _ => ?_
  refine Eq.trans (Finset.sum_congr rfl fun i _ => Finset.sum_comm) ?_
  refine Eq.trans Finset.sum_comm ?_
  refine Finset.sum_congr rfl fun b _ => ?_
  refine Eq.trans Finset.sum_comm ?_
  refine Finset.sum_congr rfl fun j _ => Finset.sum_congr rfl fun i _ => ?_
  ring

theorem bil_congr (n : ℕ) (M : ℕ → ℕ → ℝ) {v v' u u' : ℕ → ℝ} (hv : ∀ i < n, v i = v' i) (hu : ∀ i < n, u i = u' i) : bil n M v u = bil n M v' u' := by
  unfold bil
  exact Finset.sum_congr rfl fun i hi => Finset.sum_congr rfl fun j hj => by rw [hv i (Finset.mem_range.1 hi), hu j (Finset.mem_range.1 hj)]

theorem triIntegral_poly_add (N : ℕ) (T : Tri) (A B : P2) : triIntegral T (fun z => val A z + val B z) = triIntegral T (val A) + triIntegral T (val B) := by
  rw [← integ_pull, ← integ_pull, ← mul_add, ← (triModal N).add, ← map_add, integ_pull]
  congr 1
  funext z
  exact (val_add _ _ _).symm

/-- **Stiffness matrix of an element.** -/
theorem elem_stiff (hg : GridSpec P x bt g) (m : Mesh) {k : ℕ} (hk : k < g.K) {u v : ℕ → ℝ} {U V : P2} (hu : OnElem g k u U) (hv : OnElem g k v V) :
    bil g.np ((ctxOf g m).stiff k) v u = triIntegral (g.tri k) fun z => val (pderiv 0 V) z * val (pderiv 0 U) z + val (pderiv 1 V) z * val (pderiv 1 U) z := by
  have hdeg : ∀ (i : Fin 2) (U : P2), U.totalDegree ≤ g.N → (pderiv i U).totalDegree ≤ g.N := fun i U h => tri_closed g.N i U h
  have e : (ctxOf g m).stiff k = fun i j => (ctxOf g m).J 0 k * ((∑ b ∈ Finset.range g.np, (∑ a ∈ Finset.range g.np, (ctxOf g m).dx k a i * (ctxOf g m).mass a b) * (ctxOf g m).dx k b j)
    + ∑ b ∈ Finset.range g.np, (∑ a ∈ Finset.range g.np, (ctxOf g m).dy k a i * (ctxOf g m).mass a b) * (ctxOf g m).dy k b j) := by
    funext i j; exact mul_comm _ _
  rw [e, bil_smul, bil_add, bil_conj, bil_conj,
    bil_congr g.np _ (fun i hi => (dx_apply hg m hk hv i hi).1) (fun i hi => (dx_apply hg m hk hu i hi).1),
    bil_congr g.np _ (fun i hi => (dx_apply hg m hk hv i hi).2) (fun i hi => (dx_apply hg m hk hu i hi).2), mul_add, ← bil_smul, ← bil_smul,
    elem_mass hg m (onElem_sample (hdeg 0 U hu.1)) (onElem_sample (hdeg 0 V hv.1)), elem_mass hg m (onElem_sample (hdeg 1 U hu.1)) (onElem_sample (hdeg 1 V hv.1))]
  simp only [← val_mul]
  rw [← triIntegral_poly_add g.N]

end Blitzdg.Poisson
