import Verif.Poisson.FaceForms
import Verif.SW.MassProps

/-! The assembled matrices as bilinear forms of piecewise polynomials. -/

namespace Blitzdg.Poisson

open MvPolynomial
open Blitzdg.Sparse (DMat Csc Represents)
open Blitzdg.Nodes1D (Lapack)
open Blitzdg.DG2D
open Blitzdg.SW (Grid Mesh GridSpec Provisioned gridX gridY faceEnds lerp sum_faces)

variable {P : ℕ → ℕ} {x : List ℝ} {bt : List Int} {g : Grid} {m : Mesh}

/-! ### Specification -/

/-- Tag of face `e`. -/
def tagOf (m : Mesh) (e : ℕ) : Int := m.bcType.getD e 0

/-- The piecewise polynomial `V` has the nodal values `v`: node `i` of element `k` is entry `i + Np k`. -/
def HasNodes (g : Grid) (v : ℕ → ℝ) (V : ℕ → P2) : Prop := IsField g (fun i k => v (i + g.np * k)) V

/-- `∫ ∇U·∇V` over all elements. -/
noncomputable def gradForm (g : Grid) (V U : ℕ → P2) : ℝ :=
  ∑ k ∈ Finset.range g.K, triIntegral (g.tri k) fun z => val (pderiv 0 (V k)) z * val (pderiv 0 (U k)) z + val (pderiv 1 (V k)) z * val (pderiv 1 (U k)) z

/-- `∫ U V` over all elements. -/
noncomputable def l2Form (g : Grid) (V U : ℕ → P2) : ℝ := ∑ k ∈ Finset.range g.K, triIntegral (g.tri k) fun z => val (V k) z * val (U k) z

/-- Element integrals and face integrals. -/
noncomputable def dgForm (g : Grid) (m : Mesh) (P : ℕ → ℕ) (V U : ℕ → P2) : ℝ :=
  gradForm g V U + ∑ e ∈ Finset.range (3 * g.K), faceTerm (seg g e) (penalty g P e) (tagOf m e) (V (e / 3)) (U (e / 3)) (U (P e / 3))

/-- Storage for the triplets can be described by `int`s. -/
def Fits (g : Grid) (bordered : Bool) : Prop :=
  (1 + 3) * g.np * g.np * g.K + (if bordered then 1 else 0) * 2 * (g.np * g.K) ≤ intMax ∧ g.np * g.K + (if bordered then 1 else 0) ≤ intMax

/-! ### Main statement -/

theorem ready (hg : GridSpec P x m.bcType g) (hm : Conn 3 g.K m.E m.F P) (hbc : 3 * g.K ≤ m.bcType.length) (ME : ℕ → DMat ℝ) :
    ∃ F : ℕ → ℕ → Face, Ready (ctxOf g m) ME F (fun k f => tagOf m (3 * k + f)) ∧ ∀ k < g.K, ∀ f < 3, FaceData g m P (ME f).at' k f (F k f) := by
  have : ∀ k f, ∃ F, k < g.K → f < 3 → (ctxOf g m).face ME k f = .ok F ∧ FaceData g m P (ME f).at' k f F := by
    intro k f
    by_cases hk : k < g.K
    · by_cases hf : f < 3
      · obtain ⟨F, h1, h2⟩ := face_ok hg m hm ME hk hf
        exact ⟨F, fun _ _ => ⟨h1, h2⟩⟩
      · exact ⟨⟨0, [], [], fun _ _ => 0, fun _ _ => 0, fun _ _ => 0, 0⟩, fun _ h => absurd h hf⟩
    · exact ⟨⟨0, [], [], fun _ _ => 0, fun _ _ => 0, fun _ _ => 0, 0⟩, fun h => absurd h hk⟩
  choose F hF using this
  refine ⟨F, ⟨fun k hk f hf => (hF k f hk hf).1, fun k hk f hf => ?_, fun k hk f hf => ?_⟩, fun k hk f hf => (hF k f hk hf).2⟩
  · have hk' : k < g.K := hk
    have hf' : f < 3 := hf
    have := hg.lt (3 * k + f) (by omega)
    rw [(hF k f hk hf).2.k2]
    show P (3 * k + f) / 3 < g.K
    omega
  · have hk' : k < g.K := hk
    have hf' : f < 3 := hf
    have h1 : 3 * k + f < m.bcType.length := by omega
    show rd m.bcType (3 * k + f) = _
    rw [rd_eq_ok]
    simp [tagOf, h1]

theorem elem_form (hg : GridSpec P x m.bcType g) {ME : ℕ → DMat ℝ} (hME : ∀ f < 3, EdgeSpec x g f (ME f).at') {F : ℕ → ℕ → Face} (hF : ∀ k < g.K, ∀ f < 3, FaceData g m P (ME f).at' k f (F k f))
    {v u : ℕ → ℝ} {V U : ℕ → P2} (hv : HasNodes g v V) (hu : HasNodes g u U) {k : ℕ} (hk : k < g.K) :
    elemForm (ctxOf g m) F (fun k f => tagOf m (3 * k + f)) k v u
      = (triIntegral (g.tri k) fun z => val (pderiv 0 (V k)) z * val (pderiv 0 (U k)) z + val (pderiv 1 (V k)) z * val (pderiv 1 (U k)) z)
        + ∑ f ∈ Finset.range 3, faceTerm (seg g (3 * k + f)) (penalty g P (3 * k + f)) (tagOf m (3 * k + f)) (V k) (U k) (U (P (3 * k + f) / 3)) := by
  have ou : ∀ k < g.K, OnElem g k (loc g.np u k) (U k) := fun k hk => hu k hk
  have ov : ∀ k < g.K, OnElem g k (loc g.np v k) (V k) := fun k hk => hv k hk
  unfold elemForm
  refine congrArg₂ (· + ·) (elem_stiff hg m hk (ou k hk) (ov k hk)) ?_
  refine Finset.sum_congr rfl fun f hf => ?_
  have hf : f < 3 := Finset.mem_range.1 hf
  have hP : P (3 * k + f) / 3 < g.K := by have := hg.lt (3 * k + f) (by omega); omega
  have := face_form hg hk hf (hME f hf) (hF k hk f hf) (tagOf m (3 * k + f)) (ou k hk) (ov k hk) (ou _ hP)
  rw [← this, (hF k hk f hf).k2]
  rfl

/-- The operator and the mass matrix exist, have the announced shapes, and are the Gram matrices of `dgForm` and of the `L²` product. -/
theorem weak (hg : GridSpec P x m.bcType g) (hm : Conn 3 g.K m.E m.F P) (hbc : 3 * g.K ≤ m.bcType.length) (la : Lapack) (hla : la.Ok) (bordered : Bool) (hi : Fits g bordered) :
    ∃ op mm A M, (ctxOf g m).build la bordered = .ok (op, mm) ∧
      op.m = (g.np * g.K + if bordered then 1 else 0) ∧ op.n = (g.np * g.K + if bordered then 1 else 0) ∧ mm.m = g.np * g.K ∧ mm.n = g.np * g.K ∧
      Represents op A ∧ Represents mm M ∧
      (∀ v u V U, HasNodes g v V → HasNodes g u U → bil (g.np * g.K + if bordered then 1 else 0) A v u = dgForm g m P V U + borderForm bordered (g.np * g.K) v u) ∧
      ∀ v u V U, HasNodes g v V → HasNodes g u U → bil (g.np * g.K) M v u = l2Form g V U := by
  obtain ⟨ME, e, hE⟩ := massEdge_ok la hla hg m
  obtain ⟨F, hR, hF⟩ := ready hg hm hbc ME
  obtain ⟨op, mm, A, M, e1, d1, d2, d3, d4, r1, r2, f1, f2⟩ := hR.build la bordered e (Or.inl rfl) hi.1 hi.2
  refine ⟨op, mm, A, M, e1, d1, d2, d3, d4, r1, r2, fun v u V U hv hu => ?_, fun v u V U hv hu => ?_⟩
  · refine (f1 v u).trans (congrArg (· + _) ?_)
    unfold dgForm gradForm
    rw [← sum_faces, ← Finset.sum_add_distrib]
    refine Finset.sum_congr rfl fun k hk => ?_
    have hk : k < g.K := Finset.mem_range.1 hk
    rw [elem_form hg hE hF hv hu hk]
    congr 1
    refine Finset.sum_congr rfl fun f hf => ?_
    have hf : f < 3 := Finset.mem_range.1 hf
    rw [show (3 * k + f) / 3 = k by omega]
  · refine (f2 v u).trans ?_
    unfold l2Form
    refine Finset.sum_congr rfl fun k hk => ?_
    exact elem_mass hg m (hu k (Finset.mem_range.1 hk)) (hv k (Finset.mem_range.1 hk))

theorem hasNodes_exists (hg : GridSpec P x bt g) (v : ℕ → ℝ) : ∃ V, HasNodes g v V := field_exists hg _

/-! ### Reversed segments -/

theorem segLen_swap (e : (ℝ × ℝ) × (ℝ × ℝ)) : segLen e.swap = segLen e := by
  unfold segLen SW.hypot
  simp only [Prod.fst_swap, Prod.snd_swap]
  congr 1; ring

theorem segNormal_swap (e : (ℝ × ℝ) × (ℝ × ℝ)) : segNormal e.swap = (-(segNormal e).1, -(segNormal e).2) := by
  unfold segNormal
  rw [segLen_swap]
  simp only [Prod.fst_swap, Prod.snd_swap, Prod.mk.injEq]
  constructor <;> ring

theorem segIntegral_swap (e : (ℝ × ℝ) × (ℝ × ℝ)) (h : ℝ × ℝ → ℝ) : segIntegral e.swap h = segIntegral e h := by
  unfold segIntegral
  rw [segLen_swap]
  simp only [SW.lerp_swap]
  rw [intervalIntegral.integral_comp_neg fun t => h (lerp e t)]
  simp

theorem val_dn_neg (n : ℝ × ℝ) (U : P2) (z : ℝ × ℝ) : val (dn (-n.1, -n.2) U) z = -val (dn n U) z := by
  rw [val_dn, val_dn]; ring

theorem seg_across (hg : GridSpec P x bt g) {e : ℕ} (he : e < 3 * g.K) (h : P e ≠ e) : seg g (P e) = (seg g e).swap := hg.meet e he h

theorem penalty_across (hg : GridSpec P x bt g) {e : ℕ} (he : e < 3 * g.K) : penalty g P (P e) = penalty g P e := by
  unfold penalty
  rw [hg.inv e he, max_comm]

/-! ### The symmetric interior penalty form -/

/-- Every boundary face carries a boundary tag (Wall 3, Dirichlet 6, Neuman 7) and no interior face does. -/
def Tagged (g : Grid) (m : Mesh) (P : ℕ → ℕ) : Prop := ∀ e < 3 * g.K, P e = e ↔ tagOf m e = 3 ∨ tagOf m e = 6 ∨ tagOf m e = 7

/-- Contribution of face `e` to the symmetric form: with `[U]` the jump and `{∂U}` the mean normal derivative, half of `½ τ [U][V] - {∂U}[V] - [U]{∂V}` for an interior face (the other half
comes with the same segment seen from the other element), `τ U V - ∂U V - U ∂V` on a Dirichlet face, nothing on a Neuman face or a wall. -/
noncomputable def symTerm (g : Grid) (m : Mesh) (P : ℕ → ℕ) (V U : ℕ → P2) (e : ℕ) : ℝ :=
  let n := outward g e
  let V1 := V (e / 3)
  let U1 := U (e / 3)
  let V2 := V (P e / 3)
  let U2 := U (P e / 3)
  if P e = e then
    if tagOf m e = 6 then segIntegral (seg g e) fun z => penalty g P e * val U1 z * val V1 z - val (dn n U1) z * val V1 z - val U1 z * val (dn n V1) z
    else 0
  else 1 / 2 * segIntegral (seg g e) fun z =>
    1 / 2 * penalty g P e * (val U1 z - val U2 z) * (val V1 z - val V2 z) - (val (dn n U1) z + val (dn n U2) z) / 2 * (val V1 z - val V2 z)
      - (val U1 z - val U2 z) * ((val (dn n V1) z + val (dn n V2) z) / 2)

/-- The symmetric interior penalty form. -/
noncomputable def sipForm (g : Grid) (m : Mesh) (P : ℕ → ℕ) (V U : ℕ → P2) : ℝ := gradForm g V U + ∑ e ∈ Finset.range (3 * g.K), symTerm g m P V U e

/-- Sums over faces may be reordered by passing to the other side. -/
theorem sum_across (n : ℕ) (P : ℕ → ℕ) (hlt : ∀ e < n, P e < n) (hinv : ∀ e < n, P (P e) = e) (q : ℕ → ℝ) : ∑ e ∈ Finset.range n, q (P e) = ∑ e ∈ Finset.range n, q e := by
  refine Finset.sum_bij (fun e _ => P e) ?_ ?_ ?_ fun e _ => rfl
  · intro e he; exact Finset.mem_range.2 (hlt e (Finset.mem_range.1 he))
  · intro a ha b hb h
    rw [← hinv a (Finset.mem_range.1 ha), h, hinv b (Finset.mem_range.1 hb)]
  · intro e he
    have := Finset.mem_range.1 he
    exact ⟨P e, Finset.mem_range.2 (hlt e this), hinv e this⟩

/-- A face integrand made of products of polynomial values is the value of a polynomial. -/
theorem segIntegral_add {e : (ℝ × ℝ) × (ℝ × ℝ)} {f h : ℝ × ℝ → ℝ} (F H : P2) (hf : ∀ z, f z = val F z) (hh : ∀ z, h z = val H z) :
    segIntegral e (fun z => f z + h z) = segIntegral e f + segIntegral e h := by
  rw [segIntegral_eq (trace e F + trace e H) fun t => by rw [Polynomial.eval_add, trace_eval, trace_eval, hf, hh], map_add, mul_add,
    ← segIntegral_eq (h := f) _ fun t => by rw [trace_eval, hf], ← segIntegral_eq (h := h) _ fun t => by rw [trace_eval, hh]]

theorem segIntegral_mul {e : (ℝ × ℝ) × (ℝ × ℝ)} (a : ℝ) (h : ℝ × ℝ → ℝ) : segIntegral e (fun z => a * h z) = a * segIntegral e h := by
  unfold segIntegral
  rw [intervalIntegral.integral_const_mul]; ring

theorem val_C (a : ℝ) (z : ℝ × ℝ) : val (C a) z = a := by unfold val; simp
theorem val_sub (U V : P2) (z : ℝ × ℝ) : val (U - V) z = val U z - val V z := by unfold val; rw [map_sub]

/-- Both sides of an interior face together. -/
theorem pair_sym (s : (ℝ × ℝ) × (ℝ × ℝ)) (τ : ℝ) (t t' : Int) (ht : ¬(t = 3 ∨ t = 6 ∨ t = 7)) (ht' : ¬(t' = 3 ∨ t' = 6 ∨ t' = 7)) (V1 U1 V2 U2 : P2) :
    faceTerm s τ t V1 U1 U2 + faceTerm s.swap τ t' V2 U2 U1
      = segIntegral s fun z => 1 / 2 * τ * (val U1 z - val U2 z) * (val V1 z - val V2 z) - (val (dn (segNormal s) U1) z + val (dn (segNormal s) U2) z) / 2 * (val V1 z - val V2 z)
      - (val U1 z - val U2 z) * ((val (dn (segNormal s) V1) z + val (dn (segNormal s) V2) z) / 2) := by
  unfold faceTerm
  rw [if_neg (by tauto), if_neg (by tauto), if_neg (by tauto), if_neg (by tauto), segIntegral_swap, segNormal_swap]
  simp only [val_dn_neg]
  set n := segNormal s
  rw [← segIntegral_add
    (C (1 / 2) * (C τ * (U1 - U2) * V1 - (dn n U1 + dn n U2) * V1 - (U1 - U2) * dn n V1))
    (C (1 / 2) * (C τ * (U2 - U1) * V2 + (dn n U2 + dn n U1) * V2 + (U2 - U1) * dn n V2))
    (fun z => by simp only [val_mul, val_sub, val_add, val_C]; ring) (fun z => by simp only [val_mul, val_sub, val_add, val_C]; ring)]
  congr 1
  funext z
  ring

theorem dgForm_eq (hg : GridSpec P x bt g) (ht : Tagged g m P) (V U : ℕ → P2) : dgForm g m P V U = sipForm g m P V U := by
  unfold dgForm sipForm
  congr 1
  set q : ℕ → ℝ := fun e => faceTerm (seg g e) (penalty g P e) (tagOf m e) (V (e / 3)) (U (e / 3)) (U (P e / 3)) with hq
  have h1 : ∑ e ∈ Finset.range (3 * g.K), q e = ∑ e ∈ Finset.range (3 * g.K), (q e + q (P e)) / 2 := by
    rw [← Finset.sum_div, Finset.sum_add_distrib, sum_across _ P hg.lt hg.inv q]; ring
  rw [h1]
  refine Finset.sum_congr rfl fun e he => ?_
  have he := Finset.mem_range.1 he
  unfold symTerm
  simp only
  by_cases hP : P e = e
  · rw [if_pos hP, hP, add_self_div_two, hq]
    simp only [faceTerm, hP]
    rcases (ht e he).1 hP with h | h | h
    · rw [h]; simp
    · rw [h]; simp; rfl
    · rw [h]; simp
  · rw [if_neg hP]
    have t1 : ¬(tagOf m e = 3 ∨ tagOf m e = 6 ∨ tagOf m e = 7) := fun h => hP ((ht e he).2 h)
    have t2 : ¬(tagOf m (P e) = 3 ∨ tagOf m (P e) = 6 ∨ tagOf m (P e) = 7) := fun h => hP (by
      have := (ht _ (hg.lt e he)).2 h
      rw [hg.inv e he] at this; exact this.symm)
    have := pair_sym (seg g e) (penalty g P e) _ _ t1 t2 (V (e / 3)) (U (e / 3)) (V (P e / 3)) (U (P e / 3))
    rw [← seg_across hg he hP] at this
    have e2 : q (P e) = faceTerm (seg g (P e)) (penalty g P e) (tagOf m (P e)) (V (P e / 3)) (U (P e / 3)) (U (e / 3)) := by
      rw [hq]
      simp only [hg.inv e he, penalty_across hg he]
    rw [e2]
    refine (congrArg (· / 2) this).trans ?_
    unfold outward
    ring

theorem triIntegral_congr (T : Tri) {f h : ℝ × ℝ → ℝ} (e : ∀ z, f z = h z) : triIntegral T f = triIntegral T h := by rw [funext e]

theorem sipForm_symm (g : Grid) (m : Mesh) (P : ℕ → ℕ) (V U : ℕ → P2) : sipForm g m P V U = sipForm g m P U V := by
  unfold sipForm gradForm
  congr 1
  · exact Finset.sum_congr rfl fun k _ => triIntegral_congr _ fun z => by ring
  · refine Finset.sum_congr rfl fun e _ => ?_
    unfold symTerm
    simp only
    split_ifs
    · congr 1; funext z; ring
    · rfl
    · congr 2; funext z; ring

end Blitzdg.Poisson
