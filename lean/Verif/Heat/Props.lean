import Verif.Heat.Model
import Verif.Poisson.Getters
import Verif.Poisson.Consist
import Mathlib.Topology.MetricSpace.ProperSpace.Lemmas
import Mathlib.Topology.Instances.Matrix
import Mathlib.Analysis.SpecificLimits.Basic
import Mathlib.Analysis.Normed.Group.Constructions

/-! C110: the implicit heat solver. -/

namespace Blitzdg.Heat

open MvPolynomial
open Matrix
open Filter Topology
open Blitzdg.Sparse (DMat Csc Represents cooVal)
open Blitzdg.Nodes1D (Lapack exactLapack)
open Blitzdg.DG2D
open Blitzdg.Py (sparseNumpy)
open Blitzdg.SW (Grid Mesh GridSpec Provisioned)
open Blitzdg.Poisson (ctxOf mat bil ext HasNodes Fits Tagged Connected FaceValues tagOf l2Form sipForm gradForm lap dn outward nodal rhsVec val bil_mat)

variable {la : Lapack} {eps ztol tol : ℝ} {N : ℕ} {m : Mesh} {P : ℕ → ℕ} {g : Grid}

/-! ### Linear algebra -/

theorem cooVal_scale (c : ℝ) (rows : List (ℕ × ℕ × ℝ)) (i j : ℕ) : cooVal (scaleRows c rows) i j = c * cooVal rows i j := by
  unfold cooVal scaleRows
  induction rows with
  | nil => simp
  | cons a l ih =>
    rw [List.map_cons]
    by_cases h : a.1 = i ∧ a.2.1 = j
    · rw [List.filter_cons_of_pos (by simpa using h), List.filter_cons_of_pos (by simpa using h), List.map_cons, List.map_cons, List.sum_cons, List.sum_cons, ih]
      ring
    · rw [List.filter_cons_of_neg (by simpa using h), List.filter_cons_of_neg (by simpa using h), ih]

/-- One implicit step does not increase the norm: `|q|² + 2c a(q, q) ≤ |p|²`. -/
theorem step_energy {n : ℕ} (M A : Matrix (Fin n) (Fin n) ℝ) (hM : Mᵀ = M) (hp : ∀ u, 0 ≤ u ⬝ᵥ M *ᵥ u) (c : ℝ) (p q : Fin n → ℝ) (h : (M + c • A) *ᵥ q = M *ᵥ p) :
    q ⬝ᵥ M *ᵥ q + 2 * c * (q ⬝ᵥ A *ᵥ q) ≤ p ⬝ᵥ M *ᵥ p := by
  have h1 := congrArg (fun v => q ⬝ᵥ v) h
  simp only [Matrix.add_mulVec, Matrix.smul_mulVec, dotProduct_add, dotProduct_smul, smul_eq_mul] at h1
  have h2 := hp (q - p)
  have hs : p ⬝ᵥ M *ᵥ q = q ⬝ᵥ M *ᵥ p := by
    rw [Matrix.dotProduct_mulVec, ← Matrix.mulVec_transpose, hM, dotProduct_comm]
  rw [Matrix.mulVec_sub, dotProduct_sub, sub_dotProduct, sub_dotProduct, hs] at h2
  linarith

theorem quad_smul {n : ℕ} (A : Matrix (Fin n) (Fin n) ℝ) (t : ℝ) (u : Fin n → ℝ) : (t • u) ⬝ᵥ A *ᵥ (t • u) = t ^ 2 * (u ⬝ᵥ A *ᵥ u) := by
  rw [Matrix.mulVec_smul, dotProduct_smul, smul_dotProduct, smul_eq_mul, smul_eq_mul]
  ring

theorem quad_continuous {n : ℕ} (A : Matrix (Fin n) (Fin n) ℝ) : Continuous fun u : Fin n → ℝ => u ⬝ᵥ A *ᵥ u := by
  unfold dotProduct mulVec dotProduct
  fun_prop

/-- Two positive definite forms are comparable. -/
theorem compare {n : ℕ} (A M : Matrix (Fin n) (Fin n) ℝ) (hA : ∀ u, u ≠ 0 → 0 < u ⬝ᵥ A *ᵥ u) (hM : ∀ u, u ≠ 0 → 0 < u ⬝ᵥ M *ᵥ u) : ∃ l : ℝ, 0 < l ∧ ∀ u, l * (u ⬝ᵥ M *ᵥ u) ≤ u ⬝ᵥ A *ᵥ u := by
  by_cases hne : (Metric.sphere (0 : Fin n → ℝ) 1).Nonempty
  · have h0 : ∀ u ∈ Metric.sphere (0 : Fin n → ℝ) 1, u ≠ 0 := by
      intro u hu h
      rw [h] at hu
      simp at hu
    obtain ⟨w, hw, hmin⟩ := (isCompact_sphere (0 : Fin n → ℝ) 1).exists_isMinOn hne
      (f := fun u => (u ⬝ᵥ A *ᵥ u) / (u ⬝ᵥ M *ᵥ u)) (ContinuousOn.div (quad_continuous A).continuousOn (quad_continuous M).continuousOn fun u hu => (hM u (h0 u hu)).ne')
    refine ⟨(w ⬝ᵥ A *ᵥ w) / (w ⬝ᵥ M *ᵥ w), div_pos (hA w (h0 w hw)) (hM w (h0 w hw)), fun u => ?_⟩
    by_cases hu : u = 0
    · rw [hu]; simp
    · have hn : ‖u‖ ≠ 0 := norm_ne_zero_iff.2 hu
      have hmem : (‖u‖⁻¹ • u) ∈ Metric.sphere (0 : Fin n → ℝ) 1 := by
        rw [mem_sphere_zero_iff_norm, norm_smul, norm_inv, norm_norm, inv_mul_cancel₀ hn]
      have this : (w ⬝ᵥ A *ᵥ w) / (w ⬝ᵥ M *ᵥ w) ≤ ((‖u‖⁻¹ • u) ⬝ᵥ A *ᵥ (‖u‖⁻¹ • u)) / ((‖u‖⁻¹ • u) ⬝ᵥ M *ᵥ (‖u‖⁻¹ • u)) := hmin hmem
      have hpos : 0 < ‖u‖⁻¹ ^ 2 := by positivity
      rw [quad_smul, quad_smul, mul_div_mul_left _ _ hpos.ne', le_div_iff₀ (hM u hu)] at this
      exact this
  · refine ⟨1, one_pos, fun u => ?_⟩
    by_cases hu : u = 0
    · rw [hu]; simp
    · exact absurd ⟨‖u‖⁻¹ • u, by rw [mem_sphere_zero_iff_norm, norm_smul, norm_inv, norm_norm, inv_mul_cancel₀ (norm_ne_zero_iff.2 hu)]⟩ hne

/-- Steps without boundary contribution tend to zero. -/
theorem decay {n : ℕ} (M A : Matrix (Fin n) (Fin n) ℝ) (hM : Mᵀ = M) (hp : ∀ u, u ≠ 0 → 0 < u ⬝ᵥ M *ᵥ u) (hA : ∀ u, u ≠ 0 → 0 < u ⬝ᵥ A *ᵥ u) (c : ℝ) (hc : 0 < c) (d : ℕ → Fin n → ℝ)
    (hd : ∀ j, (M + c • A) *ᵥ d (j + 1) = M *ᵥ d j) (a : Fin n) : Tendsto (fun j => d j a) atTop (𝓝 0) := by
  have hp0 : ∀ (B : Matrix (Fin n) (Fin n) ℝ), (∀ u, u ≠ 0 → 0 < u ⬝ᵥ B *ᵥ u) → ∀ u, 0 ≤ u ⬝ᵥ B *ᵥ u := by
    intro B hB u
    by_cases hu : u = 0
    · rw [hu]; simp
    · exact (hB u hu).le
  obtain ⟨l, hl, hAl⟩ := compare A M hA hp
  obtain ⟨k, hk, hMk⟩ := compare M 1 hp fun u hu => by
    rw [Matrix.one_mulVec]
    obtain ⟨i, hi⟩ := Function.ne_iff.1 hu
    exact Finset.sum_pos' (fun i _ => mul_self_nonneg _) ⟨i, Finset.mem_univ _, mul_self_pos.2 hi⟩
  set r := 1 / (1 + 2 * c * l) with hr
  have hr1 : 0 < 1 + 2 * c * l := by positivity
  have hE : ∀ j, d j ⬝ᵥ M *ᵥ d j ≤ r ^ j * (d 0 ⬝ᵥ M *ᵥ d 0) := by
    intro j
    induction j with
    | zero => simp
    | succ j ih =>
      have h1 := step_energy M A hM (hp0 M hp) c (d j) (d (j + 1)) (hd j)
      have h2 := hAl (d (j + 1))
      have h3 : (d (j + 1) ⬝ᵥ M *ᵥ d (j + 1)) * (1 + 2 * c * l) ≤ d j ⬝ᵥ M *ᵥ d j := by nlinarith
      have h4 : d (j + 1) ⬝ᵥ M *ᵥ d (j + 1) ≤ r * (d j ⬝ᵥ M *ᵥ d j) := by
        rw [hr, one_div, inv_mul_eq_div, le_div_iff₀ hr1]
        exact h3
      rw [pow_succ]
      have hr0 : 0 < r := by rw [hr]; positivity
      nlinarith
  have hrlt : r < 1 := by
    rw [hr, div_lt_one hr1]
    nlinarith [mul_pos hc hl]
  have hr0 : 0 ≤ r := by rw [hr]; positivity
  have hT : Tendsto (fun j => r ^ j * (d 0 ⬝ᵥ M *ᵥ d 0) / k) atTop (𝓝 0) := by
    have := ((tendsto_pow_atTop_nhds_zero_of_lt_one hr0 hrlt).mul_const (d 0 ⬝ᵥ M *ᵥ d 0)).div_const k
    simpa using this
  have hsq : Tendsto (fun j => d j a ^ 2) atTop (𝓝 0) := by
    refine squeeze_zero (fun j => sq_nonneg _) (fun j => ?_) hT
    have h1 := hMk (d j)
    rw [Matrix.one_mulVec] at h1
    have h2 : d j a ^ 2 ≤ d j ⬝ᵥ d j := by
      rw [sq]
      exact Finset.single_le_sum (f := fun i => d j i * d j i) (fun i _ => mul_self_nonneg _) (Finset.mem_univ a)
    rw [le_div_iff₀ hk]
    have := hE j
    nlinarith
  have habs : Tendsto (fun j => |d j a|) atTop (𝓝 0) := by
    have := hsq.sqrt
    simpa [Real.sqrt_sq_eq_abs] using this
  exact (tendsto_zero_iff_abs_tendsto_zero _).2 habs

/-! ### What the script computes -/

/-- Entry `i + Np k` of the vector of boundary contributions. -/
def bvec (g : Grid) (b : DMat ℝ) : Fin (g.np * g.K) → ℝ := fun a => b.at' ((a : ℕ) % g.np) ((a : ℕ) / g.np)

/-- The script runs, and its states satisfy the implicit scheme. -/
theorem heat_ok (h : Provisioned la eps ztol tol N m P g) (hi : Fits g false) (ht : Tagged g m P) (S : Splu) (hS : S.Ok) (kappa dt : ℝ) (hk : 0 ≤ kappa * dt) :
    ∃ op mm A M, (ctxOf g m).build la false = .ok (op, mm) ∧ op.n = g.np * g.K ∧ mm.n = g.np * g.K ∧ Represents op A ∧ Represents mm M ∧
      (∀ v u V U, HasNodes g v V → HasNodes g u U → bil (g.np * g.K) A v u = sipForm g m P V U) ∧
      (∀ v u V U, HasNodes g v V → HasNodes g u U → bil (g.np * g.K) M v u = l2Form g V U) ∧
      (mat (g.np * g.K) M)ᵀ = mat (g.np * g.K) M ∧ (∀ u, u ≠ 0 → 0 < u ⬝ᵥ mat (g.np * g.K) M *ᵥ u) ∧ (∀ u, 0 ≤ u ⬝ᵥ mat (g.np * g.K) A *ᵥ u) ∧ ((mat (g.np * g.K) A)ᵀ = mat (g.np * g.K) A) ∧
      ∀ ubc qbc b, (ctxOf g m).buildBcRhs la ubc qbc = .ok b → b.rows = g.np → ∀ p0 : Fin (g.np * g.K) → ℝ, ∃ state : ℕ → Fin (g.np * g.K) → ℝ,
        (∀ j, heat S la (ctxOf g m) kappa dt ubc qbc p0 j = .ok (state j)) ∧ state 0 = p0 ∧
        ∀ j, (mat (g.np * g.K) M + (kappa * dt) • mat (g.np * g.K) A) *ᵥ state (j + 1) = mat (g.np * g.K) M *ᵥ state j + bvec g b := by
  obtain ⟨x, hg, -, -, -⟩ := h.spec
  obtain ⟨op, mm, A, M, e, d1, d2, d3, d4, r1, r2, f1, f2⟩ := Poisson.C98_forms h false hi ht
  have f0 : ∀ v u V U, HasNodes g v V → HasNodes g u U → bil (g.np * g.K) A v u = sipForm g m P V U := fun v u V U hv hu => by simpa using f1 v u V U hv hu
  obtain ⟨op', mm', M', e', r', hpos, -⟩ := Poisson.C99_mass h hi
  rw [e] at e'
  obtain ⟨rfl, rfl⟩ := Prod.mk.inj (Out.ok.inj e')
  have hMM : mat (g.np * g.K) M' = mat (g.np * g.K) M := by
    funext i j
    exact Represents.unique r' r2 i j (by rw [d4]; exact j.2)
  rw [hMM] at hpos
  obtain ⟨op2, mm2, A2, M2, e2, q1, q2, s1, s2⟩ := Poisson.C60_symmetric h false hi ht
  rw [e] at e2
  obtain ⟨rfl, rfl⟩ := Prod.mk.inj (Out.ok.inj e2)
  have d2' : op.n = g.np * g.K := by rw [d2]; simp
  have d1' : op.m = g.np * g.K := by rw [d1]; simp
  have symA : (mat (g.np * g.K) A)ᵀ = mat (g.np * g.K) A := by
    funext i j
    show A j i = A i j
    rw [Represents.unique r1 q1 j i (by rw [d2']; exact i.2), Represents.unique r1 q1 i j (by rw [d2']; exact j.2)]
    exact s1 j (by rw [d1']; exact j.2) i (by rw [d2']; exact i.2)
  have symM : (mat (g.np * g.K) M)ᵀ = mat (g.np * g.K) M := by
    funext i j
    show M j i = M i j
    rw [Represents.unique r2 q2 j i (by rw [d4]; exact i.2), Represents.unique r2 q2 i j (by rw [d4]; exact j.2)]
    exact s2 j (by rw [d3]; exact j.2) i (by rw [d4]; exact i.2)
  have hA0 : ∀ u, 0 ≤ u ⬝ᵥ mat (g.np * g.K) A *ᵥ u := by
    intro u
    obtain ⟨U, hU, hUd⟩ := Poisson.ext_holds hg u
    rw [bil_mat, f0 _ _ U U hU hU]
    refine le_trans ?_ (Poisson.coercive (m := m) hg U hUd)
    have hG : 0 ≤ gradForm g U U := by
      rw [Poisson.gradForm_self]
      exact Finset.sum_nonneg fun k hk => Poisson.gradSq_nonneg (hg.ccw k (Finset.mem_range.1 hk)) _
    have := Finset.sum_nonneg fun e he => Poisson.gain_nonneg (m := m) hg U (Finset.mem_range.1 he)
    linarith
  refine ⟨op, mm, A, M, e, d2', d4, r1, r2, f0, f2, symM, hpos, hA0, symA, fun ubc qbc b hb hbr p0 => ?_⟩
  obtain ⟨OP, -, eo, -, -, -, -, ho⟩ := Py.C96_sparse op A r1
  obtain ⟨MM, -, em, -, -, -, -, hm⟩ := Py.C96_sparse mm M r2
  have eM : mat (g.np * g.K) (cooVal MM) = mat (g.np * g.K) M := by
    funext i j
    exact hm i j (by rw [d4]; exact j.2)
  have eI : implicit (g.np * g.K) MM OP (kappa * dt) = mat (g.np * g.K) M + (kappa * dt) • mat (g.np * g.K) A := by
    unfold implicit
    rw [eM]
    congr 1
    funext i j
    show cooVal (scaleRows (kappa * dt) OP) i j = kappa * dt * A i j
    rw [cooVal_scale, ho i j (by rw [d2']; exact j.2)]
  obtain ⟨f, hf, hsol⟩ := (hS (g.np * g.K) (implicit (g.np * g.K) MM OP (kappa * dt))).1 (by
    intro u hu
    by_contra hne
    rw [eI] at hu
    have h1 := congrArg (fun v => u ⬝ᵥ v) hu
    simp only [Matrix.add_mulVec, Matrix.smul_mulVec, dotProduct_add, dotProduct_smul, smul_eq_mul, dotProduct_zero] at h1
    nlinarith [hpos u hne, mul_nonneg hk (hA0 u)])
  rw [eI] at hsol
  refine ⟨fun j => passes f (mat (g.np * g.K) (cooVal MM)) (flatF _ b) j p0, fun j => ?_, rfl, fun j => ?_⟩
  · unfold heat
    rw [e, Out.bind_ok]
    simp only [hb, Out.bind_ok, em, eo]
    have hf' : S ((ctxOf g m).Np * (ctxOf g m).K) (implicit ((ctxOf g m).Np * (ctxOf g m).K) MM OP (kappa * dt)) = .ok f := hf
    rw [hf']
    rfl
  · show _ *ᵥ f (mat (g.np * g.K) (cooVal MM) *ᵥ _ + flatF _ b) = _
    rw [hsol, eM]
    congr 1
    unfold flatF bvec
    rw [hbr]


/-- A sum over all entries, element by element. -/
theorem sum_elems {np : ℕ} (hnp : 0 < np) (f : ℕ → ℕ → ℝ) (K : ℕ) : ∑ k ∈ Finset.range K, ∑ i ∈ Finset.range np, f i k = ∑ a ∈ Finset.range (np * K), f (a % np) (a / np) := by
  induction K with
  | zero => simp
  | succ K ih =>
    rw [Finset.sum_range_succ, ih, Nat.mul_succ, Finset.sum_range_add]
    congr 1
    refine Finset.sum_congr rfl fun i hi => ?_
    have hi := Finset.mem_range.1 hi
    rw [Nat.mul_add_mod, Nat.mod_eq_of_lt hi, Nat.mul_add_div hnp, Nat.div_eq_of_lt hi, Nat.add_zero]

theorem sum_bvec (hnp : 0 < g.np) (b : DMat ℝ) (v : ℕ → ℝ) : ∑ k ∈ Finset.range g.K, ∑ i ∈ Finset.range g.np, v (i + g.np * k) * b.at' i k = (fun a : Fin (g.np * g.K) => v a) ⬝ᵥ bvec g b := by
  rw [sum_elems hnp fun i k => v (i + g.np * k) * b.at' i k, Finset.sum_range]
  unfold dotProduct bvec
  refine Finset.sum_congr rfl fun a _ => ?_
  rw [Nat.mod_add_div]

/-! ### C110 -/

/-- The piecewise polynomial with the nodal values `w`. -/
def Is (g : Grid) (w : Fin (g.np * g.K) → ℝ) (W : ℕ → P2) : Prop := HasNodes g (ext w) W

/-- What the boundary contributes when tested with `V`, for the data `U` on Dirichlet faces and `Q` on Neuman faces and walls. -/
noncomputable def boundary (g : Grid) (m : Mesh) (P : ℕ → ℕ) (V U Q : ℕ → P2) : ℝ :=
  ∑ e ∈ Finset.range (3 * g.K), Poisson.rhsTerm (Poisson.seg g e) (Poisson.penalty g P e) (tagOf m e) (V (e / 3)) (U e) (Q e)

theorem np_pos {x : List ℝ} {bt : List Int} (hg : GridSpec P x bt g) : 0 < g.np := by
  unfold Grid.np; have := hg.posN; exact Nat.div_pos (by nlinarith) (by omega)

/-- **C110, scheme.** For boundary data that are polynomials of degree at most `N` along the faces the script runs, and each pass solves the weak form of
`(u' - u) = dt κ Δu' `, with the boundary contribution added as it is. -/
theorem C110_scheme (h : Provisioned la eps ztol tol N m P g) (hi : Fits g false) (ht : Tagged g m P) (S : Splu) (hS : S.Ok) (kappa dt : ℝ) (hk : 0 ≤ kappa * dt) {ubc qbc : DMat ℝ} {U Q : ℕ → P2}
    (hu : FaceValues g ubc (fun e => tagOf m e = 6) U) (hq : FaceValues g qbc (fun e => tagOf m e = 7 ∨ tagOf m e = 3) Q)
    (dU : ∀ e, (U e).totalDegree ≤ g.N) (dQ : ∀ e, (Q e).totalDegree ≤ g.N) (p0 : Fin (g.np * g.K) → ℝ) :
    ∃ state : ℕ → Fin (g.np * g.K) → ℝ, (∀ j, heat S la (ctxOf g m) kappa dt ubc qbc p0 j = .ok (state j)) ∧ state 0 = p0 ∧
      ∀ j W W' V w, Is g (state j) W → Is g (state (j + 1)) W' → Is g w V →
        l2Form g V W' + kappa * dt * sipForm g m P V W' = l2Form g V W + boundary g m P V U Q := by
  obtain ⟨x, hg, -, hK, -⟩ := h.spec
  obtain ⟨op, mm, A, M, -, -, -, -, -, f1, f2, -, -, -, -, hrun⟩ := heat_ok h hi ht S hS kappa dt hk
  obtain ⟨b, e1, b1, b2, hb⟩ := Poisson.rhs_form hg (Poisson.Provisioned.conn' h hK) (Poisson.Provisioned.bc' h hK) la h.lapack hu hq dU dQ
  obtain ⟨state, s1, s2, s3⟩ := hrun ubc qbc b e1 b1 p0
  refine ⟨state, s1, s2, fun j W W' V w hW hW' hV => ?_⟩
  have h1 := congrArg (fun v => w ⬝ᵥ v) (s3 j)
  simp only [Matrix.add_mulVec, Matrix.smul_mulVec, dotProduct_add, dotProduct_smul, smul_eq_mul, bil_mat] at h1
  rw [f2 _ _ V W' hV hW', f1 _ _ V W' hV hW', f2 _ _ V W hV hW] at h1
  rw [h1]
  congr 1
  have := hb (ext w) V hV
  rw [sum_bvec (np_pos hg)] at this
  rw [show boundary g m P V U Q = _ from this.symm]
  congr 1
  funext a
  exact (Poisson.ext_fin w a).symm

/-- **C110, stability.** For every step size and every boundary data: the `L²` distance of two runs that differ in the initial state never grows. -/
theorem C110_stable (h : Provisioned la eps ztol tol N m P g) (hi : Fits g false) (ht : Tagged g m P) (S : Splu) (hS : S.Ok) (kappa dt : ℝ) (hk : 0 ≤ kappa * dt) {ubc qbc b : DMat ℝ}
    (hb : (ctxOf g m).buildBcRhs la ubc qbc = .ok b) (hbr : b.rows = g.np) (p0 q0 : Fin (g.np * g.K) → ℝ) :
    ∃ s t : ℕ → Fin (g.np * g.K) → ℝ, (∀ j, heat S la (ctxOf g m) kappa dt ubc qbc p0 j = .ok (s j)) ∧ (∀ j, heat S la (ctxOf g m) kappa dt ubc qbc q0 j = .ok (t j)) ∧
      ∀ i j, i ≤ j → ∀ D D', Is g (s i - t i) D → Is g (s j - t j) D' → l2Form g D' D' ≤ l2Form g D D := by
  obtain ⟨x, hg, -, hK, -⟩ := h.spec
  obtain ⟨op, mm, A, M, -, -, -, -, -, f1, f2, symM, posM, posA, -, hrun⟩ := heat_ok h hi ht S hS kappa dt hk
  obtain ⟨s, s1, s2, s3⟩ := hrun ubc qbc b hb hbr p0
  obtain ⟨t, t1, t2, t3⟩ := hrun ubc qbc b hb hbr q0
  refine ⟨s, t, s1, t1, fun i j hij D D' hD hD' => ?_⟩
  have hp0 : ∀ u, 0 ≤ u ⬝ᵥ mat (g.np * g.K) M *ᵥ u := by
    intro u
    by_cases hu : u = 0
    · rw [hu]; simp
    · exact (posM u hu).le
  rw [← f2 _ _ D' D' hD' hD', ← f2 _ _ D D hD hD, ← bil_mat, ← bil_mat]
  clear hD hD'
  induction j, hij using Nat.le_induction with
  | base => exact le_refl _
  | succ j _ ih =>
    refine le_trans ?_ ih
    have h1 : (mat (g.np * g.K) M + (kappa * dt) • mat (g.np * g.K) A) *ᵥ (s (j + 1) - t (j + 1)) = mat (g.np * g.K) M *ᵥ (s j - t j) := by
      rw [Matrix.mulVec_sub, s3, t3, Matrix.mulVec_sub]
      abel
    have h2 := step_energy _ _ symM hp0 _ _ _ h1
    have := mul_nonneg hk (posA (s (j + 1) - t (j + 1)))
    linarith

/-- **C110, conservation.** Without Dirichlet faces and with no flux given on Neuman faces and walls, the integral of the temperature never changes. -/
theorem C110_conserves (h : Provisioned la eps ztol tol N m P g) (hi : Fits g false) (ht : Tagged g m P) (S : Splu) (hS : S.Ok) (kappa dt : ℝ) (hk : 0 ≤ kappa * dt) (hd : ∀ e < 3 * g.K, tagOf m e ≠ 6)
    {ubc qbc : DMat ℝ} (hu : ubc.rows = 3 * (g.N + 1) ∧ ubc.cols = g.K) (hq : FaceValues g qbc (fun e => tagOf m e = 7 ∨ tagOf m e = 3) fun _ => 0) (p0 : Fin (g.np * g.K) → ℝ) :
    ∃ state : ℕ → Fin (g.np * g.K) → ℝ, (∀ j, heat S la (ctxOf g m) kappa dt ubc qbc p0 j = .ok (state j)) ∧ state 0 = p0 ∧
      ∀ j W W0, Is g (state j) W → Is g p0 W0 → ∑ k ∈ Finset.range g.K, Poisson.triIntegral (g.tri k) (val (W k)) = ∑ k ∈ Finset.range g.K, Poisson.triIntegral (g.tri k) (val (W0 k)) := by
  obtain ⟨x, hg, -, hK, -⟩ := h.spec
  have hu' : FaceValues g ubc (fun e => tagOf m e = 6) fun _ => 0 := ⟨hu.1, hu.2, fun k hk f hf j _ h6 => absurd h6 (hd _ (by omega))⟩
  obtain ⟨state, s1, s2, s3⟩ := C110_scheme h hi ht S hS kappa dt hk hu' hq (fun _ => by simp) (fun _ => by simp) p0
  obtain ⟨-, -, -, M, -, -, -, -, -, -, f2, -⟩ := heat_ok h hi ht S hS kappa dt hk
  have h1 : Is g (fun _ => 1) fun _ => C 1 := fun k hk => ⟨by rw [totalDegree_C]; omega, fun i hi => by
    rw [Poisson.val_C]
    show (1 : ℝ) = Poisson.ext (fun _ : Fin (g.np * g.K) => (1 : ℝ)) (i + g.np * k)
    unfold Poisson.ext
    rw [dif_pos (Poisson.node_lt hi hk)]⟩
  have e1 : ∀ W : ℕ → P2, l2Form g (fun _ => C 1) W = ∑ k ∈ Finset.range g.K, Poisson.triIntegral (g.tri k) (val (W k)) := by
    intro W
    unfold l2Form
    simp only [Poisson.val_C, one_mul]
  have hz : ∀ W, sipForm g m P (fun _ => C 1) W = 0 := by
    intro V
    unfold sipForm gradForm
    have z1 : ∀ k ∈ Finset.range g.K, (Poisson.triIntegral (g.tri k) fun z => val (pderiv 0 (C 1 : P2)) z * val (pderiv 0 (V k)) z + val (pderiv 1 (C 1 : P2)) z * val (pderiv 1 (V k)) z) = 0 := by
      intro k _
      simp [Poisson.triIntegral, triInt, val]
    have z2 : ∀ e ∈ Finset.range (3 * g.K), Poisson.symTerm g m P (fun _ => C 1) V e = 0 := by
      intro e he
      unfold Poisson.symTerm
      simp only [Poisson.val_dn, pderiv_C, Poisson.val_C]
      rw [if_neg (hd e (Finset.mem_range.1 he))]
      simp [Poisson.segIntegral, val]
    rw [Finset.sum_eq_zero z1, Finset.sum_eq_zero z2]
    simp
  have hb : boundary g m P (fun _ => C 1) (fun _ => 0) (fun _ => 0) = 0 := by
    unfold boundary Poisson.rhsTerm
    refine Finset.sum_eq_zero fun e he => ?_
    rw [if_neg (hd e (Finset.mem_range.1 he))]
    simp only [Poisson.val_zero, mul_zero]
    simp [Poisson.segIntegral]
  refine ⟨state, s1, s2, fun j => ?_⟩
  induction j with
  | zero =>
    intro W W0 hW hW0
    rw [s2] at hW
    rw [← e1, ← e1, ← f2 _ _ _ _ h1 hW, ← f2 _ _ _ _ h1 hW0]
  | succ j ih =>
    intro W W0 hW hW0
    obtain ⟨Wj, hWj, -⟩ := Poisson.ext_holds hg (state j)
    rw [← ih Wj W0 hWj hW0, ← e1, ← e1]
    have := s3 j Wj W _ _ hWj hW h1
    rw [hz, hb] at this
    linarith

/-- The values at the nodes of a polynomial satisfy `OP u = rhs` for a harmonic polynomial. -/
theorem harmonic_rhs (h : Provisioned la eps ztol tol N m P g) (hi : Fits g false) {U : P2} (hU : U.totalDegree ≤ g.N) (hl : lap U = 0) {ubc qbc : DMat ℝ}
    (hu : FaceValues g ubc (fun e => tagOf m e = 6) fun _ => U) (hq : FaceValues g qbc (fun e => tagOf m e = 7 ∨ tagOf m e = 3) fun e => dn (outward g e) U)
    {op mm : Csc ℝ} {A : ℕ → ℕ → ℝ} (e : (ctxOf g m).build la false = .ok (op, mm)) (hn : op.n = g.np * g.K) (r : Represents op A) :
    ∃ b, (ctxOf g m).buildBcRhs la ubc qbc = .ok b ∧ b.rows = g.np ∧ mat (g.np * g.K) A *ᵥ (fun a : Fin (g.np * g.K) => nodal g U a) = bvec g b := by
  obtain ⟨x, hg, -, -, -⟩ := h.spec
  obtain ⟨op', mm', A', M', b, e', e1, r', -, b1, -, key⟩ := Poisson.C100_consistent h hi hU hu hq
  rw [e] at e'
  obtain ⟨rfl, rfl⟩ := Prod.mk.inj (Out.ok.inj e')
  refine ⟨b, e1, b1, ?_⟩
  funext a
  have hnp := np_pos hg
  have := key (a / g.np) (Nat.div_lt_of_lt_mul a.2) (a % g.np) (Nat.mod_lt _ hnp)
  rw [Nat.mod_add_div] at this
  have hz : ∀ j, nodal g (-lap U) j = 0 := fun j => by
    unfold Poisson.nodal
    rw [hl, neg_zero, Poisson.val_zero]
  simp only [hz, mul_zero, Finset.sum_const_zero, zero_add] at this
  unfold bvec
  rw [← this, Finset.sum_range]
  unfold mulVec dotProduct mat
  refine Finset.sum_congr rfl fun j _ => ?_
  exact congrArg (· * nodal g U j) (Represents.unique r r' a j (by rw [hn]; exact j.2))

/-- **C110, steady state.** On a connected mesh with a Dirichlet face, with the boundary data of a harmonic polynomial `U`: from every initial state the computed temperature tends to `U / (κ dt)`. -/
theorem C110_limit (h : Provisioned la eps ztol tol N m P g) (hi : Fits g false) (ht : Tagged g m P) (hc : Connected g P) (hd : ∃ e < 3 * g.K, tagOf m e = 6) (S : Splu) (hS : S.Ok) (kappa dt : ℝ)
    (hk : 0 < kappa * dt) {U : P2} (hU : U.totalDegree ≤ g.N) (hl : lap U = 0) {ubc qbc : DMat ℝ}
    (hu : FaceValues g ubc (fun e => tagOf m e = 6) fun _ => U) (hq : FaceValues g qbc (fun e => tagOf m e = 7 ∨ tagOf m e = 3) fun e => dn (outward g e) U) (p0 : Fin (g.np * g.K) → ℝ) :
    ∃ state : ℕ → Fin (g.np * g.K) → ℝ, (∀ j, heat S la (ctxOf g m) kappa dt ubc qbc p0 j = .ok (state j)) ∧ ∀ a, Tendsto (fun j => state j a) atTop (𝓝 (nodal g U a / (kappa * dt))) := by
  obtain ⟨x, hg, -, hK, -⟩ := h.spec
  obtain ⟨op, mm, A, M, e, hn, -, r1, r2, f1, f2, symM, posM, -, -, hrun⟩ := heat_ok h hi ht S hS kappa dt hk.le
  obtain ⟨b, e1, b1, hA⟩ := harmonic_rhs h hi hU hl hu hq e hn r1
  obtain ⟨s, s1, s2, s3⟩ := hrun ubc qbc b e1 b1 p0
  refine ⟨s, s1, fun a => ?_⟩
  have hz := decay (mat (g.np * g.K) M) (mat (g.np * g.K) A) symM posM (Poisson.definite_pos hg hc ht hd f1) (kappa * dt) hk (fun j => s j - (kappa * dt)⁻¹ • fun a : Fin (g.np * g.K) => nodal g U a)
    (fun j => by
      rw [Matrix.mulVec_sub, s3, Matrix.mulVec_sub, Matrix.add_mulVec, Matrix.smul_mulVec, Matrix.mulVec_smul _ (kappa * dt)⁻¹, Matrix.mulVec_smul _ (kappa * dt)⁻¹, hA, smul_smul, mul_inv_cancel₀ hk.ne', one_smul]
      abel) a
  have := hz.add_const (nodal g U a / (kappa * dt))
  rw [zero_add] at this
  refine this.congr fun j => ?_
  simp only [Pi.sub_apply, Pi.smul_apply, smul_eq_mul]
  rw [div_eq_inv_mul]
  ring

/-- **C110, refuted.** The temperature does not tend to the steady state of the boundary data, unless `κ dt = 1`: the boundary contribution is not multiplied by `κ dt`. -/
theorem C110_steady_false (h : Provisioned la eps ztol tol N m P g) (hi : Fits g false) (ht : Tagged g m P) (hc : Connected g P) (hd : ∃ e < 3 * g.K, tagOf m e = 6) (S : Splu) (hS : S.Ok) (kappa dt : ℝ)
    (hk : 0 < kappa * dt) (hk1 : kappa * dt ≠ 1) {U : P2} (hU : U.totalDegree ≤ g.N) (hl : lap U = 0) {ubc qbc : DMat ℝ}
    (hu : FaceValues g ubc (fun e => tagOf m e = 6) fun _ => U) (hq : FaceValues g qbc (fun e => tagOf m e = 7 ∨ tagOf m e = 3) fun e => dn (outward g e) U) (p0 : Fin (g.np * g.K) → ℝ)
    (a : Fin (g.np * g.K)) (ha : nodal g U a ≠ 0) :
    ∃ state : ℕ → Fin (g.np * g.K) → ℝ, (∀ j, heat S la (ctxOf g m) kappa dt ubc qbc p0 j = .ok (state j)) ∧ ¬ Tendsto (fun j => state j a) atTop (𝓝 (nodal g U a)) := by
  obtain ⟨s, s1, s2⟩ := C110_limit h hi ht hc hd S hS kappa dt hk hU hl hu hq p0
  refine ⟨s, s1, fun hT => ?_⟩
  have := tendsto_nhds_unique hT (s2 a)
  rw [eq_div_iff hk.ne'] at this
  exact hk1 (mul_left_cancel₀ ha (this.trans (mul_one _).symm))

theorem foldl_scale (c : ℝ) (hc : 0 ≤ c) (l : List ℝ) (z : ℝ) : (l.map fun y => c * y).foldl max (c * z) = c * l.foldl max z := by
  induction l generalizing z with
  | nil => rfl
  | cons y l ih => rw [List.map_cons, List.foldl_cons, List.foldl_cons, ← mul_max_of_nonneg _ _ hc, ih]

theorem written_scale {n : ℕ} (c : ℝ) (hc : 0 < c) (p : Fin n → ℝ) : written (c • p) = written p := by
  funext a
  unfold written
  have : (List.ofFn fun b => |(c • p) b|) = (List.ofFn fun b => |p b|).map fun y => c * y := by
    rw [List.map_ofFn]
    congr 1
    funext b
    simp [abs_mul, abs_of_pos hc]
  rw [this]
  have h0 := foldl_scale c hc.le (List.ofFn fun b => |p b|) 0
  rw [mul_zero] at h0
  rw [h0]
  exact mul_div_mul_left _ _ hc.ne'

/-- **C110, what is written.** From the zero state, where the script starts, and with `κ dt > 0`: the fields written to disk, scaled to maximum one, are those of the implicit Euler scheme with the boundary
contribution multiplied by `κ dt`: the temperature itself is that of this scheme divided by `κ dt`. -/
theorem C110_written (h : Provisioned la eps ztol tol N m P g) (hi : Fits g false) (ht : Tagged g m P) (S : Splu) (hS : S.Ok) (kappa dt : ℝ) (hk : 0 < kappa * dt) {ubc qbc : DMat ℝ} {U Q : ℕ → P2}
    (hu : FaceValues g ubc (fun e => tagOf m e = 6) U) (hq : FaceValues g qbc (fun e => tagOf m e = 7 ∨ tagOf m e = 3) Q)
    (dU : ∀ e, (U e).totalDegree ≤ g.N) (dQ : ∀ e, (Q e).totalDegree ≤ g.N) :
    ∃ state euler : ℕ → Fin (g.np * g.K) → ℝ, (∀ j, heat S la (ctxOf g m) kappa dt ubc qbc (fun _ => 0) j = .ok (state j)) ∧ euler 0 = 0 ∧
      (∀ j W W' V w, Is g (euler j) W → Is g (euler (j + 1)) W' → Is g w V →
        l2Form g V W' + kappa * dt * sipForm g m P V W' = l2Form g V W + kappa * dt * boundary g m P V U Q) ∧
      ∀ j, (∀ a, state j a = euler j a / (kappa * dt)) ∧ written (state j) = written (euler j) := by
  obtain ⟨x, hg, -, hK, -⟩ := h.spec
  obtain ⟨op, mm, A, M, -, -, -, -, -, f1, f2, -, -, -, -, hrun⟩ := heat_ok h hi ht S hS kappa dt hk.le
  obtain ⟨b, e1, b1, b2, hb⟩ := Poisson.rhs_form hg (Poisson.Provisioned.conn' h hK) (Poisson.Provisioned.bc' h hK) la h.lapack hu hq dU dQ
  obtain ⟨s, s1, s2, s3⟩ := hrun ubc qbc b e1 b1 fun _ => 0
  refine ⟨s, fun j => (kappa * dt) • s j, s1, by simp only [s2]; funext a; simp, fun j W W' V w hW hW' hV => ?_, fun j => ⟨fun a => ?_, (written_scale _ hk _).symm⟩⟩
  · have h1 : (mat (g.np * g.K) M + (kappa * dt) • mat (g.np * g.K) A) *ᵥ ((kappa * dt) • s (j + 1)) = mat (g.np * g.K) M *ᵥ ((kappa * dt) • s j) + (kappa * dt) • bvec g b := by
      rw [Matrix.mulVec_smul, s3, smul_add, Matrix.mulVec_smul]
    have h1 := congrArg (fun v => w ⬝ᵥ v) h1
    simp only [Matrix.add_mulVec, Matrix.smul_mulVec, dotProduct_add] at h1
    rw [dotProduct_smul _ w (_ *ᵥ _), smul_eq_mul, dotProduct_smul _ w (bvec g b), smul_eq_mul, bil_mat, bil_mat, bil_mat, f2 _ _ V W' hV hW', f1 _ _ V W' hV hW', f2 _ _ V W hV hW] at h1
    rw [h1]
    congr 2
    have := hb (Poisson.ext w) V hV
    rw [sum_bvec (np_pos hg)] at this
    rw [show boundary g m P V U Q = _ from this.symm]
    congr 1
    funext a
    exact (Poisson.ext_fin w a).symm
  · simp only [Pi.smul_apply, smul_eq_mul]
    rw [mul_div_cancel_left₀ _ hk.ne']

theorem le_foldl_max (l : List ℝ) (z : ℝ) : z ≤ l.foldl max z ∧ ∀ y ∈ l, y ≤ l.foldl max z := by
  induction l generalizing z with
  | nil => simp
  | cons a l ih =>
    rw [List.foldl_cons]
    obtain ⟨h1, h2⟩ := ih (max z a)
    refine ⟨(le_max_left z a).trans h1, fun y hy => ?_⟩
    rcases List.mem_cons.1 hy with rfl | hy
    · exact (le_max_right z y).trans h1
    · exact h2 y hy

theorem foldl_max_mem (l : List ℝ) (z : ℝ) : l.foldl max z = z ∨ l.foldl max z ∈ l := by
  induction l generalizing z with
  | nil => exact .inl rfl
  | cons a l ih =>
    rw [List.foldl_cons]
    rcases ih (max z a) with h | h
    · rcases max_choice z a with h' | h'
      · exact .inl (h.trans h')
      · exact .inr (by rw [h, h']; exact List.mem_cons_self)
    · exact .inr (List.mem_cons_of_mem _ h)

/-- **C110, scaling.** What is written is the temperature divided by its largest magnitude: no value exceeds one in magnitude and one of them attains it, unless the temperature is zero everywhere. -/
theorem C110_scaled {n : ℕ} (p : Fin n → ℝ) (hp : p ≠ 0) : (∀ a, |written p a| ≤ 1) ∧ (∃ a, |written p a| = 1) ∧ ∃ c > 0, ∀ a, written p a = p a / c := by
  obtain ⟨hz, hm⟩ := le_foldl_max (List.ofFn fun b => |p b|) 0
  obtain ⟨b, hb⟩ := Function.ne_iff.1 hp
  have hle : ∀ a, |p a| ≤ (List.ofFn fun b => |p b|).foldl max 0 := fun a => hm _ (List.mem_ofFn.2 ⟨a, rfl⟩)
  have hpos : 0 < (List.ofFn fun b => |p b|).foldl max 0 := lt_of_lt_of_le (abs_pos.2 hb) (hle b)
  refine ⟨fun a => ?_, ?_, _, hpos, fun a => rfl⟩
  · unfold written
    rw [abs_div, abs_of_pos hpos, div_le_one hpos]
    exact hle a
  · rcases foldl_max_mem (List.ofFn fun b => |p b|) 0 with h | h
    · exact absurd h hpos.ne'
    · obtain ⟨a, ha⟩ := List.mem_ofFn.1 h
      refine ⟨a, ?_⟩
      unfold written
      rw [abs_div, abs_of_pos hpos, div_eq_one_iff_eq hpos.ne']
      exact ha

example : (fun _ => -3 : Fin 2 → ℝ) ≠ 0 := fun h => by have := congrFun h 0; norm_num at this

/-- **C110, step size.** With `CFL > 0`, `κ > 0` and a face scale that is not zero the step is positive, and `dt κ (N+1)² F²/2 ≤ CFL` at every face point. -/
theorem C110_step {CFL kappa : ℝ} (hC : 0 < CFL) (hk : 0 < kappa) (N : ℕ) {fs : List ℝ} (hf : ∃ f ∈ fs, f ≠ 0) :
    0 < stepSize CFL kappa N fs ∧ 0 < kappa * stepSize CFL kappa N fs ∧ ∀ f ∈ fs, stepSize CFL kappa N fs * (kappa * (N + 1) ^ 2 * f ^ 2 / 2) ≤ CFL := by
  obtain ⟨hz, hm⟩ := le_foldl_max (fs.map fun f => ((N : ℝ) + 1) ^ 2 * 0.5 * |f| ^ 2 * kappa) 0
  obtain ⟨f, hf, hf0⟩ := hf
  have h1 := hm _ (List.mem_map_of_mem hf)
  have h2 : 0 < ((N : ℝ) + 1) ^ 2 * 0.5 * |f| ^ 2 * kappa := by
    have := abs_pos.2 hf0
    positivity
  have h3 := lt_of_lt_of_le h2 h1
  have h4 : 0 < stepSize CFL kappa N fs := div_pos hC h3
  refine ⟨h4, mul_pos hk h4, fun y hy => ?_⟩
  have h5 := hm _ (List.mem_map_of_mem hy)
  have h6 : stepSize CFL kappa N fs * (fs.map fun f => ((N : ℝ) + 1) ^ 2 * 0.5 * |f| ^ 2 * kappa).foldl max 0 = CFL := div_mul_cancel₀ _ h3.ne'
  calc stepSize CFL kappa N fs * (kappa * (N + 1) ^ 2 * y ^ 2 / 2) = stepSize CFL kappa N fs * (((N : ℝ) + 1) ^ 2 * 0.5 * |y| ^ 2 * kappa) := by rw [sq_abs]; ring
    _ ≤ _ := mul_le_mul_of_nonneg_left h5 h4.le
    _ = CFL := h6

example : 0 < stepSize 0.85 1 3 [2, 4] := (C110_step (by norm_num) one_pos 3 ⟨2, by simp, by norm_num⟩).1

/-! ### Concrete cases -/

/-- A solver meeting the contract. -/
noncomputable def exactSplu : Splu := fun _ A => open Classical in
  if ∀ u, A *ᵥ u = 0 → u = 0 then .ok fun b => if h : ∃ u, A *ᵥ u = b then h.choose else 0 else .throws

theorem exactSplu_ok : exactSplu.Ok := by
  classical
  intro n A
  unfold exactSplu
  constructor
  · intro hA
    refine ⟨_, if_pos hA, fun b => ?_⟩
    obtain ⟨u, hu, -⟩ := Poisson.solve_of_inj A hA b
    have he : ∃ u, A *ᵥ u = b := ⟨u, hu⟩
    simp only [dif_pos he]
    exact he.choose_spec
  · rintro ⟨u, h0, hu⟩
    exact if_neg fun hA => h0 (hA u hu)

/-- The square with two Dirichlet faces, a wall and a Neuman face and the boundary values of `x + 2y`, `κ = 1` and `dt = 1/2`: the temperature tends to twice the steady state. -/
example : ∃ g ubc qbc, ∀ p0 : Fin (g.np * g.K) → ℝ, ∃ state : ℕ → Fin (g.np * g.K) → ℝ,
    (∀ j, heat exactSplu exactLapack (ctxOf g (Poisson.squareTags [6, 0, 3, 6, 7, 0])) 1 (1 / 2) ubc qbc p0 j = .ok (state j)) ∧
      ∀ a, Tendsto (fun j => state j a) atTop (𝓝 (nodal g (X 0 + C 2 * X 1) a / (1 * (1 / 2)))) := by
  obtain ⟨g, hg, h1, h2, -⟩ := Poisson.squareTags_grid [6, 0, 3, 6, 7, 0] (by decide)
  obtain ⟨x, -, hN, -, -⟩ := hg.spec
  have hU : (X 0 + C 2 * X 1 : P2).totalDegree ≤ g.N := by
    rw [hN]
    refine (totalDegree_add _ _).trans (max_le (by rw [totalDegree_X]) ((totalDegree_mul _ _).trans ?_))
    rw [totalDegree_C, totalDegree_X]
  have hl : lap (X 0 + C 2 * X 1 : P2) = 0 := by
    unfold lap
    simp [pderiv_X]
  obtain ⟨ubc, hu⟩ := Poisson.faceValues_exists g (fun e => tagOf (Poisson.squareTags [6, 0, 3, 6, 7, 0]) e = 6) fun _ => X 0 + C 2 * X 1
  obtain ⟨qbc, hq⟩ := Poisson.faceValues_exists g (fun e => tagOf (Poisson.squareTags [6, 0, 3, 6, 7, 0]) e = 7 ∨ tagOf (Poisson.squareTags [6, 0, 3, 6, 7, 0]) e = 3) fun e => dn (outward g e) (X 0 + C 2 * X 1)
  exact ⟨g, ubc, qbc, fun p0 => C110_limit hg (Poisson.square_fits h1 h2 _) (Poisson.square_tagged h2 _ _ _ _ (by decide) (by decide) (by decide) (by decide)) (Poisson.square_connected h2) ⟨0, by omega, rfl⟩
    exactSplu exactSplu_ok 1 (1 / 2) (by norm_num) hU hl hu hq p0⟩

/-- The square with walls and a Neuman face, without flux: the integral is constant. -/
example : ∃ g qbc ubc, ∀ p0 : Fin (g.np * g.K) → ℝ, ∃ state : ℕ → Fin (g.np * g.K) → ℝ,
    (∀ j, heat exactSplu exactLapack (ctxOf g (Poisson.squareTags [3, 0, 3, 7, 7, 0])) 1 (1 / 2) ubc qbc p0 j = .ok (state j)) ∧ state 0 = p0 ∧
      ∀ j W W0, Is g (state j) W → Is g p0 W0 → ∑ k ∈ Finset.range g.K, Poisson.triIntegral (g.tri k) (val (W k)) = ∑ k ∈ Finset.range g.K, Poisson.triIntegral (g.tri k) (val (W0 k)) := by
  obtain ⟨g, hg, h1, h2, -⟩ := Poisson.squareTags_grid [3, 0, 3, 7, 7, 0] (by decide)
  obtain ⟨qbc, hq⟩ := Poisson.faceValues_exists g (fun e => tagOf (Poisson.squareTags [3, 0, 3, 7, 7, 0]) e = 7 ∨ tagOf (Poisson.squareTags [3, 0, 3, 7, 7, 0]) e = 3) fun _ => 0
  refine ⟨g, qbc, ⟨3 * (g.N + 1), g.K, fun _ _ => 0⟩, fun p0 => C110_conserves hg (Poisson.square_fits h1 h2 _) (Poisson.square_tagged h2 _ _ _ _ (by decide) (by decide) (by decide) (by decide))
    exactSplu exactSplu_ok 1 (1 / 2) (by norm_num) (fun e he => ?_) ⟨rfl, rfl⟩ hq p0⟩
  rw [h2] at he
  have he : e < 6 := he
  interval_cases e <;> simp [tagOf, Poisson.squareTags]

/-- The same square: two runs with Dirichlet values never move apart, with a step of any size. -/
example : ∃ g ubc qbc, ∀ (dt : ℝ) (p0 q0 : Fin (g.np * g.K) → ℝ), 0 ≤ dt → ∃ s t : ℕ → Fin (g.np * g.K) → ℝ,
    (∀ j, heat exactSplu exactLapack (ctxOf g (Poisson.squareTags [6, 0, 3, 6, 7, 0])) 1 dt ubc qbc p0 j = .ok (s j)) ∧
      (∀ j, heat exactSplu exactLapack (ctxOf g (Poisson.squareTags [6, 0, 3, 6, 7, 0])) 1 dt ubc qbc q0 j = .ok (t j)) ∧
      ∀ i j, i ≤ j → ∀ D D', Is g (s i - t i) D → Is g (s j - t j) D' → l2Form g D' D' ≤ l2Form g D D := by
  obtain ⟨g, hg, h1, h2, -⟩ := Poisson.squareTags_grid [6, 0, 3, 6, 7, 0] (by decide)
  obtain ⟨x, hs, -, hK, -⟩ := hg.spec
  obtain ⟨ubc, hu⟩ := Poisson.faceValues_exists g (fun e => tagOf (Poisson.squareTags [6, 0, 3, 6, 7, 0]) e = 6) fun _ => C 5
  obtain ⟨qbc, hq⟩ := Poisson.faceValues_exists g (fun e => tagOf (Poisson.squareTags [6, 0, 3, 6, 7, 0]) e = 7 ∨ tagOf (Poisson.squareTags [6, 0, 3, 6, 7, 0]) e = 3) fun _ => C 1
  obtain ⟨b, e1, b1, -⟩ := Poisson.rhs_form hs (Poisson.Provisioned.conn' hg hK) (Poisson.Provisioned.bc' hg hK) exactLapack hg.lapack hu hq (fun _ => by rw [totalDegree_C]; omega) (fun _ => by rw [totalDegree_C]; omega)
  exact ⟨g, ubc, qbc, fun dt p0 q0 hdt => C110_stable hg (Poisson.square_fits h1 h2 _) (Poisson.square_tagged h2 _ _ _ _ (by decide) (by decide) (by decide) (by decide))
    exactSplu exactSplu_ok 1 dt (by linarith) e1 b1 p0 q0⟩

end Blitzdg.Heat
