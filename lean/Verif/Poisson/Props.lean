import Verif.Poisson.Coercive
import Mathlib.LinearAlgebra.Matrix.NonsingularInverse
import Mathlib.LinearAlgebra.Matrix.ToLin
import Mathlib.LinearAlgebra.FiniteDimensional.Lemmas

/-! C60, C98, C99: range, symmetry, meaning and solvability of the Poisson matrices. -/

namespace Blitzdg.Poisson

open MvPolynomial
open Matrix
open Blitzdg.Sparse (DMat Csc Triplet Represents asInt)
open Blitzdg.Nodes1D (Lapack exactLapack)
open Blitzdg.DG2D
open Blitzdg.SW (Grid Mesh GridSpec Provisioned gridX gridY faceEnds lerp square square_ok)

variable {la : Lapack} {eps ztol tol : ℝ} {N : ℕ} {m : Mesh} {P : ℕ → ℕ} {g : Grid}

/-- The `n × n` matrix with entries `A i j`. -/
def mat (n : ℕ) (A : ℕ → ℕ → ℝ) : Matrix (Fin n) (Fin n) ℝ := fun i j => A i j

/-- A vector, continued by zero. -/
noncomputable def ext {n : ℕ} (v : Fin n → ℝ) (i : ℕ) : ℝ := if h : i < n then v ⟨i, h⟩ else 0

theorem ext_fin {n : ℕ} (v : Fin n → ℝ) (i : Fin n) : ext v i = v i := by simp [ext]

theorem bil_mat (n : ℕ) (A : ℕ → ℕ → ℝ) (v u : Fin n → ℝ) : v ⬝ᵥ mat n A *ᵥ u = bil n A (ext v) (ext u) := by
  unfold bil mat dotProduct mulVec dotProduct
  simp only [Finset.sum_range, ext_fin, Finset.mul_sum]

theorem bil_zero_left (n : ℕ) (A : ℕ → ℕ → ℝ) (v : ℕ → ℝ) (u : Fin n → ℝ) (h : mat n A *ᵥ u = 0) : bil n A v (ext u) = 0 := by
  unfold bil
  refine Finset.sum_eq_zero fun i hi => ?_
  have := congrFun h ⟨i, Finset.mem_range.1 hi⟩
  simp only [mulVec, dotProduct, mat, Pi.zero_apply] at this
  rw [← Finset.mul_sum, Finset.sum_range]
  simp only [ext_fin, this, mul_zero]

/-- A matrix without kernel can be solved with. -/
theorem solve_of_inj {n : ℕ} (M : Matrix (Fin n) (Fin n) ℝ) (h : ∀ u, M *ᵥ u = 0 → u = 0) (b : Fin n → ℝ) : ∃! u, M *ᵥ u = b := by
  have hi : Function.Injective M.mulVec := by
    intro u v huv
    have : M *ᵥ (u - v) = 0 := by rw [Matrix.mulVec_sub, huv, sub_self]
    exact sub_eq_zero.1 (h _ this)
  have hs : Function.Surjective M.mulVecLin := LinearMap.surjective_of_injective (f := M.mulVecLin) hi
  obtain ⟨u, hu⟩ := hs b
  exact ⟨u, hu, fun v hv => hi (hv.trans hu.symm)⟩

theorem Provisioned.conn' (h : Provisioned la eps ztol tol N m P g) (hK : g.K = m.K) : Conn 3 g.K m.E m.F P := by rw [hK]; exact h.mesh.conn

theorem Provisioned.bc' (h : Provisioned la eps ztol tol N m P g) (hK : g.K = m.K) : 3 * g.K ≤ m.bcType.length := by rw [hK]; exact h.mesh.lenBc

/-! ### C98 -/

/-- **C98.** The constructor ends normally; the operator is `Np K × Np K`, one row and column more with the border, the mass matrix `Np K × Np K`.  If `u`, `v` are the nodal values of the piecewise
polynomials `U`, `V`, then `vᵀ OP u` is the interior penalty form of `V` and `U` (with the border: plus `λ_v Σu + λ_u Σv`), and `vᵀ MM u` is `∫ U V`. -/
theorem C98_forms (h : Provisioned la eps ztol tol N m P g) (bordered : Bool) (hi : Fits g bordered) (ht : Tagged g m P) :
    ∃ op mm A M, (ctxOf g m).build la bordered = .ok (op, mm) ∧
      op.m = (g.np * g.K + if bordered then 1 else 0) ∧ op.n = (g.np * g.K + if bordered then 1 else 0) ∧ mm.m = g.np * g.K ∧ mm.n = g.np * g.K ∧
      Represents op A ∧ Represents mm M ∧
      (∀ v u V U, HasNodes g v V → HasNodes g u U → bil (g.np * g.K + if bordered then 1 else 0) A v u = sipForm g m P V U
        + if bordered then v (g.np * g.K) * ∑ k ∈ Finset.range (g.np * g.K), u k + u (g.np * g.K) * ∑ k ∈ Finset.range (g.np * g.K), v k else 0) ∧
      ∀ v u V U, HasNodes g v V → HasNodes g u U → bil (g.np * g.K) M v u = l2Form g V U := by
  obtain ⟨x, hg, -, hK, -⟩ := h.spec
  obtain ⟨op, mm, A, M, e, d1, d2, d3, d4, r1, r2, f1, f2⟩ := weak hg (Provisioned.conn' h hK) (Provisioned.bc' h hK) la h.lapack bordered hi
  refine ⟨op, mm, A, M, e, d1, d2, d3, d4, r1, r2, fun v u V U hv hu => ?_, f2⟩
  rw [f1 v u V U hv hu, dgForm_eq hg ht]
  congr 1
  unfold borderForm
  cases bordered
  · rfl
  · simp only [if_true, Finset.sum_add_distrib, Finset.mul_sum]
    congr 1
    exact Finset.sum_congr rfl fun k _ => mul_comm _ _

/-- Without a condition on the tags: every face contributes according to its own tag. -/
theorem C98_forms_any_tags (h : Provisioned la eps ztol tol N m P g) (hi : Fits g false) :
    ∃ op mm A M, (ctxOf g m).build la false = .ok (op, mm) ∧ Represents op A ∧ Represents mm M ∧
      (∀ v u V U, HasNodes g v V → HasNodes g u U → bil (g.np * g.K) A v u = dgForm g m P V U) ∧
      ∀ v u V U, HasNodes g v V → HasNodes g u U → bil (g.np * g.K) M v u = l2Form g V U := by
  obtain ⟨x, hg, -, hK, -⟩ := h.spec
  obtain ⟨op, mm, A, M, e, d1, d2, d3, d4, r1, r2, f1, f2⟩ := weak hg (Provisioned.conn' h hK) (Provisioned.bc' h hK) la h.lapack false hi
  exact ⟨op, mm, A, M, e, r1, r2, fun v u V U hv hu => by simpa [borderForm] using f1 v u V U hv hu, f2⟩

/-! ### C60 -/

/-- **C60, range and storage.** Assembly ends normally.  Every entry put into either triplet lies inside the declared size, and neither triplet had to grow: the capacity is the one allocated. -/
theorem C60_in_range (h : Provisioned la eps ztol tol N m P g) (bordered : Bool) (hi : Fits g bordered) :
    ∃ op mm, (ctxOf g m).assemble la bordered = .ok (op, mm) ∧
      (∃ es, Sparse.Holds op (asInt es) ∧ ∀ e ∈ es, e.1 < (g.np * g.K + if bordered then 1 else 0) ∧ e.2.1 < (g.np * g.K + if bordered then 1 else 0)) ∧
      op.nzmax = (1 + 3) * g.np * g.np * g.K + (if bordered then 1 else 0) * 2 * (g.np * g.K) ∧
      (∃ es, Sparse.Holds mm (asInt es) ∧ ∀ e ∈ es, e.1 < g.np * g.K ∧ e.2.1 < g.np * g.K) ∧ mm.nzmax = g.np * g.np * g.K := by
  obtain ⟨x, hg, -, hK, -⟩ := h.spec
  obtain ⟨ME, e, hE⟩ := massEdge_ok la h.lapack hg m
  obtain ⟨F, hR, hF⟩ := ready hg (Provisioned.conn' h hK) (Provisioned.bc' h hK) ME
  obtain ⟨t, used, e1, ⟨es, a1, -, a2, -, -, -, a3⟩, ⟨es', b1, -, b2, -, -, -, b3⟩⟩ := hR.assemble la bordered e (Or.inl rfl) hi.1 hi.2
  exact ⟨t.1, t.2, e1, ⟨es, a1, a2⟩, a3, ⟨es', b1, b2⟩, b3⟩

/-- **C60, symmetry.** If every boundary face is tagged Wall, Dirichlet or Neuman and no interior face is, both matrices are symmetric, with or without the border. -/
theorem C60_symmetric (h : Provisioned la eps ztol tol N m P g) (bordered : Bool) (hi : Fits g bordered) (ht : Tagged g m P) :
    ∃ op mm A M, (ctxOf g m).build la bordered = .ok (op, mm) ∧ Represents op A ∧ Represents mm M ∧
      (∀ i < op.m, ∀ j < op.n, A i j = A j i) ∧ ∀ i < mm.m, ∀ j < mm.n, M i j = M j i := by
  obtain ⟨x, hg, -, -, -⟩ := h.spec
  obtain ⟨op, mm, A, M, e, d1, d2, d3, d4, r1, r2, f1, f2⟩ := C98_forms h bordered hi ht
  refine ⟨op, mm, A, M, e, r1, r2, fun i hi j hj => ?_, fun i hi j hj => ?_⟩
  · rw [d1] at hi; rw [d2] at hj
    obtain ⟨V, hV⟩ := hasNodes_exists hg fun a => if a = i then 1 else 0
    obtain ⟨U, hU⟩ := hasNodes_exists hg fun a => if a = j then 1 else 0
    rw [← bil_single _ A i j hi hj, ← bil_single _ A j i hj hi, f1 _ _ V U hV hU, f1 _ _ U V hU hV, sipForm_symm]
    split_ifs <;> ring
  · rw [d3] at hi; rw [d4] at hj
    obtain ⟨V, hV⟩ := hasNodes_exists hg fun a => if a = i then 1 else 0
    obtain ⟨U, hU⟩ := hasNodes_exists hg fun a => if a = j then 1 else 0
    rw [← bil_single _ M i j hi hj, ← bil_single _ M j i hj hi, f2 _ _ V U hV hU, f2 _ _ U V hU hV]
    exact Finset.sum_congr rfl fun k _ => triIntegral_congr _ fun z => mul_comm _ _

/-! ### C99 -/

theorem ext_holds (hg : GridSpec P x bt g) {n : ℕ} (u : Fin n → ℝ) : ∃ U, HasNodes g (ext u) U ∧ ∀ k < g.K, (U k).totalDegree ≤ g.N := by
  obtain ⟨U, hU⟩ := hasNodes_exists hg (ext u)
  exact ⟨U, hU, fun k hk => (hU k hk).1⟩

/-- Nodal values of a constant. -/
theorem const_nodes {u : ℕ → ℝ} {U : ℕ → P2} (hU : HasNodes g u U) {c : ℝ} (hc : ∀ k < g.K, ∀ z, val (U k) z = c) (i : ℕ) (hi : i < g.np * g.K) : u i = c := by
  have hnp : 0 < g.np := by
    rcases Nat.eq_zero_or_pos g.np with h | h
    · rw [h] at hi; omega
    · exact h
  have hk : i / g.np < g.K := Nat.div_lt_of_lt_mul hi
  have := (hU (i / g.np) hk).2 (i % g.np) (Nat.mod_lt _ hnp)
  rw [hc _ hk] at this
  simp only [Nat.mod_add_div] at this
  exact this.symm

theorem definite_pos (hg : GridSpec P x bt g) (hc : Connected g P) (ht : Tagged g m P) (hd : ∃ e < 3 * g.K, tagOf m e = 6) {A : ℕ → ℕ → ℝ}
    (f : ∀ v u V U, HasNodes g v V → HasNodes g u U → bil (g.np * g.K) A v u = sipForm g m P V U) (u : Fin (g.np * g.K) → ℝ) (hu : u ≠ 0) : 0 < u ⬝ᵥ mat (g.np * g.K) A *ᵥ u := by
  by_contra hn
  apply hu
  obtain ⟨U, hU, hUd⟩ := ext_holds hg u
  rw [bil_mat, f (ext u) (ext u) U U hU hU] at hn
  obtain ⟨c, hc1, hc2⟩ := no_energy (m := m) hg hc U hUd (not_lt.1 hn)
  obtain ⟨e0, he0, h6⟩ := hd
  have := hc2 ⟨e0, he0, (ht e0 he0).2 (Or.inr (Or.inl h6)), h6⟩
  funext i
  rw [← ext_fin u i, const_nodes hU hc1 i i.2, this]
  rfl

theorem definite_inj (hg : GridSpec P x bt g) (hc : Connected g P) (ht : Tagged g m P) (hd : ∃ e < 3 * g.K, tagOf m e = 6) {A : ℕ → ℕ → ℝ}
    (f : ∀ v u V U, HasNodes g v V → HasNodes g u U → bil (g.np * g.K) A v u = sipForm g m P V U) (u : Fin (g.np * g.K) → ℝ) (hu : mat (g.np * g.K) A *ᵥ u = 0) : u = 0 := by
  by_contra hne
  have := definite_pos hg hc ht hd f u hne
  rw [hu] at this
  simp at this

/-- **C99, Dirichlet.** On a connected mesh with a Dirichlet face the operator is positive definite, hence every right-hand side has exactly one solution. -/
theorem C99_definite (h : Provisioned la eps ztol tol N m P g) (hi : Fits g false) (ht : Tagged g m P) (hc : Connected g P) (hd : ∃ e < 3 * g.K, tagOf m e = 6) :
    ∃ op mm A M, (ctxOf g m).build la false = .ok (op, mm) ∧ op.m = g.np * g.K ∧ op.n = g.np * g.K ∧ Represents op A ∧ Represents mm M ∧
      (∀ u : Fin (g.np * g.K) → ℝ, u ≠ 0 → 0 < u ⬝ᵥ mat (g.np * g.K) A *ᵥ u) ∧ ∀ b : Fin (g.np * g.K) → ℝ, ∃! u, mat (g.np * g.K) A *ᵥ u = b := by
  obtain ⟨x, hg, -, -, -⟩ := h.spec
  obtain ⟨op, mm, A, M, e, d1, d2, d3, d4, r1, r2, f1, f2⟩ := C98_forms h false hi ht
  have f0 : ∀ v u V U, HasNodes g v V → HasNodes g u U → bil (g.np * g.K) A v u = sipForm g m P V U := fun v u V U hv hu => by simpa using f1 v u V U hv hu
  exact ⟨op, mm, A, M, e, d1, d2, r1, r2, definite_pos hg hc ht hd f0, solve_of_inj _ (definite_inj hg hc ht hd f0)⟩

/-- **C99, mass matrix.** The mass matrix is positive definite and invertible, on every mesh. -/
theorem C99_mass (h : Provisioned la eps ztol tol N m P g) (hi : Fits g false) :
    ∃ op mm M, (ctxOf g m).build la false = .ok (op, mm) ∧ Represents mm M ∧
      (∀ u : Fin (g.np * g.K) → ℝ, u ≠ 0 → 0 < u ⬝ᵥ mat (g.np * g.K) M *ᵥ u) ∧ ∀ b : Fin (g.np * g.K) → ℝ, ∃! u, mat (g.np * g.K) M *ᵥ u = b := by
  obtain ⟨x, hg, -, -, -⟩ := h.spec
  obtain ⟨op, mm, A, M, e, r1, r2, f1, f2⟩ := C98_forms_any_tags h hi
  have hpos : ∀ u : Fin (g.np * g.K) → ℝ, u ≠ 0 → 0 < u ⬝ᵥ mat (g.np * g.K) M *ᵥ u := by
    intro u hu
    by_contra hn
    apply hu
    obtain ⟨U, hU, hUd⟩ := ext_holds hg u
    rw [bil_mat, f2 _ _ U U hU hU] at hn
    have hz : l2Form g U U = 0 := le_antisymm (not_lt.1 hn) (Finset.sum_nonneg fun k hk => sq_nonneg' (hg.ccw k (Finset.mem_range.1 hk)) _)
    unfold l2Form at hz
    rw [Finset.sum_eq_zero_iff_of_nonneg fun k hk => sq_nonneg' (hg.ccw k (Finset.mem_range.1 hk)) _] at hz
    funext i
    rw [← ext_fin u i, const_nodes hU (c := 0) (fun k hk z => sq_zero (hg.ccw k hk) _ (hz k (Finset.mem_range.2 hk)) z) i i.2]
    rfl
  refine ⟨op, mm, M, e, r2, hpos, solve_of_inj _ fun u hu => ?_⟩
  by_contra hne
  have := hpos u hne
  rw [hu] at this
  simp at this

/-- **C99, without Dirichlet faces.** The operator without border is singular: constants are in its kernel. -/
theorem C99_singular (h : Provisioned la eps ztol tol N m P g) (hi : Fits g false) (ht : Tagged g m P) (hd : ∀ e < 3 * g.K, tagOf m e ≠ 6) :
    ∃ op mm A M, (ctxOf g m).build la false = .ok (op, mm) ∧ Represents op A ∧ Represents mm M ∧ mat (g.np * g.K) A *ᵥ (fun _ => 1) = 0 := by
  obtain ⟨x, hg, -, -, -⟩ := h.spec
  obtain ⟨op, mm, A, M, e, d1, d2, d3, d4, r1, r2, f1, f2⟩ := C98_forms h false hi ht
  refine ⟨op, mm, A, M, e, r1, r2, ?_⟩
  funext i
  have h1 : HasNodes g (fun _ => 1) fun _ => C 1 := fun k hk => ⟨by rw [totalDegree_C]; omega, fun i hi => val_C 1 _⟩
  obtain ⟨V, hV⟩ := hasNodes_exists hg fun a => if a = i then 1 else 0
  have e1 := f1 _ _ V _ hV h1
  simp only [Bool.false_eq_true, if_false, add_zero] at e1
  have e2 : bil (g.np * g.K) A (fun a => if a = i then 1 else 0) (fun _ => 1) = (mat (g.np * g.K) A *ᵥ fun _ => 1) i := by
    unfold bil mulVec dotProduct mat
    rw [Finset.sum_eq_single (i : ℕ)]
    · rw [Finset.sum_range]; simp
    · intro b _ hb; simp [hb]
    · intro hb; exact absurd (Finset.mem_range.2 i.2) hb
  rw [← e2, e1]
  unfold sipForm gradForm
  have z1 : ∀ k ∈ Finset.range g.K, (triIntegral (g.tri k) fun z => val (pderiv 0 (V k)) z * val (pderiv 0 (C 1)) z + val (pderiv 1 (V k)) z * val (pderiv 1 (C 1)) z) = 0 := by
    intro k _
    simp [triIntegral, triInt, val]
  have z2 : ∀ e ∈ Finset.range (3 * g.K), symTerm g m P V (fun _ => C 1) e = 0 := by
    intro e he
    unfold symTerm
    simp only [val_dn, pderiv_C, val_C]
    rw [if_neg (hd e (Finset.mem_range.1 he))]
    simp [segIntegral, val]
  rw [Finset.sum_eq_zero z1, Finset.sum_eq_zero z2]
  simp

theorem val_zero (z : ℝ × ℝ) : val 0 z = 0 := by unfold val; exact map_zero _

theorem sip_zero (g : Grid) (m : Mesh) (P : ℕ → ℕ) (U : ℕ → P2) : sipForm g m P (fun _ => 0) U = 0 := by
  unfold sipForm gradForm symTerm
  simp only [val_dn, map_zero, val_zero]
  simp [triIntegral, triInt, segIntegral]

theorem bordered_inj (hg : GridSpec P x bt g) (hc : Connected g P) (hK : 0 < g.K) {A : ℕ → ℕ → ℝ}
    (f1 : ∀ v u V U, HasNodes g v V → HasNodes g u U → bil (g.np * g.K + 1) A v u = sipForm g m P V U
        + (v (g.np * g.K) * ∑ k ∈ Finset.range (g.np * g.K), u k + u (g.np * g.K) * ∑ k ∈ Finset.range (g.np * g.K), v k)) (u : Fin (g.np * g.K + 1) → ℝ) (hu : mat (g.np * g.K + 1) A *ᵥ u = 0) : u = 0 := by
  obtain ⟨U, hU, hUd⟩ := ext_holds hg u
  have hnp : 0 < g.np := by unfold Grid.np; have := hg.posN; exact Nat.div_pos (by nlinarith) (by omega)
  have hn : 0 < (g.np * g.K) := Nat.mul_pos hnp hK
  -- the row of the border: the nodal values add up to zero
  have h0 : HasNodes g (fun a => if a = (g.np * g.K) then 1 else 0) fun _ => 0 := fun k hk => ⟨by simp, fun i hi => by
    have := node_lt hi hk
    simp only [val_zero]
    rw [if_neg (by omega)]⟩
  have s0 : ∑ k ∈ Finset.range (g.np * g.K), ext u k = 0 := by
    have h1 := f1 _ (ext u) _ U h0 hU
    rw [bil_zero_left _ A _ u hu, sip_zero] at h1
    have h2 : ∑ k ∈ Finset.range (g.np * g.K), (if k = (g.np * g.K) then (1 : ℝ) else 0) = 0 := Finset.sum_eq_zero fun k hk => if_neg (Finset.mem_range.1 hk).ne
    rw [h2, if_pos rfl] at h1
    linarith
  -- no energy
  have hen : sipForm g m P U U ≤ 0 := by
    have h1 := f1 (ext u) (ext u) U U hU hU
    rw [bil_zero_left _ A _ u hu, s0] at h1
    linarith
  obtain ⟨c, hc1, -⟩ := no_energy (m := m) hg hc U hUd hen
  have hcn : ∀ i < (g.np * g.K), ext u i = c := fun i hi => const_nodes hU hc1 i hi
  have c0 : c = 0 := by
    rw [Finset.sum_congr rfl fun k hk => hcn k (Finset.mem_range.1 hk)] at s0
    rw [Finset.sum_const, Finset.card_range, nsmul_eq_mul] at s0
    exact (mul_eq_zero.1 s0).resolve_left (Nat.cast_ne_zero.2 hn.ne')
  -- the multiplier
  have hl : ext u (g.np * g.K) = 0 := by
    obtain ⟨V, hV⟩ := hasNodes_exists hg fun a => if a = 0 then 1 else 0
    have hU0 : HasNodes g (ext u) fun _ => 0 := fun k hk => ⟨by simp, fun i hi => by
      simp only [hcn _ (node_lt hi hk), c0, val_zero]⟩
    have h1 := f1 _ (ext u) V _ hV hU0
    rw [bil_zero_left _ A _ u hu, sipForm_symm, sip_zero, if_neg hn.ne'] at h1
    have h2 : ∑ k ∈ Finset.range (g.np * g.K), (if k = 0 then (1 : ℝ) else 0) = 1 := by simp [hn]
    rw [h2] at h1
    linarith
  funext i
  rw [← ext_fin u i]
  rcases Nat.lt_succ_iff_lt_or_eq.1 i.2 with hlt | heq
  · rw [hcn i hlt, c0]; rfl
  · rw [heq, hl]; rfl

/-- **C99, border.** With the border of ones the matrix is invertible on every connected mesh, with or without Dirichlet faces. -/
theorem C99_bordered (h : Provisioned la eps ztol tol N m P g) (hi : Fits g true) (ht : Tagged g m P) (hc : Connected g P) (hK : 0 < g.K) :
    ∃ op mm A M, (ctxOf g m).build la true = .ok (op, mm) ∧ op.m = g.np * g.K + 1 ∧ op.n = g.np * g.K + 1 ∧ Represents op A ∧ Represents mm M ∧
      ∀ b : Fin (g.np * g.K + 1) → ℝ, ∃! u, mat (g.np * g.K + 1) A *ᵥ u = b := by
  obtain ⟨x, hg, -, -, -⟩ := h.spec
  obtain ⟨op, mm, A, M, e, d1, d2, d3, d4, r1, r2, f1, f2⟩ := C98_forms h true hi ht
  exact ⟨op, mm, A, M, e, d1, d2, r1, r2, solve_of_inj _ (bordered_inj hg hc hK fun v u V U hv hu => by simpa using f1 v u V U hv hu)⟩

/-! ### Concrete cases: the unit square cut into two triangles, order one -/

/-- The square with other tags. -/
noncomputable def squareTags (t : List Int) : Mesh := { square with bcType := t }

theorem squareTags_ok (t : List Int) (ht : 6 ≤ t.length) : (squareTags t).Ok twoTri where
  conn := square_ok.conn
  lenEv := square_ok.lenEv
  ltEv := square_ok.ltEv
  lenVert := square_ok.lenVert
  lenBc := ht
  ccw := square_ok.ccw
  meet := square_ok.meet

theorem squareTags_grid (t : List Int) (ht : 6 ≤ t.length) : ∃ g, Provisioned exactLapack (1 / 2 ^ 52) 1e-10 1e-5 1 (squareTags t) twoTri g ∧ g.np = 3 ∧ g.K = 2 ∧
    (∀ k < 2, g.tri k = square.tri k) ∧ (g.n.r.getD 0 0 = -1 ∧ g.n.s.getD 0 0 = -1) ∧ (g.n.r.getD 1 0 = 1 ∧ g.n.s.getD 1 0 = -1) ∧ (g.n.r.getD 2 0 = -1 ∧ g.n.s.getD 2 0 = 1) := by
  obtain ⟨n, o, h1, -, -, hr, p0, p1, p2⟩ := demo_tri
  have hgap : ∀ x, IsGLL exactLapack (1 / 2 ^ 52) 1 x → ∀ i j : ℕ, i < j → j ≤ 1 → 2 * (1e-5 : ℝ) ≤ x.getD j 0 - x.getD i 0 := by
    intro x hx i j hij hj
    have e : x = [-1, 1] := by
      unfold IsGLL Jacobi.gllPoints at hx
      simp [wr] at hx
      exact hx.symm
    obtain rfl : i = 0 := by omega
    obtain rfl : j = 1 := by omega
    rw [e]
    norm_num
  obtain ⟨g, x, hb, -, -, rfl, -⟩ := SW.buildGrid_spec exactLapack Nodes1D.exactLapack_ok (1 / 2 ^ 52) (by norm_num) (by norm_num) 1e-10 1e-5 (by norm_num) (by norm_num) 1 (le_refl _) (by norm_num)
    (squareTags t) twoTri (squareTags_ok t ht) n o h1 hgap
  have hP : Provisioned exactLapack (1 / 2 ^ 52) 1e-10 1e-5 1 (squareTags t) twoTri g :=
    ⟨Nodes1D.exactLapack_ok, by norm_num, by norm_num, by norm_num, by norm_num, le_refl _, by norm_num, squareTags_ok t ht, hb, hgap⟩
  obtain ⟨x, hg, hN, hK, htri⟩ := hP.spec
  refine ⟨g, hP, by unfold Grid.np; rw [hN], hK, htri, p0, p1, p2⟩

theorem square_fits {g : Grid} (h1 : g.np = 3) (h2 : g.K = 2) (b : Bool) : Fits g b := by
  unfold Fits
  rw [h1, h2]
  cases b <;> simp [intMax]

theorem square_tagged {g : Grid} (h2 : g.K = 2) (a b c d : Int) (ha : a = 3 ∨ a = 6 ∨ a = 7) (hb : b = 3 ∨ b = 6 ∨ b = 7) (hc : c = 3 ∨ c = 6 ∨ c = 7) (hd : d = 3 ∨ d = 6 ∨ d = 7) :
    Tagged g (squareTags [a, 0, b, c, d, 0]) twoTri := by
  intro e he
  rw [h2] at he
  have he : e < 6 := he
  interval_cases e <;> simp [twoTri, tagOf, squareTags] <;> assumption

theorem square_connected {g : Grid} (h2 : g.K = 2) : Connected g twoTri := by
  intro k hk
  rw [h2] at hk
  rcases (by omega : k = 0 ∨ k = 1) with rfl | rfl
  · exact Relation.ReflTransGen.refl
  · exact Relation.ReflTransGen.single ⟨by omega, 1, by omega, rfl⟩

/-- C99 on the square with one Dirichlet side: hypotheses met, and the conclusion is about a `6 × 6` matrix. -/
example : ∃ (g : Grid) (op mm : Csc ℝ) (A : ℕ → ℕ → ℝ), (ctxOf g (squareTags [6, 0, 3, 7, 3, 0])).build exactLapack false = .ok (op, mm) ∧ Represents op A ∧
    ∀ b : Fin 6 → ℝ, ∃! u, mat 6 A *ᵥ u = b := by
  obtain ⟨g, hg, h1, h2, -⟩ := squareTags_grid [6, 0, 3, 7, 3, 0] (by decide)
  obtain ⟨op, mm, A, M, e, -, -, r, -, -, h⟩ := C99_definite hg (square_fits h1 h2 _) (square_tagged h2 _ _ _ _ (by decide) (by decide) (by decide) (by decide)) (square_connected h2)
    ⟨0, by omega, rfl⟩
  rw [h1, h2] at h
  exact ⟨g, op, mm, A, e, r, h⟩

/-- C99 with the border, all sides walls. -/
example : ∃ (g : Grid) (op mm : Csc ℝ) (A : ℕ → ℕ → ℝ), (ctxOf g (squareTags [3, 0, 3, 3, 7, 0])).build exactLapack true = .ok (op, mm) ∧ Represents op A ∧
    ∀ b : Fin 7 → ℝ, ∃! u, mat 7 A *ᵥ u = b := by
  obtain ⟨g, hg, h1, h2, -⟩ := squareTags_grid [3, 0, 3, 3, 7, 0] (by decide)
  obtain ⟨op, mm, A, M, e, -, -, r, -, h⟩ := C99_bordered hg (square_fits h1 h2 _) (square_tagged h2 _ _ _ _ (by decide) (by decide) (by decide) (by decide)) (square_connected h2) (by omega)
  rw [h1, h2] at h
  exact ⟨g, op, mm, A, e, r, h⟩

/-- C60 and the singular case on the square with walls: hypotheses met. -/
example : ∃ g : Grid, (∃ op mm A M, (ctxOf g (squareTags [3, 0, 3, 3, 7, 0])).build exactLapack true = .ok (op, mm) ∧ Represents op A ∧ Represents mm M ∧
      (∀ i < op.m, ∀ j < op.n, A i j = A j i) ∧ ∀ i < mm.m, ∀ j < mm.n, M i j = M j i) ∧
    ∃ op mm A M, (ctxOf g (squareTags [3, 0, 3, 3, 7, 0])).build exactLapack false = .ok (op, mm) ∧ Represents op A ∧ Represents mm M ∧ mat (g.np * g.K) A *ᵥ (fun _ => 1) = 0 := by
  obtain ⟨g, hg, h1, h2, -⟩ := squareTags_grid [3, 0, 3, 3, 7, 0] (by decide)
  have ht := square_tagged (g := g) h2 3 3 3 7 (by decide) (by decide) (by decide) (by decide)
  refine ⟨g, C60_symmetric hg true (square_fits h1 h2 _) ht, C99_singular hg (square_fits h1 h2 _) ht fun e he => ?_⟩
  rw [h2] at he
  have he : e < 6 := he
  interval_cases e <;> simp [tagOf, squareTags]

/-- **C60, refuted without the condition on the tags.** One side of the square is tagged Out (2), as a mesh file or `setBCType` may do: the operator is not symmetric. -/
theorem C60_not_symmetric : ∃ g, Provisioned exactLapack (1 / 2 ^ 52) 1e-10 1e-5 1 (squareTags [2, 0, 3, 3, 3, 0]) twoTri g ∧
    ∃ op mm A M, (ctxOf g (squareTags [2, 0, 3, 3, 3, 0])).build exactLapack false = .ok (op, mm) ∧ Represents op A ∧ Represents mm M ∧ ∃ i < g.np * g.K, ∃ j < g.np * g.K, A i j ≠ A j i := by
  obtain ⟨g, hg, h1, h2, htri, -⟩ := squareTags_grid [2, 0, 3, 3, 3, 0] (by decide)
  obtain ⟨x, hs, hN, -, -⟩ := hg.spec
  obtain ⟨op, mm, A, M, e, r1, r2, f1, -⟩ := C98_forms_any_tags hg (square_fits h1 h2 _)
  refine ⟨g, hg, op, mm, A, M, e, r1, r2, ?_⟩
  by_contra hcon
  have hsym : ∀ i < g.np * g.K, ∀ j < g.np * g.K, A i j = A j i := by
    intro i hi j hj
    by_contra hne
    exact hcon ⟨i, hi, j, hj, hne⟩
  have hone : HasNodes g (fun _ => 1) fun _ => C 1 := fun k hk => ⟨by rw [totalDegree_C]; omega, fun i hi => val_C 1 _⟩
  have hnp : 0 < g.np := by omega
  have hy : HasNodes g (fun a => val (X 1) (gridX (g.tri (a / g.np)) g.n (a % g.np), gridY (g.tri (a / g.np)) g.n (a % g.np))) fun _ => X 1 := by
    refine fun k hk => ⟨by rw [totalDegree_X, hN], fun i hi => ?_⟩
    simp only
    rw [Nat.add_mul_div_left _ _ hnp, Nat.div_eq_of_lt hi, Nat.add_mul_mod_self_left, Nat.mod_eq_of_lt hi, zero_add]
  have hb : ∀ v u : ℕ → ℝ, bil (g.np * g.K) A v u = bil (g.np * g.K) A u v := by
    intro v u
    unfold bil
    rw [Finset.sum_comm]
    refine Finset.sum_congr rfl fun j hj => Finset.sum_congr rfl fun i hi => ?_
    rw [hsym i (Finset.mem_range.1 hi) j (Finset.mem_range.1 hj)]; ring
  have key := ((f1 _ _ _ _ hone hy).symm.trans (hb _ _)).trans (f1 _ _ _ _ hy hone)
  -- right-hand side: nothing
  have z1 : dgForm g (squareTags [2, 0, 3, 3, 3, 0]) twoTri (fun _ => X 1) (fun _ => C 1) = 0 := by
    unfold dgForm gradForm faceTerm
    rw [h2]
    simp only [Finset.sum_range_succ, Finset.sum_range_zero, val_dn, pderiv_C, val_C, val_zero, tagOf, squareTags]
    simp [triIntegral, triInt, segIntegral]
  rw [z1] at key
  unfold dgForm at key
  have g0 : gradForm g (fun _ => C 1) (fun _ => X 1) = 0 := by
    unfold gradForm
    simp only [pderiv_C, val_zero]
    simp [triIntegral, triInt]
  rw [g0, h2] at key
  have t0 : ∀ s τ V U U2, faceTerm s τ 3 V U U2 = 0 := fun s τ V U U2 => by simp [faceTerm]
  have hp := pair_sym (seg g 1) (penalty g twoTri 1) 0 0 (by decide) (by decide) (C 1) (X 1) (C 1) (X 1)
  have h5 : seg g 5 = (seg g 1).swap := seg_across hs (e := 1) (by omega) (by decide)
  rw [← h5, ← penalty_across hs (e := 1) (by omega)] at hp
  have hp0 : penalty g twoTri 5 = penalty g twoTri 1 := penalty_across hs (e := 1) (by omega)
  have hz : faceTerm (seg g 1) (penalty g twoTri 1) 0 (C 1) (X 1) (X 1) + faceTerm (seg g 5) (penalty g twoTri 5) 0 (C 1) (X 1) (X 1) = 0 := by
    rw [show twoTri 1 = 5 from rfl, hp0] at hp
    rw [hp0, hp]
    simp [segIntegral]
  have hf : faceTerm (seg g 0) (penalty g twoTri 0) 2 (C 1) (X 1) (X 1) = 1 := by
    have hs0 : seg g 0 = (((0 : ℝ), (0 : ℝ)), ((1 : ℝ), (0 : ℝ))) := by
      unfold seg
      rw [htri (0 / 3) (by norm_num)]
      norm_num [faceEnds, Mesh.tri, Mesh.corner, square]
    have hl : segLen (((0 : ℝ), (0 : ℝ)), ((1 : ℝ), (0 : ℝ))) = 1 := by norm_num [segLen, SW.hypot]
    have hn : segNormal (((0 : ℝ), (0 : ℝ)), ((1 : ℝ), (0 : ℝ))) = (0, -1) := by unfold segNormal; rw [hl]; norm_num
    unfold faceTerm
    rw [if_neg (by decide), if_neg (by decide), hs0, hn]
    simp only [val_dn, pderiv_X_self, val_C]
    have : ∀ z : ℝ × ℝ, val (1 : P2) z = 1 := fun z => by simp [val]
    simp only [this]
    unfold segIntegral
    rw [hl]
    norm_num
  simp only [Finset.sum_range_succ, Finset.sum_range_zero, show (3 * 2 : ℕ) = 6 from rfl] at key
  simp only [show ∀ e, tagOf (squareTags [2, 0, 3, 3, 3, 0]) e = ([2, 0, 3, 3, 3, 0] : List Int).getD e 0 from fun _ => rfl] at key
  simp only [List.getD_cons_zero, List.getD_cons_succ] at key
  rw [t0, t0, t0, hf] at key
  linarith

end Blitzdg.Poisson
