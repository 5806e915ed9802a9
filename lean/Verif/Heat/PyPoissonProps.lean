import Verif.Heat.PyPoisson
import Verif.Heat.Props

/-! C124: the Poisson script. -/

namespace Blitzdg.Heat

open MvPolynomial
open Matrix
open Blitzdg.Sparse (DMat Csc Represents cooVal)
open Blitzdg.Nodes1D (Lapack exactLapack)
open Blitzdg.DG2D
open Blitzdg.Py (sparseNumpy tagged)
open Blitzdg.SW (Grid Mesh GridSpec Provisioned)
open Blitzdg.Poisson (ctxOf mat bil ext IsField HasNodes Fits Tagged Connected tagOf l2Form sipForm gradForm lap dn outward seg nodal val bil_mat triIntegral segIntegral)

variable {la : Lapack} {eps ztol tol : ℝ} {N : ℕ} {m : Mesh} {P : ℕ → ℕ} {g : Grid}

/-! ### The bordered matrix -/

theorem tagged_range (n m : ℕ) : ∀ (cols : List (List (ℕ × ℝ))) (j : ℕ), j + cols.length ≤ n → (∀ col ∈ cols, ∀ e ∈ col, e.1 < m) → ∀ r ∈ tagged j cols, r.1 < m ∧ r.2.1 < n
  | [], _, _, _, r, hr => by simp [tagged] at hr
  | col :: cols, j, hj, h, r, hr => by
    rw [List.length_cons] at hj
    simp only [tagged, List.mem_append, List.mem_map] at hr
    rcases hr with ⟨e, he, rfl⟩ | hr
    · exact ⟨h col (by simp) e he, show j < n by omega⟩
    · exact tagged_range n m cols (j + 1) (by omega) (fun c hc => h c (by simp [hc])) r hr

/-- What `getOP` hands over lies inside the matrix. -/
theorem sparse_range {c : Csc ℝ} {f : ℕ → ℕ → ℝ} (h : Represents c f) (hm : 0 < c.m) (hn : 0 < c.n) {rows : List (ℕ × ℕ × ℝ)} (hr : sparseNumpy c = .ok rows) : ∀ r ∈ rows, r.1 < c.m ∧ r.2.1 < c.n := by
  obtain ⟨rows', cols, e, hwf, -, h1, h2, -⟩ := Py.C96_sparse c f h
  rw [e] at hr
  obtain rfl := Out.ok.inj hr
  intro r hr
  rw [← List.take_append_drop cols.flatten.length rows', List.mem_append] at hr
  rcases hr with hr | hr
  · rw [h1] at hr
    exact tagged_range c.n c.m cols 0 (by rw [hwf.ncols]; omega) hwf.rows r hr
  · rw [h2 r hr]
    exact ⟨hm, hn⟩

theorem cooVal_append (a b : List (ℕ × ℕ × ℝ)) (i j : ℕ) : cooVal (a ++ b) i j = cooVal a i j + cooVal b i j := by
  unfold cooVal
  rw [List.filter_append, List.map_append, List.sum_append]

theorem cooVal_outside {a : List (ℕ × ℕ × ℝ)} {i j : ℕ} (h : ∀ r ∈ a, r.1 ≠ i ∨ r.2.1 ≠ j) : cooVal a i j = 0 := by
  unfold cooVal
  rw [List.filter_eq_nil_iff.2 fun r hr => by have := h r hr; simp only [decide_eq_true_eq]; tauto]
  rfl

theorem cooVal_one (r : ℕ × ℕ × ℝ) (i j : ℕ) : cooVal [r] i j = if r.1 = i ∧ r.2.1 = j then r.2.2 else 0 := by
  unfold cooVal
  by_cases h : r.1 = i ∧ r.2.1 = j
  · rw [List.filter_cons_of_pos (by simpa using h), if_pos h]; simp
  · rw [List.filter_cons_of_neg (by simpa using h), if_neg h]; simp

/-- The loop puts a one into the last row and the last column for every index it has reached. -/
theorem cooVal_ones (dof : ℕ) (i j : ℕ) : ∀ n ≤ dof, cooVal ((List.range n).flatMap fun j => [(dof, j, (1 : ℝ)), (j, dof, 1)]) i j = if (i = dof ∧ j < n) ∨ (j = dof ∧ i < n) then 1 else 0
  | 0, _ => by simp [cooVal]
  | n + 1, hn => by
    rw [List.range_succ, List.flatMap_append, cooVal_append, cooVal_ones dof i j n (by omega)]
    simp only [List.flatMap_cons, List.flatMap_nil, List.append_nil]
    rw [show [(dof, n, (1 : ℝ)), (n, dof, 1)] = [(dof, n, 1)] ++ [(n, dof, 1)] from rfl, cooVal_append, cooVal_one, cooVal_one]
    simp only
    split_ifs <;> first | (exfalso; omega) | norm_num

/-- The matrix the script factorises, up to the sign. -/
theorem cooVal_border {dof : ℕ} {OP : List (ℕ × ℕ × ℝ)} (h : ∀ r ∈ OP, r.1 < dof ∧ r.2.1 < dof) (i j : ℕ) (hi : i ≤ dof) (hj : j ≤ dof) :
    cooVal (border dof OP) i j = if i < dof then (if j < dof then cooVal OP i j else 1) else if j < dof then 1 else 0 := by
  unfold border
  rw [cooVal_append, cooVal_append, cooVal_ones dof i j dof le_rfl, cooVal_one]
  by_cases h1 : i < dof <;> by_cases h2 : j < dof
  · rw [if_pos h1, if_pos h2, if_neg (by omega), if_neg (by simp only; omega)]; ring
  · rw [if_pos h1, if_neg h2, if_pos (by omega), if_neg (by simp only; omega), cooVal_outside fun r hr => by have := h r hr; omega]; ring
  · rw [if_neg h1, if_pos h2, if_pos (by omega), if_neg (by simp only; omega), cooVal_outside fun r hr => by have := h r hr; omega]; ring
  · rw [if_neg h1, if_neg h2, if_neg (by omega), cooVal_outside fun r hr => by have := h r hr; omega]; simp

/-- The bordered system, row by row. -/
theorem bordered_rows {n : ℕ} {A : ℕ → ℕ → ℝ} {B : ℕ → ℕ → ℝ} (hB : ∀ i ≤ n, ∀ j ≤ n, B i j = if i < n then (if j < n then A i j else 1) else if j < n then 1 else 0) (u : Fin (n + 1) → ℝ) (b : Fin n → ℝ) :
    -mat (n + 1) B *ᵥ u = append0 b ↔ (mat n A *ᵥ fun a => u a.castSucc) + (fun _ => u (Fin.last n)) = -b ∧ ∑ a : Fin n, u a.castSucc = 0 := by
  have r1 : ∀ i : Fin n, (mat (n + 1) B *ᵥ u) i.castSucc = (mat n A *ᵥ fun a => u a.castSucc) i + u (Fin.last n) := by
    intro i
    simp only [mulVec, dotProduct, mat]
    rw [Fin.sum_univ_castSucc]
    congr 1
    · refine Finset.sum_congr rfl fun j _ => ?_
      rw [hB _ (by simp) _ (by simp)]
      simp
    · rw [hB _ (by simp) _ (by simp)]
      simp
  have r2 : (mat (n + 1) B *ᵥ u) (Fin.last n) = ∑ a : Fin n, u a.castSucc := by
    simp only [mulVec, dotProduct, mat]
    rw [Fin.sum_univ_castSucc, hB (Fin.last n : Fin (n + 1)) (by simp) (Fin.last n : Fin (n + 1)) (by simp)]
    simp only [Fin.val_last, lt_irrefl, if_false, zero_mul, add_zero]
    refine Finset.sum_congr rfl fun j _ => ?_
    rw [hB _ (by simp) _ (by simp)]
    simp
  rw [Matrix.neg_mulVec]
  constructor
  · intro h
    constructor
    · funext i
      have := congrFun h i.castSucc
      simp only [Pi.neg_apply, append0, Fin.snoc_castSucc, r1] at this
      simp only [Pi.add_apply, Pi.neg_apply]
      linarith
    · have := congrFun h (Fin.last n)
      simp only [Pi.neg_apply, append0, Fin.snoc_last, r2] at this
      linarith
  · rintro ⟨h1, h2⟩
    funext i
    refine Fin.lastCases ?_ (fun i => ?_) i
    · simp only [Pi.neg_apply, append0, Fin.snoc_last, r2, h2, neg_zero]
    · have := congrFun h1 i
      simp only [Pi.add_apply, Pi.neg_apply] at this
      simp only [Pi.neg_apply, append0, Fin.snoc_castSucc, r1]
      linarith

theorem bordered_bil {n : ℕ} {A : ℕ → ℕ → ℝ} {B : ℕ → ℕ → ℝ} (hB : ∀ i ≤ n, ∀ j ≤ n, B i j = if i < n then (if j < n then A i j else 1) else if j < n then 1 else 0) (v u : ℕ → ℝ) :
    bil (n + 1) B v u = bil n A v u + (v n * ∑ k ∈ Finset.range n, u k + u n * ∑ k ∈ Finset.range n, v k) := by
  unfold bil
  rw [Finset.sum_range_succ]
  have h1 : ∀ i ∈ Finset.range n, ∑ j ∈ Finset.range (n + 1), v i * (B i j * u j) = (∑ j ∈ Finset.range n, v i * (A i j * u j)) + v i * u n := by
    intro i hi
    have hi := Finset.mem_range.1 hi
    rw [Finset.sum_range_succ, hB i hi.le n le_rfl, if_pos hi, if_neg (lt_irrefl _), one_mul]
    congr 1
    refine Finset.sum_congr rfl fun j hj => ?_
    have hj := Finset.mem_range.1 hj
    rw [hB i hi.le j hj.le, if_pos hi, if_pos hj]
  rw [Finset.sum_congr rfl h1, Finset.sum_add_distrib, Finset.sum_range_succ, hB n le_rfl n le_rfl, if_neg (lt_irrefl _), if_neg (lt_irrefl _)]
  have h2 : ∀ j ∈ Finset.range n, v n * (B n j * u j) = v n * u j := by
    intro j hj
    have hj := Finset.mem_range.1 hj
    rw [hB n le_rfl j hj.le, if_neg (lt_irrefl _), if_pos hj, one_mul]
  rw [Finset.sum_congr rfl h2, ← Finset.mul_sum, ← Finset.sum_mul]
  ring

/-! ### Nodal fields as vectors -/

/-- The sum of all nodal values. -/
def nodeSum (g : Grid) (v : ℕ → ℕ → ℝ) : ℝ := ∑ k ∈ Finset.range g.K, ∑ i ∈ Finset.range g.np, v i k

/-- The integral of a piecewise polynomial over the mesh. -/
noncomputable def integral (g : Grid) (F : ℕ → P2) : ℝ := ∑ k ∈ Finset.range g.K, triIntegral (g.tri k) (val (F k))

def vec (g : Grid) (v : ℕ → ℕ → ℝ) : Fin (g.np * g.K) → ℝ := fun a => v ((a : ℕ) % g.np) ((a : ℕ) / g.np)

theorem ext_vec (v : ℕ → ℕ → ℝ) {i k : ℕ} (hi : i < g.np) (hk : k < g.K) : ext (vec g v) (i + g.np * k) = v i k := by
  unfold Poisson.ext vec
  rw [dif_pos (Poisson.node_lt hi hk)]
  simp only
  rw [Nat.add_mul_mod_self_left, Nat.mod_eq_of_lt hi, Nat.add_mul_div_left _ _ (by omega), Nat.div_eq_of_lt hi, Nat.zero_add]

theorem field_vec {v : ℕ → ℕ → ℝ} {V : ℕ → P2} (h : IsField g v V) : HasNodes g (ext (vec g v)) V := fun k hk => ⟨(h k hk).1, fun i hi => by
  rw [(h k hk).2 i hi]
  exact (ext_vec v hi hk).symm⟩

theorem nodeSum_vec (hnp : 0 < g.np) (v : ℕ → ℕ → ℝ) : nodeSum g v = ∑ a, vec g v a := by
  unfold nodeSum vec
  rw [sum_elems hnp, Finset.sum_range]

theorem flatF_vec {f : DMat ℝ} (hf : f.rows = g.np) : flatF (g.np * g.K) f = vec g f.at' := by
  unfold flatF vec
  rw [hf]

theorem vec_ext (u : Fin (g.np * g.K) → ℝ) : vec g (fun i k => ext u (i + g.np * k)) = u := by
  funext a
  simp only [vec]
  rw [Nat.mod_add_div, Poisson.ext_fin]

/-- A polynomial field through any nodal values. -/
theorem field_exists {x : List ℝ} {bt : List Int} (hg : GridSpec P x bt g) (v : ℕ → ℕ → ℝ) : ∃ V, IsField g v V := by
  obtain ⟨V, hV⟩ := Poisson.hasNodes_exists hg (ext (vec g v))
  exact ⟨V, fun k hk => ⟨(hV k hk).1, fun i hi => by rw [(hV k hk).2 i hi]; exact ext_vec v hi hk⟩⟩

/-! ### C124 -/

/-- `u` and the multiplier `lam` satisfy the discrete equations of the script for the forcing `F`: tested with any piecewise polynomial `V`, `a(V, u) + lam Σ V = -∫ F V`. -/
def Solves (g : Grid) (m : Mesh) (P : ℕ → ℕ) (F : ℕ → P2) (u : ℕ → ℕ → ℝ) (lam : ℝ) : Prop :=
  ∀ U v V, IsField g u U → IsField g v V → sipForm g m P V U + lam * nodeSum g v = -l2Form g V F

/-- The script ends normally; its field is the only one with nodal sum zero which satisfies the equations with some multiplier. -/
theorem pyPoisson_ok (h : Provisioned la eps ztol tol N m P g) (hi : Fits g false) (ht : Tagged g m P) (hc : Connected g P) (hK : 0 < g.K) (S : Splu) (hS : S.Ok) (f : DMat ℝ) (hf : f.rows = g.np)
    (F : ℕ → P2) (hF : IsField g f.at' F) :
    ∃ u lam, pyPoisson S la (ctxOf g m) f = .ok u ∧ u.rows = g.np ∧ u.cols = g.K ∧ nodeSum g u.at' = 0 ∧ Solves g m P F u.at' lam ∧
      ∀ w mu, nodeSum g w = 0 → Solves g m P F w mu → mu = lam ∧ ∀ k < g.K, ∀ i < g.np, w i k = u.at' i k := by
  obtain ⟨x, hg, -, -, -⟩ := h.spec
  have hnp := np_pos hg
  have hn : 0 < g.np * g.K := Nat.mul_pos hnp hK
  obtain ⟨op, mm, A, M, e, d1, d2, d3, d4, r1, r2, f1, f2⟩ := Poisson.C98_forms h false hi ht
  simp only [Bool.false_eq_true, if_false, add_zero] at d1 d2 f1
  obtain ⟨OP, -, eo, -, -, -, -, ho⟩ := Py.C96_sparse op A r1
  obtain ⟨MM, -, em, -, -, -, -, hm⟩ := Py.C96_sparse mm M r2
  have eM : mat (g.np * g.K) (cooVal MM) = mat (g.np * g.K) M := by
    funext i j
    exact hm i j (by rw [d4]; exact j.2)
  have hB : ∀ i ≤ g.np * g.K, ∀ j ≤ g.np * g.K, cooVal (border (g.np * g.K) OP) i j = if i < g.np * g.K then (if j < g.np * g.K then A i j else 1) else if j < g.np * g.K then 1 else 0 := by
    intro i hi j hj
    rw [cooVal_border (fun r hr => by have := sparse_range r1 (by omega) (by omega) eo r hr; rwa [d1, d2] at this) i j hi hj]
    by_cases hj' : j < g.np * g.K
    · rw [ho i j (by rw [d2]; exact hj')]
    · simp only [hj', if_false]
  have hinj : ∀ u, -mat (g.np * g.K + 1) (cooVal (border (g.np * g.K) OP)) *ᵥ u = 0 → u = 0 := by
    intro u hu
    rw [Matrix.neg_mulVec, neg_eq_zero] at hu
    refine Poisson.bordered_inj (m := m) hg hc hK (A := cooVal (border (g.np * g.K) OP)) (fun v u V U hv hu => ?_) u hu
    rw [bordered_bil hB, f1 v u V U hv hu]
  obtain ⟨solve, hs, hsol⟩ := (hS _ _).1 hinj
  have hrun : pyPoisson S la (ctxOf g m) f = .ok (unflat g.np g.K (solve (append0 (mat (g.np * g.K) M *ᵥ vec g f.at')))) := by
    unfold pyPoisson
    rw [e, Out.bind_ok]
    simp only [em, eo, Out.bind_ok]
    have hs' : S ((ctxOf g m).Np * (ctxOf g m).K + 1) (-mat ((ctxOf g m).Np * (ctxOf g m).K + 1) (cooVal (border ((ctxOf g m).Np * (ctxOf g m).K) OP))) = .ok solve := hs
    rw [hs', ← flatF_vec hf, ← eM]
    rfl
  obtain ⟨s, hsd⟩ : ∃ s, s = solve (append0 (mat (g.np * g.K) M *ᵥ vec g f.at')) := ⟨_, rfl⟩
  have hs2 := hsol (append0 (mat (g.np * g.K) M *ᵥ vec g f.at'))
  rw [← hsd] at hs2 hrun
  obtain ⟨q1, q2⟩ := (bordered_rows hB s _).1 hs2
  -- equations in terms of vectors
  have iff : ∀ (w : ℕ → ℕ → ℝ) (mu : ℝ), Solves g m P F w mu ↔ (mat (g.np * g.K) A *ᵥ vec g w) + (fun _ => mu) = -(mat (g.np * g.K) M *ᵥ vec g f.at') := by
    intro w mu
    have dots : ∀ (W : ℕ → P2) (v : ℕ → ℕ → ℝ) (V : ℕ → P2), IsField g w W → IsField g v V →
        (sipForm g m P V W + mu * nodeSum g v = -l2Form g V F ↔ vec g v ⬝ᵥ ((mat (g.np * g.K) A *ᵥ vec g w) + fun _ => mu) = vec g v ⬝ᵥ -(mat (g.np * g.K) M *ᵥ vec g f.at')) := by
      intro W v V hW hV
      rw [dotProduct_add, dotProduct_neg, bil_mat, bil_mat, f1 _ _ V W (field_vec hV) (field_vec hW), f2 _ _ V F (field_vec hV) (field_vec hF), nodeSum_vec hnp]
      have : (vec g v ⬝ᵥ fun _ => mu) = mu * ∑ a, vec g v a := by
        unfold dotProduct
        rw [Finset.mul_sum]
        exact Finset.sum_congr rfl fun _ _ => mul_comm _ _
      rw [this]
    constructor
    · intro hw
      obtain ⟨W, hW⟩ := field_exists hg w
      funext a
      obtain ⟨V, hV⟩ := field_exists hg fun i k => if i + g.np * k = a then 1 else 0
      have h1 := (dots W _ V hW hV).1 (hw W _ V hW hV)
      have h2 : vec g (fun i k => if i + g.np * k = a then 1 else 0) = Pi.single a 1 := by
        funext b
        simp only [vec]
        rw [Nat.mod_add_div, Pi.single_apply]
        simp only [Fin.ext_iff]
      rw [h2, single_one_dotProduct, single_one_dotProduct] at h1
      exact h1
    · intro hw W v V hW hV
      exact (dots W v V hW hV).2 (by rw [hw])
  have hvec : vec g (unflat g.np g.K s).at' = fun a => s a.castSucc := vec_ext (g := g) fun a => s a.castSucc
  refine ⟨_, s (Fin.last _), hrun, rfl, rfl, ?_, (iff _ _).2 (by rw [hvec]; exact q1), fun w mu hw0 hw => ?_⟩
  · rw [nodeSum_vec hnp, hvec]; exact q2
  · have h1 := (iff w mu).1 hw
    rw [nodeSum_vec hnp] at hw0
    have h2 : -mat (g.np * g.K + 1) (cooVal (border (g.np * g.K) OP)) *ᵥ (Fin.snoc (vec g w) mu : Fin (g.np * g.K + 1) → ℝ) = append0 (mat (g.np * g.K) M *ᵥ vec g f.at') := by
      refine (bordered_rows hB _ _).2 ⟨?_, ?_⟩
      · simp only [Fin.snoc_castSucc, Fin.snoc_last]; exact h1
      · simp only [Fin.snoc_castSucc]; exact hw0
    have h3 : (Fin.snoc (vec g w) mu : Fin (g.np * g.K + 1) → ℝ) = s := by
      refine sub_eq_zero.1 (hinj _ ?_)
      rw [Matrix.mulVec_sub, h2, hs2, sub_self]
    refine ⟨?_, fun k hk i hi => ?_⟩
    · rw [← h3, Fin.snoc_last]
    · rw [← ext_vec w hi hk]
      show _ = ext (fun a : Fin (g.np * g.K) => s a.castSucc) (i + g.np * k)
      congr 1
      funext a
      rw [← h3, Fin.snoc_castSucc]

/-- Constants are not seen by the form when there is no Dirichlet face. -/
theorem sip_const (hd : ∀ e < 3 * g.K, tagOf m e ≠ 6) (c : ℝ) (V : ℕ → P2) : sipForm g m P V (fun _ => C c) = 0 := by
  unfold sipForm gradForm
  have z1 : ∀ k ∈ Finset.range g.K, (triIntegral (g.tri k) fun z => val (pderiv 0 (V k)) z * val (pderiv 0 (C c : P2)) z + val (pderiv 1 (V k)) z * val (pderiv 1 (C c : P2)) z) = 0 := by
    intro k _
    simp [triIntegral, triInt, val]
  have z2 : ∀ e ∈ Finset.range (3 * g.K), Poisson.symTerm g m P V (fun _ => C c) e = 0 := by
    intro e he
    unfold Poisson.symTerm
    simp only [Poisson.val_dn, pderiv_C, Poisson.val_C]
    rw [if_neg (hd e (Finset.mem_range.1 he))]
    simp [segIntegral, val]
  rw [Finset.sum_eq_zero z1, Finset.sum_eq_zero z2]
  simp

theorem nodeSum_one (g : Grid) : nodeSum g (fun _ _ => 1) = g.np * g.K := by
  simp [nodeSum, mul_comm]

/-- The form depends on the nodal values only. -/
theorem sip_same (h : Provisioned la eps ztol tol N m P g) (hi : Fits g false) (ht : Tagged g m P) {v u : ℕ → ℕ → ℝ} {V U U' : ℕ → P2} (hV : IsField g v V) (hU : IsField g u U) (hU' : IsField g u U') :
    sipForm g m P V U = sipForm g m P V U' := by
  obtain ⟨op, mm, A, M, -, -, -, -, -, -, -, f1, -⟩ := Poisson.C98_forms h false hi ht
  simp only [Bool.false_eq_true, if_false, add_zero] at f1
  rw [← f1 _ _ V U (field_vec hV) (field_vec hU), ← f1 _ _ V U' (field_vec hV) (field_vec hU')]

/-- **C124, what the script computes.** On a connected mesh, with any boundary tags and any forcing `f` at the nodes, the script ends normally (the bordered matrix can be factorised) with the field whose
nodal values add up to zero and which satisfies the discrete equations of `Δu = f` up to one multiplier; there is no other such field.  Without Dirichlet faces the multiplier is minus the total
forcing divided by the number of nodes; in particular it vanishes exactly when the total forcing does. -/
theorem C124_weak (h : Provisioned la eps ztol tol N m P g) (hi : Fits g false) (ht : Tagged g m P) (hc : Connected g P) (hK : 0 < g.K) (S : Splu) (hS : S.Ok) (f : DMat ℝ) (hf : f.rows = g.np)
    (F : ℕ → P2) (hF : IsField g f.at' F) :
    ∃ u lam, pyPoisson S la (ctxOf g m) f = .ok u ∧ u.rows = g.np ∧ u.cols = g.K ∧ nodeSum g u.at' = 0 ∧ Solves g m P F u.at' lam ∧
      (∀ w mu, nodeSum g w = 0 → Solves g m P F w mu → mu = lam ∧ ∀ k < g.K, ∀ i < g.np, w i k = u.at' i k) ∧
      ((∀ e < 3 * g.K, tagOf m e ≠ 6) → lam = -integral g F / (g.np * g.K)) := by
  obtain ⟨x, hg, -, -, -⟩ := h.spec
  obtain ⟨u, lam, e, e1, e2, e3, e4, e5⟩ := pyPoisson_ok h hi ht hc hK S hS f hf F hF
  refine ⟨u, lam, e, e1, e2, e3, e4, e5, fun hd => ?_⟩
  obtain ⟨U, hU⟩ := field_exists hg u.at'
  have h1 : IsField g (fun _ _ => 1) fun _ => C 1 := fun k hk => ⟨by rw [totalDegree_C]; omega, fun i hi => Poisson.val_C 1 _⟩
  have h2 := e4 U _ _ hU h1
  rw [Poisson.sipForm_symm, sip_const hd, nodeSum_one, zero_add] at h2
  have h3 : l2Form g (fun _ => C 1) F = integral g F := by
    unfold l2Form integral
    simp only [Poisson.val_C, one_mul]
  rw [h3] at h2
  have hn : (0 : ℝ) < g.np * g.K := mul_pos (Nat.cast_pos.2 (np_pos hg)) (Nat.cast_pos.2 hK)
  rw [eq_div_iff hn.ne', h2]

/-- The outward normal derivative of `U` vanishes along every boundary face. -/
def NoFlux (g : Grid) (P : ℕ → ℕ) (U : P2) : Prop := ∀ e < 3 * g.K, P e = e → ∀ t, val (dn (outward g e) U) (SW.lerp (seg g e) t) = 0

/-- What a polynomial leaves in the equations: the flux through the boundary. -/
theorem neumann_defect (h : Provisioned la eps ztol tol N m P g) (ht : Tagged g m P) (hd : ∀ e < 3 * g.K, tagOf m e ≠ 6) (U : P2) (V : ℕ → P2) :
    sipForm g m P V (fun _ => U) = -l2Form g V (fun _ => lap U) + ∑ e ∈ Finset.range (3 * g.K), if P e = e then segIntegral (seg g e) fun z => val (V (e / 3)) z * val (dn (outward g e) U) z else 0 := by
  obtain ⟨x, hg, -, -, -⟩ := h.spec
  rw [← Poisson.dgForm_eq hg ht, Poisson.consistent hg U V]
  congr 1
  · unfold l2Form
    rw [← Finset.sum_neg_distrib]
    refine Finset.sum_congr rfl fun k _ => ?_
    unfold Poisson.triIntegral triInt
    have : ∀ z, val (-lap U) z = -val (lap U) z := fun z => by unfold Poisson.val; simp
    simp only [this, mul_neg, intervalIntegral.integral_neg]
  · refine Finset.sum_congr rfl fun e he => ?_
    have he := Finset.mem_range.1 he
    unfold Poisson.rhsTerm
    rw [if_neg (hd e he)]
    by_cases hP : P e = e
    · rw [if_pos hP, if_pos]
      rcases (ht e he).1 hP with h | h | h
      · exact Or.inr h
      · exact absurd h (hd e he)
      · exact Or.inl h
    · rw [if_neg hP, if_neg]
      rintro (h | h)
      · exact hP ((ht e he).2 (Or.inr (Or.inr h)))
      · exact hP ((ht e he).2 (Or.inl h))

/-- **C124, exactness.** Without Dirichlet faces: a polynomial `U` of degree at most `N` without flux through the boundary is recovered from its Laplacian, up to the constant which makes the nodal
values add up to zero. -/
theorem C124_exact (h : Provisioned la eps ztol tol N m P g) (hi' : Fits g false) (ht : Tagged g m P) (hc : Connected g P) (hK : 0 < g.K) (hd : ∀ e < 3 * g.K, tagOf m e ≠ 6) (S : Splu) (hS : S.Ok)
    (U : P2) (hU : U.totalDegree ≤ g.N) (hflux : NoFlux g P U) (f : DMat ℝ) (hf : f.rows = g.np) (hF : IsField g f.at' fun _ => lap U) :
    ∃ u, pyPoisson S la (ctxOf g m) f = .ok u ∧ ∀ k < g.K, ∀ i < g.np,
      u.at' i k = val U (SW.gridX (g.tri k) g.n i, SW.gridY (g.tri k) g.n i) - nodeSum g (fun i k => val U (SW.gridX (g.tri k) g.n i, SW.gridY (g.tri k) g.n i)) / (g.np * g.K) := by
  obtain ⟨x, hg, -, -, -⟩ := h.spec
  have hn : (0 : ℝ) < g.np * g.K := mul_pos (Nat.cast_pos.2 (np_pos hg)) (Nat.cast_pos.2 hK)
  obtain ⟨u, lam, e, -, -, -, -, e5⟩ := pyPoisson_ok h hi' ht hc hK S hS f hf _ hF
  obtain ⟨c, hcd⟩ : ∃ c, c = nodeSum g (fun i k => val U (SW.gridX (g.tri k) g.n i, SW.gridY (g.tri k) g.n i)) / (g.np * g.K) := ⟨_, rfl⟩
  refine ⟨u, e, fun k hk i hi => ?_⟩
  rw [← hcd]
  symm
  refine (e5 (fun i k => val U (SW.gridX (g.tri k) g.n i, SW.gridY (g.tri k) g.n i) - c) 0 ?_ ?_).2 k hk i hi
  · have : nodeSum g (fun i k => val U (SW.gridX (g.tri k) g.n i, SW.gridY (g.tri k) g.n i) - c) = nodeSum g (fun i k => val U (SW.gridX (g.tri k) g.n i, SW.gridY (g.tri k) g.n i)) - c * (g.np * g.K) := by
      rw [← nodeSum_one g]
      unfold nodeSum
      simp only [Finset.sum_sub_distrib, Finset.sum_const, Finset.card_range, nsmul_eq_mul]
      ring
    rw [this, hcd, div_mul_cancel₀ _ hn.ne', sub_self]
  · intro W v V hW hV
    have h1 : IsField g (fun i k => val U (SW.gridX (g.tri k) g.n i, SW.gridY (g.tri k) g.n i) - c) fun _ => U - C c := fun k hk =>
      ⟨(totalDegree_sub _ _).trans (max_le hU (by rw [totalDegree_C]; omega)), fun i hi => by rw [Poisson.val_sub, Poisson.val_C]⟩
    have hlap : lap (U - C c) = lap U := by unfold Poisson.lap; simp
    have hdn : ∀ n, dn n (U - C c) = dn n U := by intro n; unfold Poisson.dn; simp
    rw [sip_same h hi' ht hV hW h1, neumann_defect h ht hd, hlap, zero_mul, add_zero, Finset.sum_eq_zero, add_zero]
    intro e he
    have he := Finset.mem_range.1 he
    by_cases hP : P e = e
    · rw [if_pos hP, hdn]
      unfold Poisson.segIntegral
      simp only [hflux e he hP, mul_zero, intervalIntegral.integral_zero]
    · rw [if_neg hP]

/-- **C124, constant forcing.** Without Dirichlet faces a constant forcing has no solution, and the script spreads the excess equally over the nodes.  It returns zero only if all elements have the same
area. -/
theorem C124_constant (h : Provisioned la eps ztol tol N m P g) (hi : Fits g false) (ht : Tagged g m P) (hc : Connected g P) (hK : 0 < g.K) (hd : ∀ e < 3 * g.K, tagOf m e ≠ 6) (S : Splu) (hS : S.Ok)
    (c : ℝ) (hc0 : c ≠ 0) (f : DMat ℝ) (hf : f.rows = g.np) (hfc : ∀ k < g.K, ∀ i < g.np, f.at' i k = c) :
    ∃ u, pyPoisson S la (ctxOf g m) f = .ok u ∧ ((∀ k < g.K, ∀ i < g.np, u.at' i k = 0) → ∀ k < g.K, ∀ l < g.K, cross (g.tri k) = cross (g.tri l)) := by
  obtain ⟨x, hg, -, -, -⟩ := h.spec
  have hnp := np_pos hg
  have hF : IsField g f.at' fun _ => C c := fun k hk => ⟨by rw [totalDegree_C]; omega, fun i hi => by rw [Poisson.val_C, hfc k hk i hi]⟩
  obtain ⟨u, lam, e, -, -, -, e4, -⟩ := pyPoisson_ok h hi ht hc hK S hS f hf _ hF
  refine ⟨u, e, fun hu => ?_⟩
  have key : ∀ k < g.K, lam * g.np = -(c * (cross (g.tri k) / 2)) := by
    intro k hk
    have hU : IsField g u.at' fun _ => C 0 := fun k hk => ⟨by rw [totalDegree_C]; omega, fun i hi => by rw [Poisson.val_C, hu k hk i hi]⟩
    have hV : IsField g (fun _ l => if l = k then 1 else 0) fun l => C (if l = k then 1 else 0) := fun l hl => ⟨by rw [totalDegree_C]; omega, fun i hi => Poisson.val_C _ _⟩
    have h1 := e4 _ _ _ hU hV
    rw [sip_const hd, zero_add] at h1
    have h2 : nodeSum g (fun _ l => if l = k then 1 else 0) = g.np := by
      unfold nodeSum
      rw [Finset.sum_eq_single k]
      · simp
      · intro b _ hb; simp [hb]
      · intro hb; exact absurd (Finset.mem_range.2 hk) hb
    have h3 : l2Form g (fun l => C (if l = k then 1 else 0)) (fun _ => C c) = c * (cross (g.tri k) / 2) := by
      unfold Poisson.l2Form
      rw [Finset.sum_eq_single k]
      · simp only [if_true, Poisson.val_C, one_mul]
        unfold Poisson.triIntegral triInt
        simp only [intervalIntegral.integral_const, smul_eq_mul]
        have : ∫ s in (-1 : ℝ)..1, (-s - -1) * c = 2 * c := by
          rw [intervalIntegral.integral_mul_const, intervalIntegral.integral_sub (continuous_neg.intervalIntegrable _ _) (continuous_const.intervalIntegrable _ _), intervalIntegral.integral_neg,
            integral_id, intervalIntegral.integral_const]
          norm_num
        rw [this]
        ring
      · intro b _ hb
        simp only [hb, if_false, Poisson.val_C, zero_mul]
        simp [Poisson.triIntegral, triInt]
      · intro hb; exact absurd (Finset.mem_range.2 hk) hb
    rw [h2, h3] at h1
    exact h1
  intro k hk l hl
  have h1 := key k hk
  rw [key l hl] at h1
  have h2 : c * (cross (g.tri k) - cross (g.tri l)) = 0 := by linarith
  exact sub_eq_zero.1 ((mul_eq_zero.1 h2).resolve_left hc0)

/-! ### Concrete cases -/

/-- Two triangles of areas 1/2 and 3/2 with a common side. -/
noncomputable def kite (t : List Int) : Mesh := { SW.square with vert := [0, 0, 0, 1, 0, 0, 0, 1, 0, 2, 2, 0], bcType := t }

theorem kite_ok (t : List Int) (ht : 6 ≤ t.length) : (kite t).Ok twoTri where
  conn := SW.square_ok.conn
  lenEv := SW.square_ok.lenEv
  ltEv := SW.square_ok.ltEv
  lenVert := rfl
  lenBc := ht
  ccw := by
    intro k hk
    have hk : k < 2 := hk
    interval_cases k <;> norm_num [cross, SW.Mesh.tri, SW.Mesh.corner, kite, SW.square]
  meet := by
    intro e he hne
    have he : e < 6 := he
    interval_cases e <;> first | exact absurd rfl hne | (norm_num [twoTri, SW.faceEnds, SW.Mesh.tri, SW.Mesh.corner, kite, SW.square])

theorem kite_grid (t : List Int) (ht : 6 ≤ t.length) : ∃ g, Provisioned exactLapack (1 / 2 ^ 52) 1e-10 1e-5 1 (kite t) twoTri g ∧ g.np = 3 ∧ g.K = 2 ∧ ∀ k < 2, g.tri k = (kite t).tri k := by
  obtain ⟨n, o, h1, -, -, hr, p0, p1, p2⟩ := demo_tri
  have hgap : ∀ x, IsGLL exactLapack (1 / 2 ^ 52) 1 x → ∀ i j : ℕ, i < j → j ≤ 1 → 2 * (1e-5 : ℝ) ≤ x.getD j 0 - x.getD i 0 := by
    intro x hx i j hij hj
    have e : x = [-1, 1] := by
      unfold IsGLL Jacobi.gllPoints at hx
      simp [wr] at hx
      exact hx.symm
    obtain rfl : i = 0 := by omega
    obtain rfl : j = 1 := by omega
    rw [e]
    norm_num
  obtain ⟨g, x, hb, -, -, rfl, -⟩ := SW.buildGrid_spec exactLapack Nodes1D.exactLapack_ok (1 / 2 ^ 52) (by norm_num) (by norm_num) 1e-10 1e-5 (by norm_num) (by norm_num) 1 (le_refl _) (by norm_num)
    (kite t) twoTri (kite_ok t ht) n o h1 hgap
  have hP : Provisioned exactLapack (1 / 2 ^ 52) 1e-10 1e-5 1 (kite t) twoTri g :=
    ⟨Nodes1D.exactLapack_ok, by norm_num, by norm_num, by norm_num, by norm_num, le_refl _, by norm_num, kite_ok t ht, hb, hgap⟩
  obtain ⟨x, hg, hN, hK, htri⟩ := hP.spec
  exact ⟨g, hP, by unfold Grid.np; rw [hN], hK, htri⟩

theorem kite_tagged {g : Grid} (h2 : g.K = 2) : Tagged g (kite [3, 0, 3, 3, 7, 0]) twoTri := by
  intro e he
  rw [h2] at he
  have he : e < 6 := he
  interval_cases e <;> simp [twoTri, tagOf, kite]

theorem kite_walls {g : Grid} (h2 : g.K = 2) : ∀ e < 3 * g.K, tagOf (kite [3, 0, 3, 3, 7, 0]) e ≠ 6 := by
  intro e he
  rw [h2] at he
  have he : e < 6 := he
  interval_cases e <;> simp [tagOf, kite]

/-- **C124, refuted: the forcing matters up to a constant only.** Two triangles of different size, no Dirichlet face, forcing one: the script does not return zero, though it does for forcing zero. -/
theorem C124_constant_refuted (S : Splu) (hS : S.Ok) : ∃ g, Provisioned exactLapack (1 / 2 ^ 52) 1e-10 1e-5 1 (kite [3, 0, 3, 3, 7, 0]) twoTri g ∧
    ∃ u w, pyPoisson S exactLapack (ctxOf g (kite [3, 0, 3, 3, 7, 0])) ⟨g.np, g.K, fun _ _ => 1⟩ = .ok u ∧ pyPoisson S exactLapack (ctxOf g (kite [3, 0, 3, 3, 7, 0])) ⟨g.np, g.K, fun _ _ => 0⟩ = .ok w ∧
      (∃ k < g.K, ∃ i < g.np, u.at' i k ≠ 0) ∧ ∀ k < g.K, ∀ i < g.np, w.at' i k = 0 := by
  obtain ⟨g, hP, h1, h2, htri⟩ := kite_grid [3, 0, 3, 3, 7, 0] (by decide)
  obtain ⟨u, e, hu⟩ := C124_constant hP (Poisson.square_fits h1 h2 _) (kite_tagged h2) (Poisson.square_connected h2) (by omega) (kite_walls h2) S hS 1 one_ne_zero ⟨g.np, g.K, fun _ _ => 1⟩ rfl fun _ _ _ _ => rfl
  obtain ⟨w, ew, hw⟩ := C124_exact hP (Poisson.square_fits h1 h2 _) (kite_tagged h2) (Poisson.square_connected h2) (by omega) (kite_walls h2) S hS (C 0) (by simp)
    (by intro e _ _ t; simp [Poisson.dn, Poisson.val]) ⟨g.np, g.K, fun _ _ => 0⟩ rfl (fun k hk => ⟨by simp [Poisson.lap], fun i hi => by simp [Poisson.lap, Poisson.val]⟩)
  refine ⟨g, hP, u, w, e, ew, ?_, fun k hk i hi => ?_⟩
  · by_contra hcon
    push Not at hcon
    have := hu hcon 0 (by omega) 1 (by omega)
    rw [htri 0 (by omega), htri 1 (by omega)] at this
    norm_num [cross, SW.Mesh.tri, SW.Mesh.corner, kite, SW.square] at this
  · rw [hw k hk i hi]
    simp [Poisson.val, nodeSum]

/-- The library solver fulfils the contract: one exists. -/
theorem splu_exists : ∃ S : Splu, S.Ok := by
  classical
  refine ⟨fun n A => if h : ∀ u, A *ᵥ u = 0 → u = 0 then .ok fun b => (Poisson.solve_of_inj A h b).choose else .throws, fun n A => ⟨fun h => ⟨_, dif_pos h, fun b => ?_⟩, fun ⟨u, hu, h0⟩ => dif_neg fun h => hu (h u h0)⟩⟩
  exact (Poisson.solve_of_inj A h b).choose_spec.1

/-- C124 on the two triangles: the hypotheses are met, by a forcing which varies. -/
example : ∃ (S : Splu) (g : Grid) (f u : DMat ℝ), S.Ok ∧ f.at' 0 0 ≠ f.at' 1 0 ∧ pyPoisson S exactLapack (ctxOf g (kite [3, 0, 3, 3, 7, 0])) f = .ok u ∧ nodeSum g u.at' = 0 ∧
    ∃ F lam, IsField g f.at' F ∧ Solves g (kite [3, 0, 3, 3, 7, 0]) twoTri F u.at' lam ∧ lam = -integral g F / (g.np * g.K) := by
  obtain ⟨S, hS⟩ := splu_exists
  obtain ⟨g, hP, h1, h2, -⟩ := kite_grid [3, 0, 3, 3, 7, 0] (by decide)
  obtain ⟨x, hg, -, -, -⟩ := hP.spec
  obtain ⟨F, hF⟩ := field_exists hg fun i k => (i : ℝ) + k
  obtain ⟨u, lam, e, -, -, e3, e4, -, e6⟩ := C124_weak hP (Poisson.square_fits h1 h2 _) (kite_tagged h2) (Poisson.square_connected h2) (by omega) S hS ⟨g.np, g.K, fun i k => i + k⟩ rfl F hF
  exact ⟨S, g, _, u, hS, by norm_num, e, e3, F, lam, hF, e4, e6 (kite_walls h2)⟩

end Blitzdg.Heat
