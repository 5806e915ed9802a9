import Verif.DG2D.OpsProps
import Verif.DG2D.GeomProps
import Mathlib.RingTheory.Polynomial.Basic
import Mathlib.RingTheory.MvPolynomial.Basic

/-! The reference operators of triangles and quadrilaterals: instances of `Verif.DG2D.OpsProps`, interpolation (C46), hypotheses of C42. -/

namespace Blitzdg.DG2D

open MvPolynomial
open Blitzdg.Sparse (DMat)
open Blitzdg.Dense (Done directSolve computeInverse GesvOk GetriOk SyevdOk toMat C37_direct C37_inverse)
open Blitzdg.Nodes1D (Lapack uncaught vandermonde trans)

/-- Polynomials of total degree at most `N`. -/
def TriSpace (N : ℕ) (p : P2) : Prop := p.totalDegree ≤ N

/-- Polynomials of degree at most `N` in each variable. -/
def QuadSpace (N : ℕ) (p : P2) : Prop := ∀ i, p.degreeOf i ≤ N

theorem tri_closed (N : ℕ) (i : Fin 2) (p : P2) (hp : TriSpace N p) : TriSpace N (pderiv i p) := by
  unfold TriSpace at *
  rw [p.as_sum, map_sum]
  apply totalDegree_finsetSum_le
  intro m hm
  rw [pderiv_monomial]
  refine (totalDegree_monomial_le _ _).trans ?_
  have h1 := le_totalDegree hm
  rw [Finsupp.sum_fintype _ _ (by simp), Fin.sum_univ_two] at h1 ⊢
  simp only [Finsupp.tsub_apply, id] at h1 ⊢
  omega

theorem quad_closed (N : ℕ) (i : Fin 2) (p : P2) (hp : QuadSpace N p) : QuadSpace N (pderiv i p) := by
  intro k
  rw [p.as_sum, map_sum]
  refine (degreeOf_sum_le _ _ _).trans (Finset.sup_le fun m hm => ?_)
  rw [pderiv_monomial, degreeOf_le_iff]
  intro m' hm'
  have h2 := Finset.mem_singleton.1 (support_monomial_subset hm')
  subst h2
  have h1 := (monomial_le_degreeOf k hm).trans (hp k)
  simp only [Finsupp.tsub_apply]
  omega

theorem tri_mem (N : ℕ) (p : P2) (hp : p ∈ modeSpan (triPairs N) triPoly) : TriSpace N p := by
  have : modeSpan (triPairs N) triPoly ≤ restrictTotalDegree (Fin 2) ℝ N := by
    apply Submodule.span_le.2
    rintro _ ⟨k, rfl⟩
    simp only [SetLike.mem_coe, mem_restrictTotalDegree]
    have hk : (triPairs N).getD k (0, 0) ∈ triPairs N := by
      rw [List.getD_eq_getElem _ _ k.2]; exact List.getElem_mem _
    exact (totalDegree_triPoly _).trans (mem_triPairs.1 hk)
  exact (mem_restrictTotalDegree _ _ _).1 (this hp)

theorem mem_quadPairs {N : ℕ} {p : ℕ × ℕ} (h : p ∈ quadPairs N) : p.1 ≤ N ∧ p.2 ≤ N := by
  simp only [quadPairs, List.mem_flatMap, List.mem_map, List.mem_range] at h
  obtain ⟨i, hi, j, hj, rfl⟩ := h
  simp only
  omega

theorem quadPairs_nodup (N : ℕ) : (quadPairs N).Nodup := by
  rw [show quadPairs N = Sparse.rowMajor (N + 1) (N + 1) from rfl]
  exact Blitz.nodup_order true _ _

theorem quad_mem (N : ℕ) (p : P2) (hp : p ∈ modeSpan (quadPairs N) quadPoly) : QuadSpace N p := by
  have : modeSpan (quadPairs N) quadPoly ≤ restrictDegree (Fin 2) ℝ N := by
    apply Submodule.span_le.2
    rintro _ ⟨k, rfl⟩
    simp only [SetLike.mem_coe, mem_restrictDegree]
    have hk : (quadPairs N).getD k (0, 0) ∈ quadPairs N := by
      rw [List.getD_eq_getElem _ _ k.2]; exact List.getElem_mem _
    obtain ⟨h1, h2⟩ := mem_quadPairs hk
    intro m hm i
    exact (monomial_le_degreeOf i hm).trans (degreeOf_quadPoly N _ h1 h2 i)
  have h := this hp
  simp only [mem_restrictDegree] at h
  intro i
  rw [degreeOf_le_iff]
  exact fun m hm => h m hm i

theorem triModal (N : ℕ) : Modal (triPairs N) triMode triModeR triModeS Regular triPoly (TriSpace N) triInt where
  val := fun p _ _ h => C72_triangle h p
  span := tri_span N
  mem := tri_mem N
  closed := tri_closed N
  nodup := triPairs_nodup N
  orth := triPoly_orth
  add := triInt_add
  smul := triInt_smul

theorem quadModal (N : ℕ) : Modal (quadPairs N) quadMode quadModeR quadModeS (fun _ _ => True) quadPoly (QuadSpace N) quadInt where
  val := fun p r s _ => C72_quadrilateral r s p
  span := quad_span N
  mem := quad_mem N
  closed := quad_closed N
  nodup := quadPairs_nodup N
  orth := quadPoly_orth
  add := quadInt_add
  smul := quadInt_smul

/-- The faces of the reference triangle, parametrised by the coordinate the code uses. -/
def triEdge (f : ℕ) (t : ℝ) : ℝ × ℝ := if f = 0 then (t, -1) else if f = 1 then (t, -t) else (-1, t)

/-- The faces of the reference square. -/
def quadEdge (f : ℕ) (t : ℝ) : ℝ × ℝ := if f = 0 then (t, -1) else if f = 1 then (1, t) else if f = 2 then (t, 1) else (-1, t)

theorem eval_aeval (a b : Polynomial ℝ) (p : P2) (x : ℝ) : (aeval ![a, b] p).eval x = ev (a.eval x) (b.eval x) p := by
  induction p using MvPolynomial.induction_on with
  | C c => simp
  | add p q hp hq => simp only [map_add, Polynomial.eval_add, hp, hq]
  | mul_X p i hp =>
    simp only [map_mul, Polynomial.eval_mul, hp, aeval_X, eval_X]
    fin_cases i <;> simp

theorem triTrace (N : ℕ) : HasTrace N 3 (TriSpace N) triEdge := by
  intro f hf p hp
  have key : ∀ a b : Polynomial ℝ, a.natDegree ≤ 1 → b.natDegree ≤ 1 → (aeval ![a, b] p).natDegree ≤ N := by
    intro a b ha hb
    have := aeval_natDegree_le (n := 1) p hp ![a, b] (by intro i; fin_cases i <;> simpa)
    omega
  have hX : (-Polynomial.X : Polynomial ℝ).natDegree ≤ 1 := by rw [Polynomial.natDegree_neg]; exact Polynomial.natDegree_X_le
  have hC : (Polynomial.C (-1) : Polynomial ℝ).natDegree ≤ 1 := by rw [Polynomial.natDegree_C]; omega
  rcases (by omega : f = 0 ∨ f = 1 ∨ f = 2) with rfl | rfl | rfl
  · exact ⟨_, key Polynomial.X (Polynomial.C (-1)) Polynomial.natDegree_X_le hC, fun x => by rw [eval_aeval]; simp [triEdge]⟩
  · exact ⟨_, key Polynomial.X (-Polynomial.X) Polynomial.natDegree_X_le hX, fun x => by rw [eval_aeval]; simp [triEdge]⟩
  · exact ⟨_, key (Polynomial.C (-1)) Polynomial.X hC Polynomial.natDegree_X_le, fun x => by rw [eval_aeval]; simp [triEdge]⟩

theorem natDegree_line (N : ℕ) (p : P2) (hp : QuadSpace N p) (c : ℝ) :
    (aeval ![Polynomial.X, Polynomial.C c] p).natDegree ≤ N ∧ (aeval ![Polynomial.C c, Polynomial.X] p).natDegree ≤ N := by
  have h : ∀ m ∈ p.support, ∀ i, m i ≤ N := fun m hm i => (monomial_le_degreeOf i hm).trans (hp i)
  rw [p.as_sum, map_sum, map_sum]
  constructor
  · apply Polynomial.natDegree_sum_le_of_forall_le
    intro m hm
    rw [monomial_two, map_mul, map_mul, map_pow, map_pow, aeval_X, aeval_X, aeval_C]
    simp only [Matrix.cons_val_zero, Matrix.cons_val_one, Polynomial.algebraMap_eq]
    refine (Polynomial.natDegree_C_mul_le _ _).trans ?_
    rw [← Polynomial.C_pow]
    refine (Polynomial.natDegree_mul_C_le _ _).trans ?_
    rw [Polynomial.natDegree_X_pow]; exact h m hm 0
  · apply Polynomial.natDegree_sum_le_of_forall_le
    intro m hm
    rw [monomial_two, map_mul, map_mul, map_pow, map_pow, aeval_X, aeval_X, aeval_C]
    simp only [Matrix.cons_val_zero, Matrix.cons_val_one, Polynomial.algebraMap_eq]
    refine (Polynomial.natDegree_C_mul_le _ _).trans ?_
    rw [← Polynomial.C_pow]
    refine (Polynomial.natDegree_C_mul_le _ _).trans ?_
    rw [Polynomial.natDegree_X_pow]; exact h m hm 1

theorem quadTrace (N : ℕ) : HasTrace N 4 (QuadSpace N) quadEdge := by
  intro f hf p hp
  rcases (by omega : f = 0 ∨ f = 1 ∨ f = 2 ∨ f = 3) with rfl | rfl | rfl | rfl
  · exact ⟨_, (natDegree_line N p hp (-1)).1, fun x => by rw [eval_aeval]; simp [quadEdge]⟩
  · exact ⟨_, (natDegree_line N p hp 1).2, fun x => by rw [eval_aeval]; simp [quadEdge]⟩
  · exact ⟨_, (natDegree_line N p hp 1).1, fun x => by rw [eval_aeval]; simp [quadEdge]⟩
  · exact ⟨_, (natDegree_line N p hp (-1)).2, fun x => by rw [eval_aeval]; simp [quadEdge]⟩

/-- **C47/C71 for triangles.** Whatever the nodes inside the triangle, provided those that `Fmask` lists lie on the faces at distinct places. -/
theorem C47_triangle (la : Lapack) (hla : la.Ok) (N : ℕ) (fm : ℕ → ℕ → ℕ) (r s : List ℝ) (hl : r.length = (N + 1) * (N + 2) / 2)
    (hF : Faces N 3 fm triOnS triEdge r s) (hr : ∀ i < r.length, -1 ≤ r.getD i 0 ∧ r.getD i 0 + s.getD i 0 ≤ 0) :
    (¬ IsUnit (toMat (modeMatrix (triPairs N) triMode r s) r.length r.length) ∧
      buildRefOps la (triPairs N) triMode triModeR triModeS 3 (N + 1) triOnS fm r s = .throws) ∨
    ∃ o, buildRefOps la (triPairs N) triMode triModeR triModeS 3 (N + 1) triOnS fm r s = .ok o ∧ DiffSpec (TriSpace N) triInt r s o.d ∧
      LiftSpec N 3 (TriSpace N) triInt triEdge (fun f j => (faceCoords (N + 1) fm triOnS r s f).getD j 0) r s o.lift ∧
      ModalSpec (triPairs N) triPoly r s o.Vinv := by
  have h0 : 0 < r.length := lt_of_le_of_lt (Nat.zero_le _) (hF.lt 0 (by omega) 0 (by omega))
  rcases refOps (triModal N) la hla N 3 fm triOnS triEdge r s h0 hF (triTrace N) (by rw [triPairs_length, hl]; rfl)
    (fun i hi => regular_of_mem (hr i hi).1 (hr i hi).2) with h | ⟨-, o, h1, h2, h3, h4, -, -⟩
  · exact Or.inl h
  · exact Or.inr ⟨o, h1, h2, h3, h4⟩

end Blitzdg.DG2D
