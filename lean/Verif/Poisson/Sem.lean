import Verif.Poisson.Props

/-! The continuous (spectral element) Poisson operator. -/

namespace Blitzdg.Poisson

open MvPolynomial
open Matrix
open Blitzdg.Sparse (DMat Csc Triplet Represents asInt rowMajor mem_rowMajor mk0 cscOfTriplet)
open Blitzdg.Nodes1D (Lapack exactLapack)
open Blitzdg.DG2D
open Blitzdg.SW (Grid Mesh GridSpec Provisioned gridX gridY faceEnds lerp square square_ok)

/-! ### Model -/

/-- `DG2SEM_map` (src/Poisson2DSparseMatrix.cpp lines 501-509): `scatter.at(ind)` throws past the end. -/
def semMap (np K : ℕ) (scatter : List ℕ) : Out (ℕ → ℕ → ℕ) :=
  if np * K ≤ scatter.length then .ok fun i k => scatter.getD (i + np * k) 0 else .throws

/-- Lines 565-570: the entries of one element, `rows1(i, j) = s i`, `cols1(i, j) = s j`. -/
def semBoth (np : ℕ) (s : ℕ → ℕ) (A M : ℕ → ℕ → ℝ) (t : Triplet ℝ × Triplet ℝ) : Out (Triplet ℝ × Triplet ℝ) :=
  loopM (fun t ij => do
    let op ← Sparse.insert 0 t.1 ((s ij.1 : ℕ) : Int) ((s ij.2 : ℕ) : Int) (A ij.1 ij.2)
    let mm ← Sparse.insert 0 t.2 ((s ij.1 : ℕ) : Int) ((s ij.2 : ℕ) : Int) (M ij.1 ij.2)
    pure (op, mm)) t (rowMajor np np)

/-- src/Poisson2DSparseMatrix.cpp lines 493-588 `buildSEMPoissonOperator`, before compression.  `gather`, `scatter` are those of the context (src/TriangleNodesProvisioner.cpp lines 1009-1019); the mass
matrix is declared `sem_dof × sem_dof`, the operator `(Np K + dof_inc) × (Np K + dof_inc)` (lines 539-540).  The volume part is the one of the DG operator (lines 555-564 against 712-728).  The lines printed
to the console are left out. -/
def Ctx.semAssemble (c : Ctx) (gather scatter : List ℕ) (bordered : Bool) : Out (Triplet ℝ × Triplet ℝ) := do
  let s ← semMap c.Np c.K scatter
  let inc := if bordered then 1 else 0
  let mm ← allocTriplet gather.length (c.Np * c.Np * c.K)
  let op ← allocTriplet (c.Np * c.K + inc) (10 * c.Np * c.Np * c.K + inc * 2 * gather.length)
  let t ← loopM (fun t k => semBoth c.Np (fun i => s i k) (c.stiff k) (fun i j => c.J 0 k * c.mass i j) t) (op, mm) (List.range c.K)
  let op ← if bordered then border gather.length t.1 else .ok t.1
  pure (op, t.2)

/-- Lines 585-586: `OP_` and `MM_`. -/
def Ctx.semBuild (c : Ctx) (gather scatter : List ℕ) (bordered : Bool) : Out (Csc ℝ × Csc ℝ) := do
  let t ← c.semAssemble gather scatter bordered
  let op ← cscOfTriplet t.1
  let mm ← cscOfTriplet t.2
  pure (op, mm)

/-! ### Assembly -/

theorem Asm.scatter {t : Triplet ℝ} {n cap used : ℕ} {φ : (ℕ → ℝ) → (ℕ → ℝ) → ℝ} (h : Asm t n cap used φ) {np : ℕ} (s : ℕ → ℕ) (hs : ∀ i < np, s i < n) (B : ℕ → ℕ → ℝ)
    (hc : used + np * np ≤ cap) :
    ∃ t', loopM (fun t ij => Sparse.insert 0 t ((s ij.1 : ℕ) : Int) ((s ij.2 : ℕ) : Int) (B ij.1 ij.2)) t (rowMajor np np) = .ok t' ∧
      Asm t' n cap (used + np * np) fun v u => φ v u + bil np B (fun i => v (s i)) (fun i => u (s i)) := by
  have aux : ∀ l : List (ℕ × ℕ), (∀ ij ∈ l, ij.1 < np ∧ ij.2 < np) → ∀ (t : Triplet ℝ) (used : ℕ) φ, Asm t n cap used φ → used + l.length ≤ cap → ∃ t',
      loopM (fun t ij => Sparse.insert 0 t ((s ij.1 : ℕ) : Int) ((s ij.2 : ℕ) : Int) (B ij.1 ij.2)) t l = .ok t' ∧
      Asm t' n cap (used + l.length) fun v u => φ v u + (l.map fun ij => v (s ij.1) * (B ij.1 ij.2 * u (s ij.2))).sum := by
    intro l
    induction l with
    | nil => intro _ t used φ h _; exact ⟨t, rfl, h.congr rfl fun v u => by simp⟩
    | cons a l ih =>
      intro hl t used φ h hc
      have ha := hl a List.mem_cons_self
      simp only [List.length_cons] at hc
      obtain ⟨t1, e1, h1⟩ := h.insert (by omega) (s a.1) (s a.2) (hs _ ha.1) (hs _ ha.2) (B a.1 a.2)
      obtain ⟨t2, e2, h2⟩ := ih (fun ij hij => hl ij (List.mem_cons_of_mem _ hij)) t1 _ _ h1 (by omega)
      refine ⟨t2, ?_, h2.congr (by simp only [List.length_cons]; omega) fun v u => ?_⟩
      · rw [loopM_cons, e1, Out.bind_ok, e2]
      · simp only [List.map_cons, List.sum_cons]; ring
  obtain ⟨t', e, h'⟩ := aux (rowMajor np np) (fun ij hij => mem_rowMajor.1 hij) t used φ h (by rw [rowMajor_len]; exact hc)
  refine ⟨t', e, h'.congr (by rw [rowMajor_len]) fun v u => ?_⟩
  rw [sum_rowMajor]
  rfl

theorem semBoth_ok {t t2 : Triplet ℝ} {n cap used n' cap' used' : ℕ} {φ ψ : (ℕ → ℝ) → (ℕ → ℝ) → ℝ} (h : Asm t n cap used φ) (h' : Asm t2 n' cap' used' ψ) {np : ℕ} (s : ℕ → ℕ) (hs : ∀ i < np, s i < n)
    (hs' : ∀ i < np, s i < n') (A M : ℕ → ℕ → ℝ) (hc : used + np * np ≤ cap) (hc' : used' + np * np ≤ cap') :
    ∃ t', semBoth np s A M (t, t2) = .ok t' ∧ (Asm t'.1 n cap (used + np * np) fun v u => φ v u + bil np A (fun i => v (s i)) (fun i => u (s i))) ∧
      Asm t'.2 n' cap' (used' + np * np) fun v u => ψ v u + bil np M (fun i => v (s i)) (fun i => u (s i)) := by
  obtain ⟨t1, e1, g1⟩ := h.scatter s hs A hc
  obtain ⟨t2, e2, g2⟩ := h'.scatter s hs' M hc'
  exact ⟨(t1, t2), loop_pair _ _ _ _ _ _ _ e1 e2, g1, g2⟩

theorem sem_loop (c : Ctx) (s : ℕ → ℕ → ℕ) {n n' cap cap' : ℕ} (hs : ∀ k < c.K, ∀ i < c.Np, s i k < n) (hs' : ∀ k < c.K, ∀ i < c.Np, s i k < n') (t t2 : Triplet ℝ)
    (ht : Asm t n cap 0 fun _ _ => 0) (ht2 : Asm t2 n' cap' 0 fun _ _ => 0) (m : ℕ) (hm : m ≤ c.K) (hc : m * (c.Np * c.Np) ≤ cap) (hc' : m * (c.Np * c.Np) ≤ cap') :
    ∃ t', loopM (fun t k => semBoth c.Np (fun i => s i k) (c.stiff k) (fun i j => c.J 0 k * c.mass i j) t) (t, t2) (List.range m) = .ok t' ∧
      (Asm t'.1 n cap (m * (c.Np * c.Np)) fun v u => ∑ k ∈ Finset.range m, bil c.Np (c.stiff k) (fun i => v (s i k)) (fun i => u (s i k))) ∧
      Asm t'.2 n' cap' (m * (c.Np * c.Np)) fun v u => ∑ k ∈ Finset.range m, bil c.Np (fun i j => c.J 0 k * c.mass i j) (fun i => v (s i k)) (fun i => u (s i k)) := by
  induction m with
  | zero => exact ⟨(t, t2), rfl, ht.congr (by omega) fun v u => by simp, ht2.congr (by omega) fun v u => by simp⟩
  | succ m ih =>
    rw [Nat.succ_mul] at hc hc'
    obtain ⟨t1, e1, g1, g2⟩ := ih (by omega) (by omega) (by omega)
    obtain ⟨t3, e3, g5, g6⟩ := semBoth_ok g1 g2 (fun i => s i m) (hs m (by omega)) (hs' m (by omega)) (c.stiff m) (fun i j => c.J 0 m * c.mass i j) (by omega) (by omega)
    refine ⟨t3, ?_, g5.congr (by rw [Nat.succ_mul]) fun v u => ?_, g6.congr (by rw [Nat.succ_mul]) fun v u => ?_⟩
    · rw [List.range_succ, loopM_append, e1, Out.bind_ok]
      simp only [loopM, e3, Out.bind_ok]
    · rw [Finset.sum_range_succ]
    · rw [Finset.sum_range_succ]

/-- A numbering of the nodes: every node has a number below `gather.length`, which is at most the number of nodes. -/
structure Numbers (np K : ℕ) (gather scatter : List ℕ) : Prop where
  len : scatter.length = np * K
  lt : ∀ t ∈ scatter, t < gather.length
  le : gather.length ≤ np * K

theorem Numbers.at' {np K : ℕ} {gather scatter : List ℕ} (h : Numbers np K gather scatter) {a : ℕ} (ha : a < np * K) : scatter.getD a 0 < gather.length := by
  rw [← h.len] at ha
  rw [List.getD_eq_getElem _ _ ha]
  exact h.lt _ (List.getElem_mem ha)

theorem sem_build (c : Ctx) {gather scatter : List ℕ} (hN : Numbers c.Np c.K gather scatter) (bordered : Bool)
    (hi : 10 * c.Np * c.Np * c.K + (if bordered then 1 else 0) * 2 * gather.length ≤ intMax) (hi' : c.Np * c.K + (if bordered then 1 else 0) ≤ intMax) :
    ∃ op mm A M, c.semBuild gather scatter bordered = .ok (op, mm) ∧
      op.m = (c.Np * c.K + if bordered then 1 else 0) ∧ op.n = (c.Np * c.K + if bordered then 1 else 0) ∧ mm.m = gather.length ∧ mm.n = gather.length ∧ Represents op A ∧ Represents mm M ∧
      (∀ v u, bil (c.Np * c.K + if bordered then 1 else 0) A v u
        = (∑ k ∈ Finset.range c.K, bil c.Np (c.stiff k) (fun i => v (scatter.getD (i + c.Np * k) 0)) (fun i => u (scatter.getD (i + c.Np * k) 0))) + borderForm bordered gather.length v u) ∧
      ∀ v u, bil gather.length M v u
        = ∑ k ∈ Finset.range c.K, bil c.Np (fun i j => c.J 0 k * c.mass i j) (fun i => v (scatter.getD (i + c.Np * k) 0)) (fun i => u (scatter.getD (i + c.Np * k) 0)) := by
  have hle := hN.le
  have p1 : 10 * c.Np * c.Np * c.K = 10 * (c.K * (c.Np * c.Np)) := by ring
  have p2 : c.Np * c.Np * c.K = c.K * (c.Np * c.Np) := by ring
  have hs' : ∀ k < c.K, ∀ i < c.Np, scatter.getD (i + c.Np * k) 0 < gather.length := fun k hk i hi => hN.at' (node_lt hi hk)
  have hs : ∀ k < c.K, ∀ i < c.Np, scatter.getD (i + c.Np * k) 0 < c.Np * c.K + if bordered then 1 else 0 := fun k hk i hi => by have := hs' k hk i hi; omega
  have z0 : c.Np * c.K = 0 → c.K * (c.Np * c.Np) = 0 := by
    intro h0
    rcases Nat.mul_eq_zero.1 h0 with h0 | h0 <;> simp [h0]
  have z1 : gather.length = 0 → c.K * (c.Np * c.Np) = 0 := by
    intro h0
    by_contra hne
    have hK : 0 < c.K := Nat.pos_of_ne_zero fun h => hne (by simp [h])
    have hNp : 0 < c.Np := Nat.pos_of_ne_zero fun h => hne (by simp [h])
    have := hs' 0 hK 0 hNp
    omega
  obtain ⟨t1, e1, g1, g2⟩ := sem_loop c (fun i k => scatter.getD (i + c.Np * k) 0) hs hs' _ _
    (asm_mk0 (c.Np * c.K + if bordered then 1 else 0) (10 * c.Np * c.Np * c.K + (if bordered then 1 else 0) * 2 * gather.length) (by
      intro h0
      have h1 : c.Np * c.K = 0 := by omega
      have h2 : (if bordered then 1 else 0) = 0 := by omega
      rw [h2, p1, z0 h1]; simp))
    (asm_mk0 gather.length (c.Np * c.Np * c.K) fun h0 => by rw [p2, z1 h0]) c.K le_rfl (by omega) (by omega)
  have a1 : allocTriplet gather.length (c.Np * c.Np * c.K) = .ok _ := if_pos ⟨by omega, by omega⟩
  have a2 := show allocTriplet (c.Np * c.K + if bordered then 1 else 0) (10 * c.Np * c.Np * c.K + (if bordered then 1 else 0) * 2 * gather.length) = .ok _ from if_pos ⟨by omega, by omega⟩
  have fin : ∃ t, c.semAssemble gather scatter bordered = .ok t ∧
      (∃ used, Asm t.1 (c.Np * c.K + if bordered then 1 else 0) (10 * c.Np * c.Np * c.K + (if bordered then 1 else 0) * 2 * gather.length) used fun v u =>
        (∑ k ∈ Finset.range c.K, bil c.Np (c.stiff k) (fun i => v (scatter.getD (i + c.Np * k) 0)) (fun i => u (scatter.getD (i + c.Np * k) 0))) + borderForm bordered gather.length v u) ∧
      t.2 = t1.2 := by
    unfold Ctx.semAssemble semMap
    rw [if_pos hN.len.ge]
    simp only [Out.bind_ok, a1, a2, e1]
    cases bordered with
    | false => exact ⟨t1, rfl, ⟨_, g1.congr rfl fun v u => by simp [borderForm]⟩, rfl⟩
    | true =>
      obtain ⟨t2, e2, g3⟩ := border_aux gather.length (c.Np * c.K + 1) _ (by omega) (List.range gather.length) (fun k hk => List.mem_range.1 hk) t1.1 _ _ g1
        (by simp only [List.length_range, if_true]; omega)
      refine ⟨(t2, t1.2), ?_, ⟨_, g3.congr rfl fun v u => ?_⟩, rfl⟩
      · simp only [if_true, border, e2, Out.bind_ok]; rfl
      · simp only [borderForm, if_true]; rfl
  obtain ⟨t, e, ⟨used, g3⟩, ht2⟩ := fin
  rw [← ht2] at g2
  obtain ⟨op, A, e1, d1, d2, r1, f1⟩ := g3.csc
  obtain ⟨mm, M, e2, d3, d4, r2, f2⟩ := g2.csc
  refine ⟨op, mm, A, M, ?_, d1, d2, d3, d4, r1, r2, f1, f2⟩
  unfold Ctx.semBuild
  simp only [e, Out.bind_ok, e1, e2]
  rfl

end Blitzdg.Poisson
