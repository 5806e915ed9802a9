import Verif.Poisson.Sem
import Verif.Blitz.UniquetolProps

/-! C101, C102: numbering of the nodes and the continuous Poisson operator. -/

namespace Blitzdg.Poisson

open MvPolynomial
open Matrix
open Blitzdg.Sparse (DMat Csc Triplet Represents asInt)
open Blitzdg.Nodes1D (Lapack exactLapack)
open Blitzdg.DG2D
open Blitzdg.Blitz (uniquetol Close IsSort C14_uniquetol insSort insSort_isSort)
open Blitzdg.SW (Grid Mesh GridSpec Provisioned gridX gridY faceEnds lerp square square_ok across)

variable {la : Lapack} {eps ztol tol : ℝ} {N : ℕ} {m : Mesh} {P : ℕ → ℕ} {x : List ℝ} {bt : List Int} {g : Grid}

/-! ### Model of the numbering -/

/-- Position of node `a = i + Np k`. -/
noncomputable def nodeAt (g : Grid) (a : ℕ) : ℝ × ℝ := (gridX (g.tri (a / g.np)) g.n (a % g.np), gridY (g.tri (a / g.np)) g.n (a % g.np))

/-- `allNodes` (src/TriangleNodesProvisioner.cpp lines 1009-1015): one row per node, element by element. -/
noncomputable def allNodes (g : Grid) : DMat ℝ := ⟨g.np * g.K, 2, fun a j => if j = 0 then (nodeAt g a).1 else (nodeAt g a).2⟩

/-- `gather`, `scatter` (src/TriangleNodesProvisioner.cpp lines 1017-1019). -/
noncomputable def nodeNumbers (sort : (ℕ → ℕ → Bool) → List ℕ → List ℕ) (g : Grid) : Out (List ℕ × List ℕ) := uniquetol sort (allNodes g) 1e-9

/-! ### C101 -/

/-- Nodes which the tolerance cannot tell apart coincide. -/
def Separated (g : Grid) : Prop := ∀ a < g.np * g.K, ∀ b < g.np * g.K, Close (allNodes g) 1e-9 a b → nodeAt g a = nodeAt g b

theorem close_same {a b : ℕ} (h : nodeAt g a = nodeAt g b) : Close (allNodes g) 1e-9 a b := by
  intro j _ M _ hM
  have : (allNodes g).at' a j = (allNodes g).at' b j := by simp only [allNodes, h]
  rw [this, sub_self, abs_zero]
  exact mul_nonneg hM (by norm_num)

/-- What a numbering of the nodes of a continuous function must satisfy: each node has a number below the count of numbers, `gather` names a node for each number, and two nodes have the
same number exactly if they lie at the same place. -/
structure Numbering (g : Grid) (gather scatter : List ℕ) : Prop where
  numbers : Numbers g.np g.K gather scatter
  lt : ∀ r ∈ gather, r < g.np * g.K
  back : ∀ t (h : t < gather.length), scatter.getD gather[t] 0 = t
  same : ∀ a < g.np * g.K, ∀ b < g.np * g.K, scatter.getD a 0 = scatter.getD b 0 ↔ nodeAt g a = nodeAt g b

/-- **C101.** The global numbering exists for every grid.  Every node gets a number below `gather.size()`, `gather` names one node for each number, and if nodes closer than the tolerance
coincide, two nodes have the same number exactly if they lie at the same place. -/
theorem C101_numbering (sort : (ℕ → ℕ → Bool) → List ℕ → List ℕ) (hs : IsSort sort) (g : Grid) (hsep : Separated g) :
    ∃ gather scatter, nodeNumbers sort g = .ok (gather, scatter) ∧ Numbering g gather scatter := by
  obtain ⟨G, S, e, hnd, hlt, hlen, hcl, hself, hpw⟩ := C14_uniquetol sort hs (allNodes g) (show 0 < 2 by decide) 1e-9 (by norm_num)
  have hat : ∀ a < g.np * g.K, ∃ h : S.getD a 0 < G.length, nodeAt g (G[S.getD a 0]) = nodeAt g a := by
    intro a ha
    obtain ⟨t, h, h1, h2⟩ := hcl a ha
    have : S.getD a 0 = t := by rw [List.getD_eq_getElem?_getD, h1]; rfl
    refine ⟨this ▸ h, ?_⟩
    simp only [this]
    exact hsep _ (hlt _ (List.getElem_mem h)) a ha h2
  refine ⟨G, S, e, ⟨hlen, fun t ht => ?_, ?_⟩, hlt, fun t h => ?_, fun a ha b hb => ⟨fun h => ?_, fun h => ?_⟩⟩
  · obtain ⟨a, ha, rfl⟩ := List.getElem_of_mem ht
    obtain ⟨h, -⟩ := hat a (by rw [hlen] at ha; exact ha)
    rwa [List.getD_eq_getElem _ _ ha] at h
  · have := (List.subperm_of_subset hnd fun r hr => List.mem_range.2 (hlt r hr)).length_le
    rwa [List.length_range] at this
  · rw [List.getD_eq_getElem?_getD, hself t h]; rfl
  · obtain ⟨h1, e1⟩ := hat a ha
    obtain ⟨h2, e2⟩ := hat b hb
    rw [← e1, ← e2]
    simp only [h]
  · obtain ⟨h1, e1⟩ := hat a ha
    obtain ⟨h2, e2⟩ := hat b hb
    have hc : Close (allNodes g) 1e-9 G[S.getD a 0] G[S.getD b 0] := close_same (by rw [e1, e2, h])
    have hc' : Close (allNodes g) 1e-9 G[S.getD b 0] G[S.getD a 0] := close_same (by rw [e1, e2, h])
    rw [List.pairwise_iff_getElem] at hpw
    rcases lt_trichotomy (S.getD a 0) (S.getD b 0) with hh | hh | hh
    · exact absurd hc (hpw _ _ h1 h2 hh)
    · exact hh
    · exact absurd hc' (hpw _ _ h2 h1 hh)

/-! ### C102: the forms -/

/-- The coefficients `u` of the global basis, as nodal values element by element. -/
def spread (scatter : List ℕ) (u : ℕ → ℝ) (a : ℕ) : ℝ := u (scatter.getD a 0)

/-- Storage for the triplets of the continuous operator can be described by `int`s. -/
def SemFits (g : Grid) (gather : List ℕ) (bordered : Bool) : Prop :=
  10 * g.np * g.np * g.K + (if bordered then 1 else 0) * 2 * gather.length ≤ intMax ∧ g.np * g.K + (if bordered then 1 else 0) ≤ intMax

theorem sem_forms (hg : GridSpec P x m.bcType g) {gather scatter : List ℕ} (hN : Numbers g.np g.K gather scatter) (bordered : Bool) (hi : SemFits g gather bordered) :
    ∃ op mm A M, (ctxOf g m).semBuild gather scatter bordered = .ok (op, mm) ∧
      op.m = (g.np * g.K + if bordered then 1 else 0) ∧ op.n = (g.np * g.K + if bordered then 1 else 0) ∧ mm.m = gather.length ∧ mm.n = gather.length ∧ Represents op A ∧ Represents mm M ∧
      (∀ v u V U, HasNodes g (spread scatter v) V → HasNodes g (spread scatter u) U →
        bil (g.np * g.K + if bordered then 1 else 0) A v u = gradForm g V U + borderForm bordered gather.length v u) ∧
      ∀ v u V U, HasNodes g (spread scatter v) V → HasNodes g (spread scatter u) U → bil gather.length M v u = l2Form g V U := by
  obtain ⟨op, mm, A, M, e, d1, d2, d3, d4, r1, r2, f1, f2⟩ := sem_build (ctxOf g m) hN bordered hi.1 hi.2
  refine ⟨op, mm, A, M, e, d1, d2, d3, d4, r1, r2, fun v u V U hv hu => ?_, fun v u V U hv hu => ?_⟩
  · refine (f1 v u).trans (congrArg (· + _) ?_)
    unfold gradForm
    exact Finset.sum_congr rfl fun k hk => elem_stiff hg m (Finset.mem_range.1 hk) (hu k (Finset.mem_range.1 hk)) (hv k (Finset.mem_range.1 hk))
  · refine (f2 v u).trans ?_
    unfold l2Form
    exact Finset.sum_congr rfl fun k hk => elem_mass hg m (hu k (Finset.mem_range.1 hk)) (hv k (Finset.mem_range.1 hk))

/-- **C102, continuous functions.** Nodal values spread from global coefficients belong to a continuous function: the polynomials of two neighbouring elements agree along the whole common face. -/
theorem C102_continuous (h : Provisioned la eps ztol tol N m P g) {gather scatter : List ℕ} (hN : Numbering g gather scatter) {u : ℕ → ℝ} {U : ℕ → P2} (hU : HasNodes g (spread scatter u) U)
    {e : ℕ} (he : e < 3 * g.K) (t : ℝ) : val (U (P e / 3)) (lerp (seg g e) t) = val (U (e / 3)) (lerp (seg g e) t) := by
  obtain ⟨x, hg, -, -, -⟩ := h.spec
  have hP := hg.lt e he
  have hk : e / 3 < g.K := by omega
  have hk2 : P e / 3 < g.K := by omega
  have at' : ∀ {k i : ℕ}, i < g.np → nodeAt g (i + g.np * k) = (gridX (g.tri k) g.n i, gridY (g.tri k) g.n i) := by
    intro k i hi
    unfold nodeAt
    rw [Nat.add_mul_div_left _ _ (by omega), Nat.div_eq_of_lt hi, Nat.add_mul_mod_self_left, Nat.mod_eq_of_lt hi, Nat.zero_add]
  have heq : trace (seg g e) (U (P e / 3)) = trace (seg g e) (U (e / 3)) := by
    have hinj : Function.Injective fun j : Fin (g.N + 1) => posn x (e % 3) j := by
      intro i j hij
      by_contra hne
      have hv : (i : ℕ) ≠ j := fun h => hne (Fin.ext h)
      have hij : posn x (e % 3) i = posn x (e % 3) j := hij
      unfold posn at hij
      have ho : ∀ a b : ℝ, SW.ori (e % 3) a = SW.ori (e % 3) b → a = b := by
        intro a b; unfold SW.ori; split_ifs <;> intro h <;> linarith
      exact hv (SW.inc_inj hg.inc (by simp only [Finset.coe_range, Set.mem_Iio]; omega) (by simp only [Finset.coe_range, Set.mem_Iio]; omega) (ho _ _ hij))
    refine Polynomial.eq_of_natDegree_lt_card_of_eval_eq _ _ hinj (fun j => ?_) ?_
    · have hj : (j : ℕ) ≤ g.N := by omega
      have n1 := node_on hg (e / 3) (f := e % 3) (by omega) hj
      have n2 := node_across hg he hj
      have m1 := hg.maskLt (e % 3) (by omega) j hj
      have m2 := hg.maskLt (P e % 3) (by omega) _ (SW.across_le P g.N e j hj)
      rw [trace_eval, trace_eval]
      unfold seg
      rw [← n2, (hU _ hk2).2 _ m2, n2, ← n1, (hU _ hk).2 _ m1]
      simp only [spread]
      rw [(hN.same _ (node_lt m2 hk2) _ (node_lt m1 hk)).2]
      rw [at' m2, at' m1, n1, n2]
    · rw [Fintype.card_fin]
      exact Nat.lt_succ_of_le (max_le (trace_deg _ _ (hU _ hk2).1) (trace_deg _ _ (hU _ hk).1))
  rw [← trace_eval, ← trace_eval, heq]

/-- **C102, meaning.** The constructor ends normally.  For coefficient vectors `u`, `v` of the continuous functions `U`, `V`, `vᵀ OP u = ∫ ∇U·∇V` (with the border: plus `λ_v Σu + λ_u Σv`, where `λ` is
entry `gather.size()`), and `vᵀ MM u = ∫ U V`.  Boundary tags play no part. -/
theorem C102_forms (h : Provisioned la eps ztol tol N m P g) {gather scatter : List ℕ} (hN : Numbers g.np g.K gather scatter) (bordered : Bool) (hi : SemFits g gather bordered) :
    ∃ op mm A M, (ctxOf g m).semBuild gather scatter bordered = .ok (op, mm) ∧
      op.m = (g.np * g.K + if bordered then 1 else 0) ∧ op.n = (g.np * g.K + if bordered then 1 else 0) ∧ mm.m = gather.length ∧ mm.n = gather.length ∧ Represents op A ∧ Represents mm M ∧
      (∀ v u V U, HasNodes g (spread scatter v) V → HasNodes g (spread scatter u) U →
        bil (g.np * g.K + if bordered then 1 else 0) A v u = gradForm g V U
          + if bordered then v gather.length * ∑ k ∈ Finset.range gather.length, u k + u gather.length * ∑ k ∈ Finset.range gather.length, v k else 0) ∧
      ∀ v u V U, HasNodes g (spread scatter v) V → HasNodes g (spread scatter u) U → bil gather.length M v u = l2Form g V U := by
  obtain ⟨x, hg, -, -, -⟩ := h.spec
  obtain ⟨op, mm, A, M, e, d1, d2, d3, d4, r1, r2, f1, f2⟩ := sem_forms hg hN bordered hi
  refine ⟨op, mm, A, M, e, d1, d2, d3, d4, r1, r2, fun v u V U hv hu => ?_, f2⟩
  rw [f1 v u V U hv hu]
  congr 1
  unfold borderForm
  cases bordered
  · rfl
  · simp only [if_true, Finset.sum_add_distrib, Finset.mul_sum]
    congr 1
    exact Finset.sum_congr rfl fun k _ => mul_comm _ _

theorem gradForm_symm (g : Grid) (V U : ℕ → P2) : gradForm g V U = gradForm g U V :=
  Finset.sum_congr rfl fun k _ => triIntegral_congr _ fun z => by ring

/-- **C102, symmetry.** -/
theorem C102_symmetric (h : Provisioned la eps ztol tol N m P g) {gather scatter : List ℕ} (hN : Numbers g.np g.K gather scatter) (bordered : Bool) (hi : SemFits g gather bordered) :
    ∃ op mm A M, (ctxOf g m).semBuild gather scatter bordered = .ok (op, mm) ∧ Represents op A ∧ Represents mm M ∧
      (∀ i < op.m, ∀ j < op.n, A i j = A j i) ∧ ∀ i < mm.m, ∀ j < mm.n, M i j = M j i := by
  obtain ⟨x, hg, -, -, -⟩ := h.spec
  obtain ⟨op, mm, A, M, e, d1, d2, d3, d4, r1, r2, f1, f2⟩ := C102_forms h hN bordered hi
  refine ⟨op, mm, A, M, e, r1, r2, fun i hi j hj => ?_, fun i hi j hj => ?_⟩
  · rw [d1] at hi; rw [d2] at hj
    obtain ⟨V, hV⟩ := hasNodes_exists hg (spread scatter fun a => if a = i then 1 else 0)
    obtain ⟨U, hU⟩ := hasNodes_exists hg (spread scatter fun a => if a = j then 1 else 0)
    rw [← bil_single _ A i j hi hj, ← bil_single _ A j i hj hi, f1 _ _ V U hV hU, f1 _ _ U V hU hV, gradForm_symm]
    split_ifs <;> ring
  · rw [d3] at hi; rw [d4] at hj
    obtain ⟨V, hV⟩ := hasNodes_exists hg (spread scatter fun a => if a = i then 1 else 0)
    obtain ⟨U, hU⟩ := hasNodes_exists hg (spread scatter fun a => if a = j then 1 else 0)
    rw [← bil_single _ M i j hi hj, ← bil_single _ M j i hj hi, f2 _ _ V U hV hU, f2 _ _ U V hU hV]
    exact Finset.sum_congr rfl fun k _ => triIntegral_congr _ fun z => mul_comm _ _

/-! ### C102: solvability -/

theorem spread_zero {gather scatter : List ℕ} (hN : Numbers g.np g.K gather scatter) {u : ℕ → ℝ} (hu : ∀ a < gather.length, u a = 0) : HasNodes g (spread scatter u) fun _ => 0 :=
  fun k hk => ⟨by simp, fun i hi => by
    simp only [val_zero]
    exact (hu _ (hN.at' (node_lt hi hk))).symm⟩

theorem grad_zero (g : Grid) (U : ℕ → P2) : gradForm g (fun _ => 0) U = 0 := by
  unfold gradForm
  simp only [map_zero, val_zero]
  simp [triIntegral, triInt]

/-- **C102, padding.** As soon as two elements share a node, the operator has rows and columns of zeros: it is singular, with the border or without. -/
theorem C102_padding_singular (h : Provisioned la eps ztol tol N m P g) {gather scatter : List ℕ} (hN : Numbers g.np g.K gather scatter) (bordered : Bool) (hi : SemFits g gather bordered)
    (hshare : gather.length < g.np * g.K) :
    ∃ op mm A M, (ctxOf g m).semBuild gather scatter bordered = .ok (op, mm) ∧ Represents op A ∧ Represents mm M ∧
      ∃ j < op.n, ∀ i < op.m, A i j = 0 ∧ A j i = 0 := by
  obtain ⟨x, hg, -, -, -⟩ := h.spec
  obtain ⟨op, mm, A, M, e, d1, d2, d3, d4, r1, r2, f1, f2⟩ := C102_forms h hN bordered hi
  refine ⟨op, mm, A, M, e, r1, r2, g.np * g.K - 1 + (if bordered then 1 else 0), by rw [d2]; omega, fun i hi => ?_⟩
  rw [d1] at hi
  set j := g.np * g.K - 1 + (if bordered then 1 else 0) with hj
  have hjl : j < g.np * g.K + if bordered then 1 else 0 := by omega
  have hz := spread_zero (scatter := scatter) hN (u := fun a => if a = j then 1 else 0) fun a ha => if_neg (by omega)
  obtain ⟨V, hV⟩ := hasNodes_exists hg (spread scatter fun a => if a = i then 1 else 0)
  have hlast : bordered = true → gather.length ≠ j := by
    intro hb; rw [hj, hb]; simp only [if_true]; omega
  have hsum : ∑ k ∈ Finset.range gather.length, (if k = j then (1 : ℝ) else 0) = 0 := Finset.sum_eq_zero fun k hk => if_neg (by have := Finset.mem_range.1 hk; omega)
  constructor
  · rw [← bil_single _ A i j hi hjl, f1 _ _ V _ hV hz, gradForm_symm, grad_zero, hsum]
    cases bordered
    · simp
    · simp [hlast rfl]
  · rw [← bil_single _ A j i hjl hi, f1 _ _ _ V hz hV, grad_zero, hsum]
    cases bordered
    · simp
    · simp [hlast rfl]

/-- Vectors which vanish beyond the first `n` entries see the leading block only. -/
theorem bil_lead {n D : ℕ} (hD : n ≤ D) (A : ℕ → ℕ → ℝ) (v u : ℕ → ℝ) (hv : ∀ i, n ≤ i → v i = 0) (hu : ∀ i, n ≤ i → u i = 0) : bil D A v u = bil n A v u := by
  unfold bil
  symm
  refine (Finset.sum_congr rfl fun i _ => ?_).trans (Finset.sum_subset (Finset.range_subset_range.2 hD) fun i _ hi => ?_)
  · exact Finset.sum_subset (Finset.range_subset_range.2 hD) fun j _ hj => by rw [hu j (by simpa using hj)]; ring
  · exact Finset.sum_eq_zero fun j _ => by rw [hv i (by simpa using hi)]; ring

theorem ext_zero {n : ℕ} (u : Fin n → ℝ) (i : ℕ) (h : n ≤ i) : ext u i = 0 := dif_neg (by omega)

/-- If the spread values are those of a constant, so are the coefficients. -/
theorem spread_const {gather scatter : List ℕ} (hN : Numbering g gather scatter) {u : ℕ → ℝ} {U : ℕ → P2} (hU : HasNodes g (spread scatter u) U) {c : ℝ} (hc : ∀ k < g.K, ∀ z, val (U k) z = c)
    (t : ℕ) (ht : t < gather.length) : u t = c := by
  have := const_nodes hU hc gather[t] (hN.lt _ (List.getElem_mem ht))
  unfold spread at this
  rwa [hN.back t ht] at this

theorem sem_inj (h : Provisioned la eps ztol tol N m P g) {gather scatter : List ℕ} (hN : Numbering g gather scatter) (hc : Connected g P) (hK : 0 < g.K) {A : ℕ → ℕ → ℝ}
    (f1 : ∀ v u V U, HasNodes g (spread scatter v) V → HasNodes g (spread scatter u) U → bil (g.np * g.K + 1) A v u = gradForm g V U
        + (v gather.length * ∑ k ∈ Finset.range gather.length, u k + u gather.length * ∑ k ∈ Finset.range gather.length, v k))
    (u : Fin (gather.length + 1) → ℝ) (hu : mat (gather.length + 1) A *ᵥ u = 0) : u = 0 := by
  obtain ⟨x, hg, -, -, -⟩ := h.spec
  have hle := hN.numbers.le
  have hnp : 0 < g.np := by unfold Grid.np; have := hg.posN; exact Nat.div_pos (by nlinarith) (by omega)
  have hn : 0 < gather.length := lt_of_le_of_lt (Nat.zero_le _) (hN.numbers.at' (Nat.mul_pos hnp hK))
  have f0 : ∀ v V U, (∀ i, gather.length + 1 ≤ i → v i = 0) → HasNodes g (spread scatter v) V → HasNodes g (spread scatter (ext u)) U → 0 = gradForm g V U
        + (v gather.length * ∑ k ∈ Finset.range gather.length, ext u k + ext u gather.length * ∑ k ∈ Finset.range gather.length, v k) := by
    intro v V U hv hV hU
    rw [← f1 v (ext u) V U hV hU, bil_lead (by omega) A v (ext u) hv (ext_zero u), bil_zero_left _ A _ u hu]
  obtain ⟨U, hU⟩ := hasNodes_exists hg (spread scatter (ext u))
  have h0 := spread_zero hN.numbers (u := fun a => if a = gather.length then 1 else 0) fun a ha => if_neg (by omega)
  have s0 : ∑ k ∈ Finset.range gather.length, ext u k = 0 := by
    have h1 := f0 _ _ U (fun i hi => if_neg (by omega)) h0 hU
    have h2 : ∑ k ∈ Finset.range gather.length, (if k = gather.length then (1 : ℝ) else 0) = 0 := Finset.sum_eq_zero fun k hk => if_neg (Finset.mem_range.1 hk).ne
    rw [grad_zero, h2, if_pos rfl] at h1
    linarith
  have g0 : gradForm g U U = 0 := by
    have h1 := f0 _ _ U (ext_zero u) hU hU
    rw [s0] at h1
    linarith
  rw [gradForm_self, Finset.sum_eq_zero_iff_of_nonneg fun k hk => gradSq_nonneg (hg.ccw k (Finset.mem_range.1 hk)) _] at g0
  have hk : ∀ k < g.K, ∀ z, val (U k) z = val (U k) (0, 0) := fun k hk => const_of_grad (hg.ccw k hk) _ (g0 k (Finset.mem_range.2 hk))
  have step : ∀ a < g.K, ∀ f < 3, val (U (P (3 * a + f) / 3)) (0, 0) = val (U a) (0, 0) := by
    intro a ha f hf
    have he : 3 * a + f < 3 * g.K := by omega
    have hb : P (3 * a + f) / 3 < g.K := by have := hg.lt _ he; omega
    have := C102_continuous h hN hU he 0
    rwa [show (3 * a + f) / 3 = a by omega, hk _ hb, hk _ ha] at this
  have all : ∀ k < g.K, val (U k) (0, 0) = val (U 0) (0, 0) := by
    intro k hk
    have hr := hc k hk
    induction hr with
    | refl => rfl
    | tail hab hbc ih =>
      obtain ⟨ha, f, hf, rfl⟩ := hbc
      rw [step _ ha f hf]
      exact ih ha
  have hcn : ∀ t < gather.length, ext u t = val (U 0) (0, 0) := fun t ht => spread_const hN hU (fun k hk' z => by rw [hk k hk', all k hk']) t ht
  have c0 : val (U 0) (0, 0) = 0 := by
    rw [Finset.sum_congr rfl fun k hk => hcn k (Finset.mem_range.1 hk)] at s0
    rw [Finset.sum_const, Finset.card_range, nsmul_eq_mul] at s0
    exact (mul_eq_zero.1 s0).resolve_left (Nat.cast_ne_zero.2 hn.ne')
  have hl : ext u gather.length = 0 := by
    obtain ⟨V, hV⟩ := hasNodes_exists hg (spread scatter fun a => if a = 0 then 1 else 0)
    have hU0 := spread_zero hN.numbers (u := ext u) fun a ha => by rw [hcn a ha, c0]
    have h1 := f0 _ V _ (fun i hi => if_neg (by omega)) hV hU0
    rw [gradForm_symm, grad_zero, if_neg hn.ne'] at h1
    have h2 : ∑ k ∈ Finset.range gather.length, (if k = 0 then (1 : ℝ) else 0) = 1 := by simp [hn]
    rw [h2] at h1
    linarith
  funext i
  rw [← ext_fin u i]
  rcases Nat.lt_succ_iff_lt_or_eq.1 i.2 with hlt | heq
  · rw [hcn i hlt, c0]; rfl
  · rw [heq, hl]; rfl

/-- **C102, leading block.** On a connected mesh the first `gather.size() + 1` rows and columns of the bordered operator form an invertible matrix: this is the system one must cut out of it. -/
theorem C102_leading_block (h : Provisioned la eps ztol tol N m P g) {gather scatter : List ℕ} (hN : Numbering g gather scatter) (hi : SemFits g gather true) (hc : Connected g P) (hK : 0 < g.K) :
    ∃ op mm A M, (ctxOf g m).semBuild gather scatter true = .ok (op, mm) ∧ Represents op A ∧ Represents mm M ∧
      ∀ b : Fin (gather.length + 1) → ℝ, ∃! u, mat (gather.length + 1) A *ᵥ u = b := by
  obtain ⟨op, mm, A, M, e, d1, d2, d3, d4, r1, r2, f1, f2⟩ := C102_forms h hN.numbers true hi
  exact ⟨op, mm, A, M, e, r1, r2, solve_of_inj _ (sem_inj h hN hc hK fun v u V U hv hu => by simpa using f1 v u V U hv hu)⟩

/-- **C102, mass matrix.** The mass matrix of the continuous functions is positive definite and invertible, on every mesh. -/
theorem C102_mass (h : Provisioned la eps ztol tol N m P g) {gather scatter : List ℕ} (hN : Numbering g gather scatter) (bordered : Bool) (hi : SemFits g gather bordered) :
    ∃ op mm M, (ctxOf g m).semBuild gather scatter bordered = .ok (op, mm) ∧ Represents mm M ∧
      (∀ u : Fin gather.length → ℝ, u ≠ 0 → 0 < u ⬝ᵥ mat gather.length M *ᵥ u) ∧ ∀ b : Fin gather.length → ℝ, ∃! u, mat gather.length M *ᵥ u = b := by
  obtain ⟨x, hg, -, -, -⟩ := h.spec
  obtain ⟨op, mm, A, M, e, d1, d2, d3, d4, r1, r2, f1, f2⟩ := C102_forms h hN.numbers bordered hi
  have hpos : ∀ u : Fin gather.length → ℝ, u ≠ 0 → 0 < u ⬝ᵥ mat gather.length M *ᵥ u := by
    intro u hu
    by_contra hn
    apply hu
    obtain ⟨U, hU⟩ := hasNodes_exists hg (spread scatter (ext u))
    rw [bil_mat, f2 _ _ U U hU hU] at hn
    have hz : l2Form g U U = 0 := le_antisymm (not_lt.1 hn) (Finset.sum_nonneg fun k hk => sq_nonneg' (hg.ccw k (Finset.mem_range.1 hk)) _)
    unfold l2Form at hz
    rw [Finset.sum_eq_zero_iff_of_nonneg fun k hk => sq_nonneg' (hg.ccw k (Finset.mem_range.1 hk)) _] at hz
    funext i
    rw [← ext_fin u i, spread_const hN hU (c := 0) (fun k hk z => sq_zero (hg.ccw k hk) _ (hz k (Finset.mem_range.2 hk)) z) i i.2]
    rfl
  refine ⟨op, mm, M, e, r2, hpos, solve_of_inj _ fun u hu => ?_⟩
  by_contra hne
  have := hpos u hne
  rw [hu] at this
  simp at this

/-! ### Concrete case: the unit square cut into two triangles, order one -/

/-- The six nodes of the two triangles. -/
noncomputable def squareNodes : List (ℝ × ℝ) := [(0, 0), (1, 0), (0, 1), (1, 0), (1, 1), (0, 1)]

theorem square_nodes {g : Grid} (h1 : g.np = 3) (htri : ∀ k < 2, g.tri k = square.tri k) (p0 : g.n.r.getD 0 0 = -1 ∧ g.n.s.getD 0 0 = -1) (p1 : g.n.r.getD 1 0 = 1 ∧ g.n.s.getD 1 0 = -1)
    (p2 : g.n.r.getD 2 0 = -1 ∧ g.n.s.getD 2 0 = 1) (a : ℕ) (ha : a < 6) : nodeAt g a = squareNodes.getD a 0 := by
  unfold nodeAt
  rw [h1, htri (a / 3) (by omega)]
  simp only [List.getD_eq_getElem?_getD] at p0 p1 p2
  interval_cases a <;>
    simp [gridX, gridY, triCoord, p0, p1, p2, SW.Mesh.tri, SW.Mesh.corner, square, squareNodes] <;> norm_num [p0, p1, p2]

theorem square_separated {g : Grid} (h1 : g.np = 3) (h2 : g.K = 2) (hn : ∀ a < 6, nodeAt g a = squareNodes.getD a 0) : Separated g := by
  intro a ha b hb hc
  rw [h1, h2] at ha hb
  have ha : a < 6 := ha
  have hb : b < 6 := hb
  have hbd : ∀ j < 2, ∀ i < (allNodes g).rows, |(allNodes g).at' i j| ≤ 1 := by
    intro j hj i hi
    simp only [allNodes, h1, h2] at hi ⊢
    have hi : i < 6 := hi
    rw [hn i hi]
    interval_cases i <;> interval_cases j <;> simp [squareNodes]
  have c0 := hc 0 (show 0 < 2 by decide) 1 (hbd 0 (by decide)) (by norm_num)
  have c1 := hc 1 (show 1 < 2 by decide) 1 (hbd 1 (by decide)) (by norm_num)
  simp only [allNodes, if_true, one_ne_zero, if_false, hn a ha, hn b hb] at c0 c1
  rw [hn a ha, hn b hb]
  interval_cases a <;> interval_cases b <;> simp [squareNodes] at c0 c1 ⊢ <;> first | (norm_num at c0; done) | norm_num at c1

theorem square_numbering {g : Grid} (h1 : g.np = 3) (h2 : g.K = 2) (hn : ∀ a < 6, nodeAt g a = squareNodes.getD a 0) :
    ∃ gather scatter, nodeNumbers insSort g = .ok (gather, scatter) ∧ Numbering g gather scatter ∧ gather.length < g.np * g.K := by
  obtain ⟨G, S, e, hN⟩ := C101_numbering insSort insSort_isSort g (square_separated h1 h2 hn)
  refine ⟨G, S, e, hN, lt_of_le_of_ne hN.numbers.le fun h => ?_⟩
  have hsurj : ∀ t < G.length, ∃ a < g.np * g.K, a ≠ 3 ∧ S.getD a 0 = t := by
    intro t ht
    have hl := hN.lt _ (List.getElem_mem ht)
    by_cases h3 : G[t] = 3
    · refine ⟨1, by rw [h1, h2]; decide, by decide, ?_⟩
      rw [← hN.back t ht, h3]
      exact (hN.same 1 (by rw [h1, h2]; decide) 3 (by rw [h1, h2]; decide)).2 (by rw [hn 1 (by decide), hn 3 (by decide)]; rfl)
    · exact ⟨G[t], hl, h3, hN.back t ht⟩
  have hcard : G.length ≤ (((Finset.range (g.np * g.K)).erase 3).image fun a => S.getD a 0).card := by
    rw [← Finset.card_range G.length]
    refine Finset.card_le_card fun t ht => ?_
    obtain ⟨a, ha, h3, e⟩ := hsurj t (Finset.mem_range.1 ht)
    exact Finset.mem_image.2 ⟨a, Finset.mem_erase.2 ⟨h3, Finset.mem_range.2 ha⟩, e⟩
  have := hcard.trans Finset.card_image_le
  rw [Finset.card_erase_of_mem (Finset.mem_range.2 (by rw [h1, h2]; decide)), Finset.card_range, h, h1, h2] at this
  omega

/-- The hypotheses of C101 and C102 are met on the square, where the operator with its border is singular and its leading block is not. -/
example : ∃ (g : Grid) (gather scatter : List ℕ), nodeNumbers insSort g = .ok (gather, scatter) ∧ Numbering g gather scatter ∧
    (∃ op mm A M, (ctxOf g square).semBuild gather scatter true = .ok (op, mm) ∧ Represents op A ∧ Represents mm M ∧ ∃ j < op.n, ∀ i < op.m, A i j = 0 ∧ A j i = 0) ∧
    ∃ op mm A M, (ctxOf g square).semBuild gather scatter true = .ok (op, mm) ∧ Represents op A ∧ Represents mm M ∧
      ∀ b : Fin (gather.length + 1) → ℝ, ∃! u, mat (gather.length + 1) A *ᵥ u = b := by
  obtain ⟨g, hg, h1, h2, htri, p0, p1, p2⟩ := squareTags_grid [3, 0, 3, 3, 3, 0] (by decide)
  obtain ⟨G, S, e, hN, hlt⟩ := square_numbering h1 h2 (square_nodes h1 htri p0 p1 p2)
  have hf : SemFits g G true := by
    have : G.length < 6 := by rw [h1, h2] at hlt; exact hlt
    unfold SemFits intMax
    rw [h1, h2]
    constructor <;> simp only [if_true] <;> omega
  exact ⟨g, G, S, e, hN, C102_padding_singular hg hN.numbers true hf hlt, C102_leading_block hg hN hf (square_connected h2) (by omega)⟩

end Blitzdg.Poisson
