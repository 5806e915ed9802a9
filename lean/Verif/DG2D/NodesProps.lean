import Verif.DG2D.MaskProps
import Verif.DG2D.RefProps

/-! Properties of the reference nodes: C74 (face nodes and face masks), C47/C71 for the nodes of the code. -/

namespace Blitzdg.DG2D

open MvPolynomial
open Blitzdg.Sparse (DMat)
open Blitzdg.Dense (toMat)
open Blitzdg.Nodes1D (Lapack uncaught vandermonde trans vandermonde_unit)
open Blitzdg.Jacobi (jacobiP gllPoints before C70_gauss_lobatto)

/-! ### Specification -/

/-- `x` are the Gauss-Lobatto points of order `N`, as the code computes them. -/
def IsGLL (la : Lapack) (eps : ℝ) (N : ℕ) (x : List ℝ) : Prop := gllPoints la.query la.dsyevd 0 0 eps N (List.replicate (N + 1) 0) = .ok (.ret x)

/-- Face `f` of the reference triangle: bottom, hypotenuse, left side. -/
def triFacePt (f : ℕ) (t : ℝ) : ℝ × ℝ := if f = 0 then (t, -1) else if f = 1 then (-t, t) else (-1, t)

/-- How far a point is from the line of a face, as the code measures it. -/
def triFaceDist (f : ℕ) (r s : ℝ) : ℝ := if f = 0 then |s + 1| else if f = 1 then |r + s| else |r + 1|

/-- The same for the square. -/
def quadFaceDist (f : ℕ) (r s : ℝ) : ℝ := if f = 0 then |s + 1| else if f = 1 then |r - 1| else if f = 2 then |s - 1| else |r + 1|

/-- What a face mask must be: entry `i` of face `f` is a node, namely the one at the `i`-th of the `N + 1` points `x` on that face, and every node closer than `tol` to a face is listed. -/
structure MaskSpec (N nf : ℕ) (γ : ℕ → ℝ → ℝ × ℝ) (dist : ℕ → ℝ → ℝ → ℝ) (tol : ℝ) (x : List ℝ) (n : RefNodes) : Prop where
  lt : ∀ f < nf, ∀ i ≤ N, n.mask i f < n.r.length
  pt : ∀ f < nf, ∀ i ≤ N, (n.r.getD (n.mask i f) 0, n.s.getD (n.mask i f) 0) = γ f (x.getD i 0)
  all : ∀ f < nf, ∀ k < n.r.length, dist f (n.r.getD k 0) (n.s.getD k 0) < tol → ∃ i ≤ N, k = n.mask i f

/-! ### Warp -/

theorem equidistant_getD (N m : ℕ) (hm : m ≤ N) : (equidistant N).getD m 0 = -1 + 2 * (m : ℝ) / N := by
  unfold equidistant
  rw [List.getD_eq_getElem _ _ (by simp; omega)]
  simp

theorem equidistant_distinct (N : ℕ) (i j : ℕ) (h : i < j) (hj : j ≤ N) : (equidistant N).getD i 0 ≠ (equidistant N).getD j 0 := by
  rw [equidistant_getD N i (by omega), equidistant_getD N j hj]
  intro e
  have hN : (0 : ℝ) < N := by exact_mod_cast (by omega : 0 < N)
  have h' : (i : ℝ) < j := by exact_mod_cast h
  field_simp at e
  linarith

theorem warpFactor_ok (la : Lapack) (hla : la.Ok) (eps ztol : ℝ) (N : ℕ) (x : List ℝ) (hx : IsGLL la eps N x) (r : List ℝ) :
    ∃ w, warpFactor la eps ztol N r = .ok w ∧ w.length = r.length ∧ ∀ k < r.length, ∀ m ≤ N, r.getD k 0 = (equidistant N).getD m 0 →
      w.getD k 0 = warpScale ztol ((equidistant N).getD m 0) (x.getD m 0 - (equidistant N).getD m 0) := by
  have hl : (equidistant N).length = N + 1 := by simp [equidistant]
  have hu : IsUnit (toMat (vandermonde (equidistant N) (N + 1)) (N + 1) (N + 1)) := vandermonde_unit N _ (equidistant_distinct N)
  obtain ⟨Vi, hVi, -⟩ := invertInto_ok la hla (vandermonde (equidistant N) (N + 1)) (N + 1) (by omega) ⟨hl, rfl⟩ hu
  have hut : IsUnit (toMat (trans (vandermonde (equidistant N) (N + 1))) (N + 1) (N + 1)) := by
    rw [toMat_trans]; exact (Matrix.isUnit_transpose _).2 hu
  obtain ⟨L, hL, -, -, hLe⟩ := solveInto_ok la hla (trans (vandermonde (equidistant N) (N + 1))) (trans (vandermonde r (N + 1))) (N + 1) r.length (by omega)
    ⟨rfl, hl⟩ ⟨rfl, rfl⟩ hut
  refine ⟨(List.range r.length).map fun i => warpScale ztol (r.getD i 0) (∑ j ∈ Finset.range (N + 1), L.at' j i * (x.getD j 0 - (equidistant N).getD j 0)), ?_, ?_, ?_⟩
  · unfold warpFactor
    rw [hx]
    simp only [uncaught, Out.bind_ok]
    rw [hVi]
    simp only [Out.bind_ok]
    rw [hL]
    rfl
  · simp
  · intro k hk m hm hr
    have hcol : (fun j : Fin (N + 1) => L.at' j k) = Pi.single (⟨m, by omega⟩ : Fin (N + 1)) 1 := by
      apply (Matrix.mulVec_injective_iff_isUnit.2 hut)
      have h1 : (toMat (trans (vandermonde (equidistant N) (N + 1))) (N + 1) (N + 1)).mulVec (fun j : Fin (N + 1) => L.at' j k)
          = fun i => toMat (trans (vandermonde r (N + 1))) (N + 1) r.length i ⟨k, hk⟩ := by
        rw [← hLe]; rfl
      rw [h1, Matrix.mulVec_single_one]
      funext i
      show jacobiP 0 0 i (r.getD k 0) = jacobiP 0 0 i ((equidistant N).getD m 0)
      rw [hr]
    rw [List.getD_eq_getElem _ _ (by simpa using hk), List.getElem_map, List.getElem_range, hr]
    congr 1
    rw [Finset.sum_range]
    have : ∀ j : Fin (N + 1), L.at' j k = (Pi.single (⟨m, by omega⟩ : Fin (N + 1)) 1 : Fin (N + 1) → ℝ) j := fun j => congrFun hcol j
    simp only [this]
    rw [Finset.sum_eq_single (⟨m, by omega⟩ : Fin (N + 1))]
    · simp
    · intro j _ hj; rw [Pi.single_eq_of_ne hj, zero_mul]
    · intro h; exact absurd (Finset.mem_univ _) h

/-- Blending undoes the scaling. -/
theorem warpScale_blend (ztol r w : ℝ) (h0 : 0 < ztol) (h : |r| < 1 - ztol ∨ |r| = 1 ∧ w = 0) : (1 - r * r) * warpScale ztol r w = w := by
  unfold warpScale
  rcases h with h | ⟨h, rfl⟩
  · simp only [if_pos h]
    have h1 : r * r < 1 := by
      have := abs_nonneg r
      have h2 : |r| < 1 := by linarith
      nlinarith [abs_mul_abs_self r]
    have h2 : 1 - r * r ≠ 0 := by linarith
    simp only [one_mul, sub_self, mul_zero, add_zero]
    exact mul_div_cancel₀ w h2
  · simp

theorem edge_warp (ztol : ℝ) (h0 : 0 < ztol) (N : ℕ) (hN : 1 ≤ N) (hz : ztol < 2 / N) (x : List ℝ) (hm1 : x.getD 0 0 = -1) (hp1 : x.getD N 0 = 1)
    (m : ℕ) (hm : m ≤ N) :
    (1 - (equidistant N).getD m 0 * (equidistant N).getD m 0) * warpScale ztol ((equidistant N).getD m 0) (x.getD m 0 - (equidistant N).getD m 0)
      = x.getD m 0 - (equidistant N).getD m 0 := by
  have hNp : (0 : ℝ) < N := by exact_mod_cast (by omega : 0 < N)
  apply warpScale_blend _ _ _ h0
  rw [equidistant_getD N m hm]
  by_cases hm0 : m = 0
  · subst hm0; right; rw [hm1]; simp
  by_cases hmN : m = N
  · subst hmN; right; rw [hp1, mul_div_assoc, div_self hNp.ne']; norm_num
  left
  have h1 : (1 : ℝ) ≤ m := by exact_mod_cast (by omega : 1 ≤ m)
  have h2 : (m : ℝ) + 1 ≤ N := by exact_mod_cast (by omega : m + 1 ≤ N)
  have e1 : 2 / (N : ℝ) ≤ 2 * m / N := by apply div_le_div_of_nonneg_right _ hNp.le; linarith
  have e2 : 2 * (m : ℝ) / N ≤ 2 - 2 / N := by
    rw [le_sub_iff_add_le, ← add_div, div_le_iff₀ hNp]; linarith
  rw [abs_lt]
  constructor <;> linarith

theorem cos_23 : Real.cos (2 * Real.pi / 3) = -1 / 2 := by
  rw [show 2 * Real.pi / 3 = Real.pi - Real.pi / 3 by ring, Real.cos_pi_sub, Real.cos_pi_div_three]; norm_num
theorem sin_23 : Real.sin (2 * Real.pi / 3) = Real.sqrt 3 / 2 := by
  rw [show 2 * Real.pi / 3 = Real.pi - Real.pi / 3 by ring, Real.sin_pi_sub, Real.sin_pi_div_three]
theorem cos_43 : Real.cos (4 * Real.pi / 3) = -1 / 2 := by
  rw [show 4 * Real.pi / 3 = Real.pi / 3 + Real.pi by ring, Real.cos_add_pi, Real.cos_pi_div_three]; norm_num
theorem sin_43 : Real.sin (4 * Real.pi / 3) = -(Real.sqrt 3 / 2) := by
  rw [show 4 * Real.pi / 3 = Real.pi / 3 + Real.pi by ring, Real.sin_add_pi, Real.sin_pi_div_three]

/-- The node in reference coordinates: the lattice point moved by the three warps. -/
theorem xyTors_warped (α L1 L2 L3 w1 w2 w3 : ℝ) (hs : L1 + L2 + L3 = 1) :
    xyTors (warpedNode α (L1, L2, L3) (w1, w2, w3))
      = (L3 - L2 - L1 + (4 * L2 * L3 * w1 * (1 + α * α * L1 * L1) - 4 * L1 * L3 * w2 * (1 + α * α * L2 * L2)),
         L1 - L2 - L3 + (4 * L1 * L3 * w2 * (1 + α * α * L2 * L2) - 4 * L1 * L2 * w3 * (1 + α * α * L3 * L3))) := by
  have h3 : Real.sqrt 3 * Real.sqrt 3 = 3 := Real.mul_self_sqrt (by norm_num)
  have h3' : Real.sqrt 3 ≠ 0 := by intro h; rw [h] at h3; norm_num at h3
  have hy : Real.sqrt 3 * ((-L2 - L3 + 2 * L1) / Real.sqrt 3) = -L2 - L3 + 2 * L1 := by field_simp
  simp only [xyTors, warpedNode, cos_23, cos_43, sin_23, sin_43, zero_mul, zero_add, one_mul, mul_add, hy]
  obtain rfl : L2 = 1 - L1 - L3 := by linarith
  ext
  · simp only
    linear_combination (-(4 * L1 * L3 * w2 * (1 + α * α * (1 - L1 - L3) * (1 - L1 - L3))) / 6 + (4 * L1 * (1 - L1 - L3) * w3 * (1 + α * α * L3 * L3)) / 6) * h3
  · simp only
    linear_combination ((4 * L1 * L3 * w2 * (1 + α * α * (1 - L1 - L3) * (1 - L1 - L3))) / 3 - (4 * L1 * (1 - L1 - L3) * w3 * (1 + α * α * L3 * L3)) / 3) * h3

/-! ### Triangle -/

theorem warpLattice_eq (N : ℕ) : warpLattice N = triPairs N := by
  unfold warpLattice triPairs
  simp only [List.flatMap]
  congr 1
  apply List.map_congr_left
  intro n hn
  have := List.mem_range.1 hn
  rw [show N + 1 - n = N - n + 1 by omega]

theorem triPairs_sorted (N : ℕ) : (triPairs N).Pairwise before := by
  unfold triPairs
  rw [List.pairwise_flatMap]
  constructor
  · intro n _
    rw [List.pairwise_map]
    exact List.pairwise_lt_range.imp fun h => Or.inr ⟨rfl, h⟩
  · refine List.pairwise_lt_range.imp fun {a b} h => ?_
    intro p hp q hq
    obtain ⟨i, -, rfl⟩ := List.mem_map.1 hp
    obtain ⟨j, -, rfl⟩ := List.mem_map.1 hq
    exact Or.inl h

theorem getD_mem {α : Type} (l : List α) (d : α) (k : ℕ) (hk : k < l.length) : l.getD k d ∈ l := by
  rw [List.getD_eq_getElem _ _ hk]; exact List.getElem_mem _

theorem getD_map' {α β : Type} (l : List α) (f : α → β) (d : α) (e : β) (k : ℕ) (hk : k < l.length) : (l.map f).getD k e = f (l.getD k d) := by
  rw [List.getD_eq_getElem _ _ (by simpa using hk), List.getElem_map, List.getD_eq_getElem _ _ hk]

/-- Positions of the nodes on the edges of the lattice. -/
theorem equilateral_ok (la : Lapack) (hla : la.Ok) (eps ztol : ℝ) (h0 : 0 < ztol) (N : ℕ) (hN : 1 ≤ N) (hz : ztol < 2 / N) (x : List ℝ) (hx : IsGLL la eps N x)
    (hm1 : x.getD 0 0 = -1) (hp1 : x.getD N 0 = 1) (hsym : ∀ i ≤ N, x.getD (N - i) 0 = -x.getD i 0) :
    ∃ xy, equilateralNodes la eps ztol N = .ok xy ∧ xy.length = (triPairs N).length ∧ ∀ k < (triPairs N).length, ∀ p, (triPairs N).getD k (0, 0) = p →
      (p.1 = 0 → xyTors (xy.getD k (0, 0)) = (x.getD p.2 0, -1)) ∧
      (p.1 + p.2 = N → xyTors (xy.getD k (0, 0)) = (-x.getD p.1 0, x.getD p.1 0)) ∧
      (p.2 = 0 → xyTors (xy.getD k (0, 0)) = (-1, x.getD p.1 0)) := by
  have hNp : (0 : ℝ) < N := by exact_mod_cast (by omega : 0 < N)
  obtain ⟨w1, e1, -, q1⟩ := warpFactor_ok la hla eps ztol N x hx ((warpLattice N).map fun p => (latticeBary N p).2.2 - (latticeBary N p).2.1)
  obtain ⟨w2, e2, -, q2⟩ := warpFactor_ok la hla eps ztol N x hx ((warpLattice N).map fun p => (latticeBary N p).1 - (latticeBary N p).2.2)
  obtain ⟨w3, e3, -, q3⟩ := warpFactor_ok la hla eps ztol N x hx ((warpLattice N).map fun p => (latticeBary N p).2.1 - (latticeBary N p).1)
  refine ⟨(List.range (warpLattice N).length).map fun k =>
      warpedNode (alphaOpt N) (latticeBary N ((warpLattice N).getD k (0, 0))) (w1.getD k 0, w2.getD k 0, w3.getD k 0), ?_, ?_, ?_⟩
  · unfold equilateralNodes
    rw [if_neg (by omega)]
    simp only [e1, e2, e3, Out.bind_ok]
    rfl
  · simp [warpLattice_eq]
  intro k hk p hp
  have hpm : p.1 + p.2 ≤ N := by rw [← hp]; exact mem_triPairs.1 (getD_mem _ _ k hk)
  rw [List.getD_eq_getElem _ _ (by simpa [warpLattice_eq] using hk), List.getElem_map, List.getElem_range, warpLattice_eq, hp]
  rw [show latticeBary N p = ((p.1 : ℝ) / N, 1 - (p.1 : ℝ) / N - (p.2 : ℝ) / N, (p.2 : ℝ) / N) from rfl, xyTors_warped _ _ _ _ _ _ _ (by ring)]
  have key : ∀ (w : List ℝ) (g : ℕ × ℕ → ℝ), (∀ k < ((warpLattice N).map g).length, ∀ m ≤ N, ((warpLattice N).map g).getD k 0 = (equidistant N).getD m 0 →
      w.getD k 0 = warpScale ztol ((equidistant N).getD m 0) (x.getD m 0 - (equidistant N).getD m 0)) →
      ∀ m ≤ N, g p = (equidistant N).getD m 0 → (1 - g p * g p) * w.getD k 0 = x.getD m 0 - g p := by
    intro w g q m hm hg
    have := q k (by simpa [warpLattice_eq] using hk) m hm (by rw [getD_map' _ _ (0, 0) _ _ (by simpa [warpLattice_eq] using hk), warpLattice_eq, hp, hg])
    rw [this, hg]
    exact edge_warp ztol h0 N hN hz x hm1 hp1 m hm
  refine ⟨?_, ?_, ?_⟩
  · intro h
    have := key w1 _ q1 p.2 (by omega) (by
      rw [equidistant_getD N p.2 (by omega)]
      simp only [latticeBary, h, Nat.cast_zero]; ring)
    simp only [latticeBary] at this
    rw [h, Nat.cast_zero] at this ⊢
    ext
    · simp only
      linear_combination this
    · simp only; ring
  · intro h
    have hc : (p.2 : ℝ) / N = 1 - (p.1 : ℝ) / N := by
      rw [eq_sub_iff_add_eq, ← add_div, div_eq_one_iff_eq hNp.ne']
      exact_mod_cast (by omega : p.2 + p.1 = N)
    have := key w2 _ q2 p.1 (by omega) (by
      rw [equidistant_getD N p.1 (by omega)]
      simp only [latticeBary, hc]; ring)
    simp only [latticeBary] at this
    rw [hc] at this ⊢
    ext
    · simp only
      linear_combination -this
    · simp only
      linear_combination this
  · intro h
    have := key w3 _ q3 (N - p.1) (by omega) (by
      rw [equidistant_getD N (N - p.1) (by omega), Nat.cast_sub (by omega)]
      simp only [latticeBary, h, Nat.cast_zero]
      field_simp
      ring)
    simp only [latticeBary] at this
    rw [hsym p.1 (by omega)] at this
    rw [h, Nat.cast_zero] at this ⊢
    ext
    · simp only; ring
    · simp only
      linear_combination -this

/-- Lattice points on the faces, in the order of the mask. -/
def triKey (N f i : ℕ) : ℕ × ℕ := if f = 0 then (0, i) else if f = 1 then (i, N - i) else (i, 0)

def triOn (N f : ℕ) (p : ℕ × ℕ) : Bool := if f = 0 then p.1 == 0 else if f = 1 then p.1 + p.2 == N else p.2 == 0

theorem triOn_iff (N f : ℕ) (p : ℕ × ℕ) : (p ∈ triPairs N ∧ triOn N f p = true) ↔ ∃ i ≤ N, p = triKey N f i := by
  rw [mem_triPairs]
  obtain ⟨a, b⟩ := p
  unfold triOn triKey
  split_ifs <;> simp only [beq_iff_eq, Prod.mk.injEq]
  · exact ⟨fun h => ⟨b, by omega, by omega, rfl⟩, fun ⟨i, h1, h2, h3⟩ => by omega⟩
  · exact ⟨fun h => ⟨a, by omega, rfl, by omega⟩, fun ⟨i, h1, h2, h3⟩ => by omega⟩
  · exact ⟨fun h => ⟨a, by omega, rfl, by omega⟩, fun ⟨i, h1, h2, h3⟩ => by omega⟩

theorem triKey_lt (N f i j : ℕ) (h : i < j) : before (triKey N f i) (triKey N f j) := by
  unfold triKey before
  split_ifs
  · exact Or.inr ⟨rfl, h⟩
  · exact Or.inl h
  · exact Or.inl h

/-- The node coordinates that `buildNodes` computes before it looks for the faces. -/
def TriNodes (la : Lapack) (eps ztol : ℝ) (N : ℕ) (r s : List ℝ) : Prop :=
  ∃ xy, equilateralNodes la eps ztol N = .ok xy ∧ r = (xy.map fun p => (xyTors p).1) ∧ s = xy.map fun p => (xyTors p).2

theorem tri_nodes_cases (la : Lapack) (hla : la.Ok) (eps : ℝ) (he0 : 0 < eps) (he1 : eps ≤ 0.1) (ztol tol : ℝ) (h0 : 0 < ztol) (ht : 0 < tol) (N : ℕ) (hN : 1 ≤ N)
    (hz : ztol < 2 / N) :
    triRefNodes la eps ztol tol N = .throws ∨
    ∃ x, IsGLL la eps N x ∧ ∃ r s : List ℝ, TriNodes la eps ztol N r s ∧ r.length = (N + 1) * (N + 2) / 2 ∧ s.length = r.length ∧
      (∀ f < 3, ∀ i ≤ N, ∀ k < (triPairs N).length, (triPairs N).getD k (0, 0) = triKey N f i → (r.getD k 0, s.getD k 0) = triFacePt f (x.getD i 0)) ∧
      ((triRefNodes la eps ztol tol N = .ub ∧ ∃ f < 3, ∃ k < r.length, triFaceDist f (r.getD k 0) (s.getD k 0) < tol ∧
          triOn N f ((triPairs N).getD k (0, 0)) = false) ∨
        ∃ n, triRefNodes la eps ztol tol N = .ok n ∧ n.r = r ∧ n.s = s ∧ MaskSpec N 3 triFacePt triFaceDist tol x n) := by
  have hg := C70_gauss_lobatto la.query la.dsyevd hla.syevd 0 eps he0 he1 N hN (List.replicate (N + 1) 0) (by simp)
  simp only [Nat.cast_zero] at hg
  rcases hg with ⟨x, hx⟩ | ⟨x, hx, hl, hm1, hp1, hinc, hsym, -⟩
  · left
    unfold triRefNodes equilateralNodes
    rw [if_neg (by omega)]
    unfold warpFactor
    rw [hx]
    rfl
  right
  refine ⟨x, hx, ?_⟩
  obtain ⟨xy, hxy, hlen, hpos⟩ := equilateral_ok la hla eps ztol h0 N hN hz x hx hm1 hp1 hsym
  have hlr : (triPairs N).length = (N + 1) * (N + 2) / 2 := triPairs_length N
  set r := xy.map fun p => (xyTors p).1 with hr
  set s := xy.map fun p => (xyTors p).2 with hs
  have hrl : r.length = (triPairs N).length := by rw [hr, List.length_map, hlen]
  have hsl : s.length = (triPairs N).length := by rw [hs, List.length_map, hlen]
  have hrk : ∀ k < (triPairs N).length, (r.getD k 0, s.getD k 0) = xyTors (xy.getD k (0, 0)) := by
    intro k hk
    rw [hr, hs, getD_map' _ _ (0, 0) _ _ (by omega), getD_map' _ _ (0, 0) _ _ (by omega)]
  have hface : ∀ f < 3, ∀ i ≤ N, ∀ k < (triPairs N).length, (triPairs N).getD k (0, 0) = triKey N f i → (r.getD k 0, s.getD k 0) = triFacePt f (x.getD i 0) := by
    intro f hf i hi k hk e
    have hp := hpos k hk _ e
    rcases (by omega : f = 0 ∨ f = 1 ∨ f = 2) with rfl | rfl | rfl
    · exact (hrk k hk).trans (hp.1 rfl)
    · exact (hrk k hk).trans (hp.2.1 (by simp [triKey]; omega))
    · exact (hrk k hk).trans (hp.2.2 rfl)
  refine ⟨r, s, ⟨xy, hxy, hr, hs⟩, by omega, by omega, hface, ?_⟩
  have face : ∀ f < 3, ∀ test : List ℝ, test.length = (triPairs N).length → (∀ k < (triPairs N).length, |test.getD k 0| = triFaceDist f (r.getD k 0) (s.getD k 0)) →
      (faceMask tol (N + 1) test = .ub ∧ ∃ k < (triPairs N).length, triOn N f ((triPairs N).getD k (0, 0)) = false ∧ |test.getD k 0| < tol) ∨
      ∃ m, faceMask tol (N + 1) test = .ok m ∧ m.length = N + 1 ∧ (∀ i ≤ N, m.getD i 0 < (triPairs N).length ∧ (triPairs N).getD (m.getD i 0) (0, 0) = triKey N f i) ∧
        ∀ k < (triPairs N).length, |test.getD k 0| < tol → ∃ i ≤ N, k = m.getD i 0 := by
    intro f hf test h1 h2
    have hon : ∀ k < (triPairs N).length, triOn N f ((triPairs N).getD k (0, 0)) = true → |test.getD k 0| < tol := by
      intro k hk h
      have e := hrk k hk
      have hp := hpos k hk _ rfl
      rw [h2 k hk]
      unfold triOn at h
      unfold triFaceDist
      split_ifs at h ⊢ with h3 h4
      · rw [hp.1 (by simpa using h)] at e
        rw [(Prod.mk.inj e).2]; simpa using ht
      · rw [hp.2.1 (by simpa using h)] at e
        rw [(Prod.mk.inj e).1, (Prod.mk.inj e).2]; simpa using ht
      · rw [hp.2.2 (by simpa using h)] at e
        rw [(Prod.mk.inj e).1]; simpa using ht
    exact faceMask_face tol (triPairs N) (triPairs_sorted N) N (triKey N f) (triOn N f) (triOn_iff N f) (fun i j h _ => triKey_lt N f i j h) test h1 hon
  have l1 : (s.map (· + 1)).length = (triPairs N).length := by rw [List.length_map, hsl]
  have l2 : ((List.range r.length).map fun i => r.getD i 0 + s.getD i 0).length = (triPairs N).length := by rw [List.length_map, List.length_range, hrl]
  have l3 : (r.map (· + 1)).length = (triPairs N).length := by rw [List.length_map, hrl]
  have d1 : ∀ k < (triPairs N).length, |(s.map (· + 1)).getD k 0| = triFaceDist 0 (r.getD k 0) (s.getD k 0) := by
    intro k hk; rw [getD_map' _ _ 0 _ _ (by omega)]; rfl
  have d2 : ∀ k < (triPairs N).length, |((List.range r.length).map fun i => r.getD i 0 + s.getD i 0).getD k 0| = triFaceDist 1 (r.getD k 0) (s.getD k 0) := by
    intro k hk
    rw [List.getD_eq_getElem _ _ (by omega), List.getElem_map, List.getElem_range]; rfl
  have d3 : ∀ k < (triPairs N).length, |(r.map (· + 1)).getD k 0| = triFaceDist 2 (r.getD k 0) (s.getD k 0) := by
    intro k hk; rw [getD_map' _ _ 0 _ _ (by omega)]; rfl
  have step : triRefNodes la eps ztol tol N = (do
      let f1 ← faceMask tol (N + 1) (s.map (· + 1))
      let f2 ← faceMask tol (N + 1) ((List.range r.length).map fun i => r.getD i 0 + s.getD i 0)
      let f3 ← faceMask tol (N + 1) (r.map (· + 1))
      pure { r := r, s := s, fm := [f1, f2, f3] }) := by
    unfold triRefNodes
    rw [hxy]
    rfl
  rw [step]
  rcases face 0 (by omega) _ l1 d1 with ⟨u, k, hk, hf, hd⟩ | ⟨m1, u1, z1, a1, b1⟩
  · left
    rw [u]
    exact ⟨rfl, 0, by omega, k, by omega, by rw [← d1 k hk]; exact hd, hf⟩
  rcases face 1 (by omega) _ l2 d2 with ⟨u, k, hk, hf, hd⟩ | ⟨m2, u2, z2, a2, b2⟩
  · left
    rw [u1, u]
    exact ⟨rfl, 1, by omega, k, by omega, by rw [← d2 k hk]; exact hd, hf⟩
  rcases face 2 (by omega) _ l3 d3 with ⟨u, k, hk, hf, hd⟩ | ⟨m3, u3, z3, a3, b3⟩
  · left
    rw [u1, u2, u]
    exact ⟨rfl, 2, by omega, k, by omega, by rw [← d3 k hk]; exact hd, hf⟩
  right
  rw [u1, u2, u3]
  refine ⟨_, rfl, rfl, rfl, ?_, ?_, ?_⟩
  · intro f hf i hi
    show _ < r.length
    rw [hrl]
    rcases (by omega : f = 0 ∨ f = 1 ∨ f = 2) with rfl | rfl | rfl
    · exact (a1 i hi).1
    · exact (a2 i hi).1
    · exact (a3 i hi).1
  · intro f hf i hi
    rcases (by omega : f = 0 ∨ f = 1 ∨ f = 2) with rfl | rfl | rfl
    · exact (hrk _ (a1 i hi).1).trans ((hpos _ (a1 i hi).1 _ (a1 i hi).2).1 rfl)
    · exact (hrk _ (a2 i hi).1).trans ((hpos _ (a2 i hi).1 _ (a2 i hi).2).2.1 (by simp [triKey]; omega))
    · exact (hrk _ (a3 i hi).1).trans ((hpos _ (a3 i hi).1 _ (a3 i hi).2).2.2 rfl)
  · intro f hf k hk hd
    have hk : k < (triPairs N).length := hrl ▸ hk
    rcases (by omega : f = 0 ∨ f = 1 ∨ f = 2) with rfl | rfl | rfl
    · exact b1 k hk (by rw [d1 k hk]; exact hd)
    · exact b2 k hk (by rw [d2 k hk]; exact hd)
    · exact b3 k hk (by rw [d3 k hk]; exact hd)

/-- **C74, triangles.** For every order `N ≥ 1` (`ztol`, `tol`: the constants 1e-10 and 1e-5 of the code), `buildNodes` throws if the eigenvalue routine fails; otherwise either some node
off a face is closer than `tol` to it, and then the mask array overflows, or the nodes are built, each face carries exactly the `N + 1` Gauss-Lobatto points, and the face
mask lists them in order. -/
theorem C74_triangle (la : Lapack) (hla : la.Ok) (eps : ℝ) (he0 : 0 < eps) (he1 : eps ≤ 0.1) (ztol tol : ℝ) (h0 : 0 < ztol) (ht : 0 < tol) (N : ℕ) (hN : 1 ≤ N)
    (hz : ztol < 2 / N) :
    triRefNodes la eps ztol tol N = .throws ∨
    ∃ x, IsGLL la eps N x ∧ ∃ r s : List ℝ, r.length = (N + 1) * (N + 2) / 2 ∧ s.length = r.length ∧
      (∀ f < 3, ∀ i ≤ N, ∀ k < (triPairs N).length, (triPairs N).getD k (0, 0) = triKey N f i → (r.getD k 0, s.getD k 0) = triFacePt f (x.getD i 0)) ∧
      ((triRefNodes la eps ztol tol N = .ub ∧ ∃ f < 3, ∃ k < r.length, triFaceDist f (r.getD k 0) (s.getD k 0) < tol ∧
          triOn N f ((triPairs N).getD k (0, 0)) = false) ∨
        ∃ n, triRefNodes la eps ztol tol N = .ok n ∧ n.r = r ∧ n.s = s ∧ MaskSpec N 3 triFacePt triFaceDist tol x n) := by
  rcases tri_nodes_cases la hla eps he0 he1 ztol tol h0 ht N hN hz with h | ⟨x, hx, r, s, -, h⟩
  · exact Or.inl h
  · exact Or.inr ⟨x, hx, r, s, h⟩

/-! ### Quadrilateral -/

theorem quadPairs_sorted (N : ℕ) : (quadPairs N).Pairwise before := by
  rw [show quadPairs N = Sparse.rowMajor (N + 1) (N + 1) from rfl]
  exact Jacobi.rowMajor_sorted _ _

theorem mem_quadPairs_iff {N : ℕ} {p : ℕ × ℕ} : p ∈ quadPairs N ↔ p.1 ≤ N ∧ p.2 ≤ N := by
  refine ⟨mem_quadPairs, fun h => ?_⟩
  rw [show quadPairs N = Sparse.rowMajor (N + 1) (N + 1) from rfl]
  exact (Jacobi.mem_rowMajor' _ _ p.1 p.2).2 (by omega)

/-- Lattice points on the faces, in the order of the mask; a point `(j, i)` is the node `(x_j, x_i)`. -/
def quadKey (N f i : ℕ) : ℕ × ℕ := if f = 0 then (i, 0) else if f = 1 then (N, i) else if f = 2 then (i, N) else (0, i)

def quadOn (N f : ℕ) (p : ℕ × ℕ) : Bool := if f = 0 then p.2 == 0 else if f = 1 then p.1 == N else if f = 2 then p.2 == N else p.1 == 0

theorem quadOn_iff (N f : ℕ) (p : ℕ × ℕ) : (p ∈ quadPairs N ∧ quadOn N f p = true) ↔ ∃ i ≤ N, p = quadKey N f i := by
  rw [mem_quadPairs_iff]
  obtain ⟨a, b⟩ := p
  unfold quadOn quadKey
  split_ifs <;> simp only [beq_iff_eq, Prod.mk.injEq]
  · exact ⟨fun h => ⟨a, by omega, rfl, by omega⟩, fun ⟨i, h1, h2, h3⟩ => by omega⟩
  · exact ⟨fun h => ⟨b, by omega, by omega, rfl⟩, fun ⟨i, h1, h2, h3⟩ => by omega⟩
  · exact ⟨fun h => ⟨a, by omega, rfl, by omega⟩, fun ⟨i, h1, h2, h3⟩ => by omega⟩
  · exact ⟨fun h => ⟨b, by omega, by omega, rfl⟩, fun ⟨i, h1, h2, h3⟩ => by omega⟩

theorem quadKey_lt (N f i j : ℕ) (h : i < j) : before (quadKey N f i) (quadKey N f j) := by
  unfold quadKey before
  split_ifs
  · exact Or.inl h
  · exact Or.inr ⟨rfl, h⟩
  · exact Or.inl h
  · exact Or.inr ⟨rfl, h⟩

/-- **C74, quadrilaterals.** For every order `N ≥ 1`, `buildNodes` throws if the eigenvalue routine fails; otherwise, with `x` the Gauss-Lobatto points, the nodes are all pairs
`(x_j, x_i)`, each face carries exactly the `N + 1` Gauss-Lobatto points and the mask lists them in order - unless the first two Gauss-Lobatto points are closer than the
tolerance, in which case the mask array overflows. -/
theorem C74_quadrilateral (la : Lapack) (hla : la.Ok) (eps : ℝ) (he0 : 0 < eps) (he1 : eps ≤ 0.1) (tol : ℝ) (ht : 0 < tol) (N : ℕ) (hN : 1 ≤ N) :
    quadRefNodes la eps tol N = .throws ∨
    ∃ x, IsGLL la eps N x ∧ (∀ i j : ℕ, i < j → j ≤ N → x.getD i 0 < x.getD j 0) ∧
      (x.getD 1 0 + 1 < tol → quadRefNodes la eps tol N = .ub) ∧
      (tol ≤ x.getD 1 0 + 1 → ∃ n, quadRefNodes la eps tol N = .ok n ∧ n.r.length = (N + 1) * (N + 1) ∧ n.s.length = (N + 1) * (N + 1) ∧
        (∀ j ≤ N, ∀ i ≤ N, n.r.getD (j * (N + 1) + i) 0 = x.getD j 0 ∧ n.s.getD (j * (N + 1) + i) 0 = x.getD i 0) ∧
        MaskSpec N 4 quadEdge quadFaceDist tol x n) := by
  have hg := C70_gauss_lobatto la.query la.dsyevd hla.syevd 0 eps he0 he1 N hN (List.replicate (N + 1) 0) (by simp)
  simp only [Nat.cast_zero] at hg
  rcases hg with ⟨x, hx⟩ | ⟨x, hx, hl, hm1, hp1, hinc, hsym, -⟩
  · left
    unfold quadRefNodes
    rw [hx]
    rfl
  right
  refine ⟨x, hx, hinc, ?_⟩
  set pts := quadPairs N with hpts
  set r := pts.map fun p => x.getD p.1 0 with hr
  set s := pts.map fun p => x.getD p.2 0 with hs
  have hpl : pts.length = (N + 1) * (N + 1) := quadPairs_length N
  have hrl : r.length = pts.length := by rw [hr, List.length_map]
  have hsl : s.length = pts.length := by rw [hs, List.length_map]
  have hrk : ∀ k < pts.length, r.getD k 0 = x.getD (pts.getD k (0, 0)).1 0 ∧ s.getD k 0 = x.getD (pts.getD k (0, 0)).2 0 := by
    intro k hk
    rw [hr, hs, getD_map' _ _ (0, 0) _ _ hk, getD_map' _ _ (0, 0) _ _ hk]
    exact ⟨rfl, rfl⟩
  have step : quadRefNodes la eps tol N = (do
      let f1 ← faceMask tol (N + 1) (s.map (· + 1))
      let f2 ← faceMask tol (N + 1) (r.map (· - 1))
      let f3 ← faceMask tol (N + 1) (s.map (· - 1))
      let f4 ← faceMask tol (N + 1) (r.map (· + 1))
      pure { r := r, s := s, fm := [f1, f2, f3, f4] }) := by
    unfold quadRefNodes
    rw [hx]
    simp only [uncaught, Out.bind_ok]
    have e1 : (List.range (N + 1)).flatMap (fun j => (List.range (N + 1)).map fun _ => x.getD j 0) = r := by
      rw [hr, hpts, quadPairs, List.map_flatMap]; simp only [List.map_map]; rfl
    have e2 : (List.range (N + 1)).flatMap (fun _ => (List.range (N + 1)).map fun i => x.getD i 0) = s := by
      rw [hs, hpts, quadPairs, List.map_flatMap]; simp only [List.map_map]; rfl
    rw [e1, e2]
  rw [step]
  have face : ∀ f < 4, ∀ test : List ℝ, test.length = pts.length → (∀ k < pts.length, |test.getD k 0| = quadFaceDist f (r.getD k 0) (s.getD k 0)) →
      (faceMask tol (N + 1) test = .ub ∧ ∃ k < pts.length, quadOn N f (pts.getD k (0, 0)) = false ∧ |test.getD k 0| < tol) ∨
      ∃ m, faceMask tol (N + 1) test = .ok m ∧ m.length = N + 1 ∧ (∀ i ≤ N, m.getD i 0 < pts.length ∧ pts.getD (m.getD i 0) (0, 0) = quadKey N f i) ∧
        ∀ k < pts.length, |test.getD k 0| < tol → ∃ i ≤ N, k = m.getD i 0 := by
    intro f hf test h1 h2
    have hon : ∀ k < pts.length, quadOn N f (pts.getD k (0, 0)) = true → |test.getD k 0| < tol := by
      intro k hk h
      have e := hrk k hk
      rw [h2 k hk]
      unfold quadOn at h
      unfold quadFaceDist
      split_ifs at h ⊢ with h3 h4 h5 <;> simp only [beq_iff_eq] at h
      · rw [e.2, h, hm1]; simpa using ht
      · rw [e.1, h, hp1]; simpa using ht
      · rw [e.2, h, hp1]; simpa using ht
      · rw [e.1, h, hm1]; simpa using ht
    exact faceMask_face tol pts (quadPairs_sorted N) N (quadKey N f) (quadOn N f) (quadOn_iff N f) (fun i j h _ => quadKey_lt N f i j h) test h1 hon
  have l1 : (s.map (· + 1)).length = pts.length := by rw [List.length_map, hsl]
  have l2 : (r.map (· - 1)).length = pts.length := by rw [List.length_map, hrl]
  have l3 : (s.map (· - 1)).length = pts.length := by rw [List.length_map, hsl]
  have l4 : (r.map (· + 1)).length = pts.length := by rw [List.length_map, hrl]
  have d1 : ∀ k < pts.length, |(s.map (· + 1)).getD k 0| = quadFaceDist 0 (r.getD k 0) (s.getD k 0) := by
    intro k hk; rw [getD_map' _ _ 0 _ _ (by omega)]; rfl
  have d2 : ∀ k < pts.length, |(r.map (· - 1)).getD k 0| = quadFaceDist 1 (r.getD k 0) (s.getD k 0) := by
    intro k hk; rw [getD_map' _ _ 0 _ _ (by omega)]; rfl
  have d3 : ∀ k < pts.length, |(s.map (· - 1)).getD k 0| = quadFaceDist 2 (r.getD k 0) (s.getD k 0) := by
    intro k hk; rw [getD_map' _ _ 0 _ _ (by omega)]; rfl
  have d4 : ∀ k < pts.length, |(r.map (· + 1)).getD k 0| = quadFaceDist 3 (r.getD k 0) (s.getD k 0) := by
    intro k hk; rw [getD_map' _ _ 0 _ _ (by omega)]; rfl
  constructor
  · intro hc
    -- node (1, 0)... the node with s-index 1 passes the first test as well
    rcases face 0 (by omega) _ l1 d1 with ⟨u, -⟩ | ⟨m1, u1, z1, a1, b1⟩
    · rw [u]; rfl
    exfalso
    have hk : 0 * (N + 1) + 1 < pts.length := (List.getElem?_eq_some_iff.1 (quadPairs_get (N := N) (i := 0) (j := 1) (by omega) hN)).1
    have hpk : pts.getD (0 * (N + 1) + 1) (0, 0) = (0, 1) := by
      rw [List.getD_eq_getElem?_getD, quadPairs_get (N := N) (i := 0) (j := 1) (by omega) hN]; rfl
    have h01 := hinc 0 1 (by omega) hN
    obtain ⟨i, hi, e⟩ := b1 _ hk (by
      rw [d1 _ hk]; show |_| < _
      rw [(hrk _ hk).2, hpk, abs_of_pos (by linarith)]; exact hc)
    have h2 := (a1 i hi).2
    rw [← e, hpk] at h2
    simp [quadKey] at h2
  · intro hc
    have far : ∀ f < 4, ∀ k < pts.length, quadFaceDist f (r.getD k 0) (s.getD k 0) < tol → quadOn N f (pts.getD k (0, 0)) = true := by
      have lo : ∀ i ≤ N, |x.getD i 0 + 1| < tol → i = 0 := by
        intro i hi h
        by_contra h0
        have h1 : x.getD 1 0 ≤ x.getD i 0 := by
          rcases Nat.lt_or_ge 1 i with h | h
          · exact (hinc 1 i h hi).le
          · obtain rfl : i = 1 := by omega
            exact le_refl _
        have := (abs_lt.1 h).2
        linarith
      have hi : ∀ i ≤ N, |x.getD i 0 - 1| < tol → i = N := by
        intro i hi h
        have e := hsym i hi
        have := lo (N - i) (by omega) (by rw [e, show -x.getD i 0 + 1 = -(x.getD i 0 - 1) by ring, abs_neg]; exact h)
        omega
      intro f hf k hk h
      have hb := mem_quadPairs (getD_mem pts (0, 0) k hk)
      rw [(hrk k hk).1, (hrk k hk).2] at h
      unfold quadFaceDist at h
      unfold quadOn
      split_ifs at h ⊢ <;> simp only [beq_iff_eq]
      · exact lo _ hb.2 h
      · exact hi _ hb.1 h
      · exact hi _ hb.2 h
      · exact lo _ hb.1 h
    have good : ∀ f < 4, ∀ test : List ℝ, test.length = pts.length → (∀ k < pts.length, |test.getD k 0| = quadFaceDist f (r.getD k 0) (s.getD k 0)) →
        ∃ m, faceMask tol (N + 1) test = .ok m ∧ m.length = N + 1 ∧ (∀ i ≤ N, m.getD i 0 < pts.length ∧ pts.getD (m.getD i 0) (0, 0) = quadKey N f i) ∧
          ∀ k < pts.length, |test.getD k 0| < tol → ∃ i ≤ N, k = m.getD i 0 := by
      intro f hf test h1 h2
      rcases face f hf test h1 h2 with ⟨-, k, hk, h3, h4⟩ | h
      · rw [h2 k hk] at h4
        rw [far f hf k hk h4] at h3
        cases h3
      · exact h
    obtain ⟨m1, u1, -, a1, b1⟩ := good 0 (by omega) _ l1 d1
    obtain ⟨m2, u2, -, a2, b2⟩ := good 1 (by omega) _ l2 d2
    obtain ⟨m3, u3, -, a3, b3⟩ := good 2 (by omega) _ l3 d3
    obtain ⟨m4, u4, -, a4, b4⟩ := good 3 (by omega) _ l4 d4
    rw [u1, u2, u3, u4]
    refine ⟨_, rfl, by simp only; omega, by simp only; omega, ?_, ?_, ?_, ?_⟩
    · intro j hj i hi
      have hg := quadPairs_get (N := N) hj hi
      have hk := (List.getElem?_eq_some_iff.1 hg).1
      have hd : pts.getD (j * (N + 1) + i) (0, 0) = (j, i) := by rw [List.getD_eq_getElem?_getD, hg]; rfl
      have := hrk _ hk
      rw [hd] at this
      exact this
    · intro f hf i hi
      show _ < r.length
      rw [hrl]
      rcases (by omega : f = 0 ∨ f = 1 ∨ f = 2 ∨ f = 3) with rfl | rfl | rfl | rfl
      · exact (a1 i hi).1
      · exact (a2 i hi).1
      · exact (a3 i hi).1
      · exact (a4 i hi).1
    · intro f hf i hi
      rcases (by omega : f = 0 ∨ f = 1 ∨ f = 2 ∨ f = 3) with rfl | rfl | rfl | rfl
      · show (r.getD (m1.getD i 0) 0, s.getD (m1.getD i 0) 0) = _
        rw [(hrk _ (a1 i hi).1).1, (hrk _ (a1 i hi).1).2, (a1 i hi).2]
        show (x.getD i 0, x.getD 0 0) = (x.getD i 0, -1); rw [hm1]
      · show (r.getD (m2.getD i 0) 0, s.getD (m2.getD i 0) 0) = _
        rw [(hrk _ (a2 i hi).1).1, (hrk _ (a2 i hi).1).2, (a2 i hi).2]
        show (x.getD N 0, x.getD i 0) = (1, x.getD i 0); rw [hp1]
      · show (r.getD (m3.getD i 0) 0, s.getD (m3.getD i 0) 0) = _
        rw [(hrk _ (a3 i hi).1).1, (hrk _ (a3 i hi).1).2, (a3 i hi).2]
        show (x.getD i 0, x.getD N 0) = (x.getD i 0, 1); rw [hp1]
      · show (r.getD (m4.getD i 0) 0, s.getD (m4.getD i 0) 0) = _
        rw [(hrk _ (a4 i hi).1).1, (hrk _ (a4 i hi).1).2, (a4 i hi).2]
        show (x.getD 0 0, x.getD i 0) = (-1, x.getD i 0); rw [hm1]
    · intro f hf k hk hd
      have hk : k < pts.length := hrl ▸ hk
      rcases (by omega : f = 0 ∨ f = 1 ∨ f = 2 ∨ f = 3) with rfl | rfl | rfl | rfl
      · exact b1 k hk (by rw [d1 k hk]; exact hd)
      · exact b2 k hk (by rw [d2 k hk]; exact hd)
      · exact b3 k hk (by rw [d3 k hk]; exact hd)
      · exact b4 k hk (by rw [d4 k hk]; exact hd)

end Blitzdg.DG2D
