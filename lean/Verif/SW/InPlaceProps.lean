import Verif.SW.FilterProps

/-! C85: filtering and conservation of mass in src/sw2d-simple. -/

namespace Blitzdg.SW

open MvPolynomial
open Blitzdg.Nodes1D (Lapack)
open Blitzdg.Sparse (DMat)
open Blitzdg.Dense (toMat)
open Blitzdg.DG2D

variable {la : Lapack} {eps ztol tol : ℝ} {N : ℕ} {m : Mesh} {P : ℕ → ℕ} {x : List ℝ} {bt : List Int} {g : Grid}

theorem deg_zero {N : ℕ} {m : Fin (triNp N)} (hm : (m : ℕ) = 0) : triDeg N m = 0 := by
  unfold triDeg
  rw [hm, pair_zero]
  rfl

/-- **C85, what the filter is for.** Multiplying by the filter matrix leaves the total of every field unchanged, for every order, cut-off `0 ≤ Nc ≠ N` and exponent `s ≥ 1`. -/
theorem C85_product (h : Provisioned la eps ztol tol N m P g) (Nc : ℝ) (h0 : 0 ≤ Nc) (hNc : Nc ≠ N) (s : ℤ) (hs : 1 ≤ s) :
    ∃ F : Matrix (Fin g.np) (Fin g.np) ℝ, g.filter Nc s = .ok (fun i j => some (F i j)) ∧ ∀ u M, IsTotal g u M → IsTotal g (filterProduct F u) M := by
  obtain ⟨x, hg, hN, -, -⟩ := h.spec
  rw [← hN] at hNc
  choose c hc using fun m : Fin (triNp g.N) => filterCoef_spec g.N Nc s hs hNc _ (triDeg_le g.N m)
  refine ⟨_, filter_form g.N Nc s c (fun m => (hc m).1) _ _, fun u M hM => hg.damp_total c (fun m hm => ?_) u M hM⟩
  exact (hc m).2.2.2.1 (by rw [deg_zero hm]; simpa using h0)

/-- The filter of src/sw2d-simple: order one, cut-off `0.9*N`, exponent `N`. -/
noncomputable def sigma : ℝ := 1 / 2 ^ 52

theorem coef_simple (n : ℕ) (hn : n ≤ 1) : filterCoef 1 (0.9 * 1) 1 n = some (if n = 0 then 1 else sigma) := by
  unfold filterCoef damping
  interval_cases n
  · norm_num
  · rw [if_pos (by norm_num), if_neg (by norm_num), if_neg (by norm_num)]
    norm_num [filterAlpha, sigma]
    rw [Real.exp_log (by norm_num)]

/-- Its matrix for corner nodes. -/
theorem filter_corners (hg : GridSpec P x bt g) (hc : Corners g) (hK : 0 < g.K) :
    ∃ F : Matrix (Fin g.np) (Fin g.np) ℝ, g.filter (0.9 * 1) 1 = .ok (fun i j => some (F i j)) ∧ ∀ i j, F i j = (if i = j then sigma else 0) + (1 - sigma) / 3 := by
  have h3 := hc.np
  set c : Fin g.np → ℝ := fun m => if (m : ℕ) = 0 then 1 else sigma with hcd
  have hdeg : ∀ m : Fin (triNp g.N), triDeg g.N m = 0 ↔ (m : ℕ) = 0 := by
    intro m
    have hm := m.2
    constructor
    · intro h
      apply pairs_inj (N := g.N) (by rw [triPairs_length]; exact m.2)
      unfold triDeg at h
      exact Prod.ext (Nat.eq_zero_of_add_eq_zero_right h) (Nat.eq_zero_of_add_eq_zero_left h)
    · exact deg_zero
  have hco : ∀ m : Fin (triNp g.N), filterCoef g.N (0.9 * 1) 1 (triDeg g.N m) = some (c m) := by
    intro m
    have hle := triDeg_le g.N m
    have hd := hdeg m
    generalize triDeg g.N m = d at hle hd ⊢
    rw [hc.order] at hle
    have e : filterCoef g.N (0.9 * 1) 1 d = filterCoef 1 (0.9 * 1) 1 d := by rw [hc.order]
    rw [e, coef_simple d hle]
    congr 1
    change _ = if (m : ℕ) = 0 then 1 else sigma
    by_cases h : (m : ℕ) = 0
    · rw [if_pos h, if_pos (hd.2 h)]
    · rw [if_neg h, if_neg (fun h' => h (hd.1 h'))]
  refine ⟨_, filter_form g.N _ _ c hco _ _, ?_⟩
  set V := toMat g.o.V g.np g.np with hV
  set W := toMat g.o.Vinv g.np g.np with hW
  have hVW : V * W = 1 := by
    have := hg.unisolvent
    rw [← hg.vand] at this
    exact mul_eq_one_comm.1 this
  obtain ⟨a, -, ha⟩ := mode_zero
  have z : (0 : ℕ) < g.np := by omega
  have hV0 : ∀ i, V i ⟨0, z⟩ = a := by
    intro i
    have hi : (i : ℕ) < g.n.r.length := by rw [hg.nodes]; exact i.2
    rw [hV, hg.vand]
    change triMode ((triPairs g.N).getD 0 (0, 0)) _ _ = a
    rw [pair_zero, triMode_eq (hg.reg i hi), ha]
    simp
  have hF : ∀ i j, (V * (Matrix.diagonal c * W)) i j = (if i = j then sigma else 0) + a * (1 - sigma) * W ⟨0, z⟩ j := by
    intro i j
    have e1 : Matrix.diagonal c = sigma • (1 : Matrix (Fin g.np) (Fin g.np) ℝ) + Matrix.diagonal (fun m : Fin g.np => if (m : ℕ) = 0 then 1 - sigma else 0) := by
      ext m n
      simp only [Matrix.diagonal_apply, Matrix.add_apply, Matrix.smul_apply, Matrix.one_apply, smul_eq_mul, hcd]
      split_ifs <;> ring
    rw [e1, Matrix.add_mul, Matrix.mul_add, Matrix.smul_mul, Matrix.one_mul, Matrix.mul_smul, hVW, Matrix.add_apply]
    congr 1
    · simp [Matrix.one_apply]
    · rw [Matrix.mul_apply, Finset.sum_eq_single ⟨0, z⟩]
      · rw [hV0, Matrix.diagonal_mul]
        simp
        ring
      · intro b _ hb
        rw [Matrix.diagonal_mul, if_neg (fun h => hb (Fin.ext h))]
        ring
      · simp
  have hcol : ∀ j : Fin g.np, sigma + 3 * (a * (1 - sigma) * W ⟨0, z⟩ j) = 1 := by
    intro j
    have ht := hg.damp_total c (fun m hm => by rw [hcd]; simp [hm]) (fun i k => if i = j ∧ k = 0 then 1 else 0) _ ((hc.total hg _ _).2 rfl)
    have ht := (hc.total hg _ _).1 ht
    rw [Finset.sum_eq_single 0, Finset.sum_eq_single 0] at ht
    · have hp := hg.ccw 0 hK
      have ev : ∀ i (hi : i < g.np), filterProduct (V * (Matrix.diagonal c * W)) (fun i k => if i = j ∧ k = 0 then 1 else 0) i 0 = (if i = j then sigma else 0) + a * (1 - sigma) * W ⟨0, z⟩ j := by
        intro i hi
        unfold filterProduct
        rw [dif_pos hi, Finset.sum_eq_single j]
        · rw [hF]
          simp [Fin.ext_iff]
        · intro b _ hb
          have : ¬ ((b : ℕ) = j ∧ (0 : ℕ) = 0) := fun h => hb (Fin.ext h.1)
          beta_reduce
          rw [if_neg this, mul_zero]
        · simp
      rw [← hV, ← hW, ev 0 (by omega), ev 1 (by omega), ev 2 (by omega)] at ht
      have hj := j.2
      have hpos : (0 : ℝ) < cross (g.tri 0) / 4 * (2 / 3) := by positivity
      have h1 := mul_left_cancel₀ (mul_pos (by positivity) (by norm_num) : (0 : ℝ) < cross (g.tri 0) / 4 * (2 / 3)).ne' ((mul_assoc _ _ _).trans (ht.symm.trans (mul_assoc _ _ _).symm))
      rcases (by omega : (j : ℕ) = 0 ∨ (j : ℕ) = 1 ∨ (j : ℕ) = 2) with h | h | h <;> rw [h] at h1 <;> norm_num at h1 <;> linarith
    · intro b _ hb
      have : ∀ i, filterProduct (toMat g.o.V g.np g.np * (Matrix.diagonal c * toMat g.o.Vinv g.np g.np)) (fun i k => if i = j ∧ k = 0 then 1 else 0) i b = 0 := by
        intro i
        unfold filterProduct
        by_cases h1 : i < g.np
        · rw [dif_pos h1]
          apply Finset.sum_eq_zero
          intro l _
          beta_reduce
          rw [if_neg (fun h => hb h.2), mul_zero]
        · rw [dif_neg h1]
          beta_reduce
          rw [if_neg (fun h => hb h.2)]
      rw [this, this, this]
      ring
    · intro h; exact absurd (Finset.mem_range.2 hK) h
    · intro b _ hb
      simp [hb]
    · intro h; exact absurd (Finset.mem_range.2 hK) h
  intro i j
  refine (hF i j).trans ?_
  rw [show a * (1 - sigma) * W ⟨0, z⟩ j = (1 - sigma) / 3 by linarith [hcol j]]

/-- What the assignment of the code does to three values. -/
theorem inPlace_three {n : ℕ} (hn : n = 3) (F : Matrix (Fin n) (Fin n) ℝ) (σ w : ℝ) (hF : ∀ i j, F i j = (if i = j then σ else 0) + w) (u : ℕ → ℕ → ℝ) (k : ℕ) :
    filterInPlace F u 0 k = (σ + w) * u 0 k + w * u 1 k + w * u 2 k ∧
    filterInPlace F u 1 k = w * filterInPlace F u 0 k + (σ + w) * u 1 k + w * u 2 k ∧
    filterInPlace F u 2 k = w * filterInPlace F u 0 k + w * filterInPlace F u 1 k + (σ + w) * u 2 k := by
  subst hn
  have e : List.finRange 3 = [0, 1, 2] := by decide
  unfold filterInPlace
  rw [e]
  simp only [List.foldl_cons, List.foldl_nil]
  refine ⟨?_, ?_, ?_⟩ <;> simp [filterRow, Fin.sum_univ_three, hF]

/-! ### A uniform flow against the walls of the square -/

theorem quad_int (a b c : ℝ) : integ triInt (X 0 * (C a * X 0 + C b * X 1 + C c)) = 2 / 3 * a - 2 / 3 * c ∧
    integ triInt (X 1 * (C a * X 0 + C b * X 1 + C c)) = 2 / 3 * b - 2 / 3 * c := by
  have hc : ∀ p : P2, ∀ s : ℝ, Continuous fun r => ev r s p := by
    intro p s
    have := continuous_line p Polynomial.X (Polynomial.C s)
    simpa using this
  constructor <;> unfold integ triInt
  · have h1 : ∀ s : ℝ, ∫ r in (-1 : ℝ)..(-s), ev r s (X 0 * (C a * X 0 + C b * X 1 + C c)) = (b / 2 - a / 3) * s ^ 3 + c / 2 * s ^ 2 - b / 2 * s + (a / 3 - c / 2) := by
      intro s
      rw [intervalIntegral.integral_eq_sub_of_hasDerivAt (f := fun r => a / 3 * r ^ 3 + (b * s + c) / 2 * r ^ 2)]
      · ring
      · intro r _
        have := ((hasDerivAt_pow 3 r).const_mul (a / 3)).add ((hasDerivAt_pow 2 r).const_mul ((b * s + c) / 2))
        refine this.congr_deriv ?_
        simp
        ring
      · exact (hc _ s).intervalIntegrable _ _
    simp only [h1]
    rw [intervalIntegral.integral_eq_sub_of_hasDerivAt (f := fun s => (b / 2 - a / 3) / 4 * s ^ 4 + c / 6 * s ^ 3 - b / 4 * s ^ 2 + (a / 3 - c / 2) * s)]
    · ring
    · intro s _
      have := ((((hasDerivAt_pow 4 s).const_mul ((b / 2 - a / 3) / 4)).add ((hasDerivAt_pow 3 s).const_mul (c / 6))).sub ((hasDerivAt_pow 2 s).const_mul (b / 4))).add
        ((hasDerivAt_id s).const_mul (a / 3 - c / 2))
      refine this.congr_deriv ?_
      norm_num
      ring
    · apply Continuous.intervalIntegrable
      fun_prop
  · have h1 : ∀ s : ℝ, ∫ r in (-1 : ℝ)..(-s), ev r s (X 1 * (C a * X 0 + C b * X 1 + C c)) = (a / 2 - b) * s ^ 3 + (b - c) * s ^ 2 + (c - a / 2) * s := by
      intro s
      rw [intervalIntegral.integral_eq_sub_of_hasDerivAt (f := fun r => s * (a / 2 * r ^ 2 + (b * s + c) * r))]
      · ring
      · intro r _
        have := (((hasDerivAt_pow 2 r).const_mul (a / 2)).add ((hasDerivAt_id r).const_mul (b * s + c))).const_mul s
        refine this.congr_deriv ?_
        simp
        left
        ring
      · exact (hc _ s).intervalIntegrable _ _
    simp only [h1]
    rw [intervalIntegral.integral_eq_sub_of_hasDerivAt (f := fun s => (a / 2 - b) / 4 * s ^ 4 + (b - c) / 3 * s ^ 3 + (c - a / 2) / 2 * s ^ 2)]
    · ring
    · intro s _
      have := (((hasDerivAt_pow 4 s).const_mul ((a / 2 - b) / 4)).add ((hasDerivAt_pow 3 s).const_mul ((b - c) / 3))).add ((hasDerivAt_pow 2 s).const_mul ((c - a / 2) / 2))
      refine this.congr_deriv ?_
      norm_num
      ring
    · apply Continuous.intervalIntegrable
      fun_prop

/-- Every polynomial of degree one is affine. -/
theorem Corners.affine (hg : GridSpec P x bt g) (h : Corners g) {p : P2} (hp : TriSpace 1 p) : ∃ a b c : ℝ, p = C a * X 0 + C b * X 1 + C c := by
  set v := fun i => nodal g.n.r g.n.s p i with hv
  refine ⟨(v 1 - v 0) / 2, (v 2 - v 0) / 2, (v 1 + v 2) / 2, ?_⟩
  refine hg.interp_unique (u := v) ⟨by rw [h.order]; exact hp, fun i _ => rfl⟩ ⟨by rw [h.order]; exact affine_space _ _ _, fun i hi => ?_⟩
  rw [h.np] at hi
  interval_cases i <;> simp only [nodal, h.n0.1, h.n0.2, h.n1.1, h.n1.2, h.n2.1, h.n2.2] <;> simp <;> ring

/-- A polynomial of the space is determined by its integrals against the space. -/
theorem weak_unique {N : ℕ} {p q : P2} (hp : TriSpace N p) (hq : TriSpace N q) (h : ∀ t, TriSpace N t → integ triInt (p * t) = integ triInt (q * t)) : p = q := by
  obtain ⟨a, rfl⟩ := (triModal N).coeffs rfl hp
  obtain ⟨b, rfl⟩ := (triModal N).coeffs rfl hq
  congr 1
  funext k
  have := h (comb (triPairs N) triPoly (Pi.single k 1)) ((triModal N).space_comb rfl _)
  rw [(triModal N).dot rfl, (triModal N).dot rfl] at this
  simpa [Pi.single_apply] using this

/-- The lift of the constant one on the bottom face and on the left face. -/
theorem Corners.lift (hg : GridSpec P x bt g) (h : Corners g) :
    (∀ i < 3, g.o.lift.at' i 0 + g.o.lift.at' i 1 = -3 * g.n.s.getD i 0) ∧ (∀ i < 3, g.o.lift.at' i 4 + g.o.lift.at' i 5 = -3 * g.n.r.getD i 0) := by
  have hlen : g.n.r.length = 3 := by rw [hg.nodes, h.np]
  have hL := hg.elem.lift
  rw [h.order] at hL
  have sp : ∀ c : ℝ, ∀ k : Fin 2, TriSpace 1 (C c * X k) := fun c k => triSpace_smul c (by unfold TriSpace; rw [totalDegree_X])
  have hint : ∀ a b : ℝ, ∫ t in (-1 : ℝ)..1, (a * t + b) = 2 * b := by
    intro a b
    rw [intervalIntegral.integral_eq_sub_of_hasDerivAt (f := fun t => a / 2 * t ^ 2 + b * t)]
    · ring
    · intro s _
      have := ((hasDerivAt_pow 2 s).const_mul (a / 2)).add ((hasDerivAt_id s).const_mul b)
      refine this.congr_deriv ?_
      simp
      ring
    · apply Continuous.intervalIntegrable
      fun_prop
  constructor
  · obtain ⟨w, hw, h1, h2⟩ := hL 0 (by norm_num) (Polynomial.C 1) (by simp)
    have e : w = C (-3) * X 1 := by
      apply weak_unique hw (sp _ _)
      intro t ht
      rw [h2 t ht]
      obtain ⟨a, b, c, rfl⟩ := h.affine hg ht
      rw [mul_assoc, (triModal 1).smul, (quad_int a b c).2]
      have : ∀ t : ℝ, (Polynomial.C (1 : ℝ)).eval t * ev (triEdge 0 t).1 (triEdge 0 t).2 (C a * X 0 + C b * X 1 + C c) = a * t + (c - b) := by
        intro t; simp [triEdge]; ring
      simp only [this]
      rw [hint]
      ring
    intro i hi
    have := h1 i (by rw [hlen]; exact hi)
    rw [e] at this
    simpa [Finset.sum_range_succ, nodal] using this
  · obtain ⟨w, hw, h1, h2⟩ := hL 2 (by norm_num) (Polynomial.C 1) (by simp)
    have e : w = C (-3) * X 0 := by
      apply weak_unique hw (sp _ _)
      intro t ht
      rw [h2 t ht]
      obtain ⟨a, b, c, rfl⟩ := h.affine hg ht
      rw [mul_assoc, (triModal 1).smul, (quad_int a b c).1]
      have : ∀ t : ℝ, (Polynomial.C (1 : ℝ)).eval t * ev (triEdge 2 t).1 (triEdge 2 t).2 (C a * X 0 + C b * X 1 + C c) = b * t + (c - a) := by
        intro t; simp [triEdge]; ring
      simp only [this]
      rw [hint]
      ring
    intro i hi
    have := h1 i (by rw [hlen]; exact hi)
    rw [e] at this
    simpa [Finset.sum_range_succ, nodal] using this

/-- Uniform flow in the direction of `x`. -/
def flow (g : Grid) : Fields := ⟨⟨g.np, g.K, fun _ _ => 1⟩, ⟨g.np, g.K, fun _ _ => 1⟩, ⟨g.np, g.K, fun _ _ => 0⟩⟩

theorem square_tri : square.tri 0 = ⟨0, 0, 1, 0, 0, 1⟩ ∧ square.tri 1 = ⟨1, 0, 1, 1, 0, 1⟩ := by
  constructor <;> simp [Mesh.tri, Mesh.corner, square]

theorem sqrt_quarter : √(1 / 2 * (1 / 2) : ℝ) = 1 / 2 := Real.sqrt_mul_self (by norm_num)

/-- Normals and lengths of the walls of the square. -/
theorem square_normals (h0 : g.tri 0 = square.tri 0) (h1 : g.tri 1 = square.tri 1) :
    faceNormal g 0 = (0, -1) ∧ faceNormal g 2 = (-1, 0) ∧ faceNormal g 3 = (1, 0) ∧ faceNormal g 4 = (0, 1) ∧ len (nrm (g.tri 0) 2) = 1 / 2 ∧ len (nrm (g.tri 1) 0) = 1 / 2 := by
  have l1 : len (-(1 / 2 : ℝ), (0 : ℝ)) = 1 / 2 := by unfold len; refine Eq.trans ?_ sqrt_quarter; congr 1; norm_num
  have l2 : len ((1 / 2 : ℝ), (0 : ℝ)) = 1 / 2 := by unfold len; refine Eq.trans ?_ sqrt_quarter; congr 1; norm_num
  have l3 : len ((0 : ℝ), -(1 / 2 : ℝ)) = 1 / 2 := by unfold len; refine Eq.trans ?_ sqrt_quarter; congr 1; norm_num
  have l4 : len ((0 : ℝ), (1 / 2 : ℝ)) = 1 / 2 := by unfold len; refine Eq.trans ?_ sqrt_quarter; congr 1; norm_num
  have n0 : nrm (g.tri 0) 0 = (0, -(1 / 2)) := by rw [h0, square_tri.1, nrm_ends _ _ (by norm_num)]; simp [faceEnds]
  have n2 : nrm (g.tri 0) 2 = (-(1 / 2), 0) := by rw [h0, square_tri.1, nrm_ends _ _ (by norm_num)]; simp [faceEnds]; norm_num
  have n3 : nrm (g.tri 1) 0 = (1 / 2, 0) := by rw [h1, square_tri.2, nrm_ends _ _ (by norm_num)]; simp [faceEnds]
  have n4 : nrm (g.tri 1) 1 = (0, 1 / 2) := by rw [h1, square_tri.2, nrm_ends _ _ (by norm_num)]; simp [faceEnds]; norm_num
  refine ⟨?_, ?_, ?_, ?_, ?_, ?_⟩
  · change unit (nrm (g.tri 0) 0) = _; rw [n0]; unfold unit; rw [l3]; norm_num
  · change unit (nrm (g.tri 0) 2) = _; rw [n2]; unfold unit; rw [l1]; norm_num
  · change unit (nrm (g.tri 1) 0) = _; rw [n3]; unfold unit; rw [l2]; norm_num
  · change unit (nrm (g.tri 1) 1) = _; rw [n4]; unfold unit; rw [l4]; norm_num
  · rw [n2, l1]
  · rw [n3, l2]

/-- The rate of change of the depth for the uniform flow on the square. -/
theorem flow_rhs (hg : GridSpec twoTri x square.bcType g) (hc : Corners g) (hK : g.K = 2) (ht : ∀ k < 2, g.tri k = square.tri k) (grav : ℝ) :
    ∃ r, g.rhsSimple grav (flow g) = .ok r ∧ ∀ i < 3, r.h.at' i 0 = 6 * g.n.r.getD i 0 ∧ r.h.at' i 1 = -6 * g.n.s.getD i 0 := by
  obtain ⟨Λ, d1, d2, d3, r, h1, -, -, -, e1, -, -, -, hd⟩ := hg.rhsSimple_ok grav (flow g) ⟨rfl, rfl⟩ ⟨rfl, rfl⟩ ⟨rfl, rfl⟩ ⟨0, by omega, rfl⟩
  obtain ⟨n0, n2, n3, n4, l2, l3⟩ := square_normals (ht 0 (by norm_num)) (ht 1 (by norm_num))
  have hN := hc.order
  refine ⟨r, h1, fun i hi => ?_⟩
  have hin : ∀ e j, inner g (flow g) e j = ⟨1, 1, 0⟩ := fun _ _ => rfl
  have hout : ∀ e j, outer twoTri g (flow g) e j = ⟨1, 1, 0⟩ := fun _ _ => rfl
  have hdiv : ∀ k, g.divergence (fun j k => (fluxF grav ((flow g).at' j k)).c1) (fun j k => (fluxG grav ((flow g).at' j k)).c1) i k = 0 :=
    fun k => hg.divergence_const _ _ 1 0 (by rw [hc.np]; exact hi) (fun _ _ => rfl) (fun _ _ => rfl)
  have hdd : ∀ e < 6, ∀ j ≤ 1, d1.at' (e % 3 * 2 + j) (e / 3) = if e = 2 then -1 else if e = 3 then 1 else 0 := by
    intro e he j hj
    have := (hd e (by omega) j (by omega)).1
    rw [hN] at this
    rw [this, hin]
    unfold exterior
    rw [hin, hout]
    interval_cases e <;> simp [square, n0, n2, n3, n4, wallState, jumpFlux, fluxF, fluxG] <;> norm_num
  obtain ⟨b0, b2⟩ := hc.lift hg
  have hs : ∀ k < 2, g.surface d1 i k = ∑ f ∈ Finset.range 3, ∑ j ∈ Finset.range 2, g.o.lift.at' i (f * 2 + j) * (g.fscale (f * 2 + j) k * d1.at' (f * 2 + j) k) := by
    intro k hk
    unfold Grid.surface
    rw [sum_three, hN]
  have hfs : ∀ k f j, f < 3 → j ≤ 1 → g.fscale (f * 2 + j) k = len (nrm (g.tri k) f) / (cross (g.tri k) / 4) := by
    intro k f j hf hj
    have := hg.fscale_eq f j k hf (by omega)
    rwa [hN] at this
  have c0 : cross (g.tri 0) = 1 := by rw [ht 0 (by norm_num), square_tri.1]; norm_num [cross]
  have c1 : cross (g.tri 1) = 1 := by rw [ht 1 (by norm_num), square_tri.2]; norm_num [cross]
  have D := fun e (he : e < 6) => And.intro (hdd e he 0 (by norm_num)) (hdd e he 1 (by norm_num))
  have D0 := D 0 (by norm_num)
  have D1 := D 1 (by norm_num)
  have D2 := D 2 (by norm_num)
  have D3 := D 3 (by norm_num)
  have D4 := D 4 (by norm_num)
  have D5 := D 5 (by norm_num)
  norm_num at D0 D1 D2 D3 D4 D5
  have F := fun k f (hf : f < 3) => And.intro (hfs k f 0 hf (by norm_num)) (hfs k f 1 hf (by norm_num))
  have F02 := F 0 2 (by norm_num)
  have F10 := F 1 0 (by norm_num)
  rw [l2, c0] at F02
  rw [l3, c1] at F10
  norm_num at F02 F10
  constructor
  · rw [e1, hdiv, hs 0 (by norm_num)]
    simp only [Finset.sum_range_succ, Finset.sum_range_zero]
    norm_num [D0, D1, D2, F02]
    rw [← List.getD_eq_getElem?_getD]
    linarith [b2 i hi]
  · rw [e1, hdiv, hs 1 (by norm_num)]
    simp only [Finset.sum_range_succ, Finset.sum_range_zero]
    norm_num [D3, D4, D5, F10]
    rw [← List.getD_eq_getElem?_getD]
    linarith [b0 i hi]

/-- **C85, what the program does.** On the unit square with walls, for the uniform flow, order one and the filter of src/sw2d-simple, the rate of change of the depth has total zero - but after the
assignment `RHS1 = sum(Filt*RHS1)` of the program it does not: filtering into the array being read creates or destroys mass. -/
theorem C85_in_place : ∃ g, Provisioned Nodes1D.exactLapack (1 / 2 ^ 52) 1e-10 1e-5 1 square twoTri g ∧
    ∃ F : Matrix (Fin g.np) (Fin g.np) ℝ, g.filter (0.9 * 1) 1 = .ok (fun i j => some (F i j)) ∧
    ∀ grav, ∃ q r, q.Fits g ∧ Wet g q ∧ g.rhsSimple grav q = .ok r ∧ IsTotal g r.h.at' 0 ∧ IsTotal g (filterProduct F r.h.at') 0 ∧ ¬ IsTotal g (r.filtered F).h.at' 0 := by
  obtain ⟨g, hP, p0, p1, p2⟩ := square_grid
  obtain ⟨x, hg, hN, hK, ht⟩ := hP.spec
  have hc : Corners g := ⟨hN, p0, p1, p2⟩
  have hK : g.K = 2 := hK
  have ht : ∀ k < 2, g.tri k = square.tri k := ht
  obtain ⟨F, hF, hFe⟩ := filter_corners hg hc (by omega)
  have hN1 : ((0.9 : ℝ) * 1) ≠ (1 : ℕ) := by norm_num
  obtain ⟨F', hF', hFt⟩ := C85_product hP (0.9 * 1) (by norm_num) hN1 1 (le_refl _)
  obtain rfl : F = F' := by
    rw [hF] at hF'
    injection hF' with h
    funext i j
    have := congrFun (congrFun h i) j
    simpa using this
  refine ⟨g, hP, F, hF, fun grav => ?_⟩
  obtain ⟨r, h1, hr⟩ := flow_rhs hg hc hK ht grav
  have hf : (flow g).Fits g := ⟨⟨rfl, rfl⟩, ⟨rfl, rfl⟩, rfl, rfl⟩
  have hwet : Wet g (flow g) := fun _ _ _ _ => by show (0 : ℝ) < 1; norm_num
  obtain ⟨r', h1', -, h2⟩ := C80_mass hP square_walls.1 square_walls.2 grav (flow g) hf hwet
  obtain rfl : r = r' := by rw [h1] at h1'; injection h1'
  have h0 := (h2 0).2 rfl
  refine ⟨flow g, r, hf, hwet, h1, h0, hFt _ _ h0, ?_⟩
  rw [hc.total hg, hK]
  have c0 : cross (g.tri 0) = 1 := by rw [ht 0 (by norm_num), square_tri.1]; norm_num [cross]
  have c1 : cross (g.tri 1) = 1 := by rw [ht 1 (by norm_num), square_tri.2]; norm_num [cross]
  obtain ⟨a0, a1, a2⟩ := inPlace_three hc.np F sigma ((1 - sigma) / 3) hFe r.h.at' 0
  obtain ⟨b0, b1, b2⟩ := inPlace_three hc.np F sigma ((1 - sigma) / 3) hFe r.h.at' 1
  obtain ⟨r00, r01⟩ := hr 0 (by norm_num)
  obtain ⟨r10, r11⟩ := hr 1 (by norm_num)
  obtain ⟨r20, r21⟩ := hr 2 (by norm_num)
  rw [p0.1] at r00; rw [p0.2] at r01; rw [p1.1] at r10; rw [p1.2] at r11; rw [p2.1] at r20; rw [p2.2] at r21
  simp only [Fields.filtered, Finset.sum_range_succ, Finset.sum_range_zero, c0, c1]
  rw [a2, b2, a1, b1, a0, b0, r00, r01, r10, r11, r20, r21]
  unfold sigma
  norm_num

end Blitzdg.SW
