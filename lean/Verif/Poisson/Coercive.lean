import Verif.Poisson.Trace
import Mathlib.LinearAlgebra.Matrix.PosDef
import Mathlib.Analysis.Calculus.MeanValue

/-! The symmetric interior penalty form controls gradients and jumps. -/

namespace Blitzdg.Poisson

open MvPolynomial
open Blitzdg.DG2D
open Blitzdg.SW (Grid Mesh GridSpec faceEnds lerp hasDerivAt_line)

variable {P : ℕ → ℕ} {x : List ℝ} {bt : List Int} {g : Grid} {m : Mesh}

/-! ### Squares -/

theorem integ_sq_nonneg (p : P2) : 0 ≤ integ triInt (p * p) := by
  obtain ⟨c, hc⟩ := (triModal p.totalDegree).coeffs rfl (show TriSpace p.totalDegree p from le_rfl)
  rw [hc, (triModal p.totalDegree).dot rfl]
  exact Finset.sum_nonneg fun k _ => mul_self_nonneg _

theorem integ_sq_zero (p : P2) (h : integ triInt (p * p) = 0) : p = 0 := by
  obtain ⟨c, hc⟩ := (triModal p.totalDegree).coeffs rfl (show TriSpace p.totalDegree p from le_rfl)
  rw [hc, (triModal p.totalDegree).dot rfl] at h
  have : c = 0 := by
    funext k
    exact mul_self_eq_zero.1 ((Finset.sum_eq_zero_iff_of_nonneg fun k _ => mul_self_nonneg (c k)).1 h k (Finset.mem_univ k))
  rw [hc, this]
  unfold comb
  simp

theorem place_surj {T : Tri} (hT : cross T ≠ 0) (z : ℝ × ℝ) : ∃ r s, place T r s = z := by
  refine ⟨2 * ((z.1 - T.xa) * (T.yc - T.ya) - (z.2 - T.ya) * (T.xc - T.xa)) / cross T - 1, 2 * ((T.xb - T.xa) * (z.2 - T.ya) - (T.yb - T.ya) * (z.1 - T.xa)) / cross T - 1, ?_⟩
  unfold place
  refine Prod.ext ?_ ?_
  · simp only
    field_simp
    unfold cross; ring
  · simp only
    field_simp
    unfold cross; ring

theorem sq_eq (T : Tri) (U : P2) : triIntegral T (fun z => val U z * val U z) = cross T / 4 * integ triInt (pull T U * pull T U) := by
  rw [← map_mul, integ_pull]
  exact triIntegral_congr T fun z => (val_mul U U z).symm

theorem sq_nonneg' {T : Tri} (hT : 0 < cross T) (U : P2) : 0 ≤ triIntegral T fun z => val U z * val U z := by
  rw [sq_eq]; exact mul_nonneg (by linarith) (integ_sq_nonneg _)

theorem sq_zero {T : Tri} (hT : 0 < cross T) (U : P2) (h : triIntegral T (fun z => val U z * val U z) = 0) (z : ℝ × ℝ) : val U z = 0 := by
  rw [sq_eq] at h
  have h1 := integ_sq_zero _ ((mul_eq_zero.1 h).resolve_left (by linarith))
  obtain ⟨r, s, rfl⟩ := place_surj hT.ne' z
  rw [← ev_pull, h1, map_zero]

theorem seg_nonneg (s : (ℝ × ℝ) × (ℝ × ℝ)) {h : ℝ × ℝ → ℝ} (hh : ∀ z, 0 ≤ h z) : 0 ≤ segIntegral s h := by
  unfold segIntegral
  refine mul_nonneg (div_nonneg (Real.sqrt_nonneg _) (by norm_num)) ?_
  exact intervalIntegral.integral_nonneg (by norm_num) fun t _ => hh _

/-- Monotonicity, for integrands that are polynomial along the segment. -/
theorem seg_mono (s : (ℝ × ℝ) × (ℝ × ℝ)) {f h : ℝ × ℝ → ℝ} (F H : P2) (hf : ∀ z, f z = val F z) (hh : ∀ z, h z = val H z) (hle : ∀ z, f z ≤ h z) : segIntegral s f ≤ segIntegral s h := by
  have : h = fun z => f z + (h z - f z) := by funext z; ring
  rw [this, segIntegral_add F (H - F) hf fun z => by rw [hf, hh, val_sub]]
  linarith [seg_nonneg s (h := fun z => h z - f z) fun z => sub_nonneg.2 (hle z)]

/-! ### One element -/

/-- `∫ |∇U|²` over a triangle. -/
noncomputable def gradSq (T : Tri) (U : P2) : ℝ := triIntegral T (fun z => val (pderiv 0 U) z * val (pderiv 0 U) z) + triIntegral T fun z => val (pderiv 1 U) z * val (pderiv 1 U) z

theorem gradForm_self (g : Grid) (U : ℕ → P2) : gradForm g U U = ∑ k ∈ Finset.range g.K, gradSq (g.tri k) (U k) := by
  unfold gradForm gradSq
  refine Finset.sum_congr rfl fun k _ => ?_
  rw [show (fun z => val (pderiv 0 (U k)) z * val (pderiv 0 (U k)) z + val (pderiv 1 (U k)) z * val (pderiv 1 (U k)) z)
    = fun z => val (pderiv 0 (U k) * pderiv 0 (U k)) z + val (pderiv 1 (U k) * pderiv 1 (U k)) z from funext fun z => by rw [val_mul, val_mul], triIntegral_poly_add 0]
  exact congrArg₂ _ (triIntegral_congr _ fun z => val_mul _ _ z) (triIntegral_congr _ fun z => val_mul _ _ z)

theorem segLen_pos {T : Tri} (hT : 0 < cross T) {f : ℕ} (hf : f < 3) : 0 < segLen (faceEnds T f) := by
  have := SW.nrm_pos hT f
  rw [len_nrm T hf] at this
  linarith

theorem normal_unit {s : (ℝ × ℝ) × (ℝ × ℝ)} (h : 0 < segLen s) : (segNormal s).1 ^ 2 + (segNormal s).2 ^ 2 = 1 := by
  unfold segNormal
  simp only
  rw [div_pow, div_pow, ← add_div]
  rw [div_eq_one_iff_eq (by positivity)]
  unfold segLen SW.hypot
  rw [Real.sq_sqrt (by nlinarith [mul_self_nonneg (s.1.1 - s.2.1), mul_self_nonneg (s.1.2 - s.2.2)])]
  ring

/-- The normal derivative on a face against the gradient in the element. -/
theorem dn_bound {N : ℕ} {T : Tri} (hT : 0 < cross T) {f : ℕ} (hf : f < 3) (U : P2) (hU : U.totalDegree ≤ N) :
    segIntegral (faceEnds T f) (fun z => val (dn (segNormal (faceEnds T f)) U) z * val (dn (segNormal (faceEnds T f)) U) z)
      ≤ (N + 1) * (N + 2) / 2 * (segLen (faceEnds T f) / (cross T / 2)) * gradSq T U := by
  have hn := normal_unit (segLen_pos hT hf)
  set n := segNormal (faceEnds T f)
  have h0 := trace_ineq hT hf (pderiv 0 U) (tri_closed N 0 U hU)
  have h1 := trace_ineq hT hf (pderiv 1 U) (tri_closed N 1 U hU)
  unfold gradSq
  rw [mul_add]
  refine le_trans ?_ (add_le_add h0 h1)
  rw [← segIntegral_add (pderiv 0 U * pderiv 0 U) (pderiv 1 U * pderiv 1 U) (fun z => (val_mul _ _ z).symm) (fun z => (val_mul _ _ z).symm)]
  refine seg_mono _ (dn n U * dn n U) (pderiv 0 U * pderiv 0 U + pderiv 1 U * pderiv 1 U) (fun z => (val_mul _ _ z).symm) (fun z => by rw [val_add, val_mul, val_mul]) fun z => ?_
  rw [val_dn]
  set a := val (pderiv 0 U) z
  set b := val (pderiv 1 U) z
  nlinarith [mul_self_nonneg (n.1 * b - n.2 * a), hn]

/-! ### Faces -/

section
variable (hg : GridSpec P x bt g)
include hg

theorem seg_pos {e : ℕ} (he : e < 3 * g.K) : 0 < segLen (seg g e) := segLen_pos (hg.ccw (e / 3) (by omega)) (by omega)

theorem invSize_pos {e : ℕ} (he : e < 3 * g.K) : 0 < invSize g e :=
  div_pos (seg_pos hg he) (by have := hg.ccw (e / 3) (by omega); linarith)

theorem penalty_pos {e : ℕ} (he : e < 3 * g.K) : 0 < penalty g P e := by
  unfold penalty
  have : 0 < max (invSize g e) (invSize g (P e)) := lt_max_of_lt_left (invSize_pos hg he)
  positivity

/-- `(2/τ) ∫ (∂U)²` on one face is a small part of the gradient. -/
theorem loss {e : ℕ} (he : e < 3 * g.K) (U : P2) (hU : U.totalDegree ≤ g.N) :
    2 / penalty g P e * segIntegral (seg g e) (fun z => val (dn (outward g e) U) z * val (dn (outward g e) U) z) ≤ 1 / 6 * gradSq (g.tri (e / 3)) U := by
  have hT := hg.ccw (e / 3) (by omega)
  have h := dn_bound (N := g.N) hT (f := e % 3) (by omega) U hU
  have hp := penalty_pos hg he
  have hi := invSize_pos hg he
  have hG : 0 ≤ gradSq (g.tri (e / 3)) U := add_nonneg (sq_nonneg' hT _) (sq_nonneg' hT _)
  have hle : 20000 * ((g.N : ℝ) + 1) ^ 2 * invSize g e ≤ penalty g P e := by
    unfold penalty
    exact mul_le_mul_of_nonneg_left (le_max_left _ _) (by positivity)
  change segIntegral (seg g e) (fun z => val (dn (outward g e) U) z * val (dn (outward g e) U) z) ≤ (g.N + 1) * (g.N + 2) / 2 * invSize g e * gradSq (g.tri (e / 3)) U at h
  rw [div_mul_eq_mul_div, div_le_iff₀ hp]
  have hN : (0 : ℝ) ≤ g.N := Nat.cast_nonneg _
  have h3 : ((g.N : ℝ) + 1) * (g.N + 2) / 2 * invSize g e * 12 ≤ 20000 * ((g.N : ℝ) + 1) ^ 2 * invSize g e := by
    have : ((g.N : ℝ) + 1) * (g.N + 2) / 2 * 12 ≤ 20000 * ((g.N : ℝ) + 1) ^ 2 := by nlinarith
    nlinarith
  nlinarith [mul_le_mul_of_nonneg_right (h3.trans hle) hG]

end

/-- What is left on a face: the penalised square of the jump, or of the trace on a Dirichlet face. -/
noncomputable def gain (g : Grid) (m : Mesh) (P : ℕ → ℕ) (U : ℕ → P2) (e : ℕ) : ℝ :=
  if P e = e then if tagOf m e = 6 then penalty g P e / 2 * segIntegral (seg g e) fun z => val (U (e / 3)) z ^ 2 else 0
  else penalty g P e / 8 * segIntegral (seg g e) fun z => (val (U (e / 3)) z - val (U (P e / 3)) z) ^ 2

/-- Square of the normal derivative on a face. -/
noncomputable def dnSq (g : Grid) (U : ℕ → P2) (e : ℕ) : ℝ := segIntegral (seg g e) fun z => val (dn (outward g e) (U (e / 3))) z * val (dn (outward g e) (U (e / 3))) z

theorem dnSq_across (hg : GridSpec P x bt g) (U : ℕ → P2) {e : ℕ} (he : e < 3 * g.K) (h : P e ≠ e) :
    segIntegral (seg g e) (fun z => val (dn (outward g e) (U (P e / 3))) z * val (dn (outward g e) (U (P e / 3))) z) = dnSq g U (P e) := by
  unfold dnSq outward
  rw [seg_across hg he h, segIntegral_swap, segNormal_swap]
  simp only [val_dn_neg, neg_mul_neg]

theorem val_pow2 (U : P2) (z : ℝ × ℝ) : val U z ^ 2 = val (U * U) z := by rw [val_mul, sq]

theorem face_lower (hg : GridSpec P x bt g) (U : ℕ → P2) {e : ℕ} (he : e < 3 * g.K) :
    gain g m P U e - (if P e = e then 2 / penalty g P e * dnSq g U e else 1 / penalty g P e * (dnSq g U e + dnSq g U (P e))) ≤ symTerm g m P U U e := by
  have hp := penalty_pos hg he
  set τ := penalty g P e with hτ
  have hd : 0 ≤ dnSq g U e := seg_nonneg _ fun z => mul_self_nonneg _
  unfold gain symTerm
  simp only
  rw [← hτ]
  set n := outward g e
  set U1 := U (e / 3)
  set U2 := U (P e / 3)
  by_cases h : P e = e
  · rw [if_pos h, if_pos h, if_pos h]
    by_cases h6 : tagOf m e = 6
    · rw [if_pos h6, if_pos h6]
      have key : segIntegral (seg g e) (fun z => τ / 2 * val U1 z ^ 2) ≤ segIntegral (seg g e) fun z =>
          (τ * val U1 z * val U1 z - val (dn n U1) z * val U1 z - val U1 z * val (dn n U1) z) + 2 / τ * (val (dn n U1) z * val (dn n U1) z) := by
        refine seg_mono _ (C (τ / 2) * (U1 * U1)) (C τ * U1 * U1 - dn n U1 * U1 - U1 * dn n U1 + C (2 / τ) * (dn n U1 * dn n U1)) (fun z => by rw [val_mul, val_C, val_pow2])
          (fun z => by simp only [val_add, val_sub, val_mul, val_C]) fun z => ?_
        set a := val U1 z
        set b := val (dn n U1) z
        have : 2 / τ * (b * b) + τ / 2 * a ^ 2 - 2 * (a * b) = 2 / τ * (b - τ / 2 * a) ^ 2 := by field_simp; ring
        have h2 : 0 ≤ 2 / τ * (b - τ / 2 * a) ^ 2 := by positivity
        nlinarith
      rw [segIntegral_mul, segIntegral_add (C τ * U1 * U1 - dn n U1 * U1 - U1 * dn n U1) (C (2 / τ) * (dn n U1 * dn n U1)) (fun z => by simp only [val_sub, val_mul, val_C])
        (fun z => by simp only [val_mul, val_C]), segIntegral_mul] at key
      have e1 : segIntegral (seg g e) (fun z => val (dn n U1) z * val (dn n U1) z) = dnSq g U e := rfl
      rw [e1] at key
      linarith
    · rw [if_neg h6, if_neg h6]
      have : 0 ≤ 2 / τ * dnSq g U e := by positivity
      linarith
  · rw [if_neg h, if_neg h, if_neg h]
    have key : segIntegral (seg g e) (fun z => τ / 4 * (val U1 z - val U2 z) ^ 2) ≤ segIntegral (seg g e) fun z =>
        (1 / 2 * τ * (val U1 z - val U2 z) * (val U1 z - val U2 z) - (val (dn n U1) z + val (dn n U2) z) / 2 * (val U1 z - val U2 z)
          - (val U1 z - val U2 z) * ((val (dn n U1) z + val (dn n U2) z) / 2)) + (2 / τ * (val (dn n U1) z * val (dn n U1) z) + 2 / τ * (val (dn n U2) z * val (dn n U2) z)) := by
      refine seg_mono _ (C (τ / 4) * ((U1 - U2) * (U1 - U2))) (C (1 / 2) * C τ * (U1 - U2) * (U1 - U2) - (dn n U1 + dn n U2) * C (1 / 2) * (U1 - U2) - (U1 - U2) * ((dn n U1 + dn n U2) * C (1 / 2))
          + (C (2 / τ) * (dn n U1 * dn n U1) + C (2 / τ) * (dn n U2 * dn n U2))) (fun z => by rw [val_mul, val_C, ← val_pow2, val_sub])
        (fun z => by simp only [val_add, val_sub, val_mul, val_C]; ring) fun z => ?_
      set w := val U1 z - val U2 z
      set b := val (dn n U1) z
      set c := val (dn n U2) z
      have h1 : 2 / τ * (b * b) + τ / 8 * w ^ 2 - b * w = 2 / τ * (b - τ / 4 * w) ^ 2 := by field_simp; ring
      have h2 : 2 / τ * (c * c) + τ / 8 * w ^ 2 - c * w = 2 / τ * (c - τ / 4 * w) ^ 2 := by field_simp; ring
      have p1 : 0 ≤ 2 / τ * (b - τ / 4 * w) ^ 2 := by positivity
      have p2 : 0 ≤ 2 / τ * (c - τ / 4 * w) ^ 2 := by positivity
      nlinarith
    rw [segIntegral_mul, segIntegral_add (C (1 / 2) * C τ * (U1 - U2) * (U1 - U2) - (dn n U1 + dn n U2) * C (1 / 2) * (U1 - U2) - (U1 - U2) * ((dn n U1 + dn n U2) * C (1 / 2)))
        (C (2 / τ) * (dn n U1 * dn n U1) + C (2 / τ) * (dn n U2 * dn n U2)) (fun z => by simp only [val_add, val_sub, val_mul, val_C]; ring) (fun z => by simp only [val_add, val_mul, val_C]),
      segIntegral_add (C (2 / τ) * (dn n U1 * dn n U1)) (C (2 / τ) * (dn n U2 * dn n U2)) (fun z => by simp only [val_mul, val_C]) (fun z => by simp only [val_mul, val_C]),
      segIntegral_mul, segIntegral_mul, dnSq_across hg U he h] at key
    have e1 : segIntegral (seg g e) (fun z => val (dn n U1) z * val (dn n U1) z) = dnSq g U e := rfl
    rw [e1] at key
    have e2 : 1 / τ * (dnSq g U e + dnSq g U (P e)) = 1 / 2 * (2 / τ * dnSq g U e + 2 / τ * dnSq g U (P e)) := by ring
    rw [e2]
    linarith

/-- **Coercivity.** -/
theorem coercive (hg : GridSpec P x bt g) (U : ℕ → P2) (hU : ∀ k < g.K, (U k).totalDegree ≤ g.N) :
    1 / 2 * gradForm g U U + ∑ e ∈ Finset.range (3 * g.K), gain g m P U e ≤ sipForm g m P U U := by
  unfold sipForm
  have h1 : ∑ e ∈ Finset.range (3 * g.K), gain g m P U e - ∑ e ∈ Finset.range (3 * g.K), (if P e = e then 2 / penalty g P e * dnSq g U e else 1 / penalty g P e * (dnSq g U e + dnSq g U (P e)))
      ≤ ∑ e ∈ Finset.range (3 * g.K), symTerm g m P U U e := by
    rw [← Finset.sum_sub_distrib]
    exact Finset.sum_le_sum fun e he => face_lower hg U (Finset.mem_range.1 he)
  have h2 : ∑ e ∈ Finset.range (3 * g.K), (if P e = e then 2 / penalty g P e * dnSq g U e else 1 / penalty g P e * (dnSq g U e + dnSq g U (P e)))
      = ∑ e ∈ Finset.range (3 * g.K), 2 / penalty g P e * dnSq g U e := by
    have e1 : ∀ e ∈ Finset.range (3 * g.K), (if P e = e then 2 / penalty g P e * dnSq g U e else 1 / penalty g P e * (dnSq g U e + dnSq g U (P e)))
        = 1 / penalty g P e * dnSq g U e + 1 / penalty g P (P e) * dnSq g U (P e) := by
      intro e he
      rw [penalty_across hg (Finset.mem_range.1 he)]
      split_ifs with h
      · rw [h]; ring
      · ring
    rw [Finset.sum_congr rfl e1, Finset.sum_add_distrib, sum_across _ P hg.lt hg.inv fun e => 1 / penalty g P e * dnSq g U e, ← Finset.sum_add_distrib]
    exact Finset.sum_congr rfl fun e _ => by ring
  have h3 : ∑ e ∈ Finset.range (3 * g.K), 2 / penalty g P e * dnSq g U e ≤ 1 / 2 * gradForm g U U := by
    rw [← SW.sum_faces, gradForm_self, Finset.mul_sum]
    refine Finset.sum_le_sum fun k hk => ?_
    have hk := Finset.mem_range.1 hk
    have : ∀ f ∈ Finset.range 3, 2 / penalty g P (3 * k + f) * dnSq g U (3 * k + f) ≤ 1 / 6 * gradSq (g.tri k) (U k) := by
      intro f hf
      have hf := Finset.mem_range.1 hf
      have := loss (P := P) hg (e := 3 * k + f) (by omega) (U k) (hU k hk)
      unfold dnSq
      rw [show (3 * k + f) / 3 = k by omega] at this ⊢
      exact this
    refine (Finset.sum_le_sum this).trans (le_of_eq ?_)
    simp
    ring
  linarith

theorem gain_nonneg (hg : GridSpec P x bt g) (U : ℕ → P2) {e : ℕ} (he : e < 3 * g.K) : 0 ≤ gain g m P U e := by
  have hp := penalty_pos hg he
  unfold gain
  split_ifs
  · exact mul_nonneg (by linarith) (seg_nonneg _ fun z => sq_nonneg _)
  · exact le_rfl
  · exact mul_nonneg (by linarith) (seg_nonneg _ fun z => sq_nonneg _)

theorem gradSq_nonneg {T : Tri} (hT : 0 < cross T) (U : P2) : 0 ≤ gradSq T U := add_nonneg (sq_nonneg' hT _) (sq_nonneg' hT _)

/-! ### What has no energy is constant -/

theorem const_of_grad {T : Tri} (hT : 0 < cross T) (U : P2) (h : gradSq T U = 0) (z : ℝ × ℝ) : val U z = val U (0, 0) := by
  have h0 := sq_nonneg' hT (pderiv 0 U)
  have h1 := sq_nonneg' hT (pderiv 1 U)
  unfold gradSq at h
  have z0 := sq_zero hT (pderiv 0 U) (by linarith)
  have z1 := sq_zero hT (pderiv 1 U) (by linarith)
  have hd : ∀ t : ℝ, HasDerivAt (fun t => val U (z.1 * t, z.2 * t)) 0 t := by
    intro t
    have := hasDerivAt_line U (Polynomial.C z.1 * Polynomial.X) (Polynomial.C z.2 * Polynomial.X) t
    simp only [Polynomial.eval_mul, Polynomial.eval_C, Polynomial.eval_X] at this
    have a0 : ev (z.1 * t) (z.2 * t) (pderiv 0 U) = 0 := z0 (z.1 * t, z.2 * t)
    have a1 : ev (z.1 * t) (z.2 * t) (pderiv 1 U) = 0 := z1 (z.1 * t, z.2 * t)
    rw [a0, a1] at this
    simpa [val] using this
  have := is_const_of_deriv_eq_zero (fun t => (hd t).differentiableAt) (fun t => (hd t).deriv) 1 0
  simpa using this

/-- Any element can be reached from element 0 through common faces. -/
def Connected (g : Grid) (P : ℕ → ℕ) : Prop := ∀ k < g.K, Relation.ReflTransGen (fun a b => a < g.K ∧ ∃ f < 3, b = P (3 * a + f) / 3) 0 k

theorem seg_const (s : (ℝ × ℝ) × (ℝ × ℝ)) (a : ℝ) : segIntegral s (fun _ => a) = segLen s * a := by
  unfold segIntegral
  simp
  ring

/-- Functions without energy are constant on a connected mesh, and zero if there is a Dirichlet face. -/
theorem no_energy (hg : GridSpec P x bt g) (hc : Connected g P) (U : ℕ → P2) (hU : ∀ k < g.K, (U k).totalDegree ≤ g.N) (h : sipForm g m P U U ≤ 0) :
    ∃ c : ℝ, (∀ k < g.K, ∀ z, val (U k) z = c) ∧ ((∃ e < 3 * g.K, P e = e ∧ tagOf m e = 6) → c = 0) := by
  have hco := coercive (m := m) hg U hU
  have hG : 0 ≤ gradForm g U U := by
    rw [gradForm_self]
    exact Finset.sum_nonneg fun k hk => gradSq_nonneg (hg.ccw k (Finset.mem_range.1 hk)) _
  have hJ : 0 ≤ ∑ e ∈ Finset.range (3 * g.K), gain g m P U e := Finset.sum_nonneg fun e he => gain_nonneg hg U (Finset.mem_range.1 he)
  have g0 : gradForm g U U = 0 := by linarith
  have j0 : ∑ e ∈ Finset.range (3 * g.K), gain g m P U e = 0 := by linarith
  rw [gradForm_self, Finset.sum_eq_zero_iff_of_nonneg fun k hk => gradSq_nonneg (hg.ccw k (Finset.mem_range.1 hk)) _] at g0
  rw [Finset.sum_eq_zero_iff_of_nonneg fun e he => gain_nonneg hg U (Finset.mem_range.1 he)] at j0
  have hk : ∀ k < g.K, ∀ z, val (U k) z = val (U k) (0, 0) := fun k hk => const_of_grad (hg.ccw k hk) _ (g0 k (Finset.mem_range.2 hk))
  have step : ∀ a < g.K, ∀ f < 3, val (U (P (3 * a + f) / 3)) (0, 0) = val (U a) (0, 0) := by
    intro a ha f hf
    have he : 3 * a + f < 3 * g.K := by omega
    by_cases hP : P (3 * a + f) = 3 * a + f
    · rw [hP, show (3 * a + f) / 3 = a by omega]
    · have hb : P (3 * a + f) / 3 < g.K := by have := hg.lt _ he; omega
      have := j0 _ (Finset.mem_range.2 he)
      unfold gain at this
      rw [if_neg hP, show (3 * a + f) / 3 = a by omega] at this
      simp only [hk a ha, hk _ hb, seg_const] at this
      have hp := penalty_pos hg he
      have hs := seg_pos hg he
      rcases mul_eq_zero.1 this with h | h
      · linarith
      · rcases mul_eq_zero.1 h with h | h
        · linarith
        · have := pow_eq_zero_iff (two_ne_zero) |>.1 h
          linarith
  have all : ∀ k < g.K, val (U k) (0, 0) = val (U 0) (0, 0) := by
    intro k hk
    have hr := hc k hk
    induction hr with
    | refl => rfl
    | tail hab hbc ih =>
      obtain ⟨ha, f, hf, rfl⟩ := hbc
      rw [step _ ha f hf]
      exact ih ha
  refine ⟨val (U 0) (0, 0), fun k hk' z => by rw [hk k hk', all k hk'], ?_⟩
  rintro ⟨e, he, hP, h6⟩
  have := j0 _ (Finset.mem_range.2 he)
  unfold gain at this
  have hb : e / 3 < g.K := by omega
  rw [if_pos hP, if_pos h6] at this
  simp only [hk _ hb, seg_const, all _ hb] at this
  have hp := penalty_pos hg he
  have hs := seg_pos hg he
  rcases mul_eq_zero.1 this with h | h
  · linarith
  · rcases mul_eq_zero.1 h with h | h
    · linarith
    · exact pow_eq_zero_iff (two_ne_zero) |>.1 h

end Blitzdg.Poisson
