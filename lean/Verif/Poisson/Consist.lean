import Verif.Poisson.Props

/-! C100: polynomial solutions satisfy the discrete equations with the boundary contributions. -/

namespace Blitzdg.Poisson

open MvPolynomial
open Matrix
open Blitzdg.Sparse (DMat Csc Triplet Represents asInt)
open Blitzdg.Nodes1D (Lapack exactLapack)
open Blitzdg.DG2D
open Blitzdg.Blitz (reshapeMatTo1D C10_flatten)
open Blitzdg.SW (Grid Mesh GridSpec Provisioned gridX gridY faceEnds lerp square square_ok sum_faces zeros green_r green_s)

variable {la : Lapack} {eps ztol tol : ℝ} {N : ℕ} {m : Mesh} {P : ℕ → ℕ} {x : List ℝ} {bt : List Int} {g : Grid}

/-! ### The divergence theorem on a triangle -/

theorem flux_seg {e : (ℝ × ℝ) × (ℝ × ℝ)} (hL : segLen e ≠ 0) (A B : P2) :
    segIntegral e (fun z => (segNormal e).1 * val A z + (segNormal e).2 * val B z)
      = ∫ t in (-1 : ℝ)..1, ((e.2.2 - e.1.2) / 2 * val A (lerp e t) - (e.2.1 - e.1.1) / 2 * val B (lerp e t)) := by
  unfold segIntegral segNormal
  rw [← intervalIntegral.integral_const_mul]
  congr 1
  funext t
  field_simp
  ring

theorem jac_mul (T : Tri) (A : P2) :
    C (cross T / 4) * pull T (pderiv 0 A) = C (triDerivOf T).ys * pderiv 0 (pull T A) - C (triDerivOf T).yr * pderiv 1 (pull T A) ∧
    C (cross T / 4) * pull T (pderiv 1 A) = C (triDerivOf T).xr * pderiv 1 (pull T A) - C (triDerivOf T).xs * pderiv 0 (pull T A) := by
  have hJ : C (cross T / 4) = (C (triDerivOf T).xr * C (triDerivOf T).ys - C (triDerivOf T).xs * C (triDerivOf T).yr : P2) := by
    rw [← C_mul, ← C_mul, ← C_sub]
    congr 1
    unfold cross triDerivOf
    simp only
    ring
  rw [(pderiv_pull T A).1, (pderiv_pull T A).2, hJ]
  constructor <;> ring

theorem integ_smul (a : ℝ) (p : P2) : integ triInt (C a * p) = a * integ triInt p := by
  exact (triModal 1).smul a p

theorem divergence {T : Tri} (hT : 0 < cross T) (A B : P2) :
    triIntegral T (val (pderiv 0 A + pderiv 1 B))
      = ∑ f ∈ Finset.range 3, segIntegral (faceEnds T f) fun z => (segNormal (faceEnds T f)).1 * val A z + (segNormal (faceEnds T f)).2 * val B z := by
  set d := triDerivOf T with hd
  have e0 : triIntegral T (val (pderiv 0 A + pderiv 1 B)) = integ triInt (pderiv 0 (C d.ys * pull T A - C d.xs * pull T B)) + integ triInt (pderiv 1 (C d.xr * pull T B - C d.yr * pull T A)) := by
    rw [← integ_pull, ← integ_smul, map_add, mul_add, (jac_mul T A).1, (jac_mul T B).2, ← (triModal 1).add]
    congr 1
    simp only [map_sub, Derivation.leibniz, pderiv_C, smul_eq_mul, mul_zero, add_zero]
    ring
  rw [e0, green_r, green_s]
  set Q := C d.ys * pull T A - C d.xs * pull T B with hQ
  set R := C d.xr * pull T B - C d.yr * pull T A with hR
  have evQ : ∀ r s, ev r s Q = (T.yc - T.ya) / 2 * val A (place T r s) - (T.xc - T.xa) / 2 * val B (place T r s) := by
    intro r s
    rw [hQ, map_sub, map_mul, map_mul, ev_pull, ev_pull]
    simp [hd, triDerivOf]
  have evR : ∀ r s, ev r s R = (T.xb - T.xa) / 2 * val B (place T r s) - (T.yb - T.ya) / 2 * val A (place T r s) := by
    intro r s
    rw [hR, map_sub, map_mul, map_mul, ev_pull, ev_pull]
    simp [hd, triDerivOf]
  have l0 : ∀ t, lerp (faceEnds T 0) t = place T t (-1) := by
    intro t; simp only [lerp, faceEnds, place, if_true, Prod.mk.injEq]; constructor <;> ring
  have l1 : ∀ t, lerp (faceEnds T 1) t = place T (-t) t := by
    intro t; simp only [lerp, faceEnds, place, one_ne_zero, if_false, if_true, Prod.mk.injEq]; constructor <;> ring
  have l2 : ∀ t, lerp (faceEnds T 2) t = place T (-1) (-t) := by
    intro t; simp only [lerp, faceEnds, place, OfNat.ofNat_ne_zero, OfNat.ofNat_ne_one, if_false, Prod.mk.injEq]; constructor <;> ring
  have f0 : segIntegral (faceEnds T 0) (fun z => (segNormal (faceEnds T 0)).1 * val A z + (segNormal (faceEnds T 0)).2 * val B z) = -∫ r in (-1 : ℝ)..1, ev r (-1) R := by
    rw [flux_seg (segLen_pos hT (by norm_num)).ne', ← intervalIntegral.integral_neg]
    congr 1
    funext t
    rw [evR, l0]
    simp only [faceEnds, if_true]
    ring
  have f1 : segIntegral (faceEnds T 1) (fun z => (segNormal (faceEnds T 1)).1 * val A z + (segNormal (faceEnds T 1)).2 * val B z)
      = (∫ s in (-1 : ℝ)..1, ev (-s) s Q) + ∫ s in (-1 : ℝ)..1, ev (-s) s R := by
    rw [flux_seg (segLen_pos hT (by norm_num)).ne',
      ← intervalIntegral.integral_add ((SW.face1_cont Q).intervalIntegrable _ _) ((SW.face1_cont R).intervalIntegrable _ _)]
    congr 1
    funext t
    rw [evR, evQ, l1]
    simp only [faceEnds, one_ne_zero, if_false, if_true]
    ring
  have f2 : segIntegral (faceEnds T 2) (fun z => (segNormal (faceEnds T 2)).1 * val A z + (segNormal (faceEnds T 2)).2 * val B z) = -∫ s in (-1 : ℝ)..1, ev (-1) s Q := by
    rw [flux_seg (segLen_pos hT (by norm_num)).ne']
    have := intervalIntegral.integral_comp_neg (a := (-1 : ℝ)) (b := 1) fun s => ev (-1) s Q
    rw [neg_neg] at this
    rw [← this, ← intervalIntegral.integral_neg]
    congr 1
    funext t
    rw [evQ, l2]
    simp only [faceEnds, OfNat.ofNat_ne_zero, OfNat.ofNat_ne_one, if_false]
    ring
  rw [Finset.sum_range_succ, Finset.sum_range_succ, Finset.sum_range_one, f0, f1, f2]
  ring

/-- Laplacian. -/
noncomputable def lap (U : P2) : P2 := pderiv 0 (pderiv 0 U) + pderiv 1 (pderiv 1 U)

/-- Integration by parts on one element. -/
theorem parts {T : Tri} (hT : 0 < cross T) (U V : P2) :
    (triIntegral T fun z => val (pderiv 0 V) z * val (pderiv 0 U) z + val (pderiv 1 V) z * val (pderiv 1 U) z)
      = (triIntegral T fun z => val V z * val (-lap U) z) + ∑ f ∈ Finset.range 3, segIntegral (faceEnds T f) fun z => val (dn (segNormal (faceEnds T f)) U) z * val V z := by
  have h := divergence hT (V * pderiv 0 U) (V * pderiv 1 U)
  have e1 : (triIntegral T fun z => val (pderiv 0 V) z * val (pderiv 0 U) z + val (pderiv 1 V) z * val (pderiv 1 U) z)
      = (triIntegral T fun z => val V z * val (-lap U) z) + triIntegral T (val (pderiv 0 (V * pderiv 0 U) + pderiv 1 (V * pderiv 1 U))) := by
    rw [← triIntegral_congr T fun z => val_mul V (-lap U) z, ← triIntegral_poly_add 1 T]
    refine triIntegral_congr T fun z => ?_
    rw [← val_mul, ← val_mul, ← val_add, ← val_add]
    congr 1
    simp only [Derivation.leibniz, smul_eq_mul, lap]
    ring
  rw [e1, h]
  congr 1
  refine Finset.sum_congr rfl fun f _ => ?_
  congr 1
  funext z
  rw [val_dn, val_mul, val_mul]
  ring

/-! ### The boundary contributions -/

section
variable {c : Ctx} {ME : ℕ → DMat ℝ} {F : ℕ → ℕ → Face} {tag : ℕ → ℕ → Int}

/-- What face `f` of element `k` adds to entry `i`. -/
noncomputable def contrib (c : Ctx) (F : ℕ → ℕ → Face) (tag : ℕ → ℕ → Int) (u q : List ℝ) (k f i : ℕ) : ℝ :=
  if tag k f = 6 then (F k f).dirichlet c.Np c.nfp (fun j => u.getD (c.nfp * c.nf * k + f * c.nfp + j) 0) i
  else if tag k f = 7 ∨ tag k f = 3 then (F k f).neumann c.nfp (fun j => q.getD (c.nfp * c.nf * k + f * c.nfp + j) 0) i
  else 0

theorem off_le (c : Ctx) {k f : ℕ} (hk : k < c.K) (hf : f < c.nf) : c.nfp * c.nf * k + f * c.nfp + c.nfp ≤ c.nfp * c.nf * c.K := by
  calc c.nfp * c.nf * k + f * c.nfp + c.nfp = c.nfp * (c.nf * k + (f + 1)) := by ring
    _ ≤ c.nfp * (c.nf * k + c.nf) := Nat.mul_le_mul_left _ (by omega)
    _ = c.nfp * c.nf * (k + 1) := by ring
    _ ≤ c.nfp * c.nf * c.K := Nat.mul_le_mul_left _ hk

theorem Ready.rhsFaces (h : Ready c ME F tag) {u q : List ℝ} (hu : c.nfp * c.nf * c.K ≤ u.length) (hq : c.nfp * c.nf * c.K ≤ q.length) {k : ℕ} (hk : k < c.K) (b : ℕ → ℝ) (n : ℕ) (hn : n ≤ c.nf) :
    loopM (c.rhsStep ME u q k) b (List.range n) = .ok fun i => b i + ∑ f ∈ Finset.range n, contrib c F tag u q k f i := by
  induction n with
  | zero => simp
  | succ n ih =>
    rw [List.range_succ, loopM_append, ih (by omega)]
    have hb := off_le c hk (show n < c.nf by omega)
    have hc : c.nfp * c.nf * k + n * c.nfp + c.nfp ≤ u.length ∧ c.nfp * c.nf * k + n * c.nfp + c.nfp ≤ q.length := ⟨by omega, by omega⟩
    simp only [Out.bind_ok, loopM_cons, loopM_nil, Ctx.rhsStep, h.face k hk n (by omega), h.tag k hk n (by omega), if_pos hc, Finset.sum_range_succ]
    by_cases h6 : tag k n = 6
    · simp [h6, contrib, add_assoc]
    · by_cases h7 : tag k n = 7 ∨ tag k n = 3
      · simp [h6, h7, contrib, add_assoc]
      · simp [h6, h7, contrib]

theorem Ready.rhs (h : Ready c ME F tag) {u q : List ℝ} (hu : c.nfp * c.nf * c.K ≤ u.length) (hq : c.nfp * c.nf * c.K ≤ q.length) (n : ℕ) (hn : n ≤ c.K) :
    ∃ b : DMat ℝ, loopM (fun (b : DMat ℝ) k => do
      let col ← loopM (c.rhsStep ME u q k) (fun i => b.at' i k) (List.range c.nf)
      pure { b with at' := fun i j => if j = k then col i else b.at' i j }) (fresh c.Np c.K) (List.range n) = .ok b ∧ b.rows = c.Np ∧ b.cols = c.K ∧
      ∀ i k, b.at' i k = if k < n then ∑ f ∈ Finset.range c.nf, contrib c F tag u q k f i else 0 := by
  induction n with
  | zero => exact ⟨_, rfl, rfl, rfl, fun i k => by simp [fresh]⟩
  | succ n ih =>
    obtain ⟨b, e, h1, h2, h3⟩ := ih (by omega)
    refine ⟨{ b with at' := fun i j => if j = n then b.at' i n + ∑ f ∈ Finset.range c.nf, contrib c F tag u q n f i else b.at' i j }, ?_, h1, h2, ?_⟩
    · rw [List.range_succ, loopM_append, e]
      simp only [Out.bind_ok, loopM_cons, loopM_nil]
      rw [h.rhsFaces hu hq (show n < c.K by omega) _ _ (le_refl _)]
      rfl
    · intro i k
      simp only [h3]
      by_cases hk : k = n
      · subst hk; simp
      · have : k < n + 1 ↔ k < n := by omega
        simp [hk, this]
end

/-- Face data given at the points of the faces: row `f (N+1) + j` of column `k` is the value of the polynomial `H e` at point `j` of face `f` of element `k`, on the faces `e = 3k + f` with `S e`. -/
structure FaceValues (g : Grid) (B : DMat ℝ) (S : ℕ → Prop) (H : ℕ → P2) : Prop where
  rows : B.rows = 3 * (g.N + 1)
  cols : B.cols = g.K
  at' : ∀ k < g.K, ∀ f < 3, ∀ j ≤ g.N, S (3 * k + f) → B.at' (f * (g.N + 1) + j) k = val (H (3 * k + f)) (gridX (g.tri k) g.n (g.n.mask j f), gridY (g.tri k) g.n (g.n.mask j f))

/-- What a face contributes to the right-hand side tested with `V`: `∫ (τ V - ∂V) U` on a Dirichlet face with data `U`, `∫ V Q` on a Neuman face or a wall with data `Q`. -/
noncomputable def rhsTerm (s : (ℝ × ℝ) × (ℝ × ℝ)) (τ : ℝ) (tag : Int) (V U Q : P2) : ℝ :=
  if tag = 6 then segIntegral s fun z => (τ * val V z - val (dn (segNormal s) V) z) * val U z
  else if tag = 7 ∨ tag = 3 then segIntegral s fun z => val V z * val Q z
  else 0

section
variable {M : ℕ → ℕ → ℝ} {k f : ℕ} {F : Face}

theorem neumann_form (hg : GridSpec P x bt g) (hf : f < 3) (hM : EdgeSpec x g f M) (hF : FaceData g m P M k f F) {v q : ℕ → ℝ} {V Q : P2}
    (hv : OnElem g k v V) (hQ : Q.totalDegree ≤ g.N) (hq : ∀ j ≤ g.N, q j = val Q (gridX (g.tri k) g.n (g.n.mask j f), gridY (g.tri k) g.n (g.n.mask j f))) :
    ∑ i ∈ Finset.range g.np, v i * F.neumann (g.N + 1) q i = segLen (faceEnds (g.tri k) f) / 2 * lineInt (trace (faceEnds (g.tri k) f) V * trace (faceEnds (g.tri k) f) Q) := by
  have hh : ∀ j < g.N + 1, q j = val Q (lerp (faceEnds (g.tri k) f) (posn x f j)) := fun j hj => by rw [hq j (by omega), node_on hg k hf (by omega)]
  rw [← edgeSum_eq hg hf hM hv hQ hh]
  unfold edgeSum Face.neumann
  rw [Finset.mul_sum]
  refine Finset.sum_congr rfl fun i _ => ?_
  rw [Finset.mul_sum, Finset.mul_sum]
  refine Finset.sum_congr rfl fun j hj => ?_
  rw [hF.Fm1 j (Finset.mem_range.1 hj), hF.mmE]
  ring

theorem dirichlet_form (hg : GridSpec P x bt g) (hk : k < g.K) (hf : f < 3) (hM : EdgeSpec x g f M) (hF : FaceData g m P M k f F) {v u : ℕ → ℝ} {V U : P2}
    (hv : OnElem g k v V) (hU : U.totalDegree ≤ g.N) (hu : ∀ j ≤ g.N, u j = val U (gridX (g.tri k) g.n (g.n.mask j f), gridY (g.tri k) g.n (g.n.mask j f))) :
    ∑ i ∈ Finset.range g.np, v i * F.dirichlet g.np (g.N + 1) u i = segLen (faceEnds (g.tri k) f) / 2 *
      lineInt (penalty g P (3 * k + f) • (trace (faceEnds (g.tri k) f) V * trace (faceEnds (g.tri k) f) U)
        - trace (faceEnds (g.tri k) f) (dn (segNormal (faceEnds (g.tri k) f)) V) * trace (faceEnds (g.tri k) f) U) := by
  have hd : (3 * k + f) / 3 = k ∧ (3 * k + f) % 3 = f := by omega
  have hn : outward g (3 * k + f) = segNormal (faceEnds (g.tri k) f) := by unfold outward seg; rw [hd.1, hd.2]
  have hh : ∀ j < g.N + 1, u j = val U (lerp (faceEnds (g.tri k) f) (posn x f j)) := fun j hj => by rw [hu j (by omega), node_on hg k hf (by omega)]
  rw [map_sub, map_smul, smul_eq_mul, ← edgeSum_eq hg hf hM hv hU hh, ← edgeSum_eq hg hf hM (onElem_sample (dn_deg _ V hv.1)) hU hh]
  have hDv : ∀ i ∈ Finset.range g.np, sample g k (dn (segNormal (faceEnds (g.tri k) f)) V) i = ∑ j ∈ Finset.range g.np, F.Dn1 i j * v j := by
    intro i hi
    rw [← hn, ← dn_apply hg m hk hv _ i (Finset.mem_range.1 hi)]
    exact Finset.sum_congr rfl fun j _ => by rw [hF.Dn1]
  have e2 : edgeSum g f M (sample g k (dn (segNormal (faceEnds (g.tri k) f)) V)) u
      = ∑ i ∈ Finset.range g.np, ∑ j ∈ Finset.range (g.N + 1), ∑ a ∈ Finset.range g.np, F.Dn1 a i * v i * (M a (g.n.mask j f) * u j) := by
    unfold edgeSum
    rw [Finset.sum_congr rfl fun i hi => Finset.sum_congr rfl fun j _ => by rw [hDv i hi, Finset.sum_mul], Finset.sum_comm]
    rw [Finset.sum_congr rfl fun j _ => Finset.sum_comm, Finset.sum_comm]
  rw [e2]
  unfold edgeSum Face.dirichlet
  rw [mul_sub, ← mul_assoc, Finset.mul_sum, Finset.mul_sum, ← Finset.sum_sub_distrib]
  refine Finset.sum_congr rfl fun i _ => ?_
  rw [Finset.mul_sum, Finset.mul_sum, Finset.mul_sum, ← Finset.sum_sub_distrib]
  refine Finset.sum_congr rfl fun j hj => ?_
  rw [hF.Fm1 j (Finset.mem_range.1 hj), hF.mmE, hF.tau]
  simp only [hF.mmE]
  have e3 : ∑ a ∈ Finset.range g.np, F.Dn1 a i * (segLen (faceEnds (g.tri k) f) / 2 * M a (g.n.mask j f)) = segLen (faceEnds (g.tri k) f) / 2 * ∑ a ∈ Finset.range g.np, F.Dn1 a i * M a (g.n.mask j f) := by
    rw [Finset.mul_sum]; exact Finset.sum_congr rfl fun _ _ => by ring
  have e4 : ∑ a ∈ Finset.range g.np, F.Dn1 a i * v i * (M a (g.n.mask j f) * u j) = v i * u j * ∑ a ∈ Finset.range g.np, F.Dn1 a i * M a (g.n.mask j f) := by
    rw [Finset.mul_sum]; exact Finset.sum_congr rfl fun _ _ => by ring
  rw [e3, e4]
  ring
end

theorem flat_getD {B : DMat ℝ} {S : ℕ → Prop} {H : ℕ → P2} (hB : FaceValues g B S H) {n : ℕ} (hn : 3 * (g.N + 1) * g.K ≤ n) :
    ∃ d, reshapeMatTo1D B (zeros n) false = .ok d ∧ d.length = n ∧
      ∀ k < g.K, ∀ f < 3, ∀ j ≤ g.N, S (3 * k + f) →
        d.getD ((g.N + 1) * 3 * k + f * (g.N + 1) + j) 0 = val (H (3 * k + f)) (gridX (g.tri k) g.n (g.n.mask j f), gridY (g.tri k) g.n (g.n.mask j f)) := by
  obtain ⟨d, e, hl, ha, -⟩ := C10_flatten B (zeros n) false (by rw [hB.rows, hB.cols]; simpa [zeros] using hn)
  refine ⟨d, e, by simpa [zeros] using hl, fun k hk f hf j hj hS => ?_⟩
  have hr : f * (g.N + 1) + j < B.rows := by
    rw [hB.rows]
    calc f * (g.N + 1) + j < f * (g.N + 1) + (g.N + 1) := by omega
      _ = (f + 1) * (g.N + 1) := by ring
      _ ≤ 3 * (g.N + 1) := Nat.mul_le_mul_right _ (by omega)
  have := ha (f * (g.N + 1) + j) k hr (by rw [hB.cols]; exact hk)
  rw [show (g.N + 1) * 3 * k + f * (g.N + 1) + j = Blitz.pos false B.rows B.cols (f * (g.N + 1) + j) k by
    simp only [Blitz.pos, hB.rows, Bool.false_eq_true, if_false]; ring, List.getD_eq_getElem?_getD, this, Option.getD_some, hB.at' k hk f hf j hj hS]

/-- **The vector of boundary contributions.** -/
theorem rhs_form (hg : GridSpec P x m.bcType g) (hm : Conn 3 g.K m.E m.F P) (hbc : 3 * g.K ≤ m.bcType.length) (la : Lapack) (hla : la.Ok) {ubc qbc : DMat ℝ} {U Q : ℕ → P2}
    (hU : FaceValues g ubc (fun e => tagOf m e = 6) U) (hQ : FaceValues g qbc (fun e => tagOf m e = 7 ∨ tagOf m e = 3) Q)
    (dU : ∀ e, (U e).totalDegree ≤ g.N) (dQ : ∀ e, (Q e).totalDegree ≤ g.N) :
    ∃ b, (ctxOf g m).buildBcRhs la ubc qbc = .ok b ∧ b.rows = g.np ∧ b.cols = g.K ∧
      ∀ v V, HasNodes g v V → ∑ k ∈ Finset.range g.K, ∑ i ∈ Finset.range g.np, v (i + g.np * k) * b.at' i k
        = ∑ e ∈ Finset.range (3 * g.K), rhsTerm (seg g e) (penalty g P e) (tagOf m e) (V (e / 3)) (U e) (Q e) := by
  obtain ⟨ME, e, hE⟩ := massEdge_ok la hla hg m
  obtain ⟨F, hR, hF⟩ := ready hg hm hbc ME
  have hN := hg.posN
  have hnp : g.N + 1 ≤ g.np := by
    unfold Grid.np
    rw [Nat.le_div_iff_mul_le (by omega)]
    exact Nat.mul_le_mul_left _ (by omega)
  obtain ⟨du, eu, lu, vu⟩ := flat_getD hU (n := (g.N + 1) * 3 * g.K) (by rw [Nat.mul_comm 3])
  obtain ⟨dq, eq, lq, vq⟩ := flat_getD hQ (n := g.np * 3 * g.K) (by rw [Nat.mul_comm 3]; exact Nat.mul_le_mul_right _ (Nat.mul_le_mul_right _ hnp))
  obtain ⟨b, e1, h1, h2, h3⟩ := hR.rhs (u := du) (q := dq) (by rw [lu]; exact le_refl _) (by rw [lq]; exact Nat.mul_le_mul_right _ (Nat.mul_le_mul_right _ hnp)) g.K (le_refl _)
  refine ⟨b, ?_, h1, h2, fun v V hv => ?_⟩
  · unfold Ctx.buildBcRhs
    rw [e, Out.bind_ok]
    have eu' : reshapeMatTo1D ubc (zeros ((ctxOf g m).nfp * (ctxOf g m).nf * (ctxOf g m).K)) false = .ok du := eu
    have eq' : reshapeMatTo1D qbc (zeros ((ctxOf g m).Np * (ctxOf g m).nf * (ctxOf g m).K)) false = .ok dq := eq
    rw [eu', Out.bind_ok, eq', Out.bind_ok]
    exact e1
  · rw [← sum_faces]
    refine Finset.sum_congr rfl fun k hk => ?_
    have hk := Finset.mem_range.1 hk
    have e2 : ∀ i ∈ Finset.range g.np, v (i + g.np * k) * b.at' i k = ∑ f ∈ Finset.range 3, v (i + g.np * k) * contrib (ctxOf g m) F (fun k f => tagOf m (3 * k + f)) du dq k f i := by
      intro i _
      rw [h3, if_pos hk, Finset.mul_sum]
      rfl
    rw [Finset.sum_congr rfl e2, Finset.sum_comm]
    refine Finset.sum_congr rfl fun f hf => ?_
    have hf := Finset.mem_range.1 hf
    have hd : (3 * k + f) / 3 = k ∧ (3 * k + f) % 3 = f := by omega
    have hs : seg g (3 * k + f) = faceEnds (g.tri k) f := by unfold seg; rw [hd.1, hd.2]
    have ov : OnElem g k (fun i => v (i + g.np * k)) (V k) := hv k hk
    unfold contrib rhsTerm
    rw [hs, hd.1]
    by_cases h6 : tagOf m (3 * k + f) = 6
    · simp only [if_pos h6]
      refine (dirichlet_form hg hk hf (hE f hf) (hF k hk f hf) ov (dU (3 * k + f)) fun j hj => vu k hk f hf j hj h6).trans ?_
      symm
      apply segIntegral_eq
      intro t
      simp only [Polynomial.eval_sub, Polynomial.eval_smul, Polynomial.eval_mul, trace_eval, smul_eq_mul]
      ring
    · simp only [if_neg h6]
      by_cases h7 : tagOf m (3 * k + f) = 7 ∨ tagOf m (3 * k + f) = 3
      · simp only [if_pos h7]
        refine (neumann_form hg hf (hE f hf) (hF k hk f hf) ov (dQ (3 * k + f)) fun j hj => vq k hk f hf j hj h7).trans ?_
        symm
        apply segIntegral_eq
        intro t
        simp only [Polynomial.eval_mul, trace_eval]
      · simp only [if_neg h7, mul_zero, Finset.sum_const_zero]

/-- A polynomial solves the discrete equations with its own boundary data. -/
theorem consistent (hg : GridSpec P x m.bcType g) (U : P2) (V : ℕ → P2) :
    dgForm g m P V (fun _ => U) = l2Form g V (fun _ => -lap U)
      + ∑ e ∈ Finset.range (3 * g.K), rhsTerm (seg g e) (penalty g P e) (tagOf m e) (V (e / 3)) U (dn (outward g e) U) := by
  have e1 : gradForm g V (fun _ => U) = l2Form g V (fun _ => -lap U) + ∑ e ∈ Finset.range (3 * g.K), segIntegral (seg g e) fun z => val (dn (outward g e) U) z * val (V (e / 3)) z := by
    unfold gradForm l2Form
    rw [← sum_faces, ← Finset.sum_add_distrib]
    refine Finset.sum_congr rfl fun k hk => ?_
    rw [parts (hg.ccw k (Finset.mem_range.1 hk))]
    congr 1
    refine Finset.sum_congr rfl fun f hf => ?_
    have hf := Finset.mem_range.1 hf
    have hd : (3 * k + f) / 3 = k ∧ (3 * k + f) % 3 = f := by omega
    unfold outward seg
    rw [hd.1, hd.2]
  unfold dgForm
  rw [e1, add_assoc, ← Finset.sum_add_distrib]
  congr 1
  refine Finset.sum_congr rfl fun e _ => ?_
  unfold faceTerm rhsTerm
  rw [show outward g e = segNormal (seg g e) from rfl]
  by_cases h6 : tagOf m e = 6
  · rw [if_pos h6, if_pos h6, ← segIntegral_add (dn (segNormal (seg g e)) U * V (e / 3))
      (C (penalty g P e) * U * V (e / 3) - dn (segNormal (seg g e)) U * V (e / 3) - U * dn (segNormal (seg g e)) (V (e / 3)))
      (fun z => (val_mul _ _ z).symm) fun z => by simp only [val_sub, val_mul, val_C]]
    congr 1
    funext z
    ring
  · rw [if_neg h6, if_neg h6]
    by_cases h7 : tagOf m e = 7 ∨ tagOf m e = 3
    · rw [if_pos h7, if_pos h7, add_zero]
      congr 1
      funext z
      ring
    · rw [if_neg h7, if_neg h7, ← segIntegral_add (dn (segNormal (seg g e)) U * V (e / 3)) (-(dn (segNormal (seg g e)) U * V (e / 3)))
        (fun z => (val_mul _ _ z).symm) fun z => by
          rw [show val (-(dn (segNormal (seg g e)) U * V (e / 3))) z = -(val (dn (segNormal (seg g e)) U) z * val (V (e / 3)) z) by unfold val; simp]
          ring]
      have : (fun z => val (dn (segNormal (seg g e)) U) z * val (V (e / 3)) z + (penalty g P e * (val U z - val U z) * val (V (e / 3)) z
          - (val (dn (segNormal (seg g e)) U) z + val (dn (segNormal (seg g e)) U) z) * val (V (e / 3)) z - (val U z - val U z) * val (dn (segNormal (seg g e)) (V (e / 3))) z) / 2) = fun _ => 0 := by
        funext z; ring
      rw [this]
      simp [segIntegral]

/-! ### C100 -/

/-- Nodal values of a polynomial: entry `i + Np k` belongs to node `i` of element `k`. -/
noncomputable def nodal (g : Grid) (U : P2) (j : ℕ) : ℝ := val U (gridX (g.tri (j / g.np)) g.n (j % g.np), gridY (g.tri (j / g.np)) g.n (j % g.np))

theorem nodal_nodes {U : P2} (hU : U.totalDegree ≤ g.N) : HasNodes g (nodal g U) fun _ => U := by
  intro k _
  refine ⟨hU, fun i hi => ?_⟩
  unfold nodal
  simp only
  rw [Nat.add_mul_div_left _ _ (by omega), Nat.div_eq_of_lt hi, Nat.add_mul_mod_self_left, Nat.mod_eq_of_lt hi, Nat.zero_add]

theorem lap_deg {U : P2} {n : ℕ} (h : U.totalDegree ≤ n) : (-lap U).totalDegree ≤ n := by
  rw [totalDegree_neg]
  exact (totalDegree_add _ _).trans (max_le (tri_closed n 0 _ (tri_closed n 0 U h)) (tri_closed n 1 _ (tri_closed n 1 U h)))

theorem bil_row (n : ℕ) (A : ℕ → ℕ → ℝ) (a : ℕ) (ha : a < n) (u : ℕ → ℝ) : bil n A (fun i => if i = a then 1 else 0) u = ∑ j ∈ Finset.range n, A a j * u j := by
  unfold bil
  rw [Finset.sum_eq_single a]
  · simp
  · intro b _ hb; simp [hb]
  · intro hb; exact absurd (Finset.mem_range.2 ha) hb

theorem rows_ok (hg : GridSpec P x m.bcType g) {U : P2} (hU : U.totalDegree ≤ g.N) {A M : ℕ → ℕ → ℝ} {b : DMat ℝ}
    (f1 : ∀ v u V U, HasNodes g v V → HasNodes g u U → bil (g.np * g.K) A v u = dgForm g m P V U) (f2 : ∀ v u V U, HasNodes g v V → HasNodes g u U → bil (g.np * g.K) M v u = l2Form g V U)
    (hb : ∀ v V, HasNodes g v V → ∑ k ∈ Finset.range g.K, ∑ i ∈ Finset.range g.np, v (i + g.np * k) * b.at' i k
        = ∑ e ∈ Finset.range (3 * g.K), rhsTerm (seg g e) (penalty g P e) (tagOf m e) (V (e / 3)) U (dn (outward g e) U)) {k : ℕ} (hk : k < g.K) {i : ℕ} (hi' : i < g.np) :
    ∑ j ∈ Finset.range (g.np * g.K), A (i + g.np * k) j * nodal g U j = (∑ j ∈ Finset.range (g.np * g.K), M (i + g.np * k) j * nodal g (-lap U) j) + b.at' i k := by
  have hlt : i + g.np * k < g.np * g.K := by
    calc i + g.np * k < g.np + g.np * k := by omega
      _ = g.np * (k + 1) := by ring
      _ ≤ g.np * g.K := Nat.mul_le_mul_left _ hk
  obtain ⟨V, hV⟩ := hasNodes_exists hg fun a => if a = i + g.np * k then 1 else 0
  have s1 := f1 _ _ V _ hV (nodal_nodes hU)
  have s2 := f2 _ _ V _ hV (nodal_nodes (lap_deg hU))
  have s3 := hb _ V hV
  rw [bil_row _ _ _ hlt] at s1 s2
  rw [s1, s2, consistent hg U V, ← s3]
  congr 1
  rw [Finset.sum_eq_single k, Finset.sum_eq_single i]
  · simp
  · intro a ha hne
    rw [if_neg (by omega), zero_mul]
  · intro hn; exact absurd (Finset.mem_range.2 hi') hn
  · intro a ha hne
    refine Finset.sum_eq_zero fun c hc => ?_
    have hc := Finset.mem_range.1 hc
    rw [if_neg, zero_mul]
    intro heq
    apply hne
    have : (c + g.np * a) / g.np = (i + g.np * k) / g.np := congrArg (· / g.np) heq
    rw [Nat.add_mul_div_left _ _ (by omega), Nat.add_mul_div_left _ _ (by omega), Nat.div_eq_of_lt hc, Nat.div_eq_of_lt hi'] at this
    omega
  · intro hn; exact absurd (Finset.mem_range.2 hk) hn

/-- **C100, consistency.** Take any polynomial `U` of degree at most `N` in `x`, `y`, put the values of `U` on the Dirichlet faces and of its outward normal derivative on the Neuman faces and walls.  Both
calls end normally and the nodal values of `U` satisfy `OP u = MM f + rhs` exactly, `f` being the nodal values of `-ΔU`; whatever the tags are and however the mesh looks. -/
theorem C100_consistent (h : Provisioned la eps ztol tol N m P g) (hi : Fits g false) {U : P2} (hU : U.totalDegree ≤ g.N) {ubc qbc : DMat ℝ}
    (hu : FaceValues g ubc (fun e => tagOf m e = 6) fun _ => U) (hq : FaceValues g qbc (fun e => tagOf m e = 7 ∨ tagOf m e = 3) fun e => dn (outward g e) U) :
    ∃ op mm A M b, (ctxOf g m).build la false = .ok (op, mm) ∧ (ctxOf g m).buildBcRhs la ubc qbc = .ok b ∧ Represents op A ∧ Represents mm M ∧ b.rows = g.np ∧ b.cols = g.K ∧
      ∀ k < g.K, ∀ i < g.np, ∑ j ∈ Finset.range (g.np * g.K), A (i + g.np * k) j * nodal g U j = (∑ j ∈ Finset.range (g.np * g.K), M (i + g.np * k) j * nodal g (-lap U) j) + b.at' i k := by
  obtain ⟨x, hg, -, hK, -⟩ := h.spec
  obtain ⟨op, mm, A, M, e, r1, r2, f1, f2⟩ := C98_forms_any_tags h hi
  obtain ⟨b, e1, b1, b2, hb⟩ := rhs_form hg (Provisioned.conn' h hK) (Provisioned.bc' h hK) la h.lapack hu hq (fun _ => hU) (fun e => dn_deg _ U hU)
  exact ⟨op, mm, A, M, b, e, e1, r1, r2, b1, b2, fun k hk i hi' => rows_ok hg hU f1 f2 hb hk hi'⟩

/-- The right-hand side as one vector. -/
noncomputable def rhsVec (g : Grid) (M : ℕ → ℕ → ℝ) (b : DMat ℝ) (f : ℕ → ℝ) (a : ℕ) : ℝ := (∑ j ∈ Finset.range (g.np * g.K), M a j * f j) + b.at' (a % g.np) (a / g.np)

/-- **C100, exactness.** On a connected mesh with a Dirichlet face, a polynomial `U` of degree at most `N` is recovered exactly: its nodal values are the only solution of the discrete equations. -/
theorem C100_exact (h : Provisioned la eps ztol tol N m P g) (hi : Fits g false) (ht : Tagged g m P) (hc : Connected g P) (hd : ∃ e < 3 * g.K, tagOf m e = 6) {U : P2} (hU : U.totalDegree ≤ g.N)
    {ubc qbc : DMat ℝ} (hu : FaceValues g ubc (fun e => tagOf m e = 6) fun _ => U) (hq : FaceValues g qbc (fun e => tagOf m e = 7 ∨ tagOf m e = 3) fun e => dn (outward g e) U) :
    ∃ op mm A M b, (ctxOf g m).build la false = .ok (op, mm) ∧ (ctxOf g m).buildBcRhs la ubc qbc = .ok b ∧ Represents op A ∧ Represents mm M ∧
      ∀ w : Fin (g.np * g.K) → ℝ, mat (g.np * g.K) A *ᵥ w = (fun a : Fin _ => rhsVec g M b (nodal g (-lap U)) (a : ℕ)) ↔ ∀ a, w a = nodal g U a := by
  obtain ⟨x, hg, -, hK, -⟩ := h.spec
  obtain ⟨op, mm, A, M, e, d1, d2, d3, d4, r1, r2, f1, f2⟩ := C98_forms h false hi ht
  obtain ⟨b, e1, b1, b2, hb⟩ := rhs_form hg (Provisioned.conn' h hK) (Provisioned.bc' h hK) la h.lapack hu hq (fun _ => hU) (fun e => dn_deg _ U hU)
  have f0 : ∀ v u V U, HasNodes g v V → HasNodes g u U → bil (g.np * g.K) A v u = sipForm g m P V U := fun v u V U hv hu => by simpa using f1 v u V U hv hu
  have hb := fun k hk i hi' => rows_ok (k := k) (i := i) hg hU (fun v u V U hv hu => (f0 v u V U hv hu).trans (dgForm_eq hg ht V U).symm) f2 hb hk hi'
  have huniq := solve_of_inj (mat (g.np * g.K) A) fun u hu => definite_inj hg hc ht hd f0 u hu
  refine ⟨op, mm, A, M, b, e, e1, r1, r2, fun w => ?_⟩
  have key : mat (g.np * g.K) A *ᵥ (fun a : Fin _ => nodal g U (a : ℕ)) = fun a : Fin _ => rhsVec g M b (nodal g (-lap U)) (a : ℕ) := by
    funext a
    have ha : (a : ℕ) < g.np * g.K := a.2
    have hnp : 0 < g.np := Nat.pos_of_ne_zero fun h0 => by
      have := lt_of_lt_of_eq ha (congrArg (· * g.K) h0)
      simp at this
    have := hb (a / g.np) (Nat.div_lt_of_lt_mul ha) (a % g.np) (Nat.mod_lt _ hnp)
    rw [Nat.mod_add_div] at this
    unfold rhsVec
    rw [← this, Finset.sum_range]
    rfl
  constructor
  · intro hw a
    exact congrFun ((huniq _).unique hw key) a
  · intro hw
    rw [← key]
    congr 1
    funext a
    exact hw a

/-- **C100, Neuman problem.** Without Dirichlet faces the bordered system is solvable for every polynomial and yields it up to the constant which makes the nodal values add up to zero; the multiplier is 0. -/
theorem C100_neumann (h : Provisioned la eps ztol tol N m P g) (hi : Fits g true) (ht : Tagged g m P) (hc : Connected g P) (hK : 0 < g.K) (hd : ∀ e < 3 * g.K, tagOf m e ≠ 6) {U : P2}
    (hU : U.totalDegree ≤ g.N) {ubc qbc : DMat ℝ} (hu : ubc.rows = 3 * (g.N + 1) ∧ ubc.cols = g.K)
    (hq : FaceValues g qbc (fun e => tagOf m e = 7 ∨ tagOf m e = 3) fun e => dn (outward g e) U) :
    ∃ op mm A M b, (ctxOf g m).build la true = .ok (op, mm) ∧ (ctxOf g m).buildBcRhs la ubc qbc = .ok b ∧ Represents op A ∧ Represents mm M ∧
      ∀ w : Fin (g.np * g.K + 1) → ℝ,
        mat (g.np * g.K + 1) A *ᵥ w = (fun a : Fin _ => if (a : ℕ) < g.np * g.K then rhsVec g M b (nodal g (-lap U)) (a : ℕ) else 0) ↔
          ∀ a, w a = if (a : ℕ) < g.np * g.K then nodal g U a - (∑ j ∈ Finset.range (g.np * g.K), nodal g U j) / (g.np * g.K : ℕ) else 0 := by
  obtain ⟨x, hg, -, hKm, -⟩ := h.spec
  obtain ⟨op, mm, A, M, e, d1, d2, d3, d4, r1, r2, f1, f2⟩ := C98_forms h true hi ht
  simp only [if_true] at f1
  set c := (∑ j ∈ Finset.range (g.np * g.K), nodal g U j) / (g.np * g.K : ℕ) with hcd
  have hnp : 0 < g.np := by unfold Grid.np; have := hg.posN; exact Nat.div_pos (by nlinarith) (by omega)
  have hn : 0 < g.np * g.K := Nat.mul_pos hnp hK
  set W : P2 := U - C c with hW
  have hWd : W.totalDegree ≤ g.N := (totalDegree_sub _ _).trans (max_le hU (by rw [totalDegree_C]; omega))
  have hdn : ∀ n, dn n W = dn n U := by intro n; unfold dn; rw [hW]; simp
  have hlap : lap W = lap U := by unfold lap; rw [hW]; simp
  have hnod : ∀ j, nodal g W j = nodal g U j - c := by intro j; unfold nodal; rw [hW, val_sub, val_C]
  have hu' : FaceValues g ubc (fun e => tagOf m e = 6) fun _ => W := ⟨hu.1, hu.2, fun k hk f hf j _ h6 => absurd h6 (hd _ (by omega))⟩
  obtain ⟨b, e1, b1, b2, hb⟩ := rhs_form hg (Provisioned.conn' h hKm) (Provisioned.bc' h hKm) la h.lapack hu' hq (fun _ => hWd) (fun e => dn_deg _ U hU)
  simp only [← hdn] at hb
  refine ⟨op, mm, A, M, b, e, e1, r1, r2, fun w => ?_⟩
  have hsum : ∑ j ∈ Finset.range (g.np * g.K), nodal g W j = 0 := by
    simp only [hnod]
    rw [Finset.sum_sub_distrib, Finset.sum_const, Finset.card_range, nsmul_eq_mul, hcd, mul_div_cancel₀, sub_self]
    exact Nat.cast_ne_zero.2 hn.ne'
  -- the candidate
  set z : ℕ → ℝ := fun a => if a < g.np * g.K then nodal g W a else 0 with hz
  have zn : HasNodes g z fun _ => W := by
    intro k hk
    refine ⟨hWd, fun i hi => ?_⟩
    have := (nodal_nodes hWd k hk).2 i hi
    rw [this]
    simp only [hz]
    rw [if_pos (node_lt hi hk)]
  have zs : ∑ j ∈ Finset.range (g.np * g.K), z j = 0 := by
    rw [← hsum]; exact Finset.sum_congr rfl fun j hj => if_pos (Finset.mem_range.1 hj)
  have zl : z (g.np * g.K) = 0 := if_neg (lt_irrefl _)
  -- the same matrix without the border
  have g1 : ∀ v u V U, HasNodes g v V → HasNodes g u U → bil (g.np * g.K) A v u = dgForm g m P V U := by
    intro v u V U hv hu
    have cut : ∀ {v : ℕ → ℝ} {V : ℕ → P2}, HasNodes g v V → HasNodes g (fun a => if a < g.np * g.K then v a else 0) V := by
      intro v V hv k hk
      refine ⟨(hv k hk).1, fun i hi => ?_⟩
      simp only [if_pos (node_lt hi hk)]
      exact (hv k hk).2 i hi
    have s := f1 _ _ V U (cut hv) (cut hu)
    simp only [lt_irrefl, if_false, zero_mul, add_zero] at s
    rw [dgForm_eq hg ht, ← s]
    unfold bil
    rw [Finset.sum_range_succ _ (g.np * g.K), Finset.sum_eq_zero (s := Finset.range (g.np * g.K + 1)) (f := fun j => (if g.np * g.K < g.np * g.K then v (g.np * g.K) else 0) * _) fun j _ => by simp, add_zero]
    refine Finset.sum_congr rfl fun i hi => ?_
    rw [Finset.sum_range_succ]
    simp only [lt_irrefl, if_false, mul_zero, add_zero, if_pos (Finset.mem_range.1 hi)]
    exact Finset.sum_congr rfl fun j hj => by rw [if_pos (Finset.mem_range.1 hj)]
  have key : mat (g.np * g.K + 1) A *ᵥ (fun a : Fin _ => z (a : ℕ)) = fun a : Fin _ => if (a : ℕ) < g.np * g.K then rhsVec g M b (nodal g (-lap U)) (a : ℕ) else 0 := by
    funext a
    have e2 : (mat (g.np * g.K + 1) A *ᵥ fun a : Fin _ => z (a : ℕ)) a = ∑ j ∈ Finset.range (g.np * g.K + 1), A a j * z j := by
      rw [Finset.sum_range]; rfl
    rw [e2]
    by_cases ha : (a : ℕ) < g.np * g.K
    · rw [if_pos ha, Finset.sum_range_succ, zl, mul_zero, add_zero]
      have := rows_ok hg hWd g1 f2 hb (Nat.div_lt_of_lt_mul ha) (Nat.mod_lt (a : ℕ) hnp)
      rw [Nat.mod_add_div, hlap] at this
      unfold rhsVec
      rw [← this]
      exact Finset.sum_congr rfl fun j hj => by rw [hz]; simp only; rw [if_pos (Finset.mem_range.1 hj)]
    · rw [if_neg ha]
      have ha' : (a : ℕ) = g.np * g.K := by have := a.2; omega
      rw [ha', ← bil_row _ A _ (by omega) z]
      have h0 : HasNodes g (fun a => if a = (g.np * g.K) then 1 else 0) fun _ => 0 := fun k hk => ⟨by simp, fun i hi => by
        have := node_lt hi hk
        simp only [val_zero]
        rw [if_neg (by omega)]⟩
      rw [f1 _ _ _ _ h0 zn, sip_zero, zs, zl]
      simp
  have huniq := solve_of_inj (mat (g.np * g.K + 1) A) (bordered_inj hg hc hK f1)
  have zv : ∀ a : Fin (g.np * g.K + 1), z (a : ℕ) = if (a : ℕ) < g.np * g.K then nodal g U a - c else 0 := by
    intro a; simp only [hz, hnod]
  constructor
  · intro hw a
    rw [← zv]
    exact congrFun ((huniq _).unique hw key) a
  · intro hw
    rw [← key]
    congr 1
    funext a
    rw [hw a, zv]

/-! ### Concrete cases -/

/-- Face data of every kind exist. -/
theorem faceValues_exists (g : Grid) (S : ℕ → Prop) (H : ℕ → P2) : ∃ B, FaceValues g B S H :=
  ⟨⟨3 * (g.N + 1), g.K, fun r k => val (H (3 * k + r / (g.N + 1))) (gridX (g.tri k) g.n (g.n.mask (r % (g.N + 1)) (r / (g.N + 1))), gridY (g.tri k) g.n (g.n.mask (r % (g.N + 1)) (r / (g.N + 1))))⟩,
    rfl, rfl, fun k _ f _ j hj _ => by
      have h1 : (f * (g.N + 1) + j) / (g.N + 1) = f := by
        rw [Nat.add_comm, Nat.add_mul_div_right _ _ (by omega), Nat.div_eq_of_lt (by omega), Nat.zero_add]
      have h2 : (f * (g.N + 1) + j) % (g.N + 1) = j := by
        rw [Nat.add_comm, Nat.add_mul_mod_self_right, Nat.mod_eq_of_lt (by omega)]
      simp only [h1, h2]⟩

/-- The square with two Dirichlet faces, a wall and a Neuman face, `U = x + 2y`: hypotheses met. -/
example : ∃ g ubc qbc op mm A M b, (ctxOf g (squareTags [6, 0, 3, 6, 7, 0])).build exactLapack false = .ok (op, mm) ∧ (ctxOf g (squareTags [6, 0, 3, 6, 7, 0])).buildBcRhs exactLapack ubc qbc = .ok b ∧
    Represents op A ∧ Represents mm M ∧ ∀ w : Fin (g.np * g.K) → ℝ, mat (g.np * g.K) A *ᵥ w = (fun a : Fin _ => rhsVec g M b (nodal g (-lap (X 0 + C 2 * X 1))) (a : ℕ)) ↔ ∀ a, w a = nodal g (X 0 + C 2 * X 1) a := by
  obtain ⟨g, hg, h1, h2, -⟩ := squareTags_grid [6, 0, 3, 6, 7, 0] (by decide)
  obtain ⟨x, -, hN, -, -⟩ := hg.spec
  have hU : (X 0 + C 2 * X 1 : P2).totalDegree ≤ g.N := by
    rw [hN]
    refine (totalDegree_add _ _).trans (max_le (by rw [totalDegree_X]) ((totalDegree_mul _ _).trans ?_))
    rw [totalDegree_C, totalDegree_X]
  obtain ⟨ubc, hu⟩ := faceValues_exists g (fun e => tagOf (squareTags [6, 0, 3, 6, 7, 0]) e = 6) fun _ => X 0 + C 2 * X 1
  obtain ⟨qbc, hq⟩ := faceValues_exists g (fun e => tagOf (squareTags [6, 0, 3, 6, 7, 0]) e = 7 ∨ tagOf (squareTags [6, 0, 3, 6, 7, 0]) e = 3) fun e => dn (outward g e) (X 0 + C 2 * X 1)
  exact ⟨g, ubc, qbc, C100_exact hg (square_fits h1 h2 _) (square_tagged h2 _ _ _ _ (by decide) (by decide) (by decide) (by decide)) (square_connected h2) ⟨0, by omega, rfl⟩ hU hu hq⟩

/-- The square with walls and a Neuman face. -/
example : ∃ g qbc, ∀ ubc : DMat ℝ, ubc.rows = 3 * (g.N + 1) ∧ ubc.cols = g.K →
    ∃ op mm A M b, (ctxOf g (squareTags [3, 0, 3, 7, 7, 0])).build exactLapack true = .ok (op, mm) ∧ (ctxOf g (squareTags [3, 0, 3, 7, 7, 0])).buildBcRhs exactLapack ubc qbc = .ok b ∧ Represents op A ∧ Represents mm M ∧
      ∀ w : Fin (g.np * g.K + 1) → ℝ,
        mat (g.np * g.K + 1) A *ᵥ w = (fun a : Fin _ => if (a : ℕ) < g.np * g.K then rhsVec g M b (nodal g (-lap (X 1))) (a : ℕ) else 0) ↔
          ∀ a, w a = if (a : ℕ) < g.np * g.K then nodal g (X 1) a - (∑ j ∈ Finset.range (g.np * g.K), nodal g (X 1) j) / (g.np * g.K : ℕ) else 0 := by
  obtain ⟨g, hg, h1, h2, -⟩ := squareTags_grid [3, 0, 3, 7, 7, 0] (by decide)
  obtain ⟨x, -, hN, -, -⟩ := hg.spec
  obtain ⟨qbc, hq⟩ := faceValues_exists g (fun e => tagOf (squareTags [3, 0, 3, 7, 7, 0]) e = 7 ∨ tagOf (squareTags [3, 0, 3, 7, 7, 0]) e = 3) fun e => dn (outward g e) (X 1)
  refine ⟨g, qbc, fun ubc hu => C100_neumann hg (square_fits h1 h2 _) (square_tagged h2 _ _ _ _ (by decide) (by decide) (by decide) (by decide)) (square_connected h2) (by omega) (fun e he => ?_)
    (by rw [totalDegree_X, hN]) hu hq⟩
  rw [h2] at he
  have he : e < 6 := he
  interval_cases e <;> simp [tagOf, squareTags]

end Blitzdg.Poisson
