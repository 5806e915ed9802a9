import Verif.SW.PyWeakProps
import Verif.Poisson.Consist
import Verif.Poisson.Coercive

/-!
C115, continued: consequences of the weak form, and the setup of sw2d_curved.py.
-/

namespace Blitzdg.SW

open MvPolynomial
open Blitzdg.Sparse (DMat)
open Blitzdg.Nodes1D (Lapack)
open Blitzdg.Dense (toMat)
open Blitzdg.DG2D
open Blitzdg.Ctx (Cubature GaussFace CubatureSpec GaussSpec atNode atPoint atGauss over pointAt size)

variable {P : ℕ → ℕ} {x : List ℝ} {bt : List Int} {g : Grid} {c : Cubature} {ga : GaussFace} {NC NG : ℕ} {ts : TriSolve} {J : DMat ℝ} {curved gP : List ℕ} {Q σ : ℕ → ℕ}

/-! ### The inner product -/

theorem over_comb (T : Tri) (A B : P2) (a : ℝ) : over T (A + C a * B) = over T A + a * over T B := by
  unfold over
  have e : Ctx.pull T (A + C a * B) = Ctx.pull T A + C a * Ctx.pull T B := by
    unfold Ctx.pull
    simp [algebraMap_eq]
  rw [e, (triModal 1).add, Poisson.integ_smul]
  ring

theorem pairing_comb (k : ℕ) (A B : P2) (a : ℝ) : pairing g c curved k (A + C a * B) = pairing g c curved k A + a * pairing g c curved k B := by
  unfold pairing
  split_ifs
  · rw [Finset.mul_sum, ← Finset.sum_add_distrib]
    refine Finset.sum_congr rfl fun i _ => ?_
    unfold atPoint
    rw [map_add, map_mul, eval_C]
    ring
  · exact over_comb _ _ _ _

/-- A triangular factor with non-zero diagonal takes only zero to zero. -/
theorem upper_inj {n : ℕ} (A : ℕ → ℕ → ℝ) (hu : ∀ i < n, ∀ j < i, A i j = 0) (hd : ∀ i < n, A i i ≠ 0) (z : ℕ → ℝ) (hz : ∀ i < n, ∑ j ∈ Finset.range n, A i j * z j = 0) : ∀ i < n, z i = 0 := by
  have hdet : (Matrix.of fun i j : Fin n => A i j).det ≠ 0 := by
    rw [Matrix.det_of_isUpperTriangular]
    · exact Finset.prod_ne_zero_iff.2 fun i _ => hd i i.2
    · intro i j hij
      exact hu i i.2 j hij
  have := Matrix.eq_zero_of_mulVec_eq_zero hdet (v := fun j : Fin n => z j) (by
    funext i
    have := hz i i.2
    rw [Finset.sum_range] at this
    exact this)
  intro i hi
  exact congrFun this ⟨i, hi⟩

/-- The cubature of a square in terms of the factor of the mass matrix. -/
theorem square_factor (hc : CubatureSpec g NC c) {k : ℕ} (hk : k < g.K) {D : P2} (hD : D.totalDegree ≤ g.N) :
    ∑ i ∈ Finset.range c.n, c.W.at' i k * (atPoint c D k i * atPoint c D k i) =
      ∑ l ∈ Finset.range g.np, (∑ j ∈ Finset.range g.np, (c.chol k).at' l j * atNode g D k j) * ∑ j ∈ Finset.range g.np, (c.chol k).at' l j * atNode g D k j := by
  rw [← hc.mass D D hD hD k hk]
  have e : ∀ i ∈ Finset.range g.np, ∀ j ∈ Finset.range g.np, atNode g D k i * ((c.MM k).at' i j * atNode g D k j)
      = ∑ l ∈ Finset.range g.np, ((c.chol k).at' l i * atNode g D k i) * ((c.chol k).at' l j * atNode g D k j) := by
    intro i hi j hj
    rw [← hc.factor k hk i (Finset.mem_range.1 hi) j (Finset.mem_range.1 hj), Finset.sum_mul, Finset.mul_sum]
    exact Finset.sum_congr rfl fun l _ => by ring
  rw [Finset.sum_congr rfl fun i hi => Finset.sum_congr rfl fun j hj => e i hi j hj]
  rw [Finset.sum_congr rfl fun i _ => Finset.sum_comm, Finset.sum_comm]
  refine Finset.sum_congr rfl fun l _ => ?_
  rw [Finset.sum_mul_sum]

/-- The inner product is definite: a polynomial of the order of the grid with square zero has nodal values zero. -/
theorem pairing_zero (h : WeakSetup ts P bt g NC NG c ga J curved Q gP σ) {k : ℕ} (hk : k < g.K) {D : P2} (hD : D.totalDegree ≤ g.N) (h0 : pairing g c curved k (D * D) = 0) :
    ∀ i < g.np, atNode g D k i = 0 := by
  obtain ⟨x, hg⟩ := h.grid
  unfold pairing at h0
  split_ifs at h0 with hm
  · have e : ∑ i ∈ Finset.range c.n, c.W.at' i k * atPoint c (D * D) k i = ∑ i ∈ Finset.range c.n, c.W.at' i k * (atPoint c D k i * atPoint c D k i) :=
      Finset.sum_congr rfl fun i _ => by unfold atPoint; rw [map_mul]
    rw [e, square_factor h.cub hk hD] at h0
    refine upper_inj (fun i j => (c.chol k).at' i j) (h.cub.upper k hk) (h.chol k hm).2 _ fun l hl => ?_
    exact mul_self_eq_zero.1 ((Finset.sum_eq_zero_iff_of_nonneg fun l _ => mul_self_nonneg _).1 h0 l (Finset.mem_range.2 hl))
  · unfold over at h0
    rw [Ctx.pull_mul] at h0
    have h1 := Poisson.integ_sq_zero _ ((mul_eq_zero.1 h0).resolve_left (by have := hg.ccw k hk; positivity))
    intro i _
    have := Ctx.ev_pull (g.tri k) D (g.n.r.getD i 0) (g.n.s.getD i 0)
    rw [h1, map_zero] at this
    exact this.symm

/-! ### Constant concentration -/

/-- The depth is positive at the points where the code divides by it. -/
def Deep (g : Grid) (c : Cubature) (ga : GaussFace) (H : ℕ → P2) : Prop := ∀ k < g.K, (∀ i < c.n, 0 < atPoint c (H k) k i) ∧ ∀ i < 3 * ga.n, 0 < atGauss ga (H k) k i

theorem tracer_prop (grav nx ny lam c0 : ℝ) (m p : State) (hm : m.h ≠ 0) (hp : p.h ≠ 0) : tracerFlux nx ny lam m p (c0 * m.h) (c0 * p.h) = c0 * (numFlux grav nx ny lam m p).c1 := by
  rw [← (C51_flux grav nx ny lam m p).2.1]
  simp only [tracerFlux, weakFlux, State.vel, fluxF, fluxG]
  field_simp

theorem mul_degree {p : P2} {n : ℕ} (a : ℝ) (h : p.totalDegree ≤ n) : (C a * p).totalDegree ≤ n := by
  refine (totalDegree_mul _ _).trans ?_
  rw [totalDegree_C]
  omega

/-- **C115, constant concentration.** A tracer of constant concentration keeps it: the rate of the tracer is that of the depth times the concentration. -/
theorem C115_constant (h : WeakSetup ts P bt g NC NG c ga J curved Q gP σ) (grav f : ℝ) (CD zx zy : DMat ℝ) (q : Fields) (hN : DMat ℝ) (c0 : ℝ) (hc0 : ∀ i < g.np, ∀ k < g.K, hN.at' i k = c0 * q.h.at' i k)
    {H : ℕ → P2} (hH : Pieces g q.h.at' H) (hdeep : Deep g c ga H) :
    ∃ r n, g.rhsWeak ts c ga grav f CD zx zy J curved ga.mapM gP q hN = .ok (r, n) ∧ ∀ i < g.np, ∀ k < g.K, n.at' i k = c0 * r.h.at' i k := by
  obtain ⟨x, hg⟩ := h.grid
  obtain rfl := h.gauss.count
  obtain ⟨B, hB⟩ := pieces_exist hg q.hu.at'
  obtain ⟨D, hD⟩ := pieces_exist hg q.hv.at'
  have hU : IsPieces g q.h.at' q.hu.at' q.hv.at' hN.at' ⟨H, B, D, fun k => C c0 * H k⟩ := by
    refine ⟨hH, hB, hD, fun k hk => ⟨mul_degree _ (hH k hk).1, fun i hi => ?_⟩⟩
    rw [hc0 i hi k hk, ← (hH k hk).2 i hi]
    unfold atNode
    rw [map_mul, eval_C]
  obtain ⟨r, n, Λ, hr, -, -, -, hR⟩ := C115_weak h grav f CD zx zy q hN hU
  obtain ⟨R, hRp⟩ := isPieces_exist hg r.h.at' (fun i k => r.hu.at' i k - sourceX grav f (CD.at' i k) q zx i k) (fun i k => r.hv.at' i k - sourceY grav f (CD.at' i k) q zy i k) n.at'
  refine ⟨r, n, hr, fun i hi k hk => ?_⟩
  obtain ⟨w1, -, -, w4⟩ := hR R hRp k hk
  have hdeg : (R.n k + C (-c0) * R.h k).totalDegree ≤ g.N := (totalDegree_add _ _).trans (max_le (hRp.n k hk).1 (mul_degree _ (hRp.h k hk).1))
  have hz := pairing_zero h hk hdeg (by
    have e : (R.n k + C (-c0) * R.h k) * (R.n k + C (-c0) * R.h k) = (R.n k + C (-c0) * R.h k) * R.n k + C (-c0) * ((R.n k + C (-c0) * R.h k) * R.h k) := by ring
    rw [e, pairing_comb]
    generalize R.n k + C (-c0) * R.h k = v at hdeg ⊢
    rw [w1 v hdeg, w4 v hdeg]
    have e1 : ∀ i ∈ Finset.range c.n, c.W.at' i k * (atPoint c (pderiv 0 v) k i * ((Poly4.mk H B D fun k => C c0 * H k).tracer k (c.x.at' i k, c.y.at' i k) * ((Poly4.mk H B D fun k => C c0 * H k).state k (c.x.at' i k, c.y.at' i k)).vel.1)
          + atPoint c (pderiv 1 v) k i * ((Poly4.mk H B D fun k => C c0 * H k).tracer k (c.x.at' i k, c.y.at' i k) * ((Poly4.mk H B D fun k => C c0 * H k).state k (c.x.at' i k, c.y.at' i k)).vel.2))
        = c0 * (c.W.at' i k * (atPoint c (pderiv 0 v) k i * (fluxF grav ((Poly4.mk H B D fun k => C c0 * H k).state k (c.x.at' i k, c.y.at' i k))).c1
          + atPoint c (pderiv 1 v) k i * (fluxG grav ((Poly4.mk H B D fun k => C c0 * H k).state k (c.x.at' i k, c.y.at' i k))).c1)) := by
      intro i hi
      have hne : ev (c.x.at' i k) (c.y.at' i k) (H k) ≠ 0 := ((hdeep k hk).1 i (Finset.mem_range.1 hi)).ne'
      simp only [Poly4.tracer, Poly4.state, State.vel, fluxF, fluxG, map_mul, eval_C]
      field_simp
    have e2 : ∀ i ∈ Finset.range (3 * ga.n), ga.W.at' i k * (atGauss ga v k i * tracerFlux (normalAt ga (3 * ga.n * k + i)).1 (normalAt ga (3 * ga.n * k + i)).2 (Λ ((3 * ga.n * k + i) / ga.n)) (inAt ga (Poly4.mk H B D fun k => C c0 * H k) (3 * ga.n * k + i))
          (outAt P bt ga (Poly4.mk H B D fun k => C c0 * H k) (3 * ga.n * k + i) (σ (3 * ga.n * k + i))) (inTracer ga (Poly4.mk H B D fun k => C c0 * H k) (3 * ga.n * k + i)) (inTracer ga (Poly4.mk H B D fun k => C c0 * H k) (σ (3 * ga.n * k + i))))
        = c0 * (ga.W.at' i k * (atGauss ga v k i * (numFlux grav (normalAt ga (3 * ga.n * k + i)).1 (normalAt ga (3 * ga.n * k + i)).2 (Λ ((3 * ga.n * k + i) / ga.n)) (inAt ga (Poly4.mk H B D fun k => C c0 * H k) (3 * ga.n * k + i))
          (outAt P bt ga (Poly4.mk H B D fun k => C c0 * H k) (3 * ga.n * k + i) (σ (3 * ga.n * k + i)))).c1)) := by
      intro i hi
      have hp := num_lt (g := g) (Finset.mem_range.1 hi) hk
      generalize 3 * ga.n * k + i = p at hp ⊢
      have hin : ∀ p < 3 * ga.n * g.K, (inAt ga (Poly4.mk H B D fun k => C c0 * H k) p).h ≠ 0 ∧ inTracer ga (Poly4.mk H B D fun k => C c0 * H k) p = c0 * (inAt ga (Poly4.mk H B D fun k => C c0 * H k) p).h := by
        intro p hp
        obtain ⟨i1, k1⟩ := row_of hp
        refine ⟨((hdeep _ k1).2 _ i1).ne', ?_⟩
        simp only [inTracer, inAt, Poly4.tracer, Poly4.state, map_mul, eval_C]
      have hout : (outAt P bt ga (Poly4.mk H B D fun k => C c0 * H k) p (σ p)).h = (inAt ga (Poly4.mk H B D fun k => C c0 * H k) (σ p)).h := by
        unfold outAt
        split_ifs with hw
        · rw [h.pairs.self p hp (h.walls _ (face_of hp).1 hw)]
          rfl
        · rfl
      obtain ⟨a1, a2⟩ := hin p hp
      obtain ⟨b1, b2⟩ := hin (σ p) (h.pairs.face p hp).1
      rw [a2, b2, ← hout, tracer_prop grav _ _ _ _ _ _ a1 (by rw [hout]; exact b1)]
      ring
    rw [Finset.sum_congr rfl e1, Finset.sum_congr rfl e2, ← Finset.mul_sum, ← Finset.mul_sum]
    ring) i hi
  have e : atNode g (R.n k + C (-c0) * R.h k) k i = n.at' i k - c0 * r.h.at' i k := by
    rw [← (hRp.n k hk).2 i hi, ← (hRp.h k hk).2 i hi]
    unfold atNode
    rw [map_add, map_mul, eval_C]
    ring
  rw [e] at hz
  linarith

/-! ### Still water -/

theorem wall_rest (nx ny d : ℝ) : wallState nx ny ⟨d, 0, 0⟩ = ⟨d, 0, 0⟩ := by simp [wallState]

theorem rest_flux (grav nx ny lam d : ℝ) : numFlux grav nx ny lam ⟨d, 0, 0⟩ ⟨d, 0, 0⟩ = ⟨0, grav * d ^ 2 / 2 * nx, grav * d ^ 2 / 2 * ny⟩ := by
  rw [(C51_flux grav nx ny lam ⟨d, 0, 0⟩ ⟨d, 0, 0⟩).2.2.2]
  simp

/-- **C115, still water.** Over a flat bed, water at rest with constant depth keeps its depth, and a tracer without jumps between partner points keeps its values.  The rates of the momenta vanish up to the error of the
cubature. -/
theorem C115_rest (h : WeakSetup ts P bt g NC NG c ga J curved Q gP σ) (hNC : g.N ≤ NC) (hNG : g.N ≤ 2 * NG - 1) (grav f : ℝ) (CD zx zy : DMat ℝ) (q : Fields) (hN : DMat ℝ) (d : ℝ)
    (hq : ∀ i < g.np, ∀ k < g.K, q.at' i k = ⟨d, 0, 0⟩) (hz : ∀ i < g.np, ∀ k < g.K, zx.at' i k = 0 ∧ zy.at' i k = 0)
    {T : ℕ → P2} (hT : Pieces g hN.at' T) (hcont : ∀ p < 3 * ga.n * g.K, (Poly4.mk T T T T).tracer (σ p / (3 * ga.n)) (pointAt ga (σ p)) = (Poly4.mk T T T T).tracer (p / (3 * ga.n)) (pointAt ga p)) :
    ∃ r n, g.rhsWeak ts c ga grav f CD zx zy J curved ga.mapM gP q hN = .ok (r, n) ∧ (∀ i < g.np, ∀ k < g.K, r.h.at' i k = 0 ∧ n.at' i k = 0) ∧
      ∀ A B, Pieces g r.hu.at' A → Pieces g r.hv.at' B → ∀ k < g.K, ∀ v : P2, v.totalDegree ≤ g.N →
        |pairing g c curved k (v * A k)| ≤ |grav * d ^ 2 / 2| * (2e-14 * (cross (g.tri k) / 4 * size (g.tri k) (pderiv 0 v))) ∧
        |pairing g c curved k (v * B k)| ≤ |grav * d ^ 2 / 2| * (2e-14 * (cross (g.tri k) / 4 * size (g.tri k) (pderiv 1 v))) := by
  obtain ⟨x, hg⟩ := h.grid
  obtain rfl := h.gauss.count
  have hq1 : ∀ i < g.np, ∀ k < g.K, q.h.at' i k = d ∧ q.hu.at' i k = 0 ∧ q.hv.at' i k = 0 := fun i hi k hk => by
    have := hq i hi k hk
    exact ⟨congrArg State.h this, congrArg State.hu this, congrArg State.hv this⟩
  have hU : IsPieces g q.h.at' q.hu.at' q.hv.at' hN.at' ⟨fun _ => C d, fun _ => 0, fun _ => 0, T⟩ := by
    refine ⟨fun k hk => ⟨by simp, fun i hi => ?_⟩, fun k hk => ⟨by simp, fun i hi => ?_⟩, fun k hk => ⟨by simp, fun i hi => ?_⟩, hT⟩
    · rw [(hq1 i hi k hk).1]; simp [atNode]
    · rw [(hq1 i hi k hk).2.1]; simp [atNode]
    · rw [(hq1 i hi k hk).2.2]; simp [atNode]
  obtain ⟨U, hUe⟩ : ∃ U, U = Poly4.mk (fun _ => C d) (fun _ => 0) (fun _ => 0) T := ⟨_, rfl⟩
  rw [← hUe] at hU
  have hst : ∀ k z, U.state k z = ⟨d, 0, 0⟩ := fun k z => by rw [hUe]; simp [Poly4.state]
  have hin : ∀ p, inAt ga U p = ⟨d, 0, 0⟩ := fun p => hst _ _
  have hout : ∀ p p', outAt P bt ga U p p' = ⟨d, 0, 0⟩ := fun p p' => by
    unfold outAt
    rw [hin, hin, wall_rest, ite_self]
  obtain ⟨r, n, Λ, hr, -, -, -, hR⟩ := C115_weak h grav f CD zx zy q hN hU
  have hs : ∀ i < g.np, ∀ k < g.K, sourceX grav f (CD.at' i k) q zx i k = 0 ∧ sourceY grav f (CD.at' i k) q zy i k = 0 := by
    intro i hi k hk
    obtain ⟨q1, q2, q3⟩ := hq1 i hi k hk
    obtain ⟨z1, z2⟩ := hz i hi k hk
    unfold sourceX sourceY
    rw [q2, q3, z1, z2]
    simp
  obtain ⟨A0, hA0⟩ := pieces_exist hg r.hu.at'
  obtain ⟨B0, hB0⟩ := pieces_exist hg r.hv.at'
  obtain ⟨H, hH⟩ := pieces_exist hg r.h.at'
  obtain ⟨N0, hN0⟩ := pieces_exist hg n.at'
  have hW := fun A B (hA : Pieces g r.hu.at' A) (hB : Pieces g r.hv.at' B) => hR ⟨H, A, B, N0⟩ ⟨hH,
    fun k hk => ⟨(hA k hk).1, fun i hi => by rw [(hs i hi k hk).1, sub_zero]; exact (hA k hk).2 i hi⟩,
    fun k hk => ⟨(hB k hk).1, fun i hi => by rw [(hs i hi k hk).2, sub_zero]; exact (hB k hk).2 i hi⟩, hN0⟩
  refine ⟨r, n, hr, fun i hi k hk => ⟨?_, ?_⟩, fun A B hA hB k hk v hv => ⟨?_, ?_⟩⟩
  · have w := (hW A0 B0 hA0 hB0 k hk).1 (H k) (hH k hk).1
    dsimp only at w
    rw [← (hH k hk).2 i hi]
    refine pairing_zero h hk (hH k hk).1 ?_ i hi
    rw [w]
    simp only [hst, hin, hout, rest_flux]
    simp [fluxF, fluxG]
  · have w := (hW A0 B0 hA0 hB0 k hk).2.2.2 (N0 k) (hN0 k hk).1
    dsimp only at w
    rw [← (hN0 k hk).2 i hi]
    refine pairing_zero h hk (hN0 k hk).1 ?_ i hi
    rw [w]
    have e : ∀ j ∈ Finset.range (3 * ga.n), inTracer ga U (σ (3 * ga.n * k + j)) = inTracer ga U (3 * ga.n * k + j) := by
      intro j hj
      have := hcont _ (num_lt (g := g) (Finset.mem_range.1 hj) hk)
      rw [hUe]
      exact this
    rw [Finset.sum_eq_zero fun j _ => by rw [hst]; simp [State.vel], Finset.sum_eq_zero fun j hj => by rw [e j hj, hin, hout]; simp [State.vel, tracerFlux], sub_zero]
  · have w := (hW A B hA hB k hk).2.1 v hv
    dsimp only at w
    rw [w]
    simp only [hst, hin, hout, rest_flux]
    have e1 : ∀ i ∈ Finset.range (3 * ga.n), ga.W.at' i k * (atGauss ga v k i * (grav * d ^ 2 / 2 * (normalAt ga (3 * ga.n * k + i)).1))
        = grav * d ^ 2 / 2 * (ga.W.at' i k * (ga.nx.at' i k * atGauss ga v k i + ga.ny.at' i k * atGauss ga 0 k i)) := by
      intro i hi
      have := num_row (ga := ga) (k := k) (Finset.mem_range.1 hi)
      simp only [normalAt, this.1, this.2]
      simp only [atGauss, map_zero]
      ring
    have e2 : ∀ i ∈ Finset.range c.n, c.W.at' i k * (atPoint c (pderiv 0 v) k i * (fluxF grav ⟨d, 0, 0⟩).c2 + atPoint c (pderiv 1 v) k i * (fluxG grav ⟨d, 0, 0⟩).c2)
        = grav * d ^ 2 / 2 * (c.W.at' i k * atPoint c (pderiv 0 v) k i) := by
      intro i _
      simp only [fluxF, fluxG]
      ring
    rw [Finset.sum_congr rfl e1, Finset.sum_congr rfl e2, ← Finset.mul_sum, ← Finset.mul_sum, h.gauss.green v 0 (hv.trans hNG) (by simp) k hk, map_zero, add_zero, ← mul_sub, abs_mul]
    exact mul_le_mul_of_nonneg_left (h.cub.quad _ ((tri_closed g.N _ v hv).trans hNC) k hk) (abs_nonneg _)
  · have w := (hW A B hA hB k hk).2.2.1 v hv
    dsimp only at w
    rw [w]
    simp only [hst, hin, hout, rest_flux]
    have e1 : ∀ i ∈ Finset.range (3 * ga.n), ga.W.at' i k * (atGauss ga v k i * (grav * d ^ 2 / 2 * (normalAt ga (3 * ga.n * k + i)).2))
        = grav * d ^ 2 / 2 * (ga.W.at' i k * (ga.nx.at' i k * atGauss ga 0 k i + ga.ny.at' i k * atGauss ga v k i)) := by
      intro i hi
      have := num_row (ga := ga) (k := k) (Finset.mem_range.1 hi)
      simp only [normalAt, this.1, this.2]
      simp only [atGauss, map_zero]
      ring
    have e2 : ∀ i ∈ Finset.range c.n, c.W.at' i k * (atPoint c (pderiv 0 v) k i * (fluxF grav ⟨d, 0, 0⟩).c3 + atPoint c (pderiv 1 v) k i * (fluxG grav ⟨d, 0, 0⟩).c3)
        = grav * d ^ 2 / 2 * (c.W.at' i k * atPoint c (pderiv 1 v) k i) := by
      intro i _
      simp only [fluxF, fluxG]
      ring
    rw [Finset.sum_congr rfl e1, Finset.sum_congr rfl e2, ← Finset.mul_sum, ← Finset.mul_sum, h.gauss.green 0 v (by simp) (hv.trans hNG) k hk, map_zero, zero_add, ← mul_sub, abs_mul]
    exact mul_le_mul_of_nonneg_left (h.cub.quad _ ((tri_closed g.N _ v hv).trans hNC) k hk) (abs_nonneg _)

/-- **C115, no wall.** Without a wall in the context's table of tags the call raises KeyError. -/
theorem C115_no_wall (ts : TriSolve) (g : Grid) (c : Cubature) (ga : GaussFace) (hw : ga.bc 3 = none) (grav f : ℝ) (CD zx zy J : DMat ℝ) (curved gM gP : List ℕ) (q : Fields) (hN : DMat ℝ) :
    g.rhsWeak ts c ga grav f CD zx zy J curved gM gP q hN = .throws := by
  unfold Grid.rhsWeak tagNodes
  rw [hw]
  rfl

theorem gaussSide_cases (q : Fields) (hN : DMat ℝ) (idx : List ℕ) : (∃ r, g.gaussSide ga q hN idx = .ok r) ∨ g.gaussSide ga q hN idx = .throws := by
  unfold Grid.gaussSide
  rcases pick_cases (g.flatG ga (g.dotAt ga.interp q.h)) idx with ⟨a, ha⟩ | ha <;> rcases pick_cases (g.flatG ga (g.dotAt ga.interp q.hu)) idx with ⟨b, hb⟩ | hb <;>
    rcases pick_cases (g.flatG ga (g.dotAt ga.interp q.hv)) idx with ⟨c, hc⟩ | hc <;> rcases pick_cases (g.flatG ga (g.dotAt ga.interp hN)) idx with ⟨d, hd⟩ | hd <;>
    simp only [ha, hb, hc, hd, Out.bind_ok, Out.pure_eq] <;> first | exact Or.inr rfl | exact Or.inl ⟨_, rfl⟩

theorem gaussSide_bad (q : Fields) (hN : DMat ℝ) (idx : List ℕ) (h : ∃ i ∈ idx, 3 * ga.n * g.K ≤ i) : g.gaussSide ga q hN idx = .throws := by
  have : pick (g.flatG ga (g.dotAt ga.interp q.h)) idx = .throws := pick_bad _ _ (by rw [flatG_length]; exact h)
  unfold Grid.gaussSide
  rw [this]
  rfl

/-- **C115, indices.** An index array with an entry beyond the Gauss points raises an exception. -/
theorem C115_index (ts : TriSolve) (g : Grid) (c : Cubature) (ga : GaussFace) (grav f : ℝ) (CD zx zy J : DMat ℝ) (curved gM gP : List ℕ) (q : Fields) (hN : DMat ℝ)
    (h : ∃ i ∈ gM ++ gP, 3 * ga.n * g.K ≤ i) : g.rhsWeak ts c ga grav f CD zx zy J curved gM gP q hN = .throws := by
  unfold Grid.rhsWeak tagNodes
  cases ga.bc 3 with
  | none => rfl
  | some W =>
    obtain ⟨i, hi, hl⟩ := h
    rcases List.mem_append.1 hi with hm | hm
    · simp only [gaussSide_bad (ga := ga) (g := g) q hN gM ⟨i, hm, hl⟩, Out.bind_ok]
      rfl
    · rcases gaussSide_cases (ga := ga) (g := g) q hN gM with ⟨r, hr⟩ | hr
      · simp only [hr, gaussSide_bad (ga := ga) (g := g) q hN gP ⟨i, hm, hl⟩, Out.bind_ok]
        rfl
      · simp only [hr, Out.bind_ok]
        rfl

theorem chol_in (ts : TriSolve) (mm : ℕ → ℕ → ℝ) (l : List ℕ) (R R' : DMat ℝ) (h : loopM (cholStep ts g c mm) R l = .ok R') : ∀ k ∈ l, k < g.K := by
  induction l generalizing R with
  | nil => simp
  | cons a l ih =>
    rw [loopM_cons] at h
    obtain ⟨R1, h1, h2⟩ := Out.bind_eq_ok.1 h
    intro k hk
    rcases List.mem_cons.1 hk with rfl | hk
    · unfold cholStep at h1
      by_contra hlt
      rw [if_pos (by omega)] at h1
      cases h1
    · exact ih R1 h2 k hk

/-- **C115, curved elements.** The call does not return if a number in the list of curved elements is beyond the elements of the grid. -/
theorem C115_curved (ts : TriSolve) (g : Grid) (c : Cubature) (ga : GaussFace) (grav f : ℝ) (CD zx zy J : DMat ℝ) (curved gM gP : List ℕ) (q : Fields) (hN : DMat ℝ) (h : ∃ k ∈ curved, g.K ≤ k)
    (r : Fields × DMat ℝ) : g.rhsWeak ts c ga grav f CD zx zy J curved gM gP q hN ≠ .ok r := by
  intro hr
  unfold Grid.rhsWeak at hr
  obtain ⟨mapW, -, hr⟩ := Out.bind_eq_ok.1 hr
  obtain ⟨m, -, hr⟩ := Out.bind_eq_ok.1 hr
  obtain ⟨p0, -, hr⟩ := Out.bind_eq_ok.1 hr
  split_ifs at hr
  obtain ⟨p, -, hr⟩ := Out.bind_eq_ok.1 hr
  obtain ⟨r1, h1, -⟩ := Out.bind_eq_ok.1 hr
  obtain ⟨k, hk, hl⟩ := h
  have := chol_in ts _ _ _ _ h1 k (List.mem_dedup.2 hk)
  omega

/-! ### The setup of sw2d_curved.py -/

/-- The points of a built context are those of its rule. -/
theorem cub_points {la : Lapack} {dpotrf : ℕ → List ℝ → Int × List ℝ} {NC : ℤ} {pts : List (ℝ × ℝ × ℝ)} (hw : Cub.Works NC pts) (h : Ctx.buildCubature la dpotrf g NC = .ok c) :
    c.n = pts.length ∧ c.r = pts.map (fun q => q.1) ∧ c.s = pts.map fun q => q.2.1 := by
  obtain ⟨k1, k2, k3, k4⟩ := Ctx.read_rule hw
  unfold Ctx.buildCubature at h
  simp only [k1, k2, k3, k4, Out.bind_ok] at h
  obtain ⟨d, -, h⟩ := Out.bind_eq_ok.1 h
  obtain ⟨l, -, h⟩ := Out.bind_eq_ok.1 h
  simp only [Out.pure_eq, Out.ok.injEq] at h
  subst h
  exact ⟨rfl, rfl, rfl⟩

/-- Points which determine the polynomials of the order of the grid give factors with non-zero diagonal. -/
theorem chol_diag (hg : GridSpec P x bt g) (hc : CubatureSpec g NC c) {pts : List (ℝ × ℝ × ℝ)} (hn : c.n = pts.length) (hr : c.r = pts.map fun q => q.1) (hs : c.s = pts.map fun q => q.2.1)
    (hd : Ctx.Determines g.N pts) {k : ℕ} (hk : k < g.K) : ∀ i < g.np, (c.chol k).at' i i ≠ 0 := by
  by_contra hcon
  push Not at hcon
  obtain ⟨i, hi, hii⟩ := hcon
  have hdet : (Matrix.of fun i j : Fin g.np => (c.chol k).at' i j).det = 0 := by
    rw [Matrix.det_of_isUpperTriangular]
    · exact Finset.prod_eq_zero (Finset.mem_univ (⟨i, hi⟩ : Fin g.np)) hii
    · intro a b hab
      exact hc.upper k hk a a.2 b hab
  obtain ⟨z, hz, hzero⟩ := Matrix.exists_mulVec_eq_zero_iff.2 hdet
  obtain ⟨U, hU⟩ := pieces_exist hg fun j _ => if h : j < g.np then z ⟨j, h⟩ else 0
  obtain ⟨hdeg, hval⟩ := hU k hk
  have hnod : ∀ j : Fin g.np, atNode g (U k) k j = z j := fun j => (hval j j.2).trans (dif_pos j.2)
  have hsq := square_factor hc hk hdeg
  have h0 : ∀ l ∈ Finset.range g.np, ∑ j ∈ Finset.range g.np, (c.chol k).at' l j * atNode g (U k) k j = 0 := by
    intro l hl
    rw [Finset.sum_range]
    have := congrFun hzero ⟨l, Finset.mem_range.1 hl⟩
    refine Eq.trans (Finset.sum_congr rfl fun j _ => ?_) this
    rw [hnod j]
    rfl
  replace hsq := hsq.trans (Finset.sum_eq_zero fun l hl => by rw [h0 l hl, zero_mul])
  have hpt : ∀ i < c.n, atPoint c (U k) k i = 0 := by
    intro i hi
    have := (Finset.sum_eq_zero_iff_of_nonneg fun i hi => mul_nonneg (hc.pos i (Finset.mem_range.1 hi) k hk).le (mul_self_nonneg _)).1 hsq i (Finset.mem_range.2 hi)
    exact mul_self_eq_zero.1 ((mul_eq_zero.1 this).resolve_left (hc.pos i hi k hk).ne')
  have hpull : Ctx.pull (g.tri k) (U k) = 0 := by
    refine hd _ ((Ctx.pull_degree _ _).trans hdeg) fun q hq => ?_
    obtain ⟨i, hi, rfl⟩ := List.mem_iff_getElem.1 hq
    obtain ⟨e1, e2⟩ := hc.place i (by omega) k hk
    have := hpt i (by omega)
    unfold atPoint at this
    rw [e1, e2, ← Ctx.ev_pull, hr, hs] at this
    simpa [List.getD_eq_getElem?_getD, hi] using this
  apply hz
  funext j
  have := Ctx.ev_pull (g.tri k) (U k) (g.n.r.getD j 0) (g.n.s.getD j 0)
  rw [hpull, map_zero] at this
  rw [← hnod j]
  exact this.symm

/-- The grid's own pairing of faces, with the index arrays of the Gauss face context. -/
theorem own_pairs (hg : GridSpec P x bt g) (hga : GaussSpec g P bt NG ga) : FacePairs g ga P ga.mapP fun p => ga.mapP.getD p 0 := by
  obtain rfl := hga.count
  have inner : ∀ p < 3 * ga.n * g.K, P (p / ga.n) ≠ p / ga.n → ∃ i' < ga.n, ga.mapP[p]? = some (ga.n * P (p / ga.n) + i') ∧ ga.mapP[ga.n * P (p / ga.n) + i']? = some p ∧
      weightAt ga (ga.n * P (p / ga.n) + i') = weightAt ga p ∧ normalAt ga (ga.n * P (p / ga.n) + i') = (-(normalAt ga p).1, -(normalAt ga p).2) := by
    intro p hp hne
    obtain ⟨f1, f2, f3⟩ := face_of hp
    obtain ⟨i', hi', m1, m2, -, m3, m4, m5⟩ := hga.mapP _ f1 _ f3 hne
    rw [← f2] at m1 m2
    refine ⟨i', hi', m1, m2, ?_, ?_⟩
    · obtain ⟨r1, r2⟩ := fnum_row (e := P (p / ga.n)) hi'
      obtain ⟨s1, s2⟩ := fnum_row (e := p / ga.n) f3
      rw [← f2] at s1 s2
      unfold weightAt
      rw [r1, r2, s1, s2, m3]
    · obtain ⟨r1, r2⟩ := fnum_row (e := P (p / ga.n)) hi'
      obtain ⟨s1, s2⟩ := fnum_row (e := p / ga.n) f3
      rw [← f2] at s1 s2
      unfold normalAt
      rw [r1, r2, s1, s2, m4, m5]
  have outer : ∀ p < 3 * ga.n * g.K, P (p / ga.n) = p / ga.n → ga.mapP[p]? = some p := by
    intro p hp he
    obtain ⟨f1, f2, f3⟩ := face_of hp
    have := hga.mapB _ f1 _ f3 he
    rwa [← f2] at this
  have get : ∀ {p v : ℕ}, ga.mapP[p]? = some v → ga.mapP.getD p 0 = v := fun h => by rw [List.getD_eq_getElem?_getD, h]; rfl
  refine ⟨by rw [hga.lenP]; ring, hg.lt, hg.inv, fun p hp => ?_, fun p hp => ?_, fun p hp => ?_, fun p hp he => get (outer p hp he), fun p hp hne => ?_⟩
  · have : p < ga.mapP.length := by rw [hga.lenP]; rwa [mul_comm ga.n 3]
    rw [List.getElem?_eq_getElem this, List.getD_eq_getElem _ _ this]
  · by_cases he : P (p / ga.n) = p / ga.n
    · rw [get (outer p hp he)]
      exact ⟨hp, he.symm⟩
    · obtain ⟨i', hi', m1, -⟩ := inner p hp he
      rw [get m1]
      exact ⟨fnum_lt (hg.lt _ (face_of hp).1) hi', (fnum_face hi').1⟩
  · by_cases he : P (p / ga.n) = p / ga.n
    · simp only [get (outer p hp he)]
    · obtain ⟨i', hi', m1, m2, -⟩ := inner p hp he
      simp only [get m1, get m2]
  · obtain ⟨i', hi', m1, m2, m3⟩ := inner p hp hne
    rw [get m1]
    exact m3

theorem pyJ_eq (hg : GridSpec P x bt g) : ∀ i < g.np, ∀ k < g.K, g.pyJ.at' i k = cross (g.tri k) / 4 := by
  intro i hi k _
  rw [← jac_triDerivOf, ← hg.deriv_eq i k hi]
  rfl

/-- **C115, setup.** On every grid the triangle provisioner builds from a mesh with a wall, with its cubature and Gauss face contexts, with index arrays from the Gauss face context, `J` computed as in the driver
and any list of elements taken as curved, a call meets the hypotheses of the theorems above, if the points of the cubature determine the polynomials of the order of the grid. -/
theorem C115_setup {la : Lapack} {eps ztol tol : ℝ} {N : ℕ} {m : Mesh} {dpotrf : ℕ → List ℝ → Int × List ℝ} (h : Provisioned la eps ztol tol N m P g) (hpo : Dense.PotrfOk dpotrf) {NC : ℤ}
    (hc : Ctx.buildCubature la dpotrf g NC = .ok c) {pts : List (ℝ × ℝ × ℝ)} (hw : Cub.Works NC pts) (hd : Ctx.Determines N pts) (hNG : 1 ≤ NG) (hga : Ctx.buildGauss la eps g m NG = .ok ga)
    (hwall : ∃ e < 3 * m.K, IsWall P m.bcType e) (hts : TriSolves ts) (hcu : ∀ k ∈ curved, k < m.K) :
    WeakSetup ts P m.bcType g NC.toNat NG c ga g.pyJ curved P ga.mapP fun p => ga.mapP.getD p 0 := by
  obtain ⟨x, hg, hN, hK, -⟩ := h.spec
  have hG : GaussSpec g P m.bcType NG ga := by
    rcases Ctx.C94_gauss h NG hNG with h1 | ⟨c', h1, h2⟩
    · rw [h1] at hga; cases hga
    · rw [h1, Out.ok.injEq] at hga
      rwa [← hga]
  have hC := Ctx.C93_cubature hg (Ctx.solves_of_ok h.lapack.gesv) hpo NC c hc
  obtain ⟨p1, p2, p3⟩ := cub_points hw hc
  exact ⟨⟨x, hg⟩, hC, hG, hNG, own_pairs hg hG, by rw [hK]; exact hwall, fun e _ he => he.1,
    fun k hk => ⟨by rw [hK]; exact hcu k hk, chol_diag hg hC p1 p2 p3 (by rw [hN]; exact hd) (by rw [hK]; exact hcu k hk)⟩, pyJ_eq hg, hts⟩

/-! ### A concrete case -/

open Classical in
/-- An exact triangular solver. -/
noncomputable def exactTri : TriSolve := fun n A t b =>
  if h : ∃ z : ℕ → ℝ, ∀ i < n, ∑ j ∈ Finset.range n, (if t then (if j ≤ i then A.at' j i else 0) else if i ≤ j then A.at' i j else 0) * z j = b i then .ok h.choose else .throws

theorem exactTri_solves : TriSolves exactTri where
  solves n A t b hd := by
    have key : ∃ z : ℕ → ℝ, ∀ i < n, ∑ j ∈ Finset.range n, (if t then (if j ≤ i then A.at' j i else 0) else if i ≤ j then A.at' i j else 0) * z j = b i := by
      obtain ⟨M, hM⟩ : ∃ M : Matrix (Fin n) (Fin n) ℝ, M = Matrix.of fun i j : Fin n => if (i : ℕ) ≤ j then A.at' i j else 0 := ⟨_, rfl⟩
      have hdet : IsUnit M.det := by
        rw [isUnit_iff_ne_zero, hM, Matrix.det_of_isUpperTriangular]
        · refine Finset.prod_ne_zero_iff.2 fun i _ => ?_
          simpa using hd i i.2
        · intro i j hij
          have : ¬ (i : ℕ) ≤ j := by simpa using hij
          exact if_neg this
      have hdT : IsUnit M.transpose.det := by rwa [Matrix.det_transpose]
      obtain ⟨B, hB, hBu⟩ : ∃ B : Matrix (Fin n) (Fin n) ℝ, B = (if t then M.transpose else M) ∧ IsUnit B.det := by
        cases t
        · exact ⟨M, rfl, hdet⟩
        · exact ⟨M.transpose, rfl, hdT⟩
      refine ⟨fun j => if h : j < n then (B⁻¹.mulVec fun i : Fin n => b i) ⟨j, h⟩ else 0, fun i hi => ?_⟩
      have h1 : B.mulVec (B⁻¹.mulVec fun i : Fin n => b i) = fun i : Fin n => b i := by
        rw [Matrix.mulVec_mulVec, Matrix.mul_nonsing_inv _ hBu, Matrix.one_mulVec]
      have h2 := congrFun h1 ⟨i, hi⟩
      rw [← h2, Finset.sum_range]
      refine Finset.sum_congr rfl fun j _ => ?_
      refine congrArg₂ (· * ·) ?_ (dif_pos j.2)
      rw [hB, hM]
      cases t <;> rfl
    refine ⟨key.choose, ?_, key.choose_spec⟩
    unfold exactTri
    rw [dif_pos key]

theorem three_points : Ctx.Determines 1 ((Cub.triples Cub.vals1).map Cub.real) := by
  intro p hp hv
  rw [Ctx.affine p hp] at hv ⊢
  generalize coeff 0 p = a at *
  generalize coeff (Finsupp.single 0 1) p = b at *
  generalize coeff (Finsupp.single 1 1) p = c at *
  simp only [Cub.vals1, Cub.triples, Cub.real, List.map_cons, List.map_nil, List.mem_cons, List.not_mem_nil, or_false, forall_eq_or_imp, forall_eq] at hv
  simp only [map_add, map_mul, eval_C, eval_X, Matrix.cons_val_zero, Matrix.cons_val_one, Matrix.cons_val_fin_one] at hv
  norm_num at hv
  have h1 : b = 0 := by linarith [hv.1, hv.2.1, hv.2.2]
  have h2 : c = 0 := by linarith [hv.1, hv.2.1, hv.2.2]
  have h3 : a = 0 := by rw [h1, h2] at hv; linarith [hv.1]
  rw [h1, h2, h3]
  simp

/-- The square of two triangles, walls on all sides, elements of degree one, three cubature points and two Gauss points for each face; the first triangle is listed as curved. -/
theorem square_weak : ∃ g c ga, Provisioned Nodes1D.exactLapack (1 / 2 ^ 52) 1e-10 1e-5 1 square twoTri g ∧
    WeakSetup exactTri twoTri square.bcType g 2 2 c ga g.pyJ [0] twoTri ga.mapP (fun p => ga.mapP.getD p 0) ∧ ∀ e < 3 * g.K, twoTri e = e → IsWall twoTri square.bcType e := by
  obtain ⟨g, hg, -⟩ := square_grid
  obtain ⟨x, hs, hN, hK, -⟩ := hg.spec
  have hw : Cub.Works 2 ((Cub.triples Cub.vals1).map Cub.real) := Cub.works (rule := ⟨3, Cub.vals1⟩) rfl Cub.check1
  obtain ⟨c, hc, -⟩ := Ctx.C93_returns_partial hs (Ctx.solves_of_ok Nodes1D.exactLapack_ok.gesv) Dense.exactPotrf_full 2 _ hw (by rw [hN]; exact three_points) (Or.inl (by unfold Grid.np; rw [hN]; rfl))
  obtain ⟨ga, hga, -⟩ := Ctx.C94_returns hg 2 (by norm_num)
  have hwalls : ∀ e < 3 * square.K, twoTri e = e → IsWall twoTri square.bcType e := fun e he h => ⟨h, (square_walls.1 e he).2 h⟩
  obtain ⟨e, he, h2⟩ := square_walls.2
  refine ⟨g, c, ga, hg, ?_, by rw [hK]; exact hwalls⟩
  exact C115_setup hg Dense.exactPotrf_full.toPotrfOk hc hw three_points (by norm_num) hga ⟨e, he, hwalls e he h2⟩ exactTri_solves (by simp [square])

/-- The hypotheses of the theorems on totals, constant concentration and still water are met there by water of depth one at rest and a tracer of concentration one half. -/
example (grav f : ℝ) (CD : DMat ℝ) : ∃ g c ga, Provisioned Nodes1D.exactLapack (1 / 2 ^ 52) 1e-10 1e-5 1 square twoTri g ∧
    ∃ r n, g.rhsWeak exactTri c ga grav f CD ⟨g.np, g.K, fun _ _ => 0⟩ ⟨g.np, g.K, fun _ _ => 0⟩ g.pyJ [0] ga.mapM ga.mapP
      ⟨⟨g.np, g.K, fun _ _ => 1⟩, ⟨g.np, g.K, fun _ _ => 0⟩, ⟨g.np, g.K, fun _ _ => 0⟩⟩ ⟨g.np, g.K, fun _ _ => 1 / 2⟩ = .ok (r, n) ∧ ∀ i < g.np, ∀ k < g.K, r.h.at' i k = 0 ∧ n.at' i k = 0 := by
  obtain ⟨g, c, ga, hg, h, hw⟩ := square_weak
  obtain ⟨x, hs, hN, hK, -⟩ := hg.spec
  obtain ⟨r, n, h1, h2, -⟩ := C115_rest h (by omega) (by omega) grav f CD ⟨g.np, g.K, fun _ _ => 0⟩ ⟨g.np, g.K, fun _ _ => 0⟩ ⟨⟨g.np, g.K, fun _ _ => 1⟩, ⟨g.np, g.K, fun _ _ => 0⟩, ⟨g.np, g.K, fun _ _ => 0⟩⟩
    ⟨g.np, g.K, fun _ _ => 1 / 2⟩ 1 (fun _ _ _ _ => rfl) (fun _ _ _ _ => ⟨rfl, rfl⟩) (T := fun _ => C (1 / 2)) (fun k hk => ⟨by simp, fun i hi => by simp [atNode]⟩) (fun p hp => by simp [Poly4.tracer])
  exact ⟨g, c, ga, hg, r, n, h1, h2⟩

/-- Water in motion, of depth one, and a tracer of concentration one half. -/
example (grav f : ℝ) (CD zx zy u v : DMat ℝ) : ∃ g c ga, Provisioned Nodes1D.exactLapack (1 / 2 ^ 52) 1e-10 1e-5 1 square twoTri g ∧
    ∃ r n, g.rhsWeak exactTri c ga grav f CD zx zy g.pyJ [0] ga.mapM ga.mapP ⟨⟨g.np, g.K, fun _ _ => 1⟩, u, v⟩ ⟨g.np, g.K, fun _ _ => 1 / 2⟩ = .ok (r, n) ∧
      ∀ i < g.np, ∀ k < g.K, n.at' i k = 1 / 2 * r.h.at' i k := by
  obtain ⟨g, c, ga, hg, h, hw⟩ := square_weak
  obtain ⟨r, n, h1, h2⟩ := C115_constant h grav f CD zx zy ⟨⟨g.np, g.K, fun _ _ => 1⟩, u, v⟩ ⟨g.np, g.K, fun _ _ => 1 / 2⟩ (1 / 2) (fun _ _ _ _ => by norm_num) (H := fun _ => 1)
    (fun k hk => ⟨by simp, fun i hi => by simp [atNode]⟩) (fun k hk => ⟨fun i hi => by simp [atPoint], fun i hi => by simp [atGauss]⟩)
  exact ⟨g, c, ga, hg, r, n, h1, h2⟩

end Blitzdg.SW
