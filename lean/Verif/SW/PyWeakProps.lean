import Verif.SW.PyWeak
import Verif.SW.PyRhsProps
import Verif.Ctx.GaussProps
import Verif.Poisson.Forms

/-!
C115: the right-hand side of the Python shallow water solver in weak form, on every grid the triangle provisioner builds with its cubature and Gauss face contexts, for any pairing of the faces
(the grid's own or a periodic one).
-/

namespace Blitzdg.SW

open MvPolynomial
open Blitzdg.Sparse (DMat)
open Blitzdg.Nodes1D (Lapack)
open Blitzdg.Dense (toMat)
open Blitzdg.DG2D
open Blitzdg.Ctx (Cubature GaussFace CubatureSpec GaussSpec atNode atPoint atGauss over pointAt size)

variable {P : ℕ → ℕ} {x : List ℝ} {bt : List Int} {g : Grid} {c : Cubature} {ga : GaussFace} {NC NG : ℕ}

/-! ### Specification -/

/-- Polynomials in the plane for depth, momenta and tracer, one for each element. -/
structure Poly4 where
  h : ℕ → P2
  hu : ℕ → P2
  hv : ℕ → P2
  n : ℕ → P2

/-- `U k` is the polynomial of degree at most `N` with the nodal values `u(·, k)` on element `k`. -/
def Pieces (g : Grid) (u : ℕ → ℕ → ℝ) (U : ℕ → P2) : Prop := ∀ k < g.K, (U k).totalDegree ≤ g.N ∧ ∀ i < g.np, atNode g (U k) k i = u i k

structure IsPieces (g : Grid) (h hu hv n : ℕ → ℕ → ℝ) (U : Poly4) : Prop where
  h : Pieces g h U.h
  hu : Pieces g hu U.hu
  hv : Pieces g hv U.hv
  n : Pieces g n U.n

/-- The state, and the tracer, of element `k` at a point of the plane. -/
noncomputable def Poly4.state (U : Poly4) (k : ℕ) (z : ℝ × ℝ) : State := ⟨ev z.1 z.2 (U.h k), ev z.1 z.2 (U.hu k), ev z.1 z.2 (U.hv k)⟩
noncomputable def Poly4.tracer (U : Poly4) (k : ℕ) (z : ℝ × ℝ) : ℝ := ev z.1 z.2 (U.n k)

/-- At the Gauss point with number `p`, which belongs to element `p / (3*NGauss)` and face `p / NGauss`. -/
noncomputable def inAt (ga : GaussFace) (U : Poly4) (p : ℕ) : State := U.state (p / (3 * ga.n)) (pointAt ga p)
noncomputable def inTracer (ga : GaussFace) (U : Poly4) (p : ℕ) : ℝ := U.tracer (p / (3 * ga.n)) (pointAt ga p)
def normalAt (ga : GaussFace) (p : ℕ) : ℝ × ℝ := (ga.nx.at' (p % (3 * ga.n)) (p / (3 * ga.n)), ga.ny.at' (p % (3 * ga.n)) (p / (3 * ga.n)))
def weightAt (ga : GaussFace) (p : ℕ) : ℝ := ga.W.at' (p % (3 * ga.n)) (p / (3 * ga.n))

/-- A boundary face with the tag of a wall. -/
def IsWall (P : ℕ → ℕ) (bt : List Int) (e : ℕ) : Prop := P e = e ∧ bt[e]? = some 3

open Classical in
/-- The outer state at point `p` whose partner is `p'`: reflected at walls. -/
noncomputable def outAt (P : ℕ → ℕ) (bt : List Int) (ga : GaussFace) (U : Poly4) (p p' : ℕ) : State :=
  if IsWall P bt (p / ga.n) then wallState (normalAt ga p).1 (normalAt ga p).2 (inAt ga U p) else inAt ga U p'

/-- Faces paired by `Q`, their Gauss points by `gP`: partners have equal weights and opposite normals, the points of a face without partner are their own partners. -/
structure FacePairs (g : Grid) (ga : GaussFace) (Q : ℕ → ℕ) (gP : List ℕ) (σ : ℕ → ℕ) : Prop where
  len : gP.length = 3 * ga.n * g.K
  lt : ∀ e < 3 * g.K, Q e < 3 * g.K
  inv : ∀ e < 3 * g.K, Q (Q e) = e
  get : ∀ p < 3 * ga.n * g.K, gP[p]? = some (σ p)
  face : ∀ p < 3 * ga.n * g.K, σ p < 3 * ga.n * g.K ∧ σ p / ga.n = Q (p / ga.n)
  back : ∀ p < 3 * ga.n * g.K, σ (σ p) = p
  self : ∀ p < 3 * ga.n * g.K, Q (p / ga.n) = p / ga.n → σ p = p
  opp : ∀ p < 3 * ga.n * g.K, Q (p / ga.n) ≠ p / ga.n → weightAt ga (σ p) = weightAt ga p ∧ normalAt ga (σ p) = (-(normalAt ga p).1, -(normalAt ga p).2)

/-- The inner product which the code inverts: cubature on curved elements, the integral on the others. -/
noncomputable def pairing (g : Grid) (c : Cubature) (curved : List ℕ) (k : ℕ) (w : P2) : ℝ :=
  if k ∈ curved then ∑ i ∈ Finset.range c.n, c.W.at' i k * atPoint c w k i else over (g.tri k) w

/-- `R` satisfies the weak form on element `k` for fluxes `F`, `G` at the points of the plane and numerical flux `fl` at the Gauss points. -/
def WeakForm (g : Grid) (c : Cubature) (ga : GaussFace) (curved : List ℕ) (k : ℕ) (F G : ℝ × ℝ → ℝ) (fl : ℕ → ℝ) (R : P2) : Prop := ∀ v : P2, v.totalDegree ≤ g.N →
  pairing g c curved k (v * R) = ∑ i ∈ Finset.range c.n, c.W.at' i k * (atPoint c (pderiv 0 v) k i * F (c.x.at' i k, c.y.at' i k) + atPoint c (pderiv 1 v) k i * G (c.x.at' i k, c.y.at' i k))
    - ∑ i ∈ Finset.range (3 * ga.n), ga.W.at' i k * (atGauss ga v k i * fl (3 * ga.n * k + i))

/-- What is asked of `solve_triangular`: with non-zero diagonal it solves the system with the upper triangle of the matrix or its transpose. -/
structure TriSolves (ts : TriSolve) : Prop where
  solves : ∀ n (A : DMat ℝ) (t : Bool) (b : ℕ → ℝ), (∀ i < n, A.at' i i ≠ 0) → ∃ z, ts n A t b = .ok z ∧
    ∀ i < n, ∑ j ∈ Finset.range n, (if t then (if j ≤ i then A.at' j i else 0) else if i ≤ j then A.at' i j else 0) * z j = b i

/-! ### Points -/

theorem row_of {p : ℕ} (hp : p < 3 * ga.n * g.K) : p % (3 * ga.n) < 3 * ga.n ∧ p / (3 * ga.n) < g.K := by
  have h0 : 0 < 3 * ga.n := by
    by_contra h
    have : 3 * ga.n = 0 := by omega
    simp [this] at hp
  exact ⟨Nat.mod_lt _ h0, Nat.div_lt_of_lt_mul hp⟩

theorem num_lt {i k : ℕ} (hi : i < 3 * ga.n) (hk : k < g.K) : 3 * ga.n * k + i < 3 * ga.n * g.K := by
  have : 3 * ga.n * (k + 1) ≤ 3 * ga.n * g.K := Nat.mul_le_mul_left _ hk
  rw [Nat.mul_succ] at this
  omega

theorem num_row {i k : ℕ} (hi : i < 3 * ga.n) : (3 * ga.n * k + i) % (3 * ga.n) = i ∧ (3 * ga.n * k + i) / (3 * ga.n) = k := by
  have h0 : 0 < 3 * ga.n := by omega
  exact ⟨by rw [Nat.mul_add_mod, Nat.mod_eq_of_lt hi], by rw [Nat.mul_add_div h0, Nat.div_eq_of_lt hi, Nat.add_zero]⟩

theorem face_of {p : ℕ} (hp : p < 3 * ga.n * g.K) : p / ga.n < 3 * g.K ∧ p = ga.n * (p / ga.n) + p % ga.n ∧ p % ga.n < ga.n := by
  have h0 : 0 < ga.n := by
    by_contra h
    have : ga.n = 0 := by omega
    simp [this] at hp
  exact ⟨Nat.div_lt_of_lt_mul (by rw [show ga.n * (3 * g.K) = 3 * ga.n * g.K by ring]; exact hp), (Nat.div_add_mod _ _).symm, Nat.mod_lt _ h0⟩

theorem fnum_lt {e i : ℕ} (he : e < 3 * g.K) (hi : i < ga.n) : ga.n * e + i < 3 * ga.n * g.K := by
  have : ga.n * (e + 1) ≤ ga.n * (3 * g.K) := Nat.mul_le_mul_left _ he
  rw [Nat.mul_succ, show ga.n * (3 * g.K) = 3 * ga.n * g.K by ring] at this
  omega

theorem fnum_face {e i : ℕ} (hi : i < ga.n) : (ga.n * e + i) / ga.n = e ∧ (ga.n * e + i) % ga.n = i := by
  have h0 : 0 < ga.n := by omega
  exact ⟨by rw [Nat.mul_add_div h0, Nat.div_eq_of_lt hi, Nat.add_zero], by rw [Nat.mul_add_mod, Nat.mod_eq_of_lt hi]⟩

theorem fnum_row {e i : ℕ} (hi : i < ga.n) : (ga.n * e + i) % (3 * ga.n) = e % 3 * ga.n + i ∧ (ga.n * e + i) / (3 * ga.n) = e / 3 := by
  have hr : e % 3 * ga.n + i < 3 * ga.n := by
    have : (e % 3 + 1) * ga.n ≤ 3 * ga.n := Nat.mul_le_mul_right _ (by omega)
    rw [Nat.succ_mul] at this
    omega
  have e1 : ga.n * e + i = 3 * ga.n * (e / 3) + (e % 3 * ga.n + i) := by
    conv_lhs => rw [← Nat.div_add_mod e 3]
    ring
  rw [e1]
  exact num_row hr

/-! ### Traces -/

/-- Values at the Gauss point with number `p`. -/
noncomputable def Grid.ptState (g : Grid) (ga : GaussFace) (q : Fields) (hN : DMat ℝ) (p : ℕ) : Q4 :=
  ⟨g.dotAt ga.interp q.h (p % (3 * ga.n)) (p / (3 * ga.n)), g.dotAt ga.interp q.hu (p % (3 * ga.n)) (p / (3 * ga.n)), g.dotAt ga.interp q.hv (p % (3 * ga.n)) (p / (3 * ga.n)),
    g.dotAt ga.interp hN (p % (3 * ga.n)) (p / (3 * ga.n))⟩

theorem flatG_get (a : ℕ → ℕ → ℝ) {p : ℕ} (hp : p < 3 * ga.n * g.K) : (g.flatG ga a)[p]? = some (a (p % (3 * ga.n)) (p / (3 * ga.n))) := by
  unfold Grid.flatG flatF
  rw [List.getElem?_map, List.getElem?_range hp]
  rfl

theorem flatG_length (a : ℕ → ℕ → ℝ) : (g.flatG ga a).length = 3 * ga.n * g.K := flatF_length _

theorem gaussSide_ok (q : Fields) (hN : DMat ℝ) (gm : List ℕ) (T : ℕ → ℕ) (hT : ∀ p < gm.length, gm[p]? = some (T p) ∧ T p < 3 * ga.n * g.K) :
    ∃ m, g.gaussSide ga q hN gm = .ok m ∧ m.length = gm.length ∧ ∀ p < gm.length, m.getD p Q4.none = g.ptState ga q hN (T p) := by
  have hr : ∀ a : ℕ → ℕ → ℝ, ∀ p i : ℕ, gm[p]? = some i → i < (g.flatG ga a).length := by
    intro a p i hc
    obtain ⟨h1, h2⟩ := hT p (List.getElem?_eq_some_iff.1 hc).1
    rw [h1] at hc
    rw [flatG_length, ← Option.some.inj hc]
    exact h2
  have hv : ∀ (a : ℕ → ℕ → ℝ) (l : List ℝ), (∀ p i : ℕ, gm[p]? = some i → l[p]? = (g.flatG ga a)[i]?) → ∀ p < gm.length, l.getD p 0 = a (T p % (3 * ga.n)) (T p / (3 * ga.n)) := by
    intro a l hl p hp
    obtain ⟨h1, h2⟩ := hT p hp
    exact getD_some ((hl _ _ h1).trans (flatG_get a h2))
  obtain ⟨h, a1, a2, a3⟩ := pick_ok (g.flatG ga (g.dotAt ga.interp q.h)) gm (hr _)
  obtain ⟨hu, b1, b2, b3⟩ := pick_ok (g.flatG ga (g.dotAt ga.interp q.hu)) gm (hr _)
  obtain ⟨hv', c1, c2, c3⟩ := pick_ok (g.flatG ga (g.dotAt ga.interp q.hv)) gm (hr _)
  obtain ⟨n, d1, d2, d3⟩ := pick_ok (g.flatG ga (g.dotAt ga.interp hN)) gm (hr _)
  refine ⟨_, by unfold Grid.gaussSide; simp only [a1, b1, c1, d1, Out.bind_ok, Out.pure_eq]; rfl, by simp, fun p hp => ?_⟩
  rw [List.getD_eq_getElem?_getD, List.getElem?_map, List.getElem?_range hp]
  simp only [Option.map_some, Option.getD_some]
  rw [hv _ _ a3 p hp, hv _ _ b3 p hp, hv _ _ c3 p hp, hv _ _ d3 p hp]
  rfl

theorem GaussSpec.unit (hga : GaussSpec g P bt NG ga) {p : ℕ} (hp : p < 3 * ga.n * g.K) : (normalAt ga p).1 * (normalAt ga p).1 + (normalAt ga p).2 * (normalAt ga p).2 = 1 := by
  obtain rfl := hga.count
  obtain ⟨h1, h2, h3⟩ := face_of hp
  have hk : p / ga.n / 3 < g.K := by omega
  obtain ⟨n1, n2, n3⟩ := hga.normal _ hk (p / ga.n % 3) (by omega) (p % ga.n) h3
  rw [← (fnum_row (ga := ga) (e := p / ga.n) h3).1, ← (fnum_row (ga := ga) (e := p / ga.n) h3).2, ← h2] at n1 n2
  rw [← (fnum_row (ga := ga) (e := p / ga.n) h3).2, ← h2] at n3
  unfold normalAt
  simp only
  set a := ga.nx.at' (p % (3 * ga.n)) (p / (3 * ga.n))
  set b := ga.ny.at' (p % (3 * ga.n)) (p / (3 * ga.n))
  set e := faceEnds (g.tri (p / (3 * ga.n))) (p / ga.n % 3)
  have hl : Ctx.segLen e * Ctx.segLen e = (e.1.1 - e.2.1) * (e.1.1 - e.2.1) + (e.1.2 - e.2.2) * (e.1.2 - e.2.2) := by
    unfold Ctx.segLen hypot
    exact Real.mul_self_sqrt (by nlinarith [mul_self_nonneg (e.1.1 - e.2.1), mul_self_nonneg (e.1.2 - e.2.2)])
  have hne : Ctx.segLen e * Ctx.segLen e ≠ 0 := (mul_pos n3 n3).ne'
  apply mul_right_cancel₀ hne
  calc (a * a + b * b) * (Ctx.segLen e * Ctx.segLen e) = (a * Ctx.segLen e) * (a * Ctx.segLen e) + (b * Ctx.segLen e) * (b * Ctx.segLen e) := by ring
    _ = 1 * (Ctx.segLen e * Ctx.segLen e) := by rw [n1, n2, hl]; ring

/-- The traces are the values of the polynomials. -/
theorem ptState_eq (hga : GaussSpec g P bt NG ga) {q : Fields} {hN : DMat ℝ} {U : Poly4} (hU : IsPieces g q.h.at' q.hu.at' q.hv.at' hN.at' U) {p : ℕ} (hp : p < 3 * ga.n * g.K) :
    g.ptState ga q hN p = (inAt ga U p).with4 (inTracer ga U p) := by
  obtain rfl := hga.count
  obtain ⟨h1, h2⟩ := row_of hp
  have key : ∀ (u : DMat ℝ) (V : ℕ → P2), Pieces g u.at' V → g.dotAt ga.interp u (p % (3 * ga.n)) (p / (3 * ga.n)) = ev (pointAt ga p).1 (pointAt ga p).2 (V (p / (3 * ga.n))) := by
    intro u V hV
    obtain ⟨d, v⟩ := hV _ h2
    have := hga.interp _ d _ h1 _ h2
    unfold atGauss at this
    refine Eq.trans ?_ this
    unfold Grid.dotAt
    exact Finset.sum_congr rfl fun j hj => by rw [v j (Finset.mem_range.1 hj)]
  unfold Grid.ptState
  rw [key _ _ hU.h, key _ _ hU.hu, key _ _ hU.hv, key _ _ hU.n]
  rfl

theorem cubState_eq (hc : CubatureSpec g NC c) {q : Fields} {hN : DMat ℝ} {U : Poly4} (hU : IsPieces g q.h.at' q.hu.at' q.hv.at' hN.at' U) {i k : ℕ} (hi : i < c.n) (hk : k < g.K) :
    g.cubState c q hN i k = (U.state k (c.x.at' i k, c.y.at' i k)).with4 (U.tracer k (c.x.at' i k, c.y.at' i k)) := by
  have key : ∀ (u : DMat ℝ) (V : ℕ → P2), Pieces g u.at' V → g.dotAt c.V u i k = ev (c.x.at' i k) (c.y.at' i k) (V k) := by
    intro u V hV
    obtain ⟨d, v⟩ := hV _ hk
    have := hc.interp _ d _ hi _ hk
    unfold atPoint at this
    refine Eq.trans ?_ this
    unfold Grid.dotAt
    exact Finset.sum_congr rfl fun j hj => by rw [v j (Finset.mem_range.1 hj)]
  unfold Grid.cubState
  rw [key _ _ hU.h, key _ _ hU.hu, key _ _ hU.hv, key _ _ hU.n]
  rfl

/-! ### Mass matrices -/

/-- The sum `∑_j mass(i, j) * (V V^T b)_j` is `b_i`. -/
theorem mass_inv (hg : GridSpec P x bt g) (b : ℕ → ℝ) {i : ℕ} (hi : i < g.np) :
    ∑ j ∈ Finset.range g.np, (∑ k ∈ Finset.range g.np, g.o.Vinv.at' k i * g.o.Vinv.at' k j) * ∑ l ∈ Finset.range g.np, (∑ m ∈ Finset.range g.np, g.o.V.at' j m * g.o.V.at' l m) * b l = b i := by
  have h1 : toMat g.o.Vinv g.np g.np * toMat g.o.V g.np g.np = 1 := by rw [hg.vand]; exact hg.unisolvent
  have h2 : toMat g.o.V g.np g.np * toMat g.o.Vinv g.np g.np = 1 := mul_eq_one_comm.1 h1
  have h3 : ((toMat g.o.Vinv g.np g.np).transpose * toMat g.o.Vinv g.np g.np) * (toMat g.o.V g.np g.np * (toMat g.o.V g.np g.np).transpose) = 1 := by
    rw [Matrix.mul_assoc, ← Matrix.mul_assoc (toMat g.o.Vinv g.np g.np), h1, Matrix.one_mul, ← Matrix.transpose_mul, h2, Matrix.transpose_one]
  have h4 := congrFun (congrArg (fun M => Matrix.mulVec M fun l : Fin g.np => b l) h3) ⟨i, hi⟩
  beta_reduce at h4
  rw [Matrix.one_mulVec, ← Matrix.mulVec_mulVec] at h4
  rw [← h4, Finset.sum_range]
  unfold Matrix.mulVec dotProduct
  refine Finset.sum_congr rfl fun j _ => ?_
  rw [Finset.sum_range, Finset.sum_range]
  simp only [Finset.sum_range]
  rfl

theorem pull_interp {k : ℕ} {v : P2} (hv : v.totalDegree ≤ g.N) : IsInterp g (atNode g v k) (Ctx.pull (g.tri k) v) :=
  ⟨(Ctx.pull_degree _ _).trans hv, fun _ _ => Ctx.ev_pull _ _ _ _⟩

/-- On a straight element the product of `V V^T` with the weak right-hand side, divided by the Jacobian, represents it. -/
theorem straight_solve (hg : GridSpec P x bt g) {k : ℕ} (hk : k < g.K) (mm : ℕ → ℝ) {R v : P2} (hR : R.totalDegree ≤ g.N) (hv : v.totalDegree ≤ g.N)
    (hRv : ∀ i < g.np, atNode g R k i = ∑ j ∈ Finset.range g.np, (∑ l ∈ Finset.range g.np, g.o.V.at' i l * g.o.V.at' j l) * (mm j / (cross (g.tri k) / 4))) :
    over (g.tri k) (v * R) = ∑ i ∈ Finset.range g.np, atNode g v k i * mm i := by
  have hJ : cross (g.tri k) ≠ 0 := (hg.ccw k hk).ne'
  unfold over
  rw [Ctx.pull_mul, ← Poisson.mass_form hg square (pull_interp hv) (pull_interp hR)]
  unfold Poisson.bil
  rw [Finset.mul_sum]
  refine Finset.sum_congr rfl fun i hi => ?_
  rw [← Finset.mul_sum]
  have : ∑ j ∈ Finset.range g.np, (Poisson.ctxOf g square).mass i j * atNode g R k j = mm i / (cross (g.tri k) / 4) := by
    rw [← mass_inv hg (fun l => mm l / (cross (g.tri k) / 4)) (Finset.mem_range.1 hi)]
    exact Finset.sum_congr rfl fun j hj => by rw [hRv j (Finset.mem_range.1 hj)]; rfl
  rw [this]
  field_simp

/-- On a curved element the two triangular solves invert the cubature mass matrix. -/
theorem curved_solve (hc : CubatureSpec g NC c) {k : ℕ} (hk : k < g.K) {mm y z : ℕ → ℝ} {R v : P2} (hR : R.totalDegree ≤ g.N) (hv : v.totalDegree ≤ g.N)
    (hy : ∀ i < g.np, ∑ j ∈ Finset.range g.np, (if j ≤ i then (c.chol k).at' j i else 0) * y j = mm i)
    (hz : ∀ i < g.np, ∑ j ∈ Finset.range g.np, (if i ≤ j then (c.chol k).at' i j else 0) * z j = y i) (hRv : ∀ i < g.np, atNode g R k i = z i) :
    ∑ i ∈ Finset.range c.n, c.W.at' i k * atPoint c (v * R) k i = ∑ i ∈ Finset.range g.np, atNode g v k i * mm i := by
  have e1 : ∑ i ∈ Finset.range c.n, c.W.at' i k * atPoint c (v * R) k i = ∑ i ∈ Finset.range c.n, c.W.at' i k * (atPoint c v k i * atPoint c R k i) :=
    Finset.sum_congr rfl fun i _ => by unfold atPoint; rw [map_mul]
  rw [e1, ← hc.mass v R hv hR k hk]
  refine Finset.sum_congr rfl fun i hi => ?_
  have hi := Finset.mem_range.1 hi
  rw [← Finset.mul_sum]
  congr 1
  have hup : ∀ a < g.np, ∀ b, (if a ≤ b then (c.chol k).at' a b else 0) = (c.chol k).at' a b := by
    intro a ha b
    split_ifs with h
    · rfl
    · exact (hc.upper k hk a ha b (by omega)).symm
  rw [← hy i hi]
  have e2 : ∀ j ∈ Finset.range g.np, (c.MM k).at' i j * atNode g R k j = ∑ l ∈ Finset.range g.np, (c.chol k).at' l i * ((c.chol k).at' l j * z j) := by
    intro j hj
    have hj := Finset.mem_range.1 hj
    rw [hRv j hj, ← hc.factor k hk i hi j hj, Finset.sum_mul]
    exact Finset.sum_congr rfl fun l _ => by ring
  rw [Finset.sum_congr rfl e2, Finset.sum_comm]
  refine Finset.sum_congr rfl fun l hl => ?_
  have hl := Finset.mem_range.1 hl
  rw [← Finset.mul_sum, hup l hl i, ← hz l hl]
  congr 1
  exact Finset.sum_congr rfl fun j _ => by rw [hup l hl j]

theorem chol_loop {ts : TriSolve} (hts : TriSolves ts) (mm : ℕ → ℕ → ℝ) (l : List ℕ) (hl : ∀ k ∈ l, k < g.K ∧ ∀ i < g.np, (c.chol k).at' i i ≠ 0) (R0 : DMat ℝ) :
    ∃ R, loopM (cholStep ts g c mm) R0 l = .ok R ∧ R.rows = R0.rows ∧ R.cols = R0.cols ∧ (∀ k, k ∉ l → ∀ i, R.at' i k = R0.at' i k) ∧
      ∀ k ∈ l, ∃ y : ℕ → ℝ, (∀ i < g.np, ∑ j ∈ Finset.range g.np, (if j ≤ i then (c.chol k).at' j i else 0) * y j = mm i k) ∧
        ∀ i < g.np, ∑ j ∈ Finset.range g.np, (if i ≤ j then (c.chol k).at' i j else 0) * R.at' j k = y i := by
  induction l generalizing R0 with
  | nil => exact ⟨R0, rfl, rfl, rfl, fun _ _ _ => rfl, fun _ h => by simp at h⟩
  | cons k l ih =>
    obtain ⟨hk, hd⟩ := hl k (by simp)
    obtain ⟨y, y1, y2⟩ := hts.solves g.np (c.chol k) true (fun i => mm i k) hd
    obtain ⟨z, z1, z2⟩ := hts.solves g.np (c.chol k) false y hd
    have hstep : cholStep ts g c mm R0 k = .ok { R0 with at' := fun i k' => if k' = k then z i else R0.at' i k' } := by
      unfold cholStep
      rw [if_neg (by omega)]
      simp only [y1, z1, Out.bind_ok, Out.pure_eq]
    obtain ⟨R, r1, r2, r3, r4, r5⟩ := ih (fun k' hk' => hl k' (by simp [hk'])) { R0 with at' := fun i k' => if k' = k then z i else R0.at' i k' }
    refine ⟨R, by rw [loopM_cons, hstep, Out.bind_ok, r1], r2, r3, fun k' hk' i => ?_, fun k' hk' => ?_⟩
    · simp only [List.mem_cons, not_or] at hk'
      rw [r4 k' hk'.2 i]
      exact if_neg hk'.1
    · by_cases hm : k' ∈ l
      · exact r5 k' hm
      · have e : k' = k := by simpa [hm] using hk'
        subst e
        refine ⟨y, fun i hi => by simpa using y2 i hi, fun i hi => ?_⟩
        rw [← z2 i hi]
        refine Finset.sum_congr rfl fun j _ => ?_
        rw [r4 k' hm j]
        simp

/-- The solve with the mass matrices: the result represents `mm` in the inner product of each element. -/
theorem massSolve_ok (hg : GridSpec P x bt g) (hc : CubatureSpec g NC c) {ts : TriSolve} (hts : TriSolves ts) (J : DMat ℝ) (hJ : ∀ i < g.np, ∀ k < g.K, J.at' i k = cross (g.tri k) / 4)
    (curved : List ℕ) (hcu : ∀ k ∈ curved, k < g.K ∧ ∀ i < g.np, (c.chol k).at' i i ≠ 0) (mm : ℕ → ℕ → ℝ) :
    ∃ R, massSolve ts g c J curved mm = .ok R ∧ Fits g R ∧ ∀ k < g.K, ∀ W v : P2, W.totalDegree ≤ g.N → v.totalDegree ≤ g.N → (∀ i < g.np, atNode g W k i = R.at' i k) →
      pairing g c curved k (v * W) = ∑ i ∈ Finset.range g.np, atNode g v k i * mm i k := by
  obtain ⟨R, r1, r2, r3, r4, r5⟩ := chol_loop (g := g) (c := c) hts mm curved.dedup (fun k hk => hcu k (List.mem_dedup.1 hk))
    ⟨g.np, g.K, fun i k => ∑ j ∈ Finset.range g.np, (∑ l ∈ Finset.range g.np, g.o.V.at' i l * g.o.V.at' j l) * (mm j k / J.at' j k)⟩
  refine ⟨R, r1, ⟨r2, r3⟩, fun k hk W v hW hv hn => ?_⟩
  unfold pairing
  split_ifs with hm
  · obtain ⟨y, y1, y2⟩ := r5 k (List.mem_dedup.2 hm)
    exact curved_solve hc hk hW hv y1 y2 hn
  · refine straight_solve hg hk (fun i => mm i k) hW hv fun i hi => ?_
    rw [hn i hi, r4 k (by rwa [List.mem_dedup])]
    dsimp only
    refine Finset.sum_congr rfl fun j hj => ?_
    rw [hJ j (Finset.mem_range.1 hj) k hk]

/-- The weak right-hand side against a test polynomial. -/
theorem weak_test (hc : CubatureSpec g NC c) (hga : GaussSpec g P bt NG ga) {k : ℕ} (hk : k < g.K) {v : P2} (hv : v.totalDegree ≤ g.N) (F G : ℕ → ℕ → ℝ) (fl : DMat ℝ) :
    ∑ i ∈ Finset.range g.np, atNode g v k i * (volTerm c F G i k - faceTerm ga fl i k)
      = ∑ i ∈ Finset.range c.n, c.W.at' i k * (atPoint c (pderiv 0 v) k i * F i k + atPoint c (pderiv 1 v) k i * G i k)
        - ∑ i ∈ Finset.range (3 * ga.n), ga.W.at' i k * (atGauss ga v k i * fl.at' i k) := by
  obtain rfl := hga.count
  simp only [mul_sub, Finset.sum_sub_distrib]
  congr 1
  · unfold volTerm
    simp only [← Finset.sum_add_distrib, Finset.mul_sum]
    rw [Finset.sum_comm]
    refine Finset.sum_congr rfl fun i hi => ?_
    have hi := Finset.mem_range.1 hi
    rw [← hc.gradx v hv i hi k hk, ← hc.grady v hv i hi k hk]
    simp only [Finset.sum_mul, Finset.mul_sum, ← Finset.sum_add_distrib]
    exact Finset.sum_congr rfl fun j _ => by ring
  · unfold faceTerm
    simp only [Finset.mul_sum]
    rw [Finset.sum_comm]
    refine Finset.sum_congr rfl fun i hi => ?_
    rw [← hga.interp v hv i (Finset.mem_range.1 hi) k hk, Finset.sum_mul, Finset.mul_sum]
    exact Finset.sum_congr rfl fun j _ => by ring

/-! ### The right-hand side -/

theorem faceMax_isMax (n : ℕ) (hn : 1 ≤ n) (s : ℕ → ℝ) (p : ℕ) : IsMax (n - 1) (fun j => s (n * (p / n) + j)) (pyFaceMax n s p) := by
  unfold pyFaceMax
  obtain ⟨h1, h2⟩ := foldl_max_ge (fun i => s (n * (p / n) + i)) (List.range n) (s (n * (p / n)))
  refine ⟨fun j hj => h2 j (List.mem_range.2 (by omega)), ?_⟩
  rcases foldl_max_mem (fun i => s (n * (p / n) + i)) (List.range n) (s (n * (p / n))) with h3 | ⟨j, hj, h3⟩
  · exact ⟨0, Nat.zero_le _, h3⟩
  · exact ⟨j, by have := List.mem_range.1 hj; omega, h3⟩

theorem pyWeak_eq (grav nx ny lam : ℝ) (m p : State) (a b : ℝ) : (pyFlux grav nx ny lam (m.with4 a) (p.with4 b)).c1 = (numFlux grav nx ny lam m p).c1 ∧
    (pyFlux grav nx ny lam (m.with4 a) (p.with4 b)).c2 = (numFlux grav nx ny lam m p).c2 ∧ (pyFlux grav nx ny lam (m.with4 a) (p.with4 b)).c3 = (numFlux grav nx ny lam m p).c3 ∧
    (pyFlux grav nx ny lam (m.with4 a) (p.with4 b)).c4 = tracerFlux nx ny lam m p a b := by
  obtain ⟨a1, a2, a3, a4, a5, a6⟩ := pyFlux_eq grav m a
  obtain ⟨b1, b2, b3, b4, b5, b6⟩ := pyFlux_eq grav p b
  rw [← (C51_flux grav nx ny lam m p).2.1]
  refine ⟨?_, ?_, ?_, rfl⟩
  · simp only [pyFlux, weakFlux, a1, a4, b1, b4]; rfl
  · simp only [pyFlux, weakFlux, a2, a5, b2, b5]; rfl
  · simp only [pyFlux, weakFlux, a3, a6, b3, b6]; rfl

/-- A call of the right-hand side as in sw2d_curved.py: a grid with its cubature and Gauss face contexts, Gauss points of the faces paired, at least one wall, walls without partner, curved elements
with a usable factor of their mass matrix, `J` the Jacobian of the straight elements. -/
structure WeakSetup (ts : TriSolve) (P : ℕ → ℕ) (bt : List Int) (g : Grid) (NC NG : ℕ) (c : Cubature) (ga : GaussFace) (J : DMat ℝ) (curved : List ℕ) (Q : ℕ → ℕ) (gP : List ℕ) (σ : ℕ → ℕ) : Prop where
  grid : ∃ x, GridSpec P x bt g
  cub : CubatureSpec g NC c
  gauss : GaussSpec g P bt NG ga
  pos : 1 ≤ NG
  pairs : FacePairs g ga Q gP σ
  wall : ∃ e < 3 * g.K, IsWall P bt e
  walls : ∀ e < 3 * g.K, IsWall P bt e → Q e = e
  chol : ∀ k ∈ curved, k < g.K ∧ ∀ i < g.np, (c.chol k).at' i i ≠ 0
  jac : ∀ i < g.np, ∀ k < g.K, J.at' i k = cross (g.tri k) / 4
  solve : TriSolves ts

variable {ts : TriSolve} {J : DMat ℝ} {curved gP : List ℕ} {Q σ : ℕ → ℕ}

/-- **C115, weak form.** The call succeeds.  The rates, less the source terms, are the piecewise polynomials whose products with every test polynomial of the order of the grid equal the cubature of
the fluxes against its gradient minus the Gauss sums along the faces of the local Lax-Friedrichs flux, whose speed is the largest on the face, reflecting states at walls. -/
theorem C115_weak (h : WeakSetup ts P bt g NC NG c ga J curved Q gP σ) (grav f : ℝ) (CD zx zy : DMat ℝ) (q : Fields) (hN : DMat ℝ) {U : Poly4}
    (hU : IsPieces g q.h.at' q.hu.at' q.hv.at' hN.at' U) :
    ∃ (r : Fields) (n : DMat ℝ) (Λ : ℕ → ℝ), g.rhsWeak ts c ga grav f CD zx zy J curved ga.mapM gP q hN = .ok (r, n) ∧ r.Fits g ∧ Fits g n ∧
      (∀ e < 3 * g.K, IsMax (NG - 1) (fun i => max (speed grav (inAt ga U (NG * e + i))) (speed grav (outAt P bt ga U (NG * e + i) (σ (NG * e + i))))) (Λ e)) ∧
      ∀ R : Poly4, IsPieces g r.h.at' (fun i k => r.hu.at' i k - sourceX grav f (CD.at' i k) q zx i k) (fun i k => r.hv.at' i k - sourceY grav f (CD.at' i k) q zy i k) n.at' R → ∀ k < g.K,
        WeakForm g c ga curved k (fun z => (fluxF grav (U.state k z)).c1) (fun z => (fluxG grav (U.state k z)).c1)
          (fun p => (numFlux grav (normalAt ga p).1 (normalAt ga p).2 (Λ (p / NG)) (inAt ga U p) (outAt P bt ga U p (σ p))).c1) (R.h k) ∧
        WeakForm g c ga curved k (fun z => (fluxF grav (U.state k z)).c2) (fun z => (fluxG grav (U.state k z)).c2)
          (fun p => (numFlux grav (normalAt ga p).1 (normalAt ga p).2 (Λ (p / NG)) (inAt ga U p) (outAt P bt ga U p (σ p))).c2) (R.hu k) ∧
        WeakForm g c ga curved k (fun z => (fluxF grav (U.state k z)).c3) (fun z => (fluxG grav (U.state k z)).c3)
          (fun p => (numFlux grav (normalAt ga p).1 (normalAt ga p).2 (Λ (p / NG)) (inAt ga U p) (outAt P bt ga U p (σ p))).c3) (R.hv k) ∧
        WeakForm g c ga curved k (fun z => U.tracer k z * (U.state k z).vel.1) (fun z => U.tracer k z * (U.state k z).vel.2)
          (fun p => tracerFlux (normalAt ga p).1 (normalAt ga p).2 (Λ (p / NG)) (inAt ga U p) (outAt P bt ga U p (σ p)) (inTracer ga U p) (inTracer ga U (σ p))) (R.n k) := by
  obtain ⟨x, hg⟩ := h.grid
  have hc := h.cub
  have hga := h.gauss
  obtain rfl := hga.count
  obtain ⟨ew, hew, hwall⟩ := h.wall
  obtain ⟨W, hW⟩ : ∃ W, ga.bc 3 = some W := by
    cases hb : ga.bc 3 with
    | some W => exact ⟨W, rfl⟩
    | none =>
      exfalso
      have := ((hga.tags 3).2 (ga.n * ew + 0)).2 ⟨ew, 0, hew, h.pos, hwall.1, hwall.2, rfl⟩
      rw [hb] at this
      simp at this
  have hWm : ∀ p < 3 * ga.n * g.K, p ∈ W ↔ IsWall P bt (p / ga.n) := by
    intro p hp
    have ht := (hga.tags 3).2 p
    rw [hW, Option.getD_some] at ht
    rw [ht]
    obtain ⟨f1, f2, f3⟩ := face_of hp
    constructor
    · rintro ⟨e, i, he, hi, h1, h2, rfl⟩
      rw [(fnum_face hi).1]
      exact ⟨h1, h2⟩
    · rintro ⟨h1, h2⟩
      exact ⟨p / ga.n, p % ga.n, f1, f3, h1, h2, f2⟩
  have hWlt : ∀ w ∈ W, w < 3 * ga.n * g.K := by
    intro w hw
    have ht := (hga.tags 3).2 w
    rw [hW, Option.getD_some] at ht
    obtain ⟨e, i, he, hi, -, -, rfl⟩ := ht.1 hw
    exact fnum_lt he hi
  have hlM : ga.mapM.length = 3 * ga.n * g.K := by rw [hga.mapM, List.length_range]; ring
  obtain ⟨m, m1, m2, m3⟩ := gaussSide_ok (g := g) (ga := ga) q hN ga.mapM id (by
    intro p hp
    rw [hlM] at hp
    refine ⟨?_, hp⟩
    rw [hga.mapM, List.getElem?_range (by rw [show ga.n * 3 * g.K = 3 * ga.n * g.K by ring]; exact hp)]
    rfl)
  obtain ⟨p0, p1, p2, p3⟩ := gaussSide_ok (g := g) (ga := ga) q hN gP σ (by
    intro p hp
    rw [h.pairs.len] at hp
    exact ⟨h.pairs.get p hp, (h.pairs.face p hp).1⟩)
  rw [hlM] at m2 m3
  rw [h.pairs.len] at p2 p3
  have hin : ∀ p < 3 * ga.n * g.K, m.getD p Q4.none = (inAt ga U p).with4 (inTracer ga U p) := fun p hp => (m3 p hp).trans (ptState_eq hga hU hp)
  have hp0 : ∀ p < 3 * ga.n * g.K, p0.getD p Q4.none = (inAt ga U (σ p)).with4 (inTracer ga U (σ p)) := fun p hp => (p3 p hp).trans (ptState_eq hga hU (h.pairs.face p hp).1)
  have hnx : ∀ p < 3 * ga.n * g.K, (g.flatG ga ga.nx.at').getD p 0 = (normalAt ga p).1 ∧ (g.flatG ga ga.ny.at').getD p 0 = (normalAt ga p).2 :=
    fun p hp => ⟨getD_some (flatG_get _ hp), getD_some (flatG_get _ hp)⟩
  obtain ⟨p', w1, w2, w3⟩ := pyWall_loop (g.flatG ga ga.nx.at') (g.flatG ga ga.ny.at') (3 * ga.n * g.K) (flatG_length _) (flatG_length _) m m2 W hWlt p0 p2
  have hself : ∀ p < 3 * ga.n * g.K, IsWall P bt (p / ga.n) → σ p = p := fun p hp hw => h.pairs.self p hp (h.walls _ (face_of hp).1 hw)
  have hext : ∀ p < 3 * ga.n * g.K, p'.getD p Q4.none = (outAt P bt ga U p (σ p)).with4 (inTracer ga U (σ p)) := by
    intro p hp
    rw [w3 p hp, (hnx p hp).1, (hnx p hp).2, hin p hp, hp0 p hp]
    unfold outAt
    by_cases hw : IsWall P bt (p / ga.n)
    · rw [if_pos ((hWm p hp).2 hw), if_pos hw, hself p hp hw]; rfl
    · rw [if_neg (fun h => hw ((hWm p hp).1 h)), if_neg hw]
  have hspd : ∀ p < 3 * ga.n * g.K, nodeSpeed grav m p0 p = max (speed grav (inAt ga U p)) (speed grav (outAt P bt ga U p (σ p))) := by
    intro p hp
    have e1 : nodeSpeed grav m p0 p = max (speed grav (inAt ga U p)) (speed grav (inAt ga U (σ p))) := by
      unfold nodeSpeed
      rw [hin p hp, hp0 p hp]
      rfl
    rw [e1]
    unfold outAt
    split_ifs with hw
    · rw [hself p hp hw, (C50_wall grav _ _ 0 (GaussSpec.unit hga hp) _).2.2.2.2.1]
    · rfl
  obtain ⟨lam, hlam⟩ : ∃ lam, lam = pyFaceMax ga.n (nodeSpeed grav m p0) := ⟨_, rfl⟩
  have hlamE : ∀ p, lam p = lam (ga.n * (p / ga.n)) := by
    intro p
    rw [hlam]
    unfold pyFaceMax
    rw [Nat.mul_div_cancel_left _ h.pos]
  obtain ⟨fl, hfl⟩ : ∃ fl, fl = (List.range (3 * ga.n * g.K)).map fun c => pyFlux grav ((g.flatG ga ga.nx.at').getD c 0) ((g.flatG ga ga.ny.at').getD c 0) (lam c) (m.getD c Q4.none) (p'.getD c Q4.none) :=
    ⟨_, rfl⟩
  have hd : ∀ k < g.K, ∀ i < 3 * ga.n, ∀ sel : V4 → ℝ, (reshapeF (3 * ga.n) g.K (fl.map sel)).at' i k
      = sel (pyFlux grav (normalAt ga (3 * ga.n * k + i)).1 (normalAt ga (3 * ga.n * k + i)).2 (lam (ga.n * ((3 * ga.n * k + i) / ga.n))) ((inAt ga U (3 * ga.n * k + i)).with4 (inTracer ga U (3 * ga.n * k + i)))
          ((outAt P bt ga U (3 * ga.n * k + i) (σ (3 * ga.n * k + i))).with4 (inTracer ga U (σ (3 * ga.n * k + i))))) := by
    intro k hk i hi sel
    have hp := num_lt (g := g) (ga := ga) hi hk
    show (fl.map sel).getD (i + 3 * ga.n * k) 0 = _
    rw [Nat.add_comm i, List.getD_eq_getElem _ _ (by rw [hfl]; simpa using hp)]
    simp only [hfl, List.getElem_map, List.getElem_range]
    rw [(hnx _ hp).1, (hnx _ hp).2, hin _ hp, hext _ hp, hlamE]
  obtain ⟨r1, s1, t1, u1⟩ := massSolve_ok hg hc h.solve J h.jac curved h.chol fun i k => volTerm c (fun i k => (pyF grav (g.cubState c q hN i k)).c1) (fun i k => (pyG grav (g.cubState c q hN i k)).c1) i k
    - faceTerm ga (reshapeF (3 * ga.n) g.K (fl.map V4.c1)) i k
  obtain ⟨r2, s2, t2, u2⟩ := massSolve_ok hg hc h.solve J h.jac curved h.chol fun i k => volTerm c (fun i k => (pyF grav (g.cubState c q hN i k)).c2) (fun i k => (pyG grav (g.cubState c q hN i k)).c2) i k
    - faceTerm ga (reshapeF (3 * ga.n) g.K (fl.map V4.c2)) i k
  obtain ⟨r3, s3, t3, u3⟩ := massSolve_ok hg hc h.solve J h.jac curved h.chol fun i k => volTerm c (fun i k => (pyF grav (g.cubState c q hN i k)).c3) (fun i k => (pyG grav (g.cubState c q hN i k)).c3) i k
    - faceTerm ga (reshapeF (3 * ga.n) g.K (fl.map V4.c3)) i k
  obtain ⟨r4, s4, t4, u4⟩ := massSolve_ok hg hc h.solve J h.jac curved h.chol fun i k => volTerm c (fun i k => (pyF grav (g.cubState c q hN i k)).c4) (fun i k => (pyG grav (g.cubState c q hN i k)).c4) i k
    - faceTerm ga (reshapeF (3 * ga.n) g.K (fl.map V4.c4)) i k
  have hrun : g.rhsWeak ts c ga grav f CD zx zy J curved ga.mapM gP q hN = .ok (
      { h := r1
        hu := { r2 with at' := fun i k => r2.at' i k + (sourcePy (CD.at' i k) f (q.at' i k)).1 - grav * q.h.at' i k * zx.at' i k }
        hv := { r3 with at' := fun i k => r3.at' i k + (sourcePy (CD.at' i k) f (q.at' i k)).2 - grav * q.h.at' i k * zy.at' i k } }, r4) := by
    unfold Grid.rhsWeak tagNodes
    simp only [hW, Out.bind_ok, m1, p1]
    rw [if_neg (by simp [m2, p2])]
    simp only [w1, Out.bind_ok, Out.pure_eq, ← hlam, ← hfl, s1, s2, s3, s4]
  refine ⟨_, r4, fun e => lam (ga.n * e), hrun, ⟨t1, ⟨t2.1, t2.2⟩, t3.1, t3.2⟩, t4, ?_, ?_⟩
  · intro e he
    have hm := faceMax_isMax ga.n h.pos (nodeSpeed grav m p0) (ga.n * e)
    rw [Nat.mul_div_cancel_left _ h.pos, ← hlam] at hm
    obtain ⟨a, j, hj, b⟩ := hm
    have hn := h.pos
    refine ⟨fun i hi => ?_, j, hj, ?_⟩
    · have := a i hi
      beta_reduce at this
      rwa [hspd _ (fnum_lt he (by omega))] at this
    · exact b.trans (hspd _ (fnum_lt he (by omega)))
  · intro R hR k hk
    have hF : ∀ i < c.n, g.cubState c q hN i k = (U.state k (c.x.at' i k, c.y.at' i k)).with4 (U.tracer k (c.x.at' i k, c.y.at' i k)) := fun i hi => cubState_eq hc hU hi hk
    have key : ∀ (sel : V4 → ℝ) (F G : ℝ × ℝ → ℝ) (φ : ℕ → ℝ) (r : DMat ℝ) (W : P2), W.totalDegree ≤ g.N → (∀ i < g.np, atNode g W k i = r.at' i k) →
        (∀ k < g.K, ∀ W v : P2, W.totalDegree ≤ g.N → v.totalDegree ≤ g.N → (∀ i < g.np, atNode g W k i = r.at' i k) → pairing g c curved k (v * W)
          = ∑ i ∈ Finset.range g.np, atNode g v k i * (volTerm c (fun i k => sel (pyF grav (g.cubState c q hN i k))) (fun i k => sel (pyG grav (g.cubState c q hN i k))) i k
              - faceTerm ga (reshapeF (3 * ga.n) g.K (fl.map sel)) i k)) →
        (∀ z, sel (pyF grav ((U.state k z).with4 (U.tracer k z))) = F z ∧ sel (pyG grav ((U.state k z).with4 (U.tracer k z))) = G z) →
        (∀ p, sel (pyFlux grav (normalAt ga p).1 (normalAt ga p).2 (lam (ga.n * (p / ga.n))) ((inAt ga U p).with4 (inTracer ga U p)) ((outAt P bt ga U p (σ p)).with4 (inTracer ga U (σ p)))) = φ p) →
        WeakForm g c ga curved k F G φ W := by
      intro sel F G φ r W hW1 hW2 hu hFG hφ v hv
      rw [hu k hk W v hW1 hv hW2, weak_test hc hga hk hv]
      congr 1
      · refine Finset.sum_congr rfl fun i hi => ?_
        rw [hF i (Finset.mem_range.1 hi), (hFG _).1, (hFG _).2]
      · refine Finset.sum_congr rfl fun i hi => ?_
        rw [hd k hk i (Finset.mem_range.1 hi), hφ]
    refine ⟨key V4.c1 _ _ _ r1 _ (hR.h k hk).1 (hR.h k hk).2 u1 (fun z => ⟨(pyFlux_eq grav _ _).1, (pyFlux_eq grav _ _).2.2.2.1⟩) fun p => (pyWeak_eq grav _ _ _ _ _ _ _).1,
      key V4.c2 _ _ _ r2 _ (hR.hu k hk).1 (fun i hi => ?_) u2 (fun z => ⟨(pyFlux_eq grav _ _).2.1, (pyFlux_eq grav _ _).2.2.2.2.1⟩) fun p => (pyWeak_eq grav _ _ _ _ _ _ _).2.1,
      key V4.c3 _ _ _ r3 _ (hR.hv k hk).1 (fun i hi => ?_) u3 (fun z => ⟨(pyFlux_eq grav _ _).2.2.1, (pyFlux_eq grav _ _).2.2.2.2.2⟩) fun p => (pyWeak_eq grav _ _ _ _ _ _ _).2.2.1,
      key V4.c4 _ _ _ r4 _ (hR.n k hk).1 (hR.n k hk).2 u4 (fun z => ⟨rfl, rfl⟩) fun p => (pyWeak_eq grav _ _ _ _ _ _ _).2.2.2⟩
    · rw [(hR.hu k hk).2 i hi]
      simp only [sourcePy, sourceX, Fields.at', pow_two]
      ring
    · rw [(hR.hv k hk).2 i hi]
      simp only [sourcePy, sourceY, Fields.at', pow_two]
      ring

theorem pieces_exist (hg : GridSpec P x bt g) (u : ℕ → ℕ → ℝ) : ∃ U, Pieces g u U := Poisson.field_exists hg u

theorem isPieces_exist (hg : GridSpec P x bt g) (h hu hv n : ℕ → ℕ → ℝ) : ∃ U, IsPieces g h hu hv n U := by
  obtain ⟨a, ha⟩ := pieces_exist hg h
  obtain ⟨b, hb⟩ := pieces_exist hg hu
  obtain ⟨c, hc⟩ := pieces_exist hg hv
  obtain ⟨d, hd⟩ := pieces_exist hg n
  exact ⟨⟨a, b, c, d⟩, ha, hb, hc, hd⟩

/-! ### Conservation -/

theorem sum_blocks (n K : ℕ) (f : ℕ → ℝ) : ∑ k ∈ Finset.range K, ∑ i ∈ Finset.range n, f (n * k + i) = ∑ p ∈ Finset.range (n * K), f p := by
  induction K with
  | zero => simp
  | succ K ih => rw [Finset.sum_range_succ, ih, show n * (K + 1) = n * K + n by ring, Finset.sum_range_add]

/-- The Gauss sums of a flux which changes sign between partners and vanishes on faces without partner add up to zero. -/
theorem gauss_cancel (hp : FacePairs g ga Q gP σ) (fl : ℕ → ℝ) (h1 : ∀ p < 3 * ga.n * g.K, Q (p / ga.n) = p / ga.n → fl p = 0)
    (h2 : ∀ p < 3 * ga.n * g.K, Q (p / ga.n) ≠ p / ga.n → fl (σ p) = -fl p) :
    ∑ k ∈ Finset.range g.K, ∑ i ∈ Finset.range (3 * ga.n), ga.W.at' i k * fl (3 * ga.n * k + i) = 0 := by
  have e : ∑ k ∈ Finset.range g.K, ∑ i ∈ Finset.range (3 * ga.n), ga.W.at' i k * fl (3 * ga.n * k + i)
      = ∑ k ∈ Finset.range g.K, ∑ i ∈ Finset.range (3 * ga.n), (fun p => weightAt ga p * fl p) (3 * ga.n * k + i) := by
    refine Finset.sum_congr rfl fun k _ => Finset.sum_congr rfl fun i hi => ?_
    have := num_row (ga := ga) (k := k) (Finset.mem_range.1 hi)
    simp only [weightAt, this.1, this.2]
  rw [e, sum_blocks (3 * ga.n) g.K fun p => weightAt ga p * fl p]
  refine Finset.sum_involution (fun p _ => σ p) ?_ ?_ ?_ ?_
  · intro p hm
    have hm := Finset.mem_range.1 hm
    by_cases hq : Q (p / ga.n) = p / ga.n
    · rw [hp.self p hm hq, h1 p hm hq]; simp
    · rw [h2 p hm hq, (hp.opp p hm hq).1]; ring
  · intro p hm hne heq
    have hm := Finset.mem_range.1 hm
    refine hne ?_
    rw [h1 p hm, mul_zero]
    have := (hp.face p hm).2
    rw [heq] at this
    exact this.symm
  · intro p hm
    exact Finset.mem_range.2 (hp.face p (Finset.mem_range.1 hm)).1
  · intro p hm
    exact hp.back p (Finset.mem_range.1 hm)

theorem atGauss_one (k i : ℕ) : atGauss ga 1 k i = 1 := by unfold atGauss; rw [map_one]

/-- Totals from the weak form with constant test functions. -/
theorem total_zero (h : WeakSetup ts P bt g NC NG c ga J curved Q gP σ) (hNC : g.N ≤ NC) (F G : ℕ → ℝ × ℝ → ℝ) (fl : ℕ → ℝ) (A : ℕ → P2) (hA : ∀ k < g.K, (A k).totalDegree ≤ g.N)
    (hw : ∀ k < g.K, WeakForm g c ga curved k (F k) (G k) fl (A k)) (h1 : ∀ p < 3 * ga.n * g.K, Q (p / ga.n) = p / ga.n → fl p = 0)
    (h2 : ∀ p < 3 * ga.n * g.K, Q (p / ga.n) ≠ p / ga.n → fl (σ p) = -fl p) :
    |∑ k ∈ Finset.range g.K, over (g.tri k) (A k)| ≤ 2e-14 * ∑ k ∈ curved.toFinset, cross (g.tri k) / 4 * size (g.tri k) (A k) := by
  have hp : ∀ k < g.K, pairing g c curved k (A k) = -∑ i ∈ Finset.range (3 * ga.n), ga.W.at' i k * fl (3 * ga.n * k + i) := by
    intro k hk
    have := hw k hk 1 (by rw [totalDegree_one]; omega)
    rw [one_mul] at this
    rw [this]
    simp only [atGauss_one, one_mul, Derivation.map_one_eq_zero]
    unfold atPoint
    simp
  have hs : ∑ k ∈ Finset.range g.K, pairing g c curved k (A k) = 0 := by
    rw [Finset.sum_congr rfl fun k hk => hp k (Finset.mem_range.1 hk), Finset.sum_neg_distrib, gauss_cancel h.pairs fl h1 h2, neg_zero]
  have hd : ∀ k ∈ Finset.range g.K, over (g.tri k) (A k) = pairing g c curved k (A k) + if k ∈ curved then over (g.tri k) (A k) - ∑ i ∈ Finset.range c.n, c.W.at' i k * atPoint c (A k) k i else 0 := by
    intro k _
    unfold pairing
    split_ifs <;> ring
  rw [Finset.sum_congr rfl hd, Finset.sum_add_distrib, hs, zero_add]
  refine (Finset.abs_sum_le_sum_abs _ _).trans ?_
  have hsub : curved.toFinset ⊆ Finset.range g.K := fun k hk => Finset.mem_range.2 (h.chol k (List.mem_toFinset.1 hk)).1
  rw [← Finset.sum_subset hsub fun k _ hk => by rw [if_neg (fun hm => hk (List.mem_toFinset.2 hm)), abs_zero], Finset.mul_sum]
  refine Finset.sum_le_sum fun k hk => ?_
  have hk' := List.mem_toFinset.1 hk
  rw [if_pos hk', abs_sub_comm]
  exact h.cub.quad _ ((hA k (h.chol k hk').1).trans hNC) k (h.chol k hk').1

/-- The speed scaling the dissipation is the same seen from both sides of a face. -/
theorem speed_pair (h : WeakSetup ts P bt g NC NG c ga J curved Q gP σ) (grav : ℝ) (U : Poly4) {Λ : ℕ → ℝ}
    (hΛ : ∀ e < 3 * g.K, IsMax (NG - 1) (fun i => max (speed grav (inAt ga U (NG * e + i))) (speed grav (outAt P bt ga U (NG * e + i) (σ (NG * e + i))))) (Λ e))
    {p : ℕ} (hp : p < 3 * ga.n * g.K) (hq : Q (p / ga.n) ≠ p / ga.n) :
    Λ (σ p / NG) = Λ (p / NG) ∧ outAt P bt ga U p (σ p) = inAt ga U (σ p) ∧ outAt P bt ga U (σ p) (σ (σ p)) = inAt ga U p := by
  obtain rfl := h.gauss.count
  have hP := h.pairs
  have out : ∀ p < 3 * ga.n * g.K, Q (p / ga.n) ≠ p / ga.n → outAt P bt ga U p (σ p) = inAt ga U (σ p) := by
    intro p hp hq
    unfold outAt
    rw [if_neg fun hw => hq (h.walls _ (face_of hp).1 hw)]
  have hqσ : ∀ p < 3 * ga.n * g.K, Q (p / ga.n) ≠ p / ga.n → Q (σ p / ga.n) ≠ σ p / ga.n := by
    intro p hp hq
    rw [(hP.face p hp).2, hP.inv _ (face_of hp).1]
    exact fun h' => hq h'.symm
  refine ⟨?_, out p hp hq, by rw [out (σ p) (hP.face p hp).1 (hqσ p hp hq), hP.back p hp]⟩
  have key : ∀ e < 3 * g.K, Q e ≠ e → ∀ i ≤ ga.n - 1, ∃ j ≤ ga.n - 1, max (speed grav (inAt ga U (ga.n * e + i))) (speed grav (outAt P bt ga U (ga.n * e + i) (σ (ga.n * e + i))))
      = max (speed grav (inAt ga U (ga.n * Q e + j))) (speed grav (outAt P bt ga U (ga.n * Q e + j) (σ (ga.n * Q e + j)))) := by
    intro e he hne i hi
    have hn := h.pos
    have hi' : i < ga.n := by omega
    have hpt := fnum_lt (ga := ga) he hi'
    have hfe := (fnum_face (ga := ga) (e := e) hi').1
    have hqe : Q ((ga.n * e + i) / ga.n) ≠ (ga.n * e + i) / ga.n := by rw [hfe]; exact hne
    obtain ⟨s1, s2⟩ := hP.face _ hpt
    obtain ⟨t1, t2, t3⟩ := face_of s1
    rw [s2, hfe] at t2
    refine ⟨σ (ga.n * e + i) % ga.n, by omega, ?_⟩
    rw [← t2, out _ hpt hqe, out _ s1 (hqσ _ hpt hqe), hP.back _ hpt, max_comm]
  obtain ⟨f1, f2, f3⟩ := face_of hp
  rw [(hP.face p hp).2]
  have hQ := hP.lt _ f1
  have hinv := hP.inv _ f1
  refine (isMax_unique (hΛ _ f1) (hΛ _ hQ) (key _ f1 hq) fun j hj => ?_).symm
  have := key _ hQ (by rw [hinv]; exact fun h' => hq h'.symm) j hj
  rwa [hinv] at this

/-- **C115, element numbers.** An element number beyond the mesh among the curved ones ends the call with an exception (`IndexError`), as long as the triangular systems can be solved. -/
theorem C115_curved_range (ts : TriSolve) (hts : ∀ n a t b, ∃ y, ts n a t b = .ok y) (g : Grid) (c : Cubature) (J : DMat ℝ) (curved : List ℕ) (mm : ℕ → ℕ → ℝ) (k : ℕ) (hk : k ∈ curved) (hK : g.K ≤ k) :
    massSolve ts g c J curved mm = .throws := by
  unfold massSolve
  have hd : k ∈ curved.dedup := List.mem_dedup.2 hk
  generalize (⟨g.np, g.K, fun i k => ∑ j ∈ Finset.range g.np, (∑ l ∈ Finset.range g.np, g.o.V.at' i l * g.o.V.at' j l) * (mm j k / J.at' j k)⟩ : DMat ℝ) = R
  generalize curved.dedup = m at hd
  induction m generalizing R with
  | nil => exact absurd hd (by simp)
  | cons e l ih =>
    by_cases he : g.K ≤ e
    · simp [loopM, cholStep, he, Bind.bind, Out.bind]
    · have hl : k ∈ l := by
        rcases List.mem_cons.1 hd with rfl | h
        · exact absurd hK he
        · exact h
      obtain ⟨y, hy⟩ := hts g.np (c.chol e) true fun i => mm i e
      obtain ⟨z, hz⟩ := hts g.np (c.chol e) false y
      have : cholStep ts g c mm R e = .ok { R with at' := fun i k' => if k' = e then z i else R.at' i k' } := by
        unfold cholStep
        rw [if_neg he, hy]
        change Out.bind (ts g.np (c.chol e) false y) _ = _
        rw [hz]
        rfl
      change Out.bind (cholStep ts g c mm R e) _ = _
      rw [this]
      exact ih _ hl

/-- Element 5 listed as curved in a mesh of at most five elements, with a solver that returns. -/
example (g : Grid) (hg : g.K ≤ 5) (c : Cubature) (J : DMat ℝ) (mm : ℕ → ℕ → ℝ) : massSolve (fun _ _ _ b => .ok b) g c J [0, 5] mm = .throws :=
  C115_curved_range _ (fun _ _ _ b => ⟨b, rfl⟩) g c J _ mm 5 (by simp) hg

/-- **C115, conservation.** When every face without partner is a wall, the totals of the rates of volume and of tracer are zero, up to the error of the cubature on elements listed as curved; with no
element listed as curved they are exactly zero. -/
theorem C115_total (h : WeakSetup ts P bt g NC NG c ga J curved Q gP σ) (hw : ∀ e < 3 * g.K, Q e = e → IsWall P bt e) (hNC : g.N ≤ NC) (grav f : ℝ) (CD zx zy : DMat ℝ) (q : Fields) (hN : DMat ℝ) :
    ∃ r n, g.rhsWeak ts c ga grav f CD zx zy J curved ga.mapM gP q hN = .ok (r, n) ∧
      (∀ A, Pieces g r.h.at' A → |∑ k ∈ Finset.range g.K, over (g.tri k) (A k)| ≤ 2e-14 * ∑ k ∈ curved.toFinset, cross (g.tri k) / 4 * size (g.tri k) (A k)) ∧
      ∀ A, Pieces g n.at' A → |∑ k ∈ Finset.range g.K, over (g.tri k) (A k)| ≤ 2e-14 * ∑ k ∈ curved.toFinset, cross (g.tri k) / 4 * size (g.tri k) (A k) := by
  obtain ⟨x, hg⟩ := h.grid
  obtain rfl := h.gauss.count
  obtain ⟨U, hU⟩ := isPieces_exist hg q.h.at' q.hu.at' q.hv.at' hN.at'
  obtain ⟨r, n, Λ, hr, -, -, hΛ, hR⟩ := C115_weak h grav f CD zx zy q hN hU
  obtain ⟨B, hB⟩ := pieces_exist hg fun i k => r.hu.at' i k - sourceX grav f (CD.at' i k) q zx i k
  obtain ⟨D, hD⟩ := pieces_exist hg fun i k => r.hv.at' i k - sourceY grav f (CD.at' i k) q zy i k
  obtain ⟨A0, hA0⟩ := pieces_exist hg r.h.at'
  obtain ⟨N0, hN0⟩ := pieces_exist hg n.at'
  have wallOut : ∀ p < 3 * ga.n * g.K, Q (p / ga.n) = p / ga.n → outAt P bt ga U p (σ p) = wallState (normalAt ga p).1 (normalAt ga p).2 (inAt ga U p) := by
    intro p hp hq
    unfold outAt
    rw [if_pos (hw _ (face_of hp).1 hq)]
  refine ⟨r, n, hr, fun A hA => ?_, fun A hA => ?_⟩
  · refine total_zero h hNC _ _ _ A (fun k hk => (hA k hk).1) (fun k hk => (hR ⟨A, B, D, N0⟩ ⟨hA, hB, hD, hN0⟩ k hk).1) ?_ ?_
    · intro p hp hq
      rw [wallOut p hp hq]
      exact (C50_wall grav _ _ _ (GaussSpec.unit h.gauss hp) _).2.2.2.2.2.1
    · intro p hp hq
      obtain ⟨e1, e2, e3⟩ := speed_pair h grav U hΛ hp hq
      rw [e1, e2, e3, (h.pairs.opp p hp hq).2, (C51_flux grav _ _ _ _ _).1]
  · refine total_zero h hNC _ _ _ A (fun k hk => (hA k hk).1) (fun k hk => (hR ⟨A0, B, D, A⟩ ⟨hA0, hB, hD, hA⟩ k hk).2.2.2) ?_ ?_
    · intro p hp hq
      rw [wallOut p hp hq, h.pairs.self p hp hq]
      exact tracerFlux_wall _ _ _ (GaussSpec.unit h.gauss hp) _ _
    · intro p hp hq
      obtain ⟨e1, e2, e3⟩ := speed_pair h grav U hΛ hp hq
      rw [e1, e2, e3, (h.pairs.opp p hp hq).2, h.pairs.back p hp, tracerFlux_anti]

end Blitzdg.SW
