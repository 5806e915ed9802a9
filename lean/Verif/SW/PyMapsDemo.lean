import Verif.SW.PyMapsProps

/-!
C116: a channel of two triangles, and the index arrays of its nodes.
-/

namespace Blitzdg.SW

open MvPolynomial
open Blitzdg.Sparse (DMat)
open Blitzdg.Nodes1D (Lapack exactLapack exactLapack_ok)
open Blitzdg.DG2D
open Blitzdg.Ctx (Cubature GaussFace CubatureSpec GaussSpec atNode atPoint atGauss over pointAt size)

/-! ### A channel -/

/-- A channel of length 8000 and width 1000 cut into two triangles: walls below and above, outflow on the left and on the right. -/
noncomputable def channel : Mesh where
  K := 2
  nv := 4
  ev := [0, 1, 2, 1, 3, 2]
  vert := [0, 0, 0, 8000, 0, 0, 0, 1000, 0, 8000, 1000, 0]
  E := [0, 1, 0, 1, 1, 0]
  F := [0, 2, 2, 0, 1, 1]
  bcType := [3, 0, 2, 2, 3, 0]

/-- The faces of the channel, paired also across its ends. -/
def ring (e : ℕ) : ℕ := if e = 1 then 5 else if e = 5 then 1 else if e = 2 then 3 else if e = 3 then 2 else e

theorem channel_ok : channel.Ok twoTri where
  conn := twoTri_conn
  lenEv := rfl
  ltEv := by intro v hv; simp only [channel, List.mem_cons, List.not_mem_nil, or_false] at hv ⊢; omega
  lenVert := rfl
  lenBc := le_refl _
  ccw := by
    intro k hk
    have hk : k < 2 := hk
    interval_cases k <;> norm_num [cross, Mesh.tri, Mesh.corner, channel]
  meet := by
    intro e he hne
    have he : e < 6 := he
    interval_cases e <;> first | exact absurd rfl hne | (norm_num [twoTri, faceEnds, Mesh.tri, Mesh.corner, channel])

theorem channel_grid : ∃ g x, Provisioned exactLapack (1 / 2 ^ 52) 1e-10 1e-5 1 channel twoTri g ∧ GridSpec twoTri x channel.bcType g ∧ x = [-1, 1] ∧ g.N = 1 ∧ g.K = 2 ∧ (∀ k < 2, g.tri k = channel.tri k) ∧
    (g.n.r.getD 0 0 = -1 ∧ g.n.s.getD 0 0 = -1) ∧ (g.n.r.getD 1 0 = 1 ∧ g.n.s.getD 1 0 = -1) ∧ (g.n.r.getD 2 0 = -1 ∧ g.n.s.getD 2 0 = 1) := by
  obtain ⟨n, o, h1, -, -, hr, p0, p1, p2⟩ := demo_tri
  have hx : ∀ x, IsGLL exactLapack (1 / 2 ^ 52) 1 x → x = [-1, 1] := by
    intro x hx
    unfold IsGLL Jacobi.gllPoints at hx
    simp [wr] at hx
    exact hx.symm
  have hgap : ∀ x, IsGLL exactLapack (1 / 2 ^ 52) 1 x → ∀ i j : ℕ, i < j → j ≤ 1 → 2 * (1e-5 : ℝ) ≤ x.getD j 0 - x.getD i 0 := by
    intro x h i j hij hj
    obtain rfl : i = 0 := by omega
    obtain rfl : j = 1 := by omega
    rw [hx x h]
    norm_num
  obtain ⟨g, x, hb, hN, hK, rfl, -, ht, hgl, hs⟩ := buildGrid_spec exactLapack exactLapack_ok (1 / 2 ^ 52) (by norm_num) (by norm_num) 1e-10 1e-5 (by norm_num) (by norm_num) 1 (le_refl _) (by norm_num)
    channel twoTri channel_ok n o h1 hgap
  exact ⟨g, x, ⟨exactLapack_ok, by norm_num, by norm_num, by norm_num, by norm_num, le_refl _, by norm_num, channel_ok, hb, hgap⟩, hs, hx x hgl, hN, hK, ht, p0, p1, p2⟩

theorem channel_open (e : ℕ) (he : e < 6) : IsOpen twoTri channel.bcType e ↔ e = 2 ∨ e = 3 := by
  interval_cases e <;> simp [IsOpen, twoTri, channel]

theorem channel_tris {g : Grid} (ht : ∀ k < 2, g.tri k = channel.tri k) :
    g.ends 2 = ((0, 1000), (0, 0)) ∧ g.ends 3 = ((8000, 0), (8000, 1000)) := by
  unfold Grid.ends
  rw [show (2 : ℕ) / 3 = 0 by norm_num, show (3 : ℕ) / 3 = 1 by norm_num, ht 0 (by norm_num), ht 1 (by norm_num)]
  constructor <;> norm_num [faceEnds, Mesh.tri, Mesh.corner, channel]

theorem channel_is {g : Grid} (hK : g.K = 2) (ht : ∀ k < 2, g.tri k = channel.tri k) : Channel g twoTri channel.bcType ring 0 8000 := by
  obtain ⟨e2, e3⟩ := channel_tris ht
  refine ⟨by norm_num, ?_, ?_, ?_, ?_, ?_⟩
  · rw [hK]; decide
  · rw [hK]; decide
  · intro e he hno
    rw [hK] at he
    have he : e < 6 := he
    rw [channel_open e he] at hno
    interval_cases e <;> first | rfl | exact absurd (by norm_num) hno
  · intro e he ho
    rw [hK] at he
    rcases (channel_open e he).1 ho with rfl | rfl
    · rw [e2]; norm_num
    · rw [e3]; norm_num
  · intro e he ho
    rw [hK] at he
    rcases (channel_open e he).1 ho with rfl | rfl
    · rw [show ring 2 = 3 from rfl, e2, e3]; exact ⟨(channel_open 3 (by norm_num)).2 (by norm_num), by norm_num, rfl, rfl⟩
    · rw [show ring 3 = 2 from rfl, e2, e3]; exact ⟨(channel_open 2 (by norm_num)).2 (by norm_num), by norm_num, rfl, rfl⟩

/-- Two Gauss points on a face are those of Gauss and Legendre. -/
theorem two_points {g : Grid} {ga : GaussFace} (hK : g.K = 2) (ht : ∀ k < 2, g.tri k = channel.tri k) (hga : GaussSpec g twoTri channel.bcType 2 ga) :
    ∃ z : ℝ, z ^ 2 = 1 / 3 ∧ 0 < z ∧ ∀ e < 6, pointAt ga (2 * e) = lerp (g.ends e) (-z) ∧ pointAt ga (2 * e + 1) = lerp (g.ends e) z := by
  have hn := hga.count
  obtain ⟨z, h1, h2, h3, h4⟩ := hga.place
  obtain ⟨w, w1, w2⟩ := hga.weights
  have z0 : z 0 = -z 1 := by have := h3 1 (by norm_num); simpa using this
  have ww : w 0 = w 1 := by have := w1 1 (by norm_num); simpa using this
  have zlt := h2 0 1 (by norm_num) (by norm_num)
  obtain ⟨e2, -⟩ := channel_tris ht
  unfold Grid.ends at e2
  norm_num at e2
  have seg : Ctx.segLen (faceEnds (g.tri 0) 2) = 1000 := by
    rw [e2]
    unfold Ctx.segLen hypot
    norm_num
    rw [show (1000000 : ℝ) = 1000 ^ 2 by norm_num, Real.sqrt_sq (by norm_num)]
  have q0 := hga.quad 1 (by simp) 0 (by omega) 2 (by norm_num)
  have q2 := hga.quad (X 1 ^ 2) ((totalDegree_pow _ _).trans (by rw [totalDegree_X]; norm_num)) 0 (by omega) 2 (by norm_num)
  have pt : ∀ i < 2, ga.y.at' (2 * 2 + i) 0 = 500 * (1 - z i) := by
    intro i hi
    have := congrArg Prod.snd (h4 0 (by omega) 2 (by norm_num) i hi)
    rw [e2] at this
    simp only [lerp] at this
    rw [this]
    ring
  have p0 := pt 0 (by norm_num)
  have p1 := pt 1 (by norm_num)
  have v0 := w2 0 (by omega) 2 (by norm_num) 0 (by norm_num)
  have v1 := w2 0 (by omega) 2 (by norm_num) 1 (by norm_num)
  rw [seg] at v0 v1
  unfold Ctx.along at q0 q2
  rw [seg, e2] at q0 q2
  simp only [Finset.sum_range_succ, Finset.sum_range_zero, zero_add, atGauss, lerp] at q0 q2
  simp only [ev, map_one, map_pow, eval_X, Matrix.cons_val_one, Matrix.cons_val_zero] at q0 q2
  rw [v0, v1, ww] at q0 q2
  rw [p0, p1] at q2
  have i2 : ∫ t in (-1 : ℝ)..1, ((1 - t) / 2 * 1000 + (1 + t) / 2 * 0) ^ 2 = 2000000 / 3 := by
    have e : ∀ t : ℝ, ((1 - t) / 2 * 1000 + (1 + t) / 2 * 0) ^ 2 = 250000 - 500000 * t + 250000 * t ^ 2 := fun t => by ring
    simp only [e]
    rw [intervalIntegral.integral_add ((by fun_prop : Continuous _).intervalIntegrable _ _) ((by fun_prop : Continuous _).intervalIntegrable _ _),
      intervalIntegral.integral_sub ((by fun_prop : Continuous _).intervalIntegrable _ _) ((by fun_prop : Continuous _).intervalIntegrable _ _), intervalIntegral.integral_const_mul,
      intervalIntegral.integral_const_mul]
    simp
    norm_num
  rw [i2] at q2
  simp only [intervalIntegral.integral_const] at q0
  norm_num at q0 q2
  have hw : w 1 = 1 := by linarith
  rw [hw, z0] at q2
  refine ⟨z 1, by nlinarith, by linarith, fun e he => ?_⟩
  obtain ⟨r1, r2⟩ := fnum_row (ga := ga) (e := e) (i := 0) (by omega)
  obtain ⟨s1, s2⟩ := fnum_row (ga := ga) (e := e) (i := 1) (by omega)
  rw [hn] at r1 r2 s1 s2
  unfold pointAt Grid.ends
  rw [hn, s1, s2, show 2 * e = 2 * e + 0 from rfl, r1, r2, h4 (e / 3) (by omega) (e % 3) (by omega) 0 (by norm_num), h4 (e / 3) (by omega) (e % 3) (by omega) 1 (by norm_num), z0]
  exact ⟨rfl, rfl⟩

theorem channel_spread {g : Grid} {ga : GaussFace} (hK : g.K = 2) (ht : ∀ k < 2, g.tri k = channel.tri k) (hga : GaussSpec g twoTri channel.bcType 2 ga) : Spread g twoTri channel.bcType ga := by
  obtain ⟨z, z1, z2, h⟩ := two_points hK ht hga
  have hn := hga.count
  obtain ⟨e2, e3⟩ := channel_tris ht
  have hz : (1 / 2 : ℝ) ≤ z := by nlinarith
  obtain ⟨a1, a2⟩ := h 2 (by norm_num)
  obtain ⟨b1, b2⟩ := h 3 (by norm_num)
  norm_num at a1 a2 b1 b2
  rw [e2] at a1 a2
  rw [e3] at b1 b2
  intro p hp p' hp' ho ho' hne hx
  rw [hn, hK] at hp hp'
  rw [hn] at ho ho'
  rw [channel_open _ (by omega)] at ho ho'
  have h1 : p = 4 ∨ p = 5 ∨ p = 6 ∨ p = 7 := by omega
  have h2 : p' = 4 ∨ p' = 5 ∨ p' = 6 ∨ p' = 7 := by omega
  have big : ∀ a b : ℝ, b - a = 1000 * z ∨ b - a = -(1000 * z) → (1e-3 : ℝ) ≤ |b - a| := by
    intro a b hab
    rcases hab with hab | hab
    · rw [hab, abs_of_pos (by linarith)]; linarith
    · rw [hab, abs_neg, abs_of_pos (by linarith)]; linarith
  rcases h1 with rfl | rfl | rfl | rfl <;> rcases h2 with rfl | rfl | rfl | rfl
  all_goals first
    | exact absurd rfl hne
    | (exfalso; simp only [a1, a2, b1, b2, lerp] at hx; linarith)
    | (simp only [a1, a2, b1, b2, lerp]; refine big _ _ (Or.inl ?_); linarith)
    | (simp only [a1, a2, b1, b2, lerp]; refine big _ _ (Or.inr ?_); linarith)

/-- The channel with elements of degree one, three cubature points and two Gauss points for each face, the first triangle listed as curved, meets the hypotheses of the theorems on channels. -/
theorem channel_weak : ∃ g c ga σ, Provisioned exactLapack (1 / 2 ^ 52) 1e-10 1e-5 1 channel twoTri g ∧ WeakSetup exactTri twoTri channel.bcType g 2 2 c ga g.pyJ [0] twoTri ga.mapP σ ∧
    Channel g twoTri channel.bcType ring 0 8000 ∧ Spread g twoTri channel.bcType ga ∧ (∃ e < 3 * g.K, IsOpen twoTri channel.bcType e) ∧
    (∀ e < 3 * g.K, twoTri e = e → IsWall twoTri channel.bcType e ∨ IsOpen twoTri channel.bcType e) ∧ g.N ≤ 2 := by
  obtain ⟨g, x, hg, hs, -, hN, hK, ht, -⟩ := channel_grid
  have hw : Cub.Works 2 ((Cub.triples Cub.vals1).map Cub.real) := Cub.works (rule := ⟨3, Cub.vals1⟩) rfl Cub.check1
  obtain ⟨c, hc, -⟩ := Ctx.C93_returns_partial hs (Ctx.solves_of_ok exactLapack_ok.gesv) Dense.exactPotrf_full 2 _ hw (by rw [hN]; exact three_points) (Or.inl (by unfold Grid.np; rw [hN]; rfl))
  obtain ⟨ga, hga, hgs⟩ := Ctx.C94_returns hg 2 (by norm_num)
  refine ⟨g, c, ga, _, hg, C115_setup hg Dense.exactPotrf_full.toPotrfOk hc hw three_points (by norm_num) hga ⟨0, by norm_num [channel], rfl, rfl⟩ exactTri_solves (by simp [channel]), channel_is hK ht,
    channel_spread hK ht hgs, ⟨2, by omega, rfl, rfl⟩, fun e he h => ?_, by omega⟩
  rw [hK] at he
  have he : e < 6 := he
  interval_cases e <;> first | exact absurd h (by decide) | exact Or.inl ⟨rfl, rfl⟩ | exact Or.inr ⟨rfl, rfl⟩

/-! ### The index arrays of the nodes -/

theorem channel_bc {g : Grid} (hg : Provisioned exactLapack (1 / 2 ^ 52) 1e-10 1e-5 1 channel twoTri g) : g.bc 2 = some [4, 5, 6, 7] := by
  have hb := hg.built
  unfold buildGrid at hb
  obtain ⟨no, h1, hb⟩ := Out.bind_eq_ok.1 hb
  obtain ⟨cs, h2, hb⟩ := Out.bind_eq_ok.1 hb
  obtain ⟨maps, h3, hb⟩ := Out.bind_eq_ok.1 hb
  obtain ⟨bc, h4, hb⟩ := Out.bind_eq_ok.1 hb
  have : bc 2 = some [4, 5, 6, 7] := by
    have e : buildBCHash (1 + 1) (3 * channel.K) channel.bcType TagMap.empty = .ok (([3, 3, 0, 0, 2, 2, 2, 2, 3, 3, 0, 0] : List Int).foldl hashStep (TagMap.empty, 0)).1 := rfl
    rw [e, Out.ok.injEq] at h4
    rw [← h4]
    decide
  rw [Out.pure_eq, Out.ok.injEq] at hb
  rw [← hb]
  exact this

/-- **C116, corners, refuted for the nodes.** The index arrays of the nodes built by the driver also redirect nodes of interior faces which touch an outflow face: on a channel of two triangles a node of an interior
face is paired with a node 8000 away, while before it was paired with a node at its place. -/
theorem C116_corner_false : ∃ g, Provisioned exactLapack (1 / 2 ^ 52) 1e-10 1e-5 1 channel twoTri g ∧ ∃ M' P', g.nodePeriodic = .ok (M', P') ∧
    ∃ e < 6, twoTri e ≠ e ∧ ∃ n n₀ n' : ℕ, M'[2 * e + 1]? = some n ∧ g.maps.vmapP[2 * e + 1]? = some n₀ ∧ P'[2 * e + 1]? = some n' ∧
      (flatF g.pyX).getD n₀ 0 = (flatF g.pyX).getD n 0 ∧ |(flatF g.pyX).getD n' 0 - (flatF g.pyX).getD n 0| = 8000 := by
  obtain ⟨g, x, hg, hs, hx, hN, hK, ht, ⟨p1, p2⟩, ⟨p3, p4⟩, ⟨p5, p6⟩⟩ := channel_grid
  have hnp : g.np = 3 := by unfold Grid.np; rw [hN]
  have x0 : x.getD 0 0 = -1 := by rw [hx]; rfl
  have x1 : x.getD 1 0 = 1 := by rw [hx]; rfl
  have mask : ∀ f < 3, ∀ i ≤ 1, ∀ a < 3, triFacePt f (x.getD i 0) = (g.n.r.getD a 0, g.n.s.getD a 0) → g.n.mask i f = a := by
    intro f hf i hi a ha h
    have h1 := hs.maskPt f hf i (by omega)
    have h2 := hs.maskLt f hf i (by omega)
    rw [h, Prod.mk.injEq] at h1
    rw [hnp] at h2
    generalize g.n.mask i f = b at *
    obtain ⟨h3, h4⟩ := h1
    interval_cases a <;> interval_cases b <;> first | rfl | (exfalso; simp only [p1, p2, p3, p4, p5, p6] at h3 h4; linarith)
  have m00 : g.n.mask 0 0 = 0 := mask 0 (by norm_num) 0 (by norm_num) 0 (by norm_num) (by rw [x0, p1, p2]; norm_num [triFacePt])
  have m10 : g.n.mask 1 0 = 1 := mask 0 (by norm_num) 1 (by norm_num) 1 (by norm_num) (by rw [x1, p3, p4]; norm_num [triFacePt])
  have m01 : g.n.mask 0 1 = 1 := mask 1 (by norm_num) 0 (by norm_num) 1 (by norm_num) (by rw [x0, p3, p4]; norm_num [triFacePt])
  have m11 : g.n.mask 1 1 = 2 := mask 1 (by norm_num) 1 (by norm_num) 2 (by norm_num) (by rw [x1, p5, p6]; norm_num [triFacePt])
  have m02 : g.n.mask 0 2 = 0 := mask 2 (by norm_num) 0 (by norm_num) 0 (by norm_num) (by rw [x0, p1, p2]; norm_num [triFacePt])
  have m12 : g.n.mask 1 2 = 2 := mask 2 (by norm_num) 1 (by norm_num) 2 (by norm_num) (by rw [x1, p5, p6]; norm_num [triFacePt])
  have hM : g.maps.vmapM = [0, 1, 1, 2, 0, 2, 3, 4, 4, 5, 3, 5] := by
    apply List.ext_getElem?
    intro c
    by_cases hc : c < 12
    · have h1 := hs.vmapM (c / 2) (by omega) (c % 2) (by omega)
      rw [hN, show (1 + 1) * (c / 2) + c % 2 = c by omega] at h1
      rw [h1]
      unfold vol
      rw [hnp]
      interval_cases c <;> norm_num [m00, m10, m01, m11, m02, m12]
    · rw [List.getElem?_eq_none_iff.2 (by rw [hs.lenM]; unfold Grid.nf; rw [hN, hK]; omega), List.getElem?_eq_none_iff.2 (by simp; omega)]
  have len : ∀ a : ℕ → ℕ → ℝ, (flatF ⟨g.np, g.K, a⟩).length = 6 := fun a => by rw [flatF_length]; simp only; rw [hnp, hK]
  have get : ∀ (a : ℕ → ℕ → ℝ) i k n, i < 3 → k < 2 → n = i + 3 * k → (flatF ⟨g.np, g.K, a⟩).getD n 0 = a i k := by
    intro a i k n hi hk hn
    have := flatF_get ⟨g.np, g.K, a⟩ i k (by simp only; omega) (by simp only; omega)
    simp only at this
    rw [hnp, ← hn, ← hnp] at this
    rw [List.getD_eq_getElem?_getD, this]
    rfl
  have t0 := ht 0 (by norm_num)
  have t1 := ht 1 (by norm_num)
  have X0 : (flatF g.pyX).getD 0 0 = 0 := by
    unfold Grid.pyX; rw [get _ 0 0 0 (by norm_num) (by norm_num) (by norm_num)]; unfold gridX; rw [t0, p1, p2]; norm_num [triCoord, Mesh.tri, Mesh.corner, channel]
  have X2 : (flatF g.pyX).getD 2 0 = 0 := by
    unfold Grid.pyX; rw [get _ 2 0 2 (by norm_num) (by norm_num) (by norm_num)]; unfold gridX; rw [t0, p5, p6]; norm_num [triCoord, Mesh.tri, Mesh.corner, channel]
  have X3 : (flatF g.pyX).getD 3 0 = 8000 := by
    unfold Grid.pyX; rw [get _ 0 1 3 (by norm_num) (by norm_num) (by norm_num)]; unfold gridX; rw [t1, p1, p2]; norm_num [triCoord, Mesh.tri, Mesh.corner, channel]
  have X4 : (flatF g.pyX).getD 4 0 = 8000 := by
    unfold Grid.pyX; rw [get _ 1 1 4 (by norm_num) (by norm_num) (by norm_num)]; unfold gridX; rw [t1, p3, p4]; norm_num [triCoord, Mesh.tri, Mesh.corner, channel]
  have X5 : (flatF g.pyX).getD 5 0 = 0 := by
    unfold Grid.pyX; rw [get _ 2 1 5 (by norm_num) (by norm_num) (by norm_num)]; unfold gridX; rw [t1, p5, p6]; norm_num [triCoord, Mesh.tri, Mesh.corner, channel]
  have Y0 : (flatF g.pyY).getD 0 0 = 0 := by
    unfold Grid.pyY; rw [get _ 0 0 0 (by norm_num) (by norm_num) (by norm_num)]; unfold gridY; rw [t0, p1, p2]; norm_num [triCoord, Mesh.tri, Mesh.corner, channel]
  have Y2 : (flatF g.pyY).getD 2 0 = 1000 := by
    unfold Grid.pyY; rw [get _ 2 0 2 (by norm_num) (by norm_num) (by norm_num)]; unfold gridY; rw [t0, p5, p6]; norm_num [triCoord, Mesh.tri, Mesh.corner, channel]
  have Y3 : (flatF g.pyY).getD 3 0 = 0 := by
    unfold Grid.pyY; rw [get _ 0 1 3 (by norm_num) (by norm_num) (by norm_num)]; unfold gridY; rw [t1, p1, p2]; norm_num [triCoord, Mesh.tri, Mesh.corner, channel]
  have Y4 : (flatF g.pyY).getD 4 0 = 1000 := by
    unfold Grid.pyY; rw [get _ 1 1 4 (by norm_num) (by norm_num) (by norm_num)]; unfold gridY; rw [t1, p3, p4]; norm_num [triCoord, Mesh.tri, Mesh.corner, channel]
  have hr : ∀ i ∈ [0, 2, 3, 4], i < (flatF g.pyX).length ∧ i < (flatF g.pyY).length := by
    intro i hi
    rw [Grid.pyX, Grid.pyY, len, len]
    simp only [List.mem_cons, List.not_mem_nil, or_false] at hi
    omega
  have hp : Partners (flatF g.pyX) (flatF g.pyY) [0, 2, 3, 4] fun i => if i = 0 then 3 else if i = 2 then 4 else if i = 3 then 0 else 2 := by
    intro i hi
    simp only [List.mem_cons, List.not_mem_nil, or_false] at hi
    rcases hi with rfl | rfl | rfl | rfl
    all_goals
      refine ⟨by simp, ?_, fun j hj h => ?_⟩
      · simp only [Across, X0, X2, X3, X4, Y0, Y2, Y3, Y4, if_true, if_false, OfNat.ofNat_ne_zero, show ¬ (3 : ℕ) = 2 by norm_num, show ¬ (4 : ℕ) = 2 by norm_num, show ¬ (4 : ℕ) = 3 by norm_num]
        norm_num
      · simp only [List.mem_cons, List.not_mem_nil, or_false] at hj
        rcases hj with rfl | rfl | rfl | rfl <;> first | rfl | (exfalso; simp only [Across, X0, X2, X3, X4, Y0, Y2, Y3, Y4] at h; norm_num at h)
  obtain ⟨r, h1, h2, h3, -⟩ := C116_unique g.maps.vmapM g.maps.vmapP [0, 2, 3, 4] _ _ (hs.lenM.trans hs.lenP.symm) (by simp) hr hp
  refine ⟨g, hg, g.maps.vmapM, r, ?_, 1, by norm_num, by decide, 2, 5, 4, by rw [hM]; rfl, ?_, ?_, by rw [X5, X2], by rw [X4, X2]; norm_num⟩
  · unfold Grid.nodePeriodic
    rw [channel_bc hg]
    have e : pickIdx g.maps.vmapM [4, 5, 6, 7] = .ok [0, 2, 3, 4] := by rw [hM]; rfl
    simp only [e, Out.bind_ok]
    rw [pick_getD _ _ fun i hi => (hr i hi).1, pick_getD _ _ fun i hi => (hr i hi).2, Out.bind_ok, Out.bind_ok, h1]
  · have := hs.vmapP 1 (by omega) 1 (by omega)
    rw [hN] at this
    rw [this]
    norm_num [vol, across, twoTri, hnp, m12]
  · have := h3 3 (by rw [hs.lenP]; unfold Grid.nf; rw [hN, hK]; norm_num)
    rw [hM] at this
    exact this

end Blitzdg.SW
