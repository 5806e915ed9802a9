import Verif.SW.SimpleProps

/-!
C80-C82: the right-hand side of src/sw2d-simple on every grid the triangle provisioner builds.

A depth that is zero or negative somewhere makes the code divide by zero or take the root of a negative number, so the statements are about states with positive depth.
-/

namespace Blitzdg.SW

open Blitzdg.Sparse (DMat)
open Blitzdg.Nodes1D (Lapack exactLapack exactLapack_ok)
open Blitzdg.DG2D

/-- `g` is what the provisioner builds for the conforming mesh `m` (neighbours across faces given by `P`), the eigenvalue and linear solvers keeping their contracts, and the Gauss-Lobatto points lying
further apart than twice the node tolerance. -/
structure Provisioned (la : Lapack) (eps ztol tol : ℝ) (N : ℕ) (m : Mesh) (P : ℕ → ℕ) (g : Grid) : Prop where
  lapack : la.Ok
  eps_pos : 0 < eps
  eps_le : eps ≤ 0.1
  ztol_pos : 0 < ztol
  tol_pos : 0 < tol
  order : 1 ≤ N
  ztol_lt : ztol < 2 / N
  mesh : m.Ok P
  built : buildGrid la eps ztol tol N m = .ok g
  gap : ∀ x, IsGLL la eps N x → ∀ i j : ℕ, i < j → j ≤ N → 2 * tol ≤ x.getD j 0 - x.getD i 0

variable {la : Lapack} {eps ztol tol : ℝ} {N : ℕ} {m : Mesh} {P : ℕ → ℕ} {g : Grid}

theorem Provisioned.spec (h : Provisioned la eps ztol tol N m P g) : ∃ x, GridSpec P x m.bcType g ∧ g.N = N ∧ g.K = m.K ∧ ∀ k < m.K, g.tri k = m.tri k := by
  have hb := h.built
  unfold buildGrid at hb
  cases hel : triElement la eps ztol tol N with
  | ok no =>
    obtain ⟨n, o⟩ := no
    have hn : n = g.n := by
      rw [hel] at hb
      simp only [Out.bind_ok] at hb
      cases h1 : gather 3 m.ev m.vert m.nv m.K with
      | ok cs =>
        rw [h1] at hb
        simp only [Out.bind_ok] at hb
        cases h2 : buildMaps ((N + 1) * (N + 2) / 2) (N + 1) 3 m.K n.mask m.E m.F (nearTest (fun k => toTri (cs.getD k [])) n ((N + 1) * (N + 2) / 2) tol) with
        | ok mp =>
          rw [h2] at hb
          simp only [Out.bind_ok] at hb
          cases h3 : buildBCHash (N + 1) (3 * m.K) m.bcType TagMap.empty with
          | ok bc =>
            rw [h3] at hb
            simp only [Out.bind_ok, Out.pure_eq, Out.ok.injEq] at hb
            rw [← hb]
          | throws => rw [h3] at hb; cases hb
          | ub => rw [h3] at hb; cases hb
        | throws => rw [h2] at hb; cases hb
        | ub => rw [h2] at hb; cases hb
      | throws => rw [h1] at hb; cases hb
      | ub => rw [h1] at hb; cases hb
    subst hn
    obtain ⟨g', x, h1, h2, h3, -, -, h4, -, h5⟩ := buildGrid_spec la h.lapack eps h.eps_pos h.eps_le ztol tol h.ztol_pos h.tol_pos N h.order h.ztol_lt m P h.mesh g.n o hel h.gap
    rw [h.built] at h1
    obtain rfl : g = g' := by simpa using h1
    exact ⟨x, h5, h2, h3, h4⟩
  | throws => rw [hel] at hb; cases hb
  | ub => rw [hel] at hb; cases hb

/-- Depth positive at every node. -/
def Wet (g : Grid) (q : Fields) : Prop := ∀ i < g.np, ∀ k < g.K, 0 < q.h.at' i k

/-- **C80.** When every boundary face is a wall, for every wet state the total of the depth's rate of change is zero: no mass is created or lost by the spatial discretisation. -/
theorem C80_mass (h : Provisioned la eps ztol tol N m P g) (hw : ∀ e < 3 * m.K, m.bcType[e]? = some 3 ↔ P e = e) (hw1 : ∃ e < 3 * m.K, P e = e)
    (grav : ℝ) (q : Fields) (hq : q.Fits g) (_hwet : Wet g q) : ∃ r, g.rhsSimple grav q = .ok r ∧ r.Fits g ∧ ∀ M, IsTotal g r.h.at' M ↔ M = 0 := by
  obtain ⟨x, hg, -, hK, -⟩ := h.spec
  rw [← hK] at hw hw1
  obtain ⟨e, he, hP⟩ := hw1
  obtain ⟨r, h1, h2, h3⟩ := hg.mass hw ⟨e, he, (hw e he).2 hP⟩ grav q hq
  exact ⟨r, h1, h2, fun M => ⟨fun hM => hg.total_unique hM h3, fun hM => hM ▸ h3⟩⟩

/-- **C81.** A uniform state whose velocity is parallel to every wall stays: all three rates of change are zero at every node.  In particular a lake at rest stays at rest. -/
theorem C81_steady (h : Provisioned la eps ztol tol N m P g) (hw1 : ∃ e < 3 * m.K, m.bcType[e]? = some 3) (grav : ℝ) (q : Fields) (hq : q.Fits g) (_hwet : Wet g q)
    (s : State) (hs : ∀ i < g.np, ∀ k < g.K, q.at' i k = s)
    (ht : ∀ e < 3 * m.K, m.bcType[e]? = some 3 → s.hu * (faceNormal g e).1 + s.hv * (faceNormal g e).2 = 0) :
    ∃ r, g.rhsSimple grav q = .ok r ∧ ∀ i < g.np, ∀ k < g.K, r.at' i k = ⟨0, 0, 0⟩ := by
  obtain ⟨x, hg, -, hK, -⟩ := h.spec
  rw [← hK] at hw1 ht
  exact hg.steady hw1 grav q hq s hs ht

/-- ... with momenta zero. -/
theorem C81_rest (h : Provisioned la eps ztol tol N m P g) (hw1 : ∃ e < 3 * m.K, m.bcType[e]? = some 3) (grav : ℝ) (q : Fields) (hq : q.Fits g)
    (depth : ℝ) (hd : 0 < depth) (hs : ∀ i < g.np, ∀ k < g.K, q.at' i k = ⟨depth, 0, 0⟩) :
    ∃ r, g.rhsSimple grav q = .ok r ∧ ∀ i < g.np, ∀ k < g.K, r.at' i k = ⟨0, 0, 0⟩ :=
  C81_steady h hw1 grav q hq (fun i hi k hk => by have := congrArg State.h (hs i hi k hk); simp only [Fields.at'] at this; rw [this]; exact hd)
    _ hs (fun e _ _ => by simp)

/-- **C82.** A mesh without wall faces (a fully open or otherwise tagged boundary) makes the right-hand side throw, whatever the state. -/
theorem C82_no_wall (h : Provisioned la eps ztol tol N m P g) (hw : ¬ ∃ e < 3 * m.K, m.bcType[e]? = some 3) (grav : ℝ) (q : Fields) : g.rhsSimple grav q = .throws := by
  obtain ⟨x, hg, -, hK, -⟩ := h.spec
  rw [← hK] at hw
  exact hg.rhsSimple_throws grav q hw

/-! ### A concrete grid: the unit square cut into two triangles, order one -/

/-- The mesh. -/
noncomputable def square : Mesh where
  K := 2
  nv := 4
  ev := [0, 1, 2, 1, 3, 2]
  vert := [0, 0, 0, 1, 0, 0, 0, 1, 0, 1, 1, 0]
  E := [0, 1, 0, 1, 1, 0]
  F := [0, 2, 2, 0, 1, 1]
  bcType := [3, 0, 3, 3, 3, 0]

theorem square_ok : square.Ok twoTri where
  conn := twoTri_conn
  lenEv := rfl
  ltEv := by intro v hv; simp only [square, List.mem_cons, List.not_mem_nil, or_false] at hv ⊢; omega
  lenVert := rfl
  lenBc := le_refl _
  ccw := by
    intro k hk
    have hk : k < 2 := hk
    interval_cases k <;> norm_num [cross, Mesh.tri, Mesh.corner, square]
  meet := by
    intro e he hne
    have he : e < 6 := he
    interval_cases e <;> first | exact absurd rfl hne | (norm_num [twoTri, faceEnds, Mesh.tri, Mesh.corner, square])

theorem square_grid : ∃ g, Provisioned exactLapack (1 / 2 ^ 52) 1e-10 1e-5 1 square twoTri g ∧
    (g.n.r.getD 0 0 = -1 ∧ g.n.s.getD 0 0 = -1) ∧ (g.n.r.getD 1 0 = 1 ∧ g.n.s.getD 1 0 = -1) ∧ (g.n.r.getD 2 0 = -1 ∧ g.n.s.getD 2 0 = 1) := by
  obtain ⟨n, o, h1, -, -, -, p0, p1, p2⟩ := demo_tri
  have hgap : ∀ x, IsGLL exactLapack (1 / 2 ^ 52) 1 x → ∀ i j : ℕ, i < j → j ≤ 1 → 2 * (1e-5 : ℝ) ≤ x.getD j 0 - x.getD i 0 := by
    intro x hx i j hij hj
    have e : x = [-1, 1] := by
      unfold IsGLL Jacobi.gllPoints at hx
      simp [wr] at hx
      exact hx.symm
    obtain rfl : i = 0 := by omega
    obtain rfl : j = 1 := by omega
    rw [e]
    norm_num
  obtain ⟨g, x, hb, -, -, rfl, -⟩ := buildGrid_spec exactLapack exactLapack_ok (1 / 2 ^ 52) (by norm_num) (by norm_num) 1e-10 1e-5 (by norm_num) (by norm_num) 1 (le_refl _) (by norm_num)
    square twoTri square_ok n o h1 hgap
  exact ⟨g, ⟨exactLapack_ok, by norm_num, by norm_num, by norm_num, by norm_num, le_refl _, by norm_num, square_ok, hb, hgap⟩, p0, p1, p2⟩

theorem square_walls : (∀ e < 3 * square.K, square.bcType[e]? = some 3 ↔ twoTri e = e) ∧ ∃ e < 3 * square.K, twoTri e = e := by
  constructor
  · intro e he
    have he : e < 6 := he
    interval_cases e <;> simp [square, twoTri]
  · exact ⟨0, by decide, rfl⟩

/-- C80 applies to a non-uniform moving state on it. -/
example : ∃ g : Grid, ∃ q : Fields, q.Fits g ∧ Wet g q ∧ q.h.at' 0 0 ≠ q.h.at' 1 0 ∧ q.hu.at' 0 1 ≠ 0 ∧
    ∃ r, g.rhsSimple 9.81 q = .ok r ∧ r.Fits g ∧ ∀ M, IsTotal g r.h.at' M ↔ M = 0 := by
  obtain ⟨g, hg, -⟩ := square_grid
  have hf : Fields.Fits ⟨⟨g.np, g.K, fun i k => 1 + i + k⟩, ⟨g.np, g.K, fun i k => i + 2 * k⟩, ⟨g.np, g.K, fun i _ => -i⟩⟩ g := ⟨⟨rfl, rfl⟩, ⟨rfl, rfl⟩, rfl, rfl⟩
  have hwet : Wet g ⟨⟨g.np, g.K, fun i k => 1 + i + k⟩, ⟨g.np, g.K, fun i k => i + 2 * k⟩, ⟨g.np, g.K, fun i _ => -i⟩⟩ := by
    intro i _ k _; simp only; positivity
  exact ⟨g, _, hf, hwet, by norm_num, by norm_num, C80_mass hg square_walls.1 square_walls.2 9.81 _ hf hwet⟩

/-- C81 applies to a lake at rest on it. -/
example : ∃ g : Grid, ∃ q : Fields, q.Fits g ∧ Wet g q ∧ ∃ r, g.rhsSimple 9.81 q = .ok r ∧ ∀ i < g.np, ∀ k < g.K, r.at' i k = ⟨0, 0, 0⟩ := by
  obtain ⟨g, hg, -⟩ := square_grid
  refine ⟨g, ⟨⟨g.np, g.K, fun _ _ => 10⟩, ⟨g.np, g.K, fun _ _ => 0⟩, ⟨g.np, g.K, fun _ _ => 0⟩⟩, ⟨⟨rfl, rfl⟩, ⟨rfl, rfl⟩, rfl, rfl⟩, by intro i _ k _; norm_num, ?_⟩
  exact C81_rest hg ⟨0, by decide, rfl⟩ 9.81 _ ⟨⟨rfl, rfl⟩, ⟨rfl, rfl⟩, rfl, rfl⟩ 10 (by norm_num) fun _ _ _ _ => rfl

end Blitzdg.SW
