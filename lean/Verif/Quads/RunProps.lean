import Verif.Quads.FilterProps

/-!
C125: the shallow water script on quadrilaterals, on every grid its provisioner builds.
-/

namespace Blitzdg.Quads

open MvPolynomial
open Blitzdg.Sparse (DMat)
open Blitzdg.Nodes1D (Lapack)
open Blitzdg.Dense (toMat)
open Blitzdg.DG2D
open Blitzdg.SW (Mesh Fields State V3 npFilter pyWhile Passes while_passes listMax listMax_spec)

/-- `g` is what the provisioner builds for the conforming mesh `m` of convex counter-clockwise quadrilaterals (neighbours across faces given by `P`), the eigenvalue and linear solvers keeping their contracts and the
Gauss-Lobatto points lying further apart than twice the node tolerance. -/
structure QProvisioned (la : Lapack) (eps tol : ℝ) (N : ℕ) (m : Mesh) (P : ℕ → ℕ) (g : QGrid) : Prop where
  lapack : la.Ok
  eps_pos : 0 < eps
  eps_le : eps ≤ 0.1
  tol_pos : 0 < tol
  order : 1 ≤ N
  mesh : QMeshOk m P
  built : buildQGrid la eps tol N m = .ok g
  gap : ∀ x, IsGLL la eps N x → ∀ i j : ℕ, i < j → j ≤ N → 2 * tol ≤ x.getD j 0 - x.getD i 0

variable {la : Lapack} {eps tol : ℝ} {N : ℕ} {m : Mesh} {P : ℕ → ℕ} {g : QGrid} {x : List ℝ} {bt : List Int}

theorem QProvisioned.spec (h : QProvisioned la eps tol N m P g) : ∃ x, QSpec P x m.bcType g ∧ g.N = N ∧ g.K = m.K ∧ ∀ k < m.K, g.quad k = quadOf m k := by
  have hgll : ∃ x, IsGLL la eps N x := by
    rcases C47_quadrilateral la h.lapack eps h.eps_pos h.eps_le tol h.tol_pos N h.order with ⟨h1, -⟩ | ⟨x, hx, -⟩
    · have hb := h.built
      unfold buildQGrid at hb
      rw [h1] at hb
      cases hb
    · exact ⟨x, hx⟩
  obtain ⟨g', x, h1, h2, h3, -, h4, -, h5⟩ := buildQGrid_spec la h.lapack eps h.eps_pos h.eps_le tol h.tol_pos N h.order m P h.mesh hgll h.gap
  rw [h.built, Out.ok.injEq] at h1
  subst h1
  exact ⟨x, h5, h2, h3, h4⟩

/-! ### The rates of change -/

/-- **C125, mass.** On parallelograms, when every boundary face is a wall, the total of the depth's rate of change is zero, whatever the state. -/
theorem C125_mass (h : QProvisioned la eps tol N m P g) (hpar : ∀ k < m.K, Parallelogram (quadOf m k)) (hw : ∀ e < 4 * m.K, m.bcType[e]? = some 3 ↔ P e = e) (hw1 : ∃ e < 4 * m.K, P e = e)
    (grav : ℝ) (q : Fields) (hq : FieldsFit q g) : ∃ r, g.rhs grav q = .ok r ∧ FieldsFit r g ∧ ∀ M, IsTotal g r.h.at' M ↔ M = 0 := by
  obtain ⟨x, hg, -, hK, hQ⟩ := h.spec
  rw [← hK] at hw hw1 hpar hQ
  obtain ⟨e, he, hP⟩ := hw1
  obtain ⟨r, h1, h2, h3⟩ := hg.mass (fun k hk => by rw [hQ k hk]; exact hpar k hk) hw ⟨e, he, (hw e he).2 hP⟩ grav q hq
  exact ⟨r, h1, h2, fun M => ⟨fun hM => hg.total_unique hM h3, fun hM => hM ▸ h3⟩⟩

/-- Outward normal direction of face `e` of the mesh: the edge from its first to its second corner, turned clockwise. -/
def edgeNormal (m : Mesh) (e : ℕ) : ℝ × ℝ :=
  ((ends (quadOf m (e / 4)) (e % 4)).2.2 - (ends (quadOf m (e / 4)) (e % 4)).1.2, (ends (quadOf m (e / 4)) (e % 4)).1.1 - (ends (quadOf m (e / 4)) (e % 4)).2.1)

/-- **C125, steady states.** On every mesh, parallelograms or not: a uniform state whose velocity is parallel to every wall stays. -/
theorem C125_steady (h : QProvisioned la eps tol N m P g) (hw1 : ∃ e < 4 * m.K, m.bcType[e]? = some 3) (grav : ℝ) (q : Fields) (hq : FieldsFit q g)
    (s : State) (hs : ∀ i < g.np, ∀ k < g.K, q.at' i k = s) (ht : ∀ e < 4 * m.K, m.bcType[e]? = some 3 → s.hu * (edgeNormal m e).1 + s.hv * (edgeNormal m e).2 = 0) :
    ∃ r, g.rhs grav q = .ok r ∧ FieldsFit r g ∧ ∀ i < g.np, ∀ k < g.K, r.at' i k = ⟨0, 0, 0⟩ := by
  obtain ⟨x, hg, -, hK, hQ⟩ := h.spec
  rw [← hK] at hw1 ht hQ
  obtain ⟨r, h1, h2⟩ := hg.steady hw1 grav q hq s hs fun e he hb => by
    have := ht e he hb
    unfold edgeNormal at this
    unfold faceNormal unit nrm
    rw [hQ (e / 4) (by omega)]
    simp only at this ⊢
    generalize len _ = l
    linear_combination this / 2 / l
  obtain ⟨Λ, d1, d2, d3, r', h1', h3, -⟩ := hg.rhs_ok grav q hq hw1
  rw [h1, Out.ok.injEq] at h1'
  subst h1'
  exact ⟨r, h1, h3, h2⟩

/-- **C125, walls.** Without a wall the script ends with `KeyError`, whatever the state. -/
theorem C125_no_wall (h : QProvisioned la eps tol N m P g) (hw : ¬ ∃ e < 4 * m.K, m.bcType[e]? = some 3) (grav : ℝ) (q : Fields) : g.rhs grav q = .throws := by
  obtain ⟨x, hg, -, hK, -⟩ := h.spec
  rw [← hK] at hw
  exact hg.rhs_throws hw grav q

/-! ### Runs -/

theorem pass_inv {grav dt : ℝ} {n : ℕ} {F : Matrix (Fin n) (Fin n) ℝ} {r r' : QRun} (h : g.pass grav dt F r = .ok r') :
    g.advance grav dt F r.q = .ok r'.q ∧ g.hMax r'.q.h ≤ 1e8 ∧ r'.t = r.t + dt ∧ r'.step = r.step + 1 ∧ r'.out = if (r.step + 1) % 20 = 0 then r.out ++ [(r.step + 1, r'.q)] else r.out := by
  unfold QGrid.pass at h
  obtain ⟨q, h1, h⟩ := Out.bind_eq_ok.1 h
  split_ifs at h with h2 h3
  · rw [Out.pure_eq, Out.ok.injEq] at h
    subst h
    exact ⟨h1, not_lt.1 h2, rfl, rfl, by rw [if_pos h3]⟩
  · rw [Out.pure_eq, Out.ok.injEq] at h
    subst h
    exact ⟨h1, not_lt.1 h2, rfl, rfl, by rw [if_neg h3]⟩

theorem advance_inv {grav dt : ℝ} {n : ℕ} {F : Matrix (Fin n) (Fin n) ℝ} {q q' : Fields} (h : g.advance grav dt F q = .ok q') :
    ∃ r r1, g.rhs grav q = .ok r ∧ g.rhs grav (plus (0.5 * dt) (filter3 F r) q) = .ok r1 ∧ q' = plus dt (filter3 F r1) q := by
  unfold QGrid.advance at h
  obtain ⟨r, h1, h⟩ := Out.bind_eq_ok.1 h
  obtain ⟨r1, h2, h⟩ := Out.bind_eq_ok.1 h
  rw [Out.pure_eq, Out.ok.injEq] at h
  exact ⟨r, r1, h1, h2, h.symm⟩

/-- The states a run goes through. -/
theorem run_states {grav dt T : ℝ} {k n : ℕ} {F : Matrix (Fin k) (Fin k) ℝ} {q : Fields} {r : QRun} (h : g.run grav dt T F n q = .ok r) :
    ∃ S : ℕ → Fields, S 0 = q ∧ S r.step = r.q ∧ (∀ j < r.step, g.advance grav dt F (S j) = .ok (S (j + 1)) ∧ g.hMax (S (j + 1)).h ≤ 1e8 ∧ j * dt < T) ∧ r.t = r.step * dt ∧
      r.step ≤ n ∧ (r.step = n ∨ T ≤ r.step * dt) ∧ r.out = (List.range (r.step / 20 + 1)).map fun j => (20 * j, S (20 * j)) := by
  obtain ⟨p, hp, S, h0, rfl, hS, hend⟩ := (while_passes _ _ _ _ _ _).1 h
  have key : ∀ j ≤ p, (S j).step = j ∧ (S j).t = j * dt ∧ (S j).out = (List.range (j / 20 + 1)).map fun i => (20 * i, (S (20 * i)).q) := by
    intro j
    induction j with
    | zero => intro _; rw [h0]; simp [h0]
    | succ j ih =>
      intro hj
      obtain ⟨i1, i2, i3⟩ := ih (by omega)
      obtain ⟨-, -, e1, e2, e3⟩ := pass_inv (hS j (by omega)).2
      refine ⟨by omega, by rw [e1, i2]; push_cast; ring, ?_⟩
      rw [e3, i1, i3]
      split_ifs with h20
      · have a : (j + 1) / 20 = j / 20 + 1 := by omega
        have b : 20 * (j / 20 + 1) = j + 1 := by omega
        rw [a, List.range_succ (n := j / 20 + 1), List.map_append]
        simp only [List.map_cons, List.map_nil, b]
      · rw [show (j + 1) / 20 = j / 20 by omega]
  obtain ⟨k1, k2, k3⟩ := key p (le_refl _)
  refine ⟨fun j => (S j).q, congrArg QRun.q h0, by rw [k1], fun j hj => ?_, by rw [k1, k2], by omega, by rw [k1, ← k2]; exact hend, by rw [k1, k3]⟩
  rw [k1] at hj
  obtain ⟨a, b, -⟩ := pass_inv (hS j hj).2
  exact ⟨a, b, by rw [← (key j (by omega)).2.1]; exact (hS j hj).1⟩

/-- **C125, schedule.** A run that ends without error has made as many steps of the size given as are needed to reach the final time, unless it was cut short; the clock shows that many steps; the states written are the initial one
and those after every twentieth step, each with its number, and nothing else. -/
theorem C125_schedule (grav dt T : ℝ) (hdt : 0 < dt) {k : ℕ} (F : Matrix (Fin k) (Fin k) ℝ) (n : ℕ) (q : Fields) (r : QRun) (h : g.run grav dt T F n q = .ok r) :
    r.step = min n ⌈T / dt⌉₊ ∧ r.t = r.step * dt ∧ ∃ S : ℕ → Fields, S 0 = q ∧ S r.step = r.q ∧ (∀ j < r.step, g.advance grav dt F (S j) = .ok (S (j + 1))) ∧
      r.out = (List.range (r.step / 20 + 1)).map fun j => (20 * j, S (20 * j)) := by
  obtain ⟨S, h1, h2, h3, h4, h5, h6, h7⟩ := run_states h
  refine ⟨?_, h4, S, h1, h2, fun j hj => (h3 j hj).1, h7⟩
  have hle : r.step ≤ ⌈T / dt⌉₊ := by
    by_contra hb
    have hlt : r.step - 1 < r.step := by omega
    have := (h3 _ hlt).2.2
    have h8 : ⌈T / dt⌉₊ ≤ r.step - 1 := by omega
    rw [Nat.ceil_le, div_le_iff₀ hdt] at h8
    linarith
  rcases h6 with h6 | h6
  · omega
  · have : ⌈T / dt⌉₊ ≤ r.step := by rw [Nat.ceil_le, div_le_iff₀ hdt]; exact h6
    omega

theorem hMax_le {h : DMat ℝ} {B : ℝ} (hB : g.hMax h ≤ B) {i k : ℕ} (hi : i < g.np) (hk : k < g.K) : |h.at' i k| ≤ B := by
  have hlt : i * g.K + k < g.np * g.K := by
    have : (i + 1) * g.K ≤ g.np * g.K := Nat.mul_le_mul_right _ hi
    rw [add_mul, one_mul] at this
    omega
  refine le_trans ((listMax_spec _ ?_).1 _ (List.mem_map.2 ⟨i * g.K + k, List.mem_range.2 hlt, ?_⟩)) hB
  · intro h0
    have := congrArg List.length h0
    simp at this
    omega
  · rw [mul_comm, Nat.mul_add_div (by omega), Nat.div_eq_of_lt hk, add_zero, Nat.mul_add_mod, Nat.mod_eq_of_lt hk]

/-- **C125, blow-up.** After a run of at least one step every depth is at most 1e8 in size, at every node. -/
theorem C125_bounded (grav dt T : ℝ) {k : ℕ} (F : Matrix (Fin k) (Fin k) ℝ) (n : ℕ) (q : Fields) (r : QRun) (h : g.run grav dt T F n q = .ok r) (h0 : 0 < r.step) {i e : ℕ} (hi : i < g.np) (he : e < g.K) :
    |r.q.h.at' i e| ≤ 1e8 := by
  obtain ⟨S, h1, h2, h3, -⟩ := run_states h
  have := (h3 (r.step - 1) (by omega)).2.1
  rw [show r.step - 1 + 1 = r.step by omega, h2] at this
  exact hMax_le this hi he

/-- The Jacobian of the map to an element as a polynomial. -/
noncomputable def jacPoly (Q : Quad) : P2 :=
  C (jac (quadDeriv Q 0 0)) + C (jac (quadDeriv Q 1 0) - jac (quadDeriv Q 0 0)) * X 0 + C (jac (quadDeriv Q 0 1) - jac (quadDeriv Q 0 0)) * X 1

theorem ev_jacPoly (Q : Quad) (r s : ℝ) : ev r s (jacPoly Q) = jac (quadDeriv Q r s) := by
  unfold jacPoly
  simp [jac, quadDeriv]
  ring

theorem jac_int (Q : Quad) (p : P2) : (quadInt fun r s => jac (quadDeriv Q r s) * ev r s p) = integ quadInt (jacPoly Q * p) := by
  unfold integ
  congr 1
  funext r s
  rw [map_mul, ev_jacPoly]

theorem isTotal_plus (d : ℝ) {u v : ℕ → ℕ → ℝ} {M L : ℝ} (hu : IsTotal g u M) (hv : IsTotal g v L) : IsTotal g (fun i k => u i k + d * v i k) (M + d * L) := by
  obtain ⟨p, hp, rfl⟩ := hu
  obtain ⟨q, hq, rfl⟩ := hv
  refine ⟨fun k => p k + C d * q k, fun k hk => ⟨quadSpace_add (hp k hk).1 (quadSpace_smul d (hq k hk).1), fun i hi => ?_⟩, ?_⟩
  · have a := (hp k hk).2 i hi
    have b := (hq k hk).2 i hi
    unfold nodal at a b ⊢
    simp only [map_add, map_mul, eval_C, a, b]
  · rw [Finset.mul_sum, ← Finset.sum_add_distrib]
    refine Finset.sum_congr rfl fun k _ => ?_
    rw [jac_int, jac_int, jac_int, show jacPoly (g.quad k) * (p k + C d * q k) = jacPoly (g.quad k) * p k + C d * (jacPoly (g.quad k) * q k) by ring, (quadModal 0).add, (quadModal 0).smul]

theorem fit_plus {c : ℝ} {r q : Fields} (hq : FieldsFit q g) : FieldsFit (plus c r q) g := hq

/-- **C125, total over a run.** On parallelograms with walls all around, a run of any length keeps the total of the depth. -/
theorem C125_total (h : QProvisioned la eps tol N m P g) (hpar : ∀ k < m.K, Parallelogram (quadOf m k)) (hw : ∀ e < 4 * m.K, m.bcType[e]? = some 3 ↔ P e = e) (hw1 : ∃ e < 4 * m.K, P e = e)
    (Nc : ℝ) (h0 : 0 ≤ Nc) (hNc : Nc ≠ N) (sx : ℤ) (hsx : 1 ≤ sx) :
    ∃ F : Matrix (Fin g.np) (Fin g.np) ℝ, g.filter Nc sx = .ok (fun i j => some (F i j)) ∧ ∀ (grav dt T : ℝ) (n : ℕ) (q : Fields) (r : QRun) (M : ℝ), FieldsFit q g → g.run grav dt T F n q = .ok r →
      IsTotal g q.h.at' M → IsTotal g r.q.h.at' M := by
  obtain ⟨x, hg, hN, hK, hQ⟩ := h.spec
  rw [← hN] at hNc
  obtain ⟨c, hF, hc, -⟩ := hg.filter_ok Nc h0 hNc sx hsx
  refine ⟨_, hF, fun grav dt T n q r M hq hr hM => ?_⟩
  obtain ⟨S, h1, h2, h3, -⟩ := run_states hr
  have key : ∀ j ≤ r.step, FieldsFit (S j) g ∧ IsTotal g (S j).h.at' M := by
    intro j
    induction j with
    | zero => intro _; rw [h1]; exact ⟨hq, hM⟩
    | succ j ih =>
      intro hj
      obtain ⟨i1, i2⟩ := ih (by omega)
      obtain ⟨r0, r1, e1, e2, e3⟩ := advance_inv (h3 j (by omega)).1
      rw [e3]
      refine ⟨fit_plus i1, ?_⟩
      obtain ⟨r1', e4, -, e5⟩ := C125_mass h hpar hw hw1 grav _ (fit_plus (c := 0.5 * dt) (r := filter3 _ r0) i1)
      rw [e2, Out.ok.injEq] at e4
      subst e4
      have t := isTotal_plus dt i2 (hg.damp_total (fun k hk => by rw [hQ k (hK ▸ hk)]; exact hpar k (hK ▸ hk)) c hc r1.h 0 ((e5 0).2 rfl))
      rw [mul_zero, add_zero] at t
      exact t
  rw [← h2]
  exact (key _ (le_refl _)).2

/-- **C125, steady states over a run.** A uniform state of depth at most 1e8 whose velocity is parallel to every wall stays through a run of any length, on every mesh and with every filter; in particular a lake at rest. -/
theorem C125_steady_run (h : QProvisioned la eps tol N m P g) (hw1 : ∃ e < 4 * m.K, m.bcType[e]? = some 3) (grav dt T : ℝ) (F : Matrix (Fin g.np) (Fin g.np) ℝ) (n : ℕ) (q : Fields) (hq : FieldsFit q g)
    (s : State) (hB : |s.h| ≤ 1e8) (hs : ∀ i < g.np, ∀ k < g.K, q.at' i k = s) (ht : ∀ e < 4 * m.K, m.bcType[e]? = some 3 → s.hu * (edgeNormal m e).1 + s.hv * (edgeNormal m e).2 = 0) :
    ∃ r, g.run grav dt T F n q = .ok r ∧ ∀ i < g.np, ∀ k < g.K, r.q.at' i k = s := by
  obtain ⟨x, hg, -, hK, -⟩ := h.spec
  have hstep : ∀ q : Fields, FieldsFit q g → (∀ i < g.np, ∀ k < g.K, q.at' i k = s) → ∃ q', g.advance grav dt F q = .ok q' ∧ FieldsFit q' g ∧ (∀ i < g.np, ∀ k < g.K, q'.at' i k = s) ∧ g.hMax q'.h ≤ 1e8 := by
    intro q hq hs
    have add : ∀ (c : ℝ) (r : Fields), (∀ i < g.np, ∀ k < g.K, r.at' i k = ⟨0, 0, 0⟩) → ∀ i < g.np, ∀ k < g.K, (plus c (filter3 F r) q).at' i k = s := by
      intro c r hr i hi k hk
      have z : ∀ u : DMat ℝ, (∀ j < g.np, u.at' j k = 0) → (npFilter F u).at' i k = 0 := by
        intro u hu
        unfold npFilter
        simp only [dif_pos hi]
        exact Finset.sum_eq_zero fun j _ => by rw [hu j j.2, mul_zero]
      have e := hs i hi k hk
      rw [← e]
      unfold Fields.at' plus filter3
      simp only
      rw [z r.h fun j hj => congrArg State.h (hr j hj k hk), z r.hu fun j hj => congrArg State.hu (hr j hj k hk), z r.hv fun j hj => congrArg State.hv (hr j hj k hk)]
      simp
    obtain ⟨r, a1, a2, a3⟩ := C125_steady h hw1 grav q hq s hs ht
    have m1 := add (0.5 * dt) r a3
    obtain ⟨r1, b1, b2, b3⟩ := C125_steady h hw1 grav _ (fit_plus (c := 0.5 * dt) (r := filter3 F r) hq) s m1 ht
    have m2 := add dt r1 b3
    refine ⟨plus dt (filter3 F r1) q, ?_, fit_plus hq, m2, ?_⟩
    · unfold QGrid.advance
      simp only [a1, Out.bind_ok, b1]
      rfl
    · have hne : ((List.range (g.np * g.K)).map fun c => |(plus dt (filter3 F r1) q).h.at' (c / g.K) (c % g.K)|) ≠ [] := by
        obtain ⟨e, he, -⟩ := hw1
        rw [← hK] at he
        have : 0 < g.np * g.K := Nat.mul_pos hg.np_pos (by omega)
        intro h0
        have h1 := congrArg List.length h0
        rw [List.length_map, List.length_range, List.length_nil] at h1
        omega
      obtain ⟨p, hp, hpe⟩ := List.mem_map.1 (listMax_spec _ hne).2
      unfold QGrid.hMax
      rw [← hpe]
      have hp := List.mem_range.1 hp
      have hKp : 0 < g.K := by
        rcases Nat.eq_zero_or_pos g.K with h0 | h0
        · rw [h0] at hp; omega
        · exact h0
      have : p / g.K < g.np := by apply Nat.div_lt_of_lt_mul; rw [Nat.mul_comm]; exact hp
      have e := congrArg State.h (m2 _ this _ (Nat.mod_lt p hKp))
      unfold Fields.at' at e
      simp only at e
      rw [e]
      exact hB
  have hpass : ∀ r : QRun, FieldsFit r.q g → (∀ i < g.np, ∀ k < g.K, r.q.at' i k = s) → ∃ r', g.pass grav dt F r = .ok r' ∧ FieldsFit r'.q g ∧ ∀ i < g.np, ∀ k < g.K, r'.q.at' i k = s := by
    intro r hr1 hr2
    obtain ⟨q', h1, h2, h3, h4⟩ := hstep r.q hr1 hr2
    unfold QGrid.pass
    rw [h1, Out.bind_ok, if_neg (not_lt.2 h4)]
    split_ifs
    · exact ⟨_, rfl, h2, h3⟩
    · exact ⟨_, rfl, h2, h3⟩
  unfold QGrid.run
  have loop : ∀ (n : ℕ) (r : QRun), FieldsFit r.q g → (∀ i < g.np, ∀ k < g.K, r.q.at' i k = s) → ∃ r', pyWhile QRun.t (g.pass grav dt F) T n r = .ok r' ∧ ∀ i < g.np, ∀ k < g.K, r'.q.at' i k = s := by
    intro n
    induction n with
    | zero => intro r _ h2; exact ⟨r, rfl, h2⟩
    | succ n ih =>
      intro r h1 h2
      unfold pyWhile
      split_ifs
      · obtain ⟨r', e1, e2, e3⟩ := hpass r h1 h2
        rw [e1, Out.bind_ok]
        exact ih r' e2 e3
      · exact ⟨r, rfl, h2⟩
  exact loop n _ hq hs

theorem low_plus {u v : ℕ → ℝ} (d : ℝ) (hu : Low g u) (hv : Low g v) : Low g fun i => u i + d * v i := by
  obtain ⟨p, hp, p1⟩ := hu
  obtain ⟨q, hq, q1⟩ := hv
  refine ⟨p + C d * q, ⟨quadSpace_add hp.1 (quadSpace_smul d hq.1), fun i hi => ?_⟩, ?_⟩
  · have a := hp.2 i hi
    have b := hq.2 i hi
    unfold nodal at a b ⊢
    simp only [map_add, map_mul, eval_C, a, b]
  · exact (degreeOf_add_le _ _ _).trans (max_le p1 ((degreeOf_C_mul_le _ _ _).trans q1))

theorem low_zero : Low g fun _ => 0 := ⟨0, ⟨fun i => by simp, fun i _ => by unfold nodal; simp⟩, by simp⟩

/-- **C125, frozen modes.** Whatever the mesh, the state and the length of the run: on every element the change of depth and momenta over a run is a polynomial of degree at most `(N+1)/2` in the second reference coordinate,
although the fields themselves have degree `N` in it.  Their part of higher degree in that direction never changes. -/
theorem C125_frozen (h : QProvisioned la eps tol N m P g) (Nc : ℝ) (h0 : 0 ≤ Nc) (hNc : Nc ≠ N) (sx : ℤ) (hsx : 1 ≤ sx) :
    ∃ F : Matrix (Fin g.np) (Fin g.np) ℝ, g.filter Nc sx = .ok (fun i j => some (F i j)) ∧ ∀ (grav dt T : ℝ) (n : ℕ) (q : Fields) (r : QRun), g.run grav dt T F n q = .ok r → ∀ k,
      ∀ p : P2, (IsInterp g (fun i => r.q.h.at' i k - q.h.at' i k) p ∨ IsInterp g (fun i => r.q.hu.at' i k - q.hu.at' i k) p ∨ IsInterp g (fun i => r.q.hv.at' i k - q.hv.at' i k) p) →
        p.degreeOf 1 ≤ (N + 1) / 2 := by
  obtain ⟨x, hg, hN, hK, hQ⟩ := h.spec
  rw [← hN] at hNc ⊢
  obtain ⟨c, hF, -, hc⟩ := hg.filter_ok Nc h0 hNc sx hsx
  refine ⟨_, hF, fun grav dt T n q r hr k => ?_⟩
  obtain ⟨S, h1, h2, h3, -⟩ := run_states hr
  have key : ∀ j ≤ r.step, Low g (fun i => (S j).h.at' i k - q.h.at' i k) ∧ Low g (fun i => (S j).hu.at' i k - q.hu.at' i k) ∧ Low g (fun i => (S j).hv.at' i k - q.hv.at' i k) := by
    intro j
    induction j with
    | zero =>
      intro _
      rw [h1]
      simp only [sub_self]
      exact ⟨low_zero, low_zero, low_zero⟩
    | succ j ih =>
      intro hj
      obtain ⟨i1, i2, i3⟩ := ih (by omega)
      obtain ⟨r0, r1, e1, e2, e3⟩ := advance_inv (h3 j (by omega)).1
      have go : ∀ (u v w : ℕ → ℝ), Low g (fun i => u i - v i) → Low g w → Low g (fun i => (u i + dt * w i) - v i) := by
        intro u v w a b
        have := low_plus dt a b
        have e : (fun i => u i - v i + dt * w i) = fun i => (u i + dt * w i) - v i := by funext i; ring
        rwa [e] at this
      rw [e3]
      exact ⟨go _ _ _ i1 (hg.filter_low c hc r1.h k), go _ _ _ i2 (hg.filter_low c hc r1.hu k), go _ _ _ i3 (hg.filter_low c hc r1.hv k)⟩
  obtain ⟨k1, k2, k3⟩ := key _ (le_refl _)
  rw [h2] at k1 k2 k3
  have fin : ∀ (u : ℕ → ℝ) (p : P2), Low g u → IsInterp g u p → p.degreeOf 1 ≤ (g.N + 1) / 2 := by
    rintro u p ⟨p', hp', hd⟩ hp
    rw [hg.interp_unique hp hp']
    exact hd
  rintro p (hp | hp | hp)
  · exact fin _ p k1 hp
  · exact fin _ p k2 hp
  · exact fin _ p k3 hp

end Blitzdg.Quads
