import Verif.Output.Vtk
import Verif.DG2D.SplitProps
import Verif.DG2D.ElementProps
import Verif.Poisson.Field

/-! Property C135 (what a VTK file shows). -/

namespace Blitzdg.Output

open MvPolynomial
open Blitzdg.Sparse (DMat)
open Blitzdg.DG2D
open Blitzdg.Nodes1D (Lapack uncaught exactLapack exactLapack_ok)
open Blitzdg.Dense (toMat)
open Blitzdg.SW (gridX gridY)
open Blitzdg.Poisson (place val pull ev_pull pull_deg nodal_pull place_node)

/-! ### Cells and points -/

theorem flatMap_get {γ : Type} (g : ℕ → ℕ → γ) (np M : ℕ) : ((List.range M).flatMap fun k => (List.range np).map (g k)).length = M * np ∧
    ∀ k < M, ∀ c < np, ((List.range M).flatMap fun k => (List.range np).map (g k))[k * np + c]? = some (g k c) := by
  induction M with
  | zero => exact ⟨by simp, fun k hk => absurd hk (Nat.not_lt_zero _)⟩
  | succ M ih =>
    obtain ⟨h1, h2⟩ := ih
    have e : ((List.range (M + 1)).flatMap fun k => (List.range np).map (g k)) =
        ((List.range M).flatMap fun k => (List.range np).map (g k)) ++ (List.range np).map (g M) := by
      rw [List.range_succ, List.flatMap_append]; simp
    rw [e]
    refine ⟨by rw [List.length_append, h1, List.length_map, List.length_range, Nat.succ_mul], fun k hk c hc => ?_⟩
    rcases Nat.lt_succ_iff_lt_or_eq.1 hk with h | rfl
    · rw [List.getElem?_append_left, h2 k h c hc]
      rw [h1]
      calc k * np + c < k * np + np := by omega
        _ = (k + 1) * np := by ring
        _ ≤ M * np := Nat.mul_le_mul_right _ h
    · rw [List.getElem?_append_right (by rw [h1]; omega), h1, Nat.add_sub_cancel_left, List.getElem?_map, List.getElem?_range hc]
      rfl

theorem insertNode_loop (x y f : DMat ℝ) (k : ℕ) (hx : x.rows = f.rows ∧ k < x.cols) (hy : y.rows = f.rows ∧ k < y.cols) (hk : k < f.cols) (n : ℕ) (hn : n ≤ f.rows)
    (p : List (ℝ × ℝ)) (v : List ℝ) : loopM (insertNode x y f k) (p, v) (List.range n) =
      .ok (p ++ (List.range n).map (fun c => (x.at' c k, y.at' c k)), v ++ (List.range n).map fun c => f.at' c k) := by
  induction n with
  | zero => simp
  | succ n ih =>
    rw [List.range_succ, loopM_append, ih (by omega), Out.bind_ok, loopM_cons]
    have h : ∀ s : List (ℝ × ℝ) × List ℝ, insertNode x y f k s n = .ok (s.1 ++ [(x.at' n k, y.at' n k)], s.2 ++ [f.at' n k]) := by
      intro s
      unfold insertNode getAt
      rw [if_pos ⟨by omega, hx.2⟩, Out.bind_ok, if_pos ⟨by omega, hy.2⟩, Out.bind_ok, if_pos ⟨by omega, hk⟩]
      rfl
    rw [h, Out.bind_ok, loopM_nil]
    simp

theorem insertAllCells_ok (x y f : DMat ℝ) (hx : x.rows = f.rows ∧ x.cols = f.cols) (hy : y.rows = f.rows ∧ y.cols = f.cols) (cell : ℕ → List ℕ)
    (hc : ∀ k, vtkCell f.rows k = .ok (cell k)) :
    insertAllCells x y f = .ok
      { points := (List.range f.cols).flatMap fun k => (List.range f.rows).map fun c => (x.at' c k, y.at' c k)
        values := (List.range f.cols).flatMap fun k => (List.range f.rows).map fun c => f.at' c k
        cells := (List.range f.cols).map cell } := by
  have key : ∀ M ≤ f.cols, loopM (insertCell x y f) ⟨[], [], []⟩ (List.range M) = .ok
      { points := (List.range M).flatMap fun k => (List.range f.rows).map fun c => (x.at' c k, y.at' c k)
        values := (List.range M).flatMap fun k => (List.range f.rows).map fun c => f.at' c k
        cells := (List.range M).map cell } := by
    intro M
    induction M with
    | zero => intro _; rfl
    | succ M ih =>
      intro hM
      rw [List.range_succ, loopM_append, ih (by omega), Out.bind_ok, loopM_cons]
      unfold insertCell
      rw [insertNode_loop x y f M ⟨hx.1, by omega⟩ ⟨hy.1, by omega⟩ (by omega) _ (Nat.le_refl _), Out.bind_ok, hc, Out.bind_ok, Out.pure_eq, Out.bind_ok, loopM_nil]
      simp [List.flatMap_append]
  exact key _ (Nat.le_refl _)

/-! ### Triangles -/

/-- The reference coordinates of the lattice point `p`. -/
noncomputable def lat (N : ℕ) (p : ℕ × ℕ) : ℝ × ℝ := (-1 + 2 * (p.1 : ℝ) / N, -1 + 2 * (p.2 : ℝ) / N)

/-- **Specification.** The file `F` pictures, on the elements `T 0, ..., T (K-1)`, the functions `U 0, ..., U (K-1)`: each element is drawn as the `N²` triangles of the
triangulation `tr` of its lattice, each with its own three points; every point lies at its place in the element and carries the value of the function there. -/
structure Pictures (N K : ℕ) (T : ℕ → Tri) (U : ℕ → P2) (tr : List (List (ℕ × ℕ))) (F : VtkFile) : Prop where
  triangulation : Triangulation N tr
  sizes : F.points.length = K * N ^ 2 * 3 ∧ F.values.length = K * N ^ 2 * 3
  cells : F.cells = (List.range (K * N ^ 2)).map fun i => [i * 3 + 0, i * 3 + 1, i * 3 + 2]
  shows : ∀ k < K, ∀ l (hl : l < tr.length), ∀ c < 3, ∃ p, tr[l][c]? = some p ∧
    F.points[(k * N ^ 2 + l) * 3 + c]? = some (place (T k) (lat N p).1 (lat N p).2) ∧
    F.values[(k * N ^ 2 + l) * 3 + c]? = some (val (U k) (place (T k) (lat N p).1 (lat N p).2))

/-- The nodal values of the functions `U k` on the elements `T k`. -/
noncomputable def fieldOf (n : RefNodes) (K : ℕ) (T : ℕ → Tri) (U : ℕ → P2) : DMat ℝ := ⟨n.r.length, K, fun i k => val (U k) (gridX (T k) n i, gridY (T k) n i)⟩

/-- The grids `x`, `y` of the provisioner. -/
noncomputable def xOf (n : RefNodes) (K : ℕ) (T : ℕ → Tri) : DMat ℝ := ⟨n.r.length, K, fun i k => gridX (T k) n i⟩
noncomputable def yOf (n : RefNodes) (K : ℕ) (T : ℕ → Tri) : DMat ℝ := ⟨n.r.length, K, fun i k => gridY (T k) n i⟩

theorem x_field (n : RefNodes) (K : ℕ) (T : ℕ → Tri) : xOf n K T = fieldOf n K T fun _ => X 0 := by
  unfold xOf fieldOf val; simp

theorem y_field (n : RefNodes) (K : ℕ) (T : ℕ → Tri) : yOf n K T = fieldOf n K T fun _ => X 1 := by
  unfold yOf fieldOf val; simp

theorem lattice_pts (N np : ℕ) (hnp : np = (N + 1) * (N + 2) / 2) : ∃ L, lattice N np (triLattice N) = .ok L ∧ L.pts.length = np ∧
    (∀ p : ℕ × ℕ, p.1 + p.2 ≤ N → L.pts[triNum N p.2 p.1]? = some p) ∧ (∀ k < np, ∃ p : ℕ × ℕ, p.1 + p.2 ≤ N ∧ L.pts[k]? = some p) ∧
    localTris N L.counter = .ok ((tris N).map fun t => t.map fun p => ((triNum N p.2 p.1 : ℕ) : Int)) := by
  have hr' : triNp N = np := hnp.symm
  obtain ⟨L, h1, h2, h3⟩ := localTris_ok N np (by omega)
  have hL : L.pts.length = np := by
    obtain ⟨L', g1, -, -, g4, -, -⟩ := lattice_ok N np (triPairs N) (triPairs_nodup N)
      (fun p hp => by have := mem_triPairs.1 hp; omega) (by rw [triPairs_length]; omega)
    rw [triLattice_eq, g1] at h1
    cases h1; exact g4
  refine ⟨L, h1, hL, fun p hp => h2 p.2 p.1 (by omega), fun k hk => ?_, h3⟩
  obtain ⟨p, hp, e⟩ := (triNum_bij N).2.2 (show k ∈ {c | c < triNp N} by simpa [hr'] using hk)
  simp only [Set.mem_ofPred_eq] at hp
  exact ⟨(p.2, p.1), by simp only; omega, by rw [← e]; exact h2 p.1 p.2 hp⟩

theorem splitTri_get {α : Type} (N : ℕ) (hN : 1 ≤ N) (res : DMat α) (vec0 : List α) (hr : res.rows = (N + 1) * (N + 2) / 2) (hv : vec0.length = res.rows * res.cols) :
    ∃ out, splitTri N res vec0 = .ok out ∧ out.length = res.cols * N ^ 2 ∧
      ∀ k < res.cols, ∀ l (hl : l < (tris N).length), out[k * N ^ 2 + l]? = some ((tris N)[l].map fun p => res.at' (triNum N p.2 p.1) k) := by
  obtain ⟨L, h1, -, -, -, h3⟩ := lattice_pts N res.rows hr
  obtain ⟨vec, out, g1, g2, g3, g4⟩ := pick_cells res vec0 hv (tris N) (fun p => triNum N p.2 p.1) (by
    intro t ht p hp
    rw [hr]
    exact triNum_lt (by have := ((tris_triangulation N hN).shape t ht).2.2 p hp; omega))
  refine ⟨out, ?_, by rw [g3, tris_length], fun k hk l hl => ?_⟩
  · unfold splitTri
    rw [h1, Out.bind_ok, h3, Out.bind_ok, g1, Out.bind_ok, g2]
  · have := g4 k hk l hl
    rwa [tris_length] at this

theorem split_field (N : ℕ) (hN : 1 ≤ N) (n : RefNodes) (o : RefOps) (hl : n.r.length = (N + 1) * (N + 2) / 2) (hr : AllReg Regular n.r n.s)
    (hV : o.V = modeMatrix (triPairs N) triMode n.r n.s) (hi : toMat o.Vinv n.r.length n.r.length * toMat o.V n.r.length n.r.length = 1)
    (K : ℕ) (T : ℕ → Tri) (U : ℕ → P2) (hU : ∀ k < K, (U k).totalDegree ≤ N) (u : List ℝ) (hu : u.length = n.r.length * K) (L : Lattice)
    (hL : lattice N n.r.length (triLattice N) = .ok L) :
    ∃ out, splitTri N (mul (square n.r.length (triInterp N o.Vinv (outPts N L.pts).1 (outPts N L.pts).2)) (fieldOf n K T U)) u = .ok out ∧ out.length = K * N ^ 2 ∧
      ∀ k < K, ∀ l (hl : l < (tris N).length), out[k * N ^ 2 + l]? = some ((tris N)[l].map fun p => val (U k) (place (T k) (lat N p).1 (lat N p).2)) := by
  obtain ⟨L', hL', hlen, hpt, hall, -⟩ := lattice_pts N n.r.length hl
  rw [hL] at hL'
  obtain rfl : L = L' := by injection hL'
  have hN0 : (0 : ℝ) < N := by exact_mod_cast hN
  have hIM := C46_triangle N n o hl hr hV hi (outPts N L.pts).1 (outPts N L.pts).2 (by
    intro k hk
    have hk' : k < n.r.length := by rw [← hlen]; simpa [outPts] using hk
    obtain ⟨p, hp, e⟩ := hall k hk'
    simp only [outPts, List.getD_eq_getElem?_getD, List.getElem?_map, e, Option.map_some, Option.getD_some]
    have h1 : (0 : ℝ) ≤ 2 * (p.1 : ℝ) / N := by positivity
    have h2 : (p.1 : ℝ) + p.2 ≤ N := by exact_mod_cast hp
    refine ⟨by linarith, ?_⟩
    have h3 : 2 * (p.1 : ℝ) / N + 2 * (p.2 : ℝ) / N = 2 * ((p.1 + p.2) / N) := by ring
    have h4 : ((p.1 : ℝ) + p.2) / N ≤ 1 := (div_le_one hN0).2 h2
    linarith)
  obtain ⟨out, h1, h2, h3⟩ := splitTri_get N hN (mul (square n.r.length (triInterp N o.Vinv (outPts N L.pts).1 (outPts N L.pts).2)) (fieldOf n K T U)) u hl hu
  refine ⟨out, h1, h2, fun k hk l hl' => ?_⟩
  rw [h3 k hk l hl']
  congr 1
  apply List.map_congr_left
  intro p hp
  have hp' := ((tris_triangulation N hN).shape _ (List.getElem_mem hl')).2.2 p hp
  have hnum : triNum N p.2 p.1 < n.r.length := by rw [hl]; exact triNum_lt (by omega)
  have := hIM (pull (T k) (U k)) ((pull_deg _ _).trans (hU k hk)) (triNum N p.2 p.1) (by simpa [outPts, hlen] using hnum)
  show ∑ j ∈ Finset.range n.r.length, (triInterp N o.Vinv (outPts N L.pts).1 (outPts N L.pts).2).at' (triNum N p.2 p.1) j * val (U k) (gridX (T k) n j, gridY (T k) n j) = _
  simp only [nodal_pull] at this
  rw [this]
  unfold nodal
  have e := hpt p hp'
  simp only [outPts, List.getD_eq_getElem?_getD, List.getElem?_map, e, Option.map_some, Option.getD_some]
  rw [ev_pull]
  rfl

theorem getD_some {γ : Type} {l : List γ} {i : ℕ} {d a : γ} (h : l[i]? = some a) : l.getD i d = a := by
  rw [List.getD_eq_getElem?_getD, h]; rfl

/-- **C135, triangles of order at least two.** For every order, mesh and discontinuous field of polynomials of degree at most `N` given by its nodal values, the VTK file pictures the
field: `N²` triangles per element, every point at its place in its element with the value of the field there. -/
theorem C135_tri (N : ℕ) (hN : 2 ≤ N) (n : RefNodes) (o : RefOps) (hl : n.r.length = (N + 1) * (N + 2) / 2) (hr : AllReg Regular n.r n.s)
    (hV : o.V = modeMatrix (triPairs N) triMode n.r n.s) (hi : toMat o.Vinv n.r.length n.r.length * toMat o.V n.r.length n.r.length = 1)
    (K : ℕ) (T : ℕ → Tri) (U : ℕ → P2) (hU : ∀ k < K, (U k).totalDegree ≤ N) (u : List ℝ) (hu : u.length = n.r.length * K) :
    ∃ F tr, vtkTri N o.Vinv (xOf n K T) (yOf n K T) (fieldOf n K T U) u = .ok F ∧ Pictures N K T U tr F := by
  have hN1 : 1 ≤ N := by omega
  obtain ⟨L, hL, -, -, -, -⟩ := lattice_pts N n.r.length hl
  have hX : ∀ i : Fin 2, ∀ k < K, ((fun _ => X i : ℕ → P2) k).totalDegree ≤ N := fun i k _ => by rw [totalDegree_X]; exact hN1
  obtain ⟨xs, a1, a2, a3⟩ := split_field N hN1 n o hl hr hV hi K T (fun _ => X 0) (hX 0) u hu L hL
  obtain ⟨ys, b1, b2, b3⟩ := split_field N hN1 n o hl hr hV hi K T (fun _ => X 1) (hX 1) u hu L hL
  obtain ⟨fs, c1, c2, c3⟩ := split_field N hN1 n o hl hr hV hi K T U hU u hu L hL
  have hw : vtkTri N o.Vinv (xOf n K T) (yOf n K T) (fieldOf n K T U) u = insertAllCells (ofCols 3 xs) (ofCols 3 ys) (ofCols 3 fs) := by
    unfold vtkTri
    rw [if_pos (by omega), x_field, y_field]
    have e : (fieldOf n K T U).rows = n.r.length := rfl
    simp only [e, hL, Out.bind_ok, a1, b1, c1]
  rw [hw, insertAllCells_ok (ofCols 3 xs) (ofCols 3 ys) (ofCols 3 fs) ⟨rfl, by show xs.length = fs.length; omega⟩ ⟨rfl, by show ys.length = fs.length; omega⟩
    (fun k => [k * 3 + 0, k * 3 + 1, k * 3 + 2]) vtkCell_three]
  have hc : (ofCols 3 fs).cols = K * N ^ 2 := c2
  have hrw : (ofCols 3 fs).rows = 3 := rfl
  refine ⟨_, tris N, rfl, tris_triangulation N hN1, ⟨?_, ?_⟩, ?_, ?_⟩
  · show ((List.range _).flatMap _).length = _
    rw [(flatMap_get (fun k c => ((ofCols 3 xs).at' c k, (ofCols 3 ys).at' c k)) _ _).1, hc, hrw]
  · show ((List.range _).flatMap _).length = _
    rw [(flatMap_get (fun k c => (ofCols 3 fs).at' c k) _ _).1, hc, hrw]
  · show (List.range _).map _ = _
    rw [hc]
  · intro k hk l hl' c hcc
    have hlt : l < N ^ 2 := by rw [← tris_length]; exact hl'
    have hlen3 := ((tris_triangulation N hN1).shape _ (List.getElem_mem hl')).1
    have hidx : k * N ^ 2 + l < K * N ^ 2 := by
      calc k * N ^ 2 + l < k * N ^ 2 + N ^ 2 := by omega
        _ = (k + 1) * N ^ 2 := by ring
        _ ≤ K * N ^ 2 := Nat.mul_le_mul_right _ hk
    have hget : (tris N)[l][c]? = some ((tris N)[l][c]'(by omega)) := List.getElem?_eq_getElem (by omega)
    refine ⟨_, hget, ?_, ?_⟩
    · have := (flatMap_get (fun k c => ((ofCols 3 xs).at' c k, (ofCols 3 ys).at' c k)) (ofCols 3 fs).rows (ofCols 3 fs).cols).2 (k * N ^ 2 + l) (by rw [hc]; exact hidx) c (by rw [hrw]; exact hcc)
      rw [hrw] at this
      show ((List.range _).flatMap _)[_]? = _
      rw [hrw, this]
      have e1 : (ofCols 3 xs).at' c (k * N ^ 2 + l) = (place (T k) (lat N ((tris N)[l][c]'(by omega))).1 (lat N ((tris N)[l][c]'(by omega))).2).1 := by
        show (xs.getD _ []).getD c 0 = _
        rw [getD_some (a3 k hk l hl')]
        rw [List.getD_eq_getElem?_getD, List.getElem?_map, hget]
        simp [val]
      have e2 : (ofCols 3 ys).at' c (k * N ^ 2 + l) = (place (T k) (lat N ((tris N)[l][c]'(by omega))).1 (lat N ((tris N)[l][c]'(by omega))).2).2 := by
        show (ys.getD _ []).getD c 0 = _
        rw [getD_some (b3 k hk l hl')]
        rw [List.getD_eq_getElem?_getD, List.getElem?_map, hget]
        simp [val]
      rw [e1, e2]
    · have := (flatMap_get (fun k c => (ofCols 3 fs).at' c k) (ofCols 3 fs).rows (ofCols 3 fs).cols).2 (k * N ^ 2 + l) (by rw [hc]; exact hidx) c (by rw [hrw]; exact hcc)
      rw [hrw] at this
      show ((List.range _).flatMap _)[_]? = _
      rw [hrw, this]
      show some ((fs.getD _ []).getD c 0) = _
      rw [getD_some (c3 k hk l hl'), List.getD_eq_getElem?_getD, List.getElem?_map, hget]
      rfl

/-- ... in particular on every element the provisioner builds. -/
theorem C135_tri_built (la : Lapack) (hla : la.Ok) (eps : ℝ) (he0 : 0 < eps) (he1 : eps ≤ 0.1) (ztol tol : ℝ) (h0 : 0 < ztol) (ht : 0 < tol) (N : ℕ) (hN : 2 ≤ N)
    (hz : ztol < 2 / N) (n : RefNodes) (o : RefOps) (h : triElement la eps ztol tol N = .ok (n, o))
    (K : ℕ) (T : ℕ → Tri) (U : ℕ → P2) (hU : ∀ k < K, (U k).totalDegree ≤ N) (u : List ℝ) (hu : u.length = n.r.length * K) :
    ∃ F tr, vtkTri N o.Vinv (xOf n K T) (yOf n K T) (fieldOf n K T U) u = .ok F ∧ Pictures N K T U tr F := by
  obtain ⟨h1, h2, -, h3, h4⟩ := triElement_spec la hla eps he0 he1 ztol tol h0 ht N (by omega) hz n o h
  exact C135_tri N hN n o h1 h2 h3 h4 K T U hU u hu

/-- **C135, triangles of order one:** written without splitting. -/
theorem C135_tri_one (n : RefNodes) (hl : n.r.length = 3) (h0 : n.r.getD 0 0 = -1 ∧ n.s.getD 0 0 = -1) (h1 : n.r.getD 1 0 = 1 ∧ n.s.getD 1 0 = -1)
    (h2 : n.r.getD 2 0 = -1 ∧ n.s.getD 2 0 = 1) (Vinv : DMat ℝ) (K : ℕ) (T : ℕ → Tri) (U : ℕ → P2) (u : List ℝ) :
    ∃ F tr, vtkTri 1 Vinv (xOf n K T) (yOf n K T) (fieldOf n K T U) u = .ok F ∧ Pictures 1 K T U tr F := by
  have hrw : (fieldOf n K T U).rows = 3 := hl
  have hc : (fieldOf n K T U).cols = K := rfl
  have ht : tris 1 = [[(0, 0), (1, 0), (0, 1)]] := by decide
  have hlat : ∀ k, ∀ c < 3, ∃ p, [(0, 0), (1, 0), (0, 1)][c]? = some p ∧ (gridX (T k) n c, gridY (T k) n c) = place (T k) (lat 1 p).1 (lat 1 p).2 := by
    intro k c hcc
    rcases (by omega : c = 0 ∨ c = 1 ∨ c = 2) with rfl | rfl | rfl
    · refine ⟨(0, 0), rfl, ?_⟩
      rw [← place_node, h0.1, h0.2]; simp [lat]
    · refine ⟨(1, 0), rfl, ?_⟩
      rw [← place_node, h1.1, h1.2]; norm_num [lat]
    · refine ⟨(0, 1), rfl, ?_⟩
      rw [← place_node, h2.1, h2.2]; norm_num [lat]
  unfold vtkTri
  rw [if_neg (by omega), insertAllCells_ok (xOf n K T) (yOf n K T) (fieldOf n K T U) ⟨rfl, rfl⟩ ⟨rfl, rfl⟩ (fun k => [k * 3 + 0, k * 3 + 1, k * 3 + 2])
    (fun k => by rw [hrw]; exact vtkCell_three k)]
  refine ⟨_, tris 1, rfl, tris_triangulation 1 (le_refl _), ⟨?_, ?_⟩, ?_, ?_⟩
  · show ((List.range _).flatMap _).length = _
    rw [(flatMap_get (fun k c => ((xOf n K T).at' c k, (yOf n K T).at' c k)) _ _).1, hrw, hc]; ring
  · show ((List.range _).flatMap _).length = _
    rw [(flatMap_get (fun k c => (fieldOf n K T U).at' c k) _ _).1, hrw, hc]; ring
  · show (List.range _).map _ = _
    rw [hc, one_pow, mul_one]
  · intro k hk l hl' c hcc
    obtain rfl : l = 0 := by rw [ht] at hl'; simpa using hl'
    obtain ⟨p, hp, e⟩ := hlat k c hcc
    refine ⟨p, by rw [← hp]; simp only [ht, List.getElem_cons_zero], ?_, ?_⟩
    · have := (flatMap_get (fun k c => ((xOf n K T).at' c k, (yOf n K T).at' c k)) (fieldOf n K T U).rows (fieldOf n K T U).cols).2 k hk c (by rw [hrw]; exact hcc)
      show ((List.range _).flatMap _)[_]? = _
      rw [hrw] at this ⊢
      rw [one_pow, mul_one, Nat.add_zero, this, ← e]
      rfl
    · have := (flatMap_get (fun k c => (fieldOf n K T U).at' c k) (fieldOf n K T U).rows (fieldOf n K T U).cols).2 k hk c (by rw [hrw]; exact hcc)
      show ((List.range _).flatMap _)[_]? = _
      rw [hrw] at this ⊢
      rw [one_pow, mul_one, Nat.add_zero, this, ← e]
      rfl

/-- The reference element of order one built by the code meets these hypotheses. -/
theorem demo_tri_one : ∃ n o, triElement exactLapack (1 / 2 ^ 52) 1e-10 1e-5 1 = .ok (n, o) ∧ ∀ K T U u,
    ∃ F tr, vtkTri 1 o.Vinv (xOf n K T) (yOf n K T) (fieldOf n K T U) u = .ok F ∧ Pictures 1 K T U tr F := by
  obtain ⟨n, o, h, -, hl, -, h0, h1, h2⟩ := demo_tri
  exact ⟨n, o, h, fun K T U u => C135_tri_one n hl h0 h1 h2 o.Vinv K T U u⟩

/-! ### Quadrilaterals -/

/-- **Specification.** The file `F` pictures, on the elements that are the images of the reference square under `g 0, ..., g (K-1)`, the functions `U 0, ..., U (K-1)`: each
element is drawn as the `N²` images of the rectangles between consecutive values of `x`, each with its own four points in counter-clockwise order; every point lies at its place in
the element and carries the value of the function there. -/
structure PicturesQuads (N K : ℕ) (x : ℕ → ℝ) (g : ℕ → ℝ × ℝ → ℝ × ℝ) (U : ℕ → ℝ × ℝ → ℝ) (F : VtkFile) : Prop where
  sizes : F.points.length = K * N ^ 2 * 4 ∧ F.values.length = K * N ^ 2 * 4 ∧ F.cells.length = K * N ^ 2
  own : F.cells.flatten.Nodup
  shows : ∀ k < K, ∀ i < N, ∀ j < N, ∃ cell, F.cells[k * N ^ 2 + (i * N + j)]? = some cell ∧
    cell.map (fun a => F.points[a]?) = [some (g k (x i, x j)), some (g k (x (i + 1), x j)), some (g k (x (i + 1), x (j + 1))), some (g k (x i, x (j + 1)))] ∧
    cell.map (fun a => F.values[a]?) = [some (U k (x i, x j)), some (U k (x (i + 1), x j)), some (U k (x (i + 1), x (j + 1))), some (U k (x i, x (j + 1)))]

/-- The matrix of the values at the nodes of functions on the reference square. -/
def sampled (n : RefNodes) (K : ℕ) (h : ℕ → ℝ × ℝ → ℝ) : DMat ℝ := ⟨n.r.length, K, fun i k => h k (n.r.getD i 0, n.s.getD i 0)⟩

theorem quad_lattice_pts (N np : ℕ) (hnp : np = (N + 1) * (N + 1)) : ∃ L, lattice N np (quadLattice N) = .ok L ∧ outPts N L.pts = splitPts N ∧
    localQuads N L.counter = .ok ((quadsOf N).map fun t => t.map fun p => ((p.2 * (N + 1) + p.1 : Nat) : Int)) := by
  obtain ⟨L, h1, h2, h3⟩ := localQuads_ok N np (by omega)
  have hL : L.pts.length = np := by
    obtain ⟨L', g1, -, -, g4, -, -⟩ := lattice_ok N np (quadPairs N) (quadPairs_nodup N)
      (fun p hp => mem_quadPairs hp) (by rw [quadPairs_length]; omega)
    rw [quadLattice_eq, g1] at h1
    cases h1; exact g4
  refine ⟨L, h1, ?_, h3⟩
  have e : L.pts = (quadPairs N).map fun p => (p.2, p.1) := by
    apply List.ext_getElem?
    intro k
    by_cases hk : k < np
    · obtain ⟨a, b, c⟩ := div_mod_facts N k (by omega)
      rw [c, h2 _ _ a b, List.getElem?_map, quadPairs_get a b]
      rfl
    · rw [List.getElem?_eq_none (by omega), List.getElem?_eq_none (by rw [List.length_map, quadPairs_length]; omega)]
  rw [e]
  unfold outPts splitPts
  rw [List.map_map, List.map_map]
  rfl

theorem mul_one_at (M : DMat ℝ) (np : ℕ) (hM : toMat M np np = 1) (f : DMat ℝ) (i : ℕ) (hi : i < np) (k : ℕ) : (mul (square np M) f).at' i k = f.at' i k := by
  show ∑ j ∈ Finset.range np, M.at' i j * f.at' j k = _
  rw [Finset.sum_eq_single i]
  · have e := congrFun (congrFun hM ⟨i, hi⟩) ⟨i, hi⟩
    rw [Matrix.one_apply, if_pos rfl] at e
    simp only [toMat] at e
    rw [e, one_mul]
  · intro j hj hji
    have hj := Finset.mem_range.1 hj
    have e := congrFun (congrFun hM ⟨i, hi⟩) ⟨j, hj⟩
    rw [Matrix.one_apply, if_neg (by intro e; exact hji (Fin.mk.inj e).symm)] at e
    simp only [toMat] at e
    rw [e, zero_mul]
  · intro hn; exact absurd (Finset.mem_range.2 hi) hn

theorem quadsOf_length (N : ℕ) : (quadsOf N).length = N ^ 2 := by
  simp [quadsOf, quadCells, List.length_flatMap]; ring

theorem quadsOf_get (N i j : ℕ) (hi : i < N) (hj : j < N) : (quadsOf N)[i * N + j]? = some [(j, i), (j + 1, i), (j, i + 1), (j + 1, i + 1)] := by
  unfold quadsOf quadCells
  rw [List.getElem?_map, (flatMap_get (fun n m => (n, m)) N N).2 i hi j hj]
  rfl

/-- The values of a sampled function in the columns after splitting. -/
theorem splitQuad_get (N : ℕ) (n : RefNodes) (x : ℕ → ℝ) (hl : n.r.length = (N + 1) * (N + 1))
    (hn : ∀ i ≤ N, ∀ j ≤ N, n.r.getD (i * (N + 1) + j) 0 = x i ∧ n.s.getD (i * (N + 1) + j) 0 = x j) (K : ℕ) (M : DMat ℝ) (hM : toMat M n.r.length n.r.length = 1)
    (h : ℕ → ℝ × ℝ → ℝ) (u : List ℝ) (hu : u.length = n.r.length * K) :
    ∃ out, splitQuad N (mul (square n.r.length M) (sampled n K h)) u = .ok out ∧ out.length = K * N ^ 2 ∧ ∀ k < K, ∀ i < N, ∀ j < N,
      out[k * N ^ 2 + (i * N + j)]? = some [h k (x i, x j), h k (x i, x (j + 1)), h k (x (i + 1), x j), h k (x (i + 1), x (j + 1))] := by
  obtain ⟨L, h1, -, h3⟩ := quad_lattice_pts N n.r.length hl
  obtain ⟨vec, out, g1, g2, g3, g4⟩ := pick_cells (mul (square n.r.length M) (sampled n K h)) u hu (quadsOf N) (fun p => p.2 * (N + 1) + p.1) (by
    intro t ht p hp
    obtain ⟨⟨n', m⟩, hnm, rfl⟩ := List.mem_map.1 ht
    have := mem_quadCells.1 hnm
    have hb : p.1 ≤ N ∧ p.2 ≤ N := by
      simp only [List.mem_cons, List.not_mem_nil, or_false] at hp
      rcases hp with rfl | rfl | rfl | rfl <;> (constructor <;> simp only <;> simp only at this <;> omega)
    show _ < n.r.length
    rw [hl]; exact pos_lt hb.2 hb.1)
  refine ⟨out, ?_, by rw [g3, quadsOf_length]; rfl, ?_⟩
  · unfold splitQuad
    have e : (mul (square n.r.length M) (sampled n K h)).rows = n.r.length := rfl
    rw [e, h1, Out.bind_ok, h3, Out.bind_ok, g1, Out.bind_ok]
    exact g2
  intro k hk i hi j hj
  have hlt : i * N + j < (quadsOf N).length := by
    rw [quadsOf_length]
    calc i * N + j < i * N + N := by omega
      _ = (i + 1) * N := by ring
      _ ≤ N * N := Nat.mul_le_mul_right _ hi
      _ = N ^ 2 := by ring
  have := g4 k hk _ hlt
  rw [quadsOf_length] at this
  rw [this]
  have e : (quadsOf N)[i * N + j] = [(j, i), (j + 1, i), (j, i + 1), (j + 1, i + 1)] := by
    have := quadsOf_get N i j hi hj
    rw [List.getElem?_eq_getElem hlt] at this
    injection this
  rw [e]
  have v : ∀ a ≤ N, ∀ b ≤ N, (mul (square n.r.length M) (sampled n K h)).at' (a * (N + 1) + b) k = h k (x a, x b) := by
    intro a ha b hb
    rw [mul_one_at M _ hM _ _ (by rw [hl]; exact pos_lt ha hb)]
    show h k (_, _) = _
    rw [(hn a ha b hb).1, (hn a ha b hb).2]
  simp only [List.map_cons, List.map_nil]
  rw [v i (by omega) j (by omega), v i (by omega) (j + 1) (by omega), v (i + 1) (by omega) j (by omega), v (i + 1) (by omega) (j + 1) (by omega)]

theorem cells_nodup (M : ℕ) : ((List.range M).map fun c => [c * 4 + 0, c * 4 + 2, c * 4 + 3, c * 4 + 1]).flatten.Nodup := by
  rw [List.nodup_flatten]
  refine ⟨?_, ?_⟩
  · intro l hl
    obtain ⟨c, -, rfl⟩ := List.mem_map.1 hl
    simp
  · rw [List.pairwise_map]
    refine List.pairwise_lt_range.imp fun {a b} hab => ?_
    intro y hy hy'
    simp only [List.mem_cons, List.not_mem_nil, or_false] at hy hy'
    omega

/-- What `insertAllCells` makes of cells with four nodes. -/
theorem insert_quads (N K : ℕ) (x : ℕ → ℝ) (g : ℕ → ℝ × ℝ → ℝ × ℝ) (U : ℕ → ℝ × ℝ → ℝ) (X Y F : DMat ℝ) (hX : X.rows = 4 ∧ X.cols = K * N ^ 2) (hY : Y.rows = 4 ∧ Y.cols = K * N ^ 2)
    (hF : F.rows = 4 ∧ F.cols = K * N ^ 2)
    (h : ∀ k < K, ∀ i < N, ∀ j < N, ∀ a < 2, ∀ b < 2, X.at' (2 * a + b) (k * N ^ 2 + (i * N + j)) = (g k (x (i + a), x (j + b))).1 ∧
      Y.at' (2 * a + b) (k * N ^ 2 + (i * N + j)) = (g k (x (i + a), x (j + b))).2 ∧ F.at' (2 * a + b) (k * N ^ 2 + (i * N + j)) = U k (x (i + a), x (j + b))) :
    ∃ G, insertAllCells X Y F = .ok G ∧ PicturesQuads N K x g U G := by
  refine ⟨_, insertAllCells_ok X Y F ⟨by omega, by omega⟩ ⟨by omega, by omega⟩ (fun c => [c * 4 + 0, c * 4 + 2, c * 4 + 3, c * 4 + 1]) (fun k => by rw [hF.1]; exact vtkCell_four k), ⟨?_, ?_, ?_⟩, ?_, ?_⟩
  · show ((List.range _).flatMap _).length = _
    rw [(flatMap_get (fun k c => (X.at' c k, Y.at' c k)) _ _).1, hF.1, hF.2]
  · show ((List.range _).flatMap _).length = _
    rw [(flatMap_get (fun k c => F.at' c k) _ _).1, hF.1, hF.2]
  · show ((List.range _).map _).length = _
    rw [List.length_map, List.length_range, hF.2]
  · exact cells_nodup _
  intro k hk i hi j hj
  have hidx : k * N ^ 2 + (i * N + j) < K * N ^ 2 := by
    have h1 : i * N + j < N ^ 2 := by
      calc i * N + j < i * N + N := by omega
        _ = (i + 1) * N := by ring
        _ ≤ N * N := Nat.mul_le_mul_right _ hi
        _ = N ^ 2 := by ring
    calc k * N ^ 2 + (i * N + j) < k * N ^ 2 + N ^ 2 := by omega
      _ = (k + 1) * N ^ 2 := by ring
      _ ≤ K * N ^ 2 := Nat.mul_le_mul_right _ hk
  set c := k * N ^ 2 + (i * N + j) with hc
  have hp := (flatMap_get (fun k c => (X.at' c k, Y.at' c k)) F.rows F.cols).2 c (by rw [hF.2]; exact hidx)
  have hv := (flatMap_get (fun k c => F.at' c k) F.rows F.cols).2 c (by rw [hF.2]; exact hidx)
  rw [hF.1] at hp hv
  refine ⟨[c * 4 + 0, c * 4 + 2, c * 4 + 3, c * 4 + 1], ?_, ?_, ?_⟩
  · show ((List.range _).map _)[_]? = _
    rw [List.getElem?_map, hF.2, List.getElem?_range hidx]
    rfl
  · simp only [List.map_cons, List.map_nil, hF.1]
    rw [hp 0 (by omega), hp 1 (by omega), hp 2 (by omega), hp 3 (by omega)]
    have a := h k hk i hi j hj 0 (by omega) 0 (by omega)
    have b := h k hk i hi j hj 0 (by omega) 1 (by omega)
    have d := h k hk i hi j hj 1 (by omega) 0 (by omega)
    have e := h k hk i hi j hj 1 (by omega) 1 (by omega)
    simp only [Nat.mul_zero, Nat.mul_one, Nat.add_zero, Nat.zero_add, ← hc] at a b d e
    rw [a.1, a.2.1, b.1, b.2.1, d.1, d.2.1, show (3 : ℕ) = 2 + 1 from rfl, e.1, e.2.1]
  · simp only [List.map_cons, List.map_nil, hF.1]
    rw [hv 0 (by omega), hv 1 (by omega), hv 2 (by omega), hv 3 (by omega)]
    have a := h k hk i hi j hj 0 (by omega) 0 (by omega)
    have b := h k hk i hi j hj 0 (by omega) 1 (by omega)
    have d := h k hk i hi j hj 1 (by omega) 0 (by omega)
    have e := h k hk i hi j hj 1 (by omega) 1 (by omega)
    simp only [Nat.mul_zero, Nat.mul_one, Nat.add_zero, Nat.zero_add, ← hc] at a b d e
    rw [a.2.2, b.2.2, d.2.2, show (3 : ℕ) = 2 + 1 from rfl, e.2.2]

/-- **C135, quadrilaterals.** For every order, every mesh of images of the reference square and every field, the VTK file pictures the field on the rectangles between the nodes
(not on the equidistant lattice the code computes: the matrix that should interpolate to it is the identity), in counter-clockwise order. -/
theorem C135_quad (la : Lapack) (hla : la.Ok) (N : ℕ) (hN : 1 ≤ N) (n : RefNodes) (x : ℕ → ℝ) (hl : n.r.length = (N + 1) * (N + 1))
    (hn : ∀ i ≤ N, ∀ j ≤ N, n.r.getD (i * (N + 1) + j) 0 = x i ∧ n.s.getD (i * (N + 1) + j) 0 = x j) (Vinv : DMat ℝ) (hVi : Vinv.rows = n.r.length ∧ Vinv.cols = n.r.length)
    (K : ℕ) (g : ℕ → ℝ × ℝ → ℝ × ℝ) (U : ℕ → ℝ × ℝ → ℝ) (u : List ℝ) (hu : u.length = n.r.length * K) :
    ∃ F Vinv', vtkQuad la N Vinv (sampled n K fun k p => (g k p).1) (sampled n K fun k p => (g k p).2) (sampled n K U) u = .ok (F, Vinv') ∧ PicturesQuads N K x g U F := by
  have hr4 : ∀ h, (sampled n K h).rows = n.r.length := fun _ => rfl
  by_cases h1 : 1 < N
  · obtain ⟨L, hL, hpts, -⟩ := quad_lattice_pts N n.r.length hl
    obtain ⟨M, V', hq, hM, -⟩ := C46_quad_split la hla N hN Vinv n.r.length hl hVi
    obtain ⟨xs, a1, a2, a3⟩ := splitQuad_get N n x hl hn K M hM (fun k p => (g k p).1) u hu
    obtain ⟨ys, b1, b2, b3⟩ := splitQuad_get N n x hl hn K M hM (fun k p => (g k p).2) u hu
    obtain ⟨fs, c1, c2, c3⟩ := splitQuad_get N n x hl hn K M hM U u hu
    obtain ⟨G, hG, hP⟩ := insert_quads N K x g U (ofCols 4 xs) (ofCols 4 ys) (ofCols 4 fs) ⟨rfl, a2⟩ ⟨rfl, b2⟩ ⟨rfl, c2⟩ (by
      intro k hk i hi j hj a ha b hb
      have e : ∀ (cols : List (List ℝ)) (w : ℝ × ℝ → ℝ), cols[k * N ^ 2 + (i * N + j)]? = some [w (x i, x j), w (x i, x (j + 1)), w (x (i + 1), x j), w (x (i + 1), x (j + 1))] →
          (ofCols 4 cols).at' (2 * a + b) (k * N ^ 2 + (i * N + j)) = w (x (i + a), x (j + b)) := by
        intro cols w hw
        show (cols.getD _ []).getD _ 0 = _
        rw [getD_some hw]
        rcases (by omega : a = 0 ∨ a = 1) with rfl | rfl <;> rcases (by omega : b = 0 ∨ b = 1) with rfl | rfl <;> rfl
      exact ⟨e xs (fun p => (g k p).1) (a3 k hk i hi j hj), e ys (fun p => (g k p).2) (b3 k hk i hi j hj), e fs (U k) (c3 k hk i hi j hj)⟩)
    refine ⟨G, V', ?_, hP⟩
    unfold vtkQuad
    rw [if_pos h1]
    simp only [hr4, hL, Out.bind_ok, hpts, hq, a1, b1, c1, hG]
    rfl
  · obtain rfl : N = 1 := by omega
    obtain ⟨G, hG, hP⟩ := insert_quads 1 K x g U (sampled n K fun k p => (g k p).1) (sampled n K fun k p => (g k p).2) (sampled n K U)
      ⟨by rw [hr4, hl], by simp [sampled]⟩ ⟨by rw [hr4, hl], by simp [sampled]⟩ ⟨by rw [hr4, hl], by simp [sampled]⟩ (by
        intro k hk i hi j hj a ha b hb
        obtain rfl : i = 0 := by omega
        obtain rfl : j = 0 := by omega
        have := hn a (by omega) b (by omega)
        simp only [Nat.mul_comm a] at this
        simp only [sampled, Nat.one_pow, Nat.mul_one, Nat.add_zero, Nat.zero_add]
        rw [this.1, this.2]
        exact ⟨rfl, rfl, rfl⟩)
    refine ⟨G, Vinv, ?_, hP⟩
    unfold vtkQuad
    rw [if_neg h1, hG]
    rfl

/-- Points with the same Vandermonde matrix give every polynomial the same values. -/
theorem same_nodal (N m : ℕ) (r s r' s' : List ℝ) (hr : r.length = m) (hr' : r'.length = m) (hp : (quadPairs N).length = m)
    (h : toMat (modeMatrix (quadPairs N) quadMode r s) m m = toMat (modeMatrix (quadPairs N) quadMode r' s') m m) (p : P2) (hs : QuadSpace N p) (i : ℕ) (hi : i < m) :
    nodal r s p i = nodal r' s' p i := by
  obtain ⟨c, rfl⟩ := (quadModal N).coeffs hp hs
  have e1 := ((quadModal N).nodal_comb (r := r) (s := s) (fun _ _ => trivial) hr c ⟨i, hi⟩).1
  have e2 := ((quadModal N).nodal_comb (r := r') (s := s') (fun _ _ => trivial) hr' c ⟨i, hi⟩).1
  rw [h] at e1
  exact e1.trans e2.symm

/-- **C135 and the provisioner.** Writing a VTK file of order at least two from a quadrilateral provisioner replaces its stored inverse by a matrix that is not an inverse of its
Vandermonde matrix: every filter and interpolation built afterwards is wrong. -/
theorem C135_quad_overwrites (la : Lapack) (hla : la.Ok) (N : ℕ) (hN : 2 ≤ N) (n : RefNodes) (x : ℕ → ℝ) (hl : n.r.length = (N + 1) * (N + 1)) (hx : x 0 = -1)
    (hn : ∀ i ≤ N, ∀ j ≤ N, n.r.getD (i * (N + 1) + j) 0 = x i ∧ n.s.getD (i * (N + 1) + j) 0 = x j) (Vinv gx gy f : DMat ℝ)
    (hVi : Vinv.rows = n.r.length ∧ Vinv.cols = n.r.length) (hf : f.rows = n.r.length) (u : List ℝ) (F : VtkFile) (Vinv' : DMat ℝ)
    (hw : vtkQuad la N Vinv gx gy f u = .ok (F, Vinv')) :
    toMat Vinv' n.r.length n.r.length * toMat (modeMatrix (quadPairs N) quadMode n.r n.s) n.r.length n.r.length ≠ 1 := by
  intro hinv
  obtain ⟨L, hL, hpts, -⟩ := quad_lattice_pts N n.r.length hl
  obtain ⟨M, V', hq, -, hV'⟩ := C46_quad_split la hla N (by omega) Vinv n.r.length hl hVi
  have e : V' = Vinv' := by
    unfold vtkQuad at hw
    rw [if_pos (by omega)] at hw
    simp only [hf, hL, Out.bind_ok, hpts, hq] at hw
    obtain ⟨xs, -, hw⟩ := Out.bind_eq_ok.1 hw
    obtain ⟨ys, -, hw⟩ := Out.bind_eq_ok.1 hw
    obtain ⟨fs, -, hw⟩ := Out.bind_eq_ok.1 hw
    obtain ⟨G, -, hw⟩ := Out.bind_eq_ok.1 hw
    injection hw with hw
    exact (Prod.mk.inj hw).2
  subst e
  have hVV : toMat (modeMatrix (quadPairs N) quadMode n.r n.s) n.r.length n.r.length = toMat (modeMatrix (quadPairs N) quadMode (splitPts N).1 (splitPts N).2) n.r.length n.r.length := by
    have h1 := mul_eq_one_comm.1 hinv
    have h2 := mul_eq_one_comm.1 hV'
    calc _ = toMat (modeMatrix (quadPairs N) quadMode n.r n.s) n.r.length n.r.length * (toMat V' n.r.length n.r.length * toMat (modeMatrix (quadPairs N) quadMode (splitPts N).1 (splitPts N).2) n.r.length n.r.length) := by rw [hV', mul_one]
      _ = _ := by rw [← mul_assoc, h1, one_mul]
  have hsl : (splitPts N).1.length = n.r.length := by rw [hl, splitPts, List.length_map, quadPairs_length]
  have one : 1 < n.r.length := by rw [hl]; nlinarith
  have e3 := same_nodal N n.r.length n.r n.s (splitPts N).1 (splitPts N).2 rfl hsl (by rw [quadPairs_length, hl]) hVV (X 0) (quad_low N (by omega)).2.1 1 one
  have a := (hn 0 (by omega) 1 (by omega)).1
  rw [Nat.zero_mul, Nat.zero_add, hx] at a
  have b : (splitPts N).1.getD 1 0 = -1 + 2 * ((1 : ℕ) : ℝ) / N := by
    have := quadPairs_get (N := N) (show 0 ≤ N by omega) (show 1 ≤ N by omega)
    rw [Nat.zero_mul, Nat.zero_add] at this
    simp only [splitPts, List.getD_eq_getElem?_getD, List.getElem?_map, this, Option.map_some, Option.getD_some]
  simp only [nodal, eval_X, Matrix.cons_val_zero] at e3
  rw [a, b] at e3
  have hN0 : (0 : ℝ) < N := by exact_mod_cast (by omega : 0 < N)
  have : (0 : ℝ) < 2 * ((1 : ℕ) : ℝ) / N := by positivity
  linarith

/-- The nodes of order two built by the code meet these hypotheses. -/
theorem demo_quad_two : ∃ n, quadRefNodes exactLapack (1 / 2 ^ 52) 1e-5 2 = .ok n ∧ ∃ x : ℕ → ℝ, n.r.length = (2 + 1) * (2 + 1) ∧ x 0 = -1 ∧ x 1 = 0 ∧ x 2 = 1 ∧
    ∀ i ≤ 2, ∀ j ≤ 2, n.r.getD (i * (2 + 1) + j) 0 = x i ∧ n.s.getD (i * (2 + 1) + j) 0 = x j := by
  obtain ⟨x, hx⟩ := exact_gll (1 / 2 ^ 52) (by norm_num) (by norm_num) 2 (by norm_num)
  have hx0 := hx
  have hg := Jacobi.C70_gauss_lobatto exactLapack.query exactLapack.dsyevd exactLapack_ok.syevd 0 (1 / 2 ^ 52) (by norm_num) (by norm_num) 2 (by norm_num) (List.replicate (2 + 1) 0) (by simp)
  simp only [Nat.cast_zero] at hg
  unfold IsGLL at hx
  rcases hg with ⟨x', hx'⟩ | ⟨x', hx', -, hm1, hp1, -, hsym, -⟩
  · rw [hx'] at hx; simp at hx
  rw [hx'] at hx
  obtain rfl : x' = x := by simpa using hx
  have h1 := hsym 1 (by norm_num)
  have h1 : x'.getD 1 0 = 0 := by
    have h1 : x'.getD 1 0 = -x'.getD 1 0 := h1
    linarith
  rcases C74_quadrilateral exactLapack exactLapack_ok (1 / 2 ^ 52) (by norm_num) (by norm_num) 1e-5 (by norm_num) 2 (by norm_num) with h | ⟨y, hy, -, -, hok⟩
  · unfold quadRefNodes at h
    rw [hx'] at h
    simp only [uncaught, Out.bind_ok, faceMask_eq] at h
    split_ifs at h <;> simp at h
  unfold IsGLL at hy
  rw [hx'] at hy
  obtain rfl : x' = y := by simpa using hy
  obtain ⟨n, hn, hl, -, hrs, -⟩ := hok (by rw [h1]; norm_num)
  exact ⟨n, hn, fun i => x'.getD i 0, hl, hm1, h1, hp1, hrs⟩

end Blitzdg.Output
