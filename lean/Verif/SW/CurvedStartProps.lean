import Mathlib.Analysis.Convex.Segment
import Verif.SW.CurvedStart
import Verif.SW.PyTagsProps
import Verif.SW.PyMapsProps
import Verif.SW.PyLoopProps
import Verif.SW.GridLow
import Verif.Curved.HeadlandProps
import Verif.Curved.SnapProps
import Verif.Curved.BlendProps
import Verif.Py.ImportProps

/-!
C156: what the set-up of sw2d_curved.py hands to the time loop.
-/

namespace Blitzdg.SW

open Blitzdg.Sparse (DMat)
open Blitzdg.Nodes1D (Lapack)
open Blitzdg.DG2D
open Blitzdg.Ctx (Cubature GaussFace)

/-! ### The faces looked at -/

theorem split_index {K nf c : ℕ} (hc : c < K * nf) : c % K < K ∧ c / K < nf ∧ c % K + K * (c / K) = c := by
  have hK : 0 < K := Nat.pos_of_ne_zero (by rintro rfl; simp at hc)
  exact ⟨Nat.mod_lt _ hK, Nat.div_lt_of_lt_mul hc, Nat.mod_add_div _ _⟩

/-- **C156, faces.** The list of faces given to the curve fitting holds every pair of an element and a face with a positive tag, once, ordered by face and then by element. -/
theorem C156_faces (K nf : ℕ) (bc : List Int) : (∀ k f, (k, f) ∈ bcFaces K nf bc ↔ k < K ∧ f < nf ∧ ∃ t, bc[nf * k + f]? = some t ∧ 0 < t) ∧
    (bcFaces K nf bc).Pairwise fun a b => a.2 < b.2 ∨ a.2 = b.2 ∧ a.1 < b.1 := by
  have val : ∀ c < K * nf, (tagsF K nf bc).getD c 0 = bc.getD (nf * (c % K) + c / K) 0 := by
    intro c hc
    unfold tagsF
    rw [List.getD_eq_getElem?_getD, List.getElem?_map, List.getElem?_range hc]
    rfl
  have pos : ∀ i, 0 < bc.getD i 0 ↔ ∃ t, bc[i]? = some t ∧ 0 < t := by
    intro i
    rw [List.getD_eq_getElem?_getD]
    rcases bc[i]? with _ | t <;> simp
  refine ⟨fun k f => ?_, ?_⟩
  · unfold bcFaces
    rw [List.mem_map]
    constructor
    · rintro ⟨c, hc, h⟩
      rw [List.mem_filter, List.mem_range, decide_eq_true_eq] at hc
      obtain ⟨h1, h2, -⟩ := split_index hc.1
      obtain ⟨rfl, rfl⟩ := Prod.mk.inj h
      have := hc.2
      rw [gt_iff_lt, val c hc.1, pos] at this
      exact ⟨h1, h2, this⟩
    · rintro ⟨h1, h2, h3⟩
      have hK : 0 < K := by omega
      have e1 : (k + K * f) % K = k := by rw [Nat.add_mul_mod_self_left, Nat.mod_eq_of_lt h1]
      have e2 : (k + K * f) / K = f := by rw [Nat.add_mul_div_left _ _ hK, Nat.div_eq_of_lt h1, zero_add]
      have lt : k + K * f < K * nf := by
        calc k + K * f < K * 1 + K * f := by omega
          _ = K * (f + 1) := by ring
          _ ≤ K * nf := Nat.mul_le_mul_left _ h2
      refine ⟨k + K * f, List.mem_filter.2 ⟨List.mem_range.2 lt, decide_eq_true ?_⟩, by rw [e1, e2]⟩
      rw [gt_iff_lt, val _ lt, e1, e2, pos]
      exact h3
  · unfold bcFaces
    rw [List.pairwise_map]
    refine ((List.pairwise_lt_range (n := K * nf)).filter _).imp_of_mem fun {a b} ha hb hab => ?_
    obtain ⟨a1, -, a3⟩ := split_index (List.mem_range.1 (List.mem_filter.1 ha).1)
    obtain ⟨b1, -, b3⟩ := split_index (List.mem_range.1 (List.mem_filter.1 hb).1)
    rcases lt_trichotomy (a / K) (b / K) with h | h | h
    · exact Or.inl h
    · refine Or.inr ⟨h, ?_⟩
      simp only [h] at a3
      omega
    · exfalso
      have : K * (b / K + 1) ≤ K * (a / K) := Nat.mul_le_mul_left _ h
      rw [Nat.mul_add, Nat.mul_one] at this
      omega

theorem elements_get (m : Mesh) {k : ℕ} (hk : k < m.K) : m.elements[k]? = some [m.ev.getD (3 * k) 0, m.ev.getD (3 * k + 1) 0, m.ev.getD (3 * k + 2) 0] := by
  unfold Mesh.elements
  rw [List.getElem?_map, List.getElem?_range hk]
  rfl

theorem row_get (m : Mesh) {k f : ℕ} (hf : f < 3) : [m.ev.getD (3 * k) 0, m.ev.getD (3 * k + 1) 0, m.ev.getD (3 * k + 2) 0][f]? = some (m.ev.getD (3 * k + f) 0) := by
  interval_cases f <;> rfl

theorem points_get (m : Mesh) {v : ℕ} (hv : v < m.nv) : m.points[v]? = some (m.vert.getD (3 * v) 0, m.vert.getD (3 * v + 1) 0) := by
  unfold Mesh.points
  rw [List.getElem?_map, List.getElem?_range hv]
  rfl

theorem points_length (m : Mesh) : m.points.length = m.nv := by simp [Mesh.points]

/-- All faces of the list have their ends in the tables: the fitting of the vertices returns (`C112_result`). -/
theorem faces_ok {m : Mesh} {P : ℕ → ℕ} (h : m.Ok P) (bc : List Int) : Curved.FacesOk m.points m.elements 3 (bcFaces m.K 3 bc) := by
  rintro ⟨k, f⟩ hm
  obtain ⟨h1, h2, -⟩ := ((C156_faces m.K 3 bc).1 k f).1 hm
  have lt : ∀ j < 3, m.ev.getD (3 * k + j) 0 < m.points.length := by
    intro j hj
    have hl : 3 * k + j < m.ev.length := by rw [h.lenEv]; omega
    rw [List.getD_eq_getElem _ _ hl, points_length]
    exact h.ltEv _ (List.getElem_mem hl)
  exact ⟨_, _, ⟨_, elements_get m h1, row_get m h2, row_get m (Nat.mod_lt _ (by norm_num))⟩, lt _ h2, lt _ (Nat.mod_lt _ (by norm_num))⟩

/-! ### The set-up taken apart -/

/-- Constants as in the code (order one to five), and a LAPACK that keeps its contract. -/
structure Numerics (la : Lapack) (eps ztol tol : ℝ) (N : ℕ) : Prop where
  lapack : la.Ok
  eps_pos : 0 < eps
  eps_le : eps ≤ 0.1
  ztol_pos : 0 < ztol
  ztol_lt : ztol < 1 / 5
  tol_pos : 0 < tol
  tol_le : tol ≤ 1 / 10
  order : 1 ≤ N
  low : N ≤ 5

variable {la : Lapack} {eps ztol tol : ℝ} {N : ℕ} {sort : List ℝ → List ℕ} {spl : List ℝ → List (ℝ × ℝ) → Out (ℝ → ℝ × ℝ)} {m : Mesh} {P Q : ℕ → ℕ} {s : CurvedStart}

theorem start_inv (h : curvedStart la eps ztol tol N sort spl m = .ok s) : ∃ (w : List (ℝ × ℝ)) (ev : ℝ → ℝ × ℝ) (ss : List ℝ) (a : Curved.Snapped) (i k : ℕ) (F : Fin s.grid.np → Fin s.grid.np → Option ℝ) (x y : DMat ℝ) (els : List ℕ) (mem : Curved.Mem),
    correctTable m.ev m.vert 2 m.bcType = .ok s.bc ∧ buildGrid la eps ztol tol N { m with bcType := s.bc } = .ok s.grid ∧ s.grid.filter (0.9 * N) 4 = .ok F ∧
    Curved.centreInds s.grid.np s.grid.K s.grid.pyX.at' s.grid.pyY.at' = .ok (i, k) ∧ s.grid.wallPoints = .ok w ∧ Curved.takeOrder (Curved.topPoints w) (sort ((Curved.topPoints w).map Prod.fst)) ≠ [] ∧ ss.length = 4096 ∧ s.curve = ss.map ev ∧
    Curved.adjustStraightEdges m.points m.elements (bcFaces m.K 3 s.bc) s.curve 3 = .ok a ∧ s.verts = a.verts ∧
    Curved.deformAndBlend la s.grid.n N N a.verts m.elements s.curve ss ev s.grid.pyX s.grid.pyY a.faces = .ok (x, y, els, mem) ∧ s.els = els ∧
    Py.setGrid s.grid.pyX ⟨Py.storage x, 0, x.rows, x.cols, x.cols, 1⟩ = .ok s.x ∧ Py.setGrid s.grid.pyY ⟨Py.storage y, 0, y.rows, y.cols, y.cols, 1⟩ = .ok s.y := by
  unfold curvedStart at h
  obtain ⟨bc, h1, h⟩ := Out.bind_eq_ok.1 h
  obtain ⟨g, h2, h⟩ := Out.bind_eq_ok.1 h
  obtain ⟨F, h3, h⟩ := Out.bind_eq_ok.1 h
  obtain ⟨c, h4, h⟩ := Out.bind_eq_ok.1 h
  obtain ⟨w, h5, h⟩ := Out.bind_eq_ok.1 h
  obtain ⟨p, h6, h⟩ := Out.bind_eq_ok.1 h
  obtain ⟨ev, h7, h⟩ := Out.bind_eq_ok.1 h
  dsimp only at h
  generalize hss : Curved.linspace _ _ 4096 = ss at h
  obtain ⟨a, h8, h⟩ := Out.bind_eq_ok.1 h
  obtain ⟨⟨x, y, els, mem⟩, h9, h⟩ := Out.bind_eq_ok.1 h
  obtain ⟨X, h10, h⟩ := Out.bind_eq_ok.1 h
  obtain ⟨Y, h11, h⟩ := Out.bind_eq_ok.1 h
  obtain rfl := Out.ok.inj h
  refine ⟨w, ev, ss, a, c.1, c.2, F, x, y, els, mem, h1, h2, h3, h4, h5, ?_, ?_, rfl, h8, rfl, h9, rfl, h10, h11⟩
  · intro e
    rw [(Curved.C140_resampled w _).1 e] at h6
    cases h6
  · rw [← hss]
    simp [Curved.linspace]

theorem grid_of (hn : Numerics la eps ztol tol N) (hm : m.Ok P) (hb : m.bcType.length = 3 * m.K) {bc : List Int} (h1 : correctTable m.ev m.vert 2 m.bcType = .ok bc) {g : Grid}
    (h2 : buildGrid la eps ztol tol N { m with bcType := bc } = .ok g) : Provisioned la eps ztol tol N { m with bcType := bc } P g := by
  obtain ⟨bc', e, hl, -⟩ := C117_table hm hb 2
  rw [h1, Out.ok.injEq] at e
  subst e
  have hm' : ({ m with bcType := bc } : Mesh).Ok P := ⟨hm.conn, hm.lenEv, hm.ltEv, hm.lenVert, by show 3 * m.K ≤ bc.length; rw [hl, hb], hm.ccw, hm.meet⟩
  rcases C47_grid_low la hn.lapack eps hn.eps_pos hn.eps_le ztol tol hn.ztol_pos hn.ztol_lt hn.tol_pos hn.tol_le N hn.order hn.low _ P hm' with ⟨-, e⟩ | ⟨g', hg⟩
  · rw [h2] at e; cases e
  · have := hg.built
    rw [h2, Out.ok.injEq] at this
    rwa [this]

theorem start_grid (hn : Numerics la eps ztol tol N) (hm : m.Ok P) (hb : m.bcType.length = 3 * m.K) (h : curvedStart la eps ztol tol N sort spl m = .ok s) :
    Provisioned la eps ztol tol N { m with bcType := s.bc } P s.grid := by
  obtain ⟨-, -, -, -, -, -, -, -, -, -, -, h1, h2, -⟩ := start_inv h
  exact grid_of hn hm hb h1 h2

/-! ### The grid stays straight -/

theorem storage_view (a : DMat ℝ) (X : DMat ℝ) (h : Py.setGrid a ⟨Py.storage a, 0, a.rows, a.cols, a.cols, 1⟩ = .ok X) : X.rows = a.rows ∧ X.cols = a.cols ∧ ∀ i < a.rows, ∀ k < a.cols, X.at' i k = a.at' i k := by
  have hc : (⟨Py.storage a, 0, a.rows, a.cols, a.cols, 1⟩ : Py.View ℝ).Contiguous := ⟨rfl, rfl, by simp [Py.storage_length]⟩
  obtain ⟨X', e, h1, h2, h3⟩ := Py.C95_coordinates_partial a ⟨Py.storage a, 0, a.rows, a.cols, a.cols, 1⟩ hc rfl rfl
  rw [h, Out.ok.injEq] at e
  subst e
  refine ⟨h1, h2, fun i hi k hk => ?_⟩
  have := h3 i hi k hk
  rw [hc.at_eq hi hk] at this
  have e := Py.storage_get a hi hk
  simp only [List.drop_zero] at this
  rw [← Py.storage_length a, List.take_length, e] at this
  exact (Option.some.inj this).symm

/-- Nodes of a face of the grid lie at parameters from -1 to 1. -/
theorem start_placed (hn : Numerics la eps ztol tol N) {g : Grid} {m' : Mesh} (h : buildGrid la eps ztol tol N m' = .ok g) : ∃ x, Curved.Placed N g.n x := by
  unfold buildGrid at h
  obtain ⟨⟨n, o⟩, h1, h⟩ := Out.bind_eq_ok.1 h
  obtain ⟨cs, -, h⟩ := Out.bind_eq_ok.1 h
  obtain ⟨mp, -, h⟩ := Out.bind_eq_ok.1 h
  obtain ⟨bc, -, h⟩ := Out.bind_eq_ok.1 h
  obtain rfl := Out.ok.inj h
  unfold triElement at h1
  obtain ⟨n', h2, h1⟩ := Out.bind_eq_ok.1 h1
  obtain ⟨o', -, h1⟩ := Out.bind_eq_ok.1 h1
  have e := Out.ok.inj h1
  rw [Prod.mk.injEq] at e
  obtain ⟨rfl, -⟩ := e
  have hz : ztol < 2 / (N : ℝ) := by
    have h5 : (N : ℝ) ≤ 5 := by exact_mod_cast hn.low
    have h1 : (0 : ℝ) < N := by exact_mod_cast hn.order
    refine hn.ztol_lt.trans_le ?_
    rw [div_le_div_iff₀ (by norm_num) h1]
    linarith
  obtain ⟨x, -, hp⟩ := Curved.placed la hn.lapack eps hn.eps_pos hn.eps_le ztol tol hn.ztol_pos hn.tol_pos N hn.order hz _ h2
  exact ⟨x, hp⟩

theorem Placed.range {n : RefNodes} {x : List ℝ} (h : Curved.Placed N n x) {i : ℕ} (hi : i ≤ N) : -1 ≤ x.getD i 0 ∧ x.getD i 0 ≤ 1 := by
  constructor
  · rcases Nat.eq_zero_or_pos i with rfl | h0
    · exact h.first.ge
    · have := h.inc 0 i h0 hi
      rw [h.first] at this
      exact this.le
  · rcases Nat.lt_or_eq_of_le hi with h0 | rfl
    · have := h.inc i N h0 le_rfl
      rw [h.last] at this
      exact this.le
    · exact h.last.le

theorem lerp_segment (e : (ℝ × ℝ) × (ℝ × ℝ)) {t : ℝ} (h1 : -1 ≤ t) (h2 : t ≤ 1) : lerp e t ∈ segment ℝ e.1 e.2 :=
  ⟨(1 - t) / 2, (1 + t) / 2, by linarith, by linarith, by ring, by simp [lerp, Prod.ext_iff]⟩

/-- **C156, refuted: curved walls.** Whatever the mesh, the curve and the sorting: whenever the set-up returns, the coordinates held by the provisioner for everything that follows are those it was built with, and all nodes of
a face, also of a wall face fitted to the curve, lie on the straight line between the two corners of the face in the mesh file. -/
theorem C156_straight (hn : Numerics la eps ztol tol N) (hm : m.Ok P) (hb : m.bcType.length = 3 * m.K) (h : curvedStart la eps ztol tol N sort spl m = .ok s) :
    (s.x.rows = s.grid.np ∧ s.x.cols = m.K ∧ s.y.rows = s.grid.np ∧ s.y.cols = m.K ∧ ∀ i < s.grid.np, ∀ k < m.K, s.x.at' i k = s.grid.pyX.at' i k ∧ s.y.at' i k = s.grid.pyY.at' i k) ∧
    ∀ e < 3 * m.K, ∀ i ≤ N, (s.x.at' (s.grid.n.mask i (e % 3)) (e / 3), s.y.at' (s.grid.n.mask i (e % 3)) (e / 3)) ∈ segment ℝ (SW.Mesh.ends m e).1 (SW.Mesh.ends m e).2 := by
  obtain ⟨w, ev, ss, a, _, _, _, x, y, els, mem, -, h2, -, -, -, -, -, -, -, -, h9, -, h10, h11⟩ := start_inv h
  obtain ⟨rfl, rfl, -⟩ := Curved.C113_no_effect h9
  obtain ⟨xs, hg, hN, hK, ht⟩ := (start_grid hn hm hb h).spec
  have hK : s.grid.K = m.K := hK
  obtain ⟨x1, x2, x3⟩ := storage_view _ _ h10
  obtain ⟨y1, y2, y3⟩ := storage_view _ _ h11
  have hc : ∀ i < s.grid.np, ∀ k < m.K, s.x.at' i k = s.grid.pyX.at' i k ∧ s.y.at' i k = s.grid.pyY.at' i k :=
    fun i hi k hk => ⟨x3 i hi k (show k < s.grid.K by omega), y3 i hi k (show k < s.grid.K by omega)⟩
  refine ⟨⟨x1, x2.trans hK, y1, y2.trans hK, hc⟩, fun e he i hi => ?_⟩
  obtain ⟨z, hp⟩ := start_placed hn h2
  have hf : e % 3 < 3 := Nat.mod_lt _ (by norm_num)
  have hk : e / 3 < m.K := by omega
  obtain ⟨c1, c2⟩ := hc _ (hg.maskLt _ hf i (by omega)) _ hk
  rw [c1, c2]
  show (gridX (s.grid.tri (e / 3)) s.grid.n _, gridY (s.grid.tri (e / 3)) s.grid.n _) ∈ _
  rw [face_point _ _ _ _ hf _ (hp.pt _ hf i hi), ht _ hk]
  obtain ⟨r1, r2⟩ := Placed.range hp hi
  refine lerp_segment _ ?_ ?_ <;> unfold ori <;> split_ifs <;> linarith

/-! ### The elements listed as curved -/

theorem end_points {m : Mesh} {P : ℕ → ℕ} (h : m.Ok P) {k f : ℕ} (hk : k < m.K) (hf : f < 3) : ∃ i1 i2, Curved.Ends m.elements 3 (k, f) i1 i2 ∧ m.points[i1]? = some (SW.Mesh.ends m (3 * k + f)).1 ∧
    m.points[i2]? = some (SW.Mesh.ends m (3 * k + f)).2 := by
  have pt : ∀ j < 3, m.points[m.ev.getD (3 * k + j) 0]? = some (m.corner k j) := by
    intro j hj
    have hl : 3 * k + j < m.ev.length := by rw [h.lenEv]; omega
    have hv : m.ev.getD (3 * k + j) 0 < m.nv := by
      rw [List.getD_eq_getElem _ _ hl]
      exact h.ltEv _ (List.getElem_mem hl)
    rw [points_get m hv]
    rfl
  refine ⟨_, _, ⟨_, elements_get m hk, row_get m hf, row_get m (Nat.mod_lt _ (by norm_num))⟩, ?_, ?_⟩
  · rw [pt f hf]
    unfold SW.Mesh.ends
    rw [show (3 * k + f) / 3 = k by omega, show (3 * k + f) % 3 = f by omega]
    interval_cases f <;> rfl
  · rw [pt _ (Nat.mod_lt _ (by norm_num))]
    unfold SW.Mesh.ends
    rw [show (3 * k + f) / 3 = k by omega, show (3 * k + f) % 3 = f by omega]
    interval_cases f <;> simp [faceEnds, Mesh.tri]

theorem nearCurve_iff {m : Mesh} {P : ℕ → ℕ} (h : m.Ok P) (curve : List (ℝ × ℝ)) {k f : ℕ} (hk : k < m.K) (hf : f < 3) : Curved.NearCurve m.points m.elements 3 curve (k, f) ↔
    Curved.Close curve (SW.Mesh.ends m (3 * k + f)).1 ∧ Curved.Close curve (SW.Mesh.ends m (3 * k + f)).2 := by
  obtain ⟨j1, j2, q, d1, d2⟩ := end_points h hk hf
  refine ⟨?_, fun ⟨c1, c2⟩ => ⟨j1, j2, _, _, q, d1, d2, c1, c2⟩⟩
  rintro ⟨i1, i2, v1, v2, ⟨row, r1, r2, r3⟩, p1, p2, c⟩
  obtain ⟨row', q1, q2, q3⟩ := q
  rw [r1] at q1
  obtain rfl := Option.some.inj q1
  rw [r2] at q2
  rw [r3] at q3
  obtain rfl := Option.some.inj q2
  obtain rfl := Option.some.inj q3
  rw [p1] at d1
  rw [p2] at d2
  rw [← Option.some.inj d1, ← Option.some.inj d2]
  exact c

/-- **C156, list.** The elements handed on as curved are those with a face that has a positive tag (after the correction) and two corners within 200 of the curve. -/
theorem C156_list (hm : m.Ok P) (h : curvedStart la eps ztol tol N sort spl m = .ok s) (k : ℕ) :
    k ∈ s.els ↔ k < m.K ∧ ∃ f < 3, (∃ t, s.bc[3 * k + f]? = some t ∧ 0 < t) ∧ Curved.Close s.curve (SW.Mesh.ends m (3 * k + f)).1 ∧ Curved.Close s.curve (SW.Mesh.ends m (3 * k + f)).2 := by
  classical
  obtain ⟨w, ev, ss, a, _, _, _, x, y, els, mem, -, h2, -, -, -, -, hl, hc, h8, -, h9, rfl, -, -⟩ := start_inv h
  have hne : s.curve ≠ [] := by
    intro e
    rw [hc] at e
    have := congrArg List.length e
    rw [List.length_map, hl] at this
    simp at this
  obtain ⟨a', e, hr⟩ := Curved.C112_result m.points m.elements 3 s.curve _ hne (faces_ok hm s.bc)
  rw [h8, Out.ok.injEq] at e
  subst e
  rw [(Curved.C113_no_effect h9).2.2.2.2, hr.faces, List.mem_map]
  constructor
  · rintro ⟨⟨k', f⟩, hkf, rfl⟩
    obtain ⟨hin, hnear⟩ := List.mem_filter.1 hkf
    obtain ⟨b1, b2, b3⟩ := ((C156_faces m.K 3 s.bc).1 k' f).1 hin
    exact ⟨b1, f, b2, b3, (nearCurve_iff hm _ b1 b2).1 (of_decide_eq_true hnear)⟩
  · rintro ⟨hk, f, hf, ht, hc⟩
    exact ⟨(k, f), List.mem_filter.2 ⟨((C156_faces m.K 3 s.bc).1 k f).2 ⟨hk, hf, ht⟩, decide_eq_true ((nearCurve_iff hm _ hk hf).2 hc)⟩, rfl⟩

/-! ### What the mesh must contain -/

/-- Node `i` of face `e`. -/
noncomputable def Grid.faceNode (g : Grid) (e i : ℕ) : ℝ × ℝ := (g.pyX.at' (g.n.mask i (e % 3)) (e / 3), g.pyY.at' (g.n.mask i (e % 3)) (e / 3))

theorem wall_points {x : List ℝ} {bt : List Int} {g : Grid} (hg : GridSpec P x bt g) :
    ((¬ ∃ e < 3 * g.K, bt[e]? = some 3) → g.wallPoints = .throws) ∧
    ((∃ e < 3 * g.K, bt[e]? = some 3) → ∃ w, g.wallPoints = .ok w ∧ ∀ p, p ∈ w ↔ ∃ e < 3 * g.K, ∃ i ≤ g.N, bt[e]? = some 3 ∧ p = g.faceNode e i) := by
  constructor
  · intro hno
    unfold Grid.wallPoints
    rw [hg.bcNone 3 (by norm_num) fun ⟨c, e, n, he, _, ht, _⟩ => hno ⟨e, he, ht⟩]
  rintro ⟨e0, he0, ht0⟩
  obtain ⟨l, hl⟩ := hg.bcSome 3 (by norm_num) ⟨_, e0, 0, he0, Nat.succ_pos _, ht0, rfl⟩
  have hmem := hg.bc 3 (by norm_num) l hl
  have hlen := hg.lenM
  have hM : ∀ c ∈ l, ∃ e < 3 * g.K, ∃ i ≤ g.N, bt[e]? = some 3 ∧ g.maps.vmapM[c]? = some (vol g.np 3 g.n.mask e i) := by
    intro c hc
    obtain ⟨e, i, he, hi, ht, rfl⟩ := (hmem c).1 hc
    exact ⟨e, he, i, by omega, ht, by rw [mul_comm]; exact hg.vmapM e he i (by omega)⟩
  have at_ : ∀ (a : DMat ℝ), a.rows = g.np → a.cols = g.K → ∀ e < 3 * g.K, ∀ i ≤ g.N, (flatF a)[vol g.np 3 g.n.mask e i]? = some (a.at' (g.n.mask i (e % 3)) (e / 3)) := by
    intro a h1 h2 e he i hi
    have := flatF_get a (g.n.mask i (e % 3)) (e / 3) (by rw [h1]; exact hg.maskLt _ (Nat.mod_lt _ (by norm_num)) i hi) (by rw [h2]; omega)
    rw [h1] at this
    exact this
  have p1 := pickIdx_ok g.maps.vmapM l fun c hc => by
    obtain ⟨e, -, i, -, -, h⟩ := hM c hc
    exact (List.getElem?_eq_some_iff.1 h).1
  have lt : ∀ (a : DMat ℝ), a.rows = g.np → a.cols = g.K → ∀ v ∈ l.map (fun c => g.maps.vmapM.getD c 0), v < (flatF a).length := by
    intro a h1 h2 v hv
    obtain ⟨c, hc, rfl⟩ := List.mem_map.1 hv
    obtain ⟨e, he, i, hi, -, h⟩ := hM c hc
    simp only [List.getD_eq_getElem?_getD, h, Option.getD_some]
    exact (List.getElem?_eq_some_iff.1 (at_ a h1 h2 e he i hi)).1
  have p2 := pick_getD (flatF g.pyX) _ (lt g.pyX rfl rfl)
  have p3 := pick_getD (flatF g.pyY) _ (lt g.pyY rfl rfl)
  unfold Grid.wallPoints
  rw [hl]
  simp only [p1, p2, p3, Out.bind_ok, Out.pure_eq]
  refine ⟨_, rfl, fun p => ?_⟩
  rw [List.zip_map', List.mem_map]
  constructor
  · rintro ⟨v, hv, rfl⟩
    obtain ⟨c, hc, rfl⟩ := List.mem_map.1 hv
    obtain ⟨e, he, i, hi, ht, h⟩ := hM c hc
    refine ⟨e, he, i, hi, ht, ?_⟩
    simp only [List.getD_eq_getElem?_getD, h, Option.getD_some, at_ g.pyX rfl rfl e he i hi, at_ g.pyY rfl rfl e he i hi]
    rfl
  · rintro ⟨e, he, i, hi, ht, rfl⟩
    refine ⟨vol g.np 3 g.n.mask e i, List.mem_map.2 ⟨e * (g.N + 1) + i, (hmem _).2 ⟨e, i, he, by omega, ht, rfl⟩, ?_⟩, ?_⟩
    · rw [List.getD_eq_getElem?_getD, mul_comm, hg.vmapM e he i hi]
      rfl
    · simp only [List.getD_eq_getElem?_getD, at_ g.pyX rfl rfl e he i hi, at_ g.pyY rfl rfl e he i hi]
      rfl

theorem order_nil {w : List (ℝ × ℝ)} {o : List ℕ} (h : Curved.IsArgsort ((Curved.topPoints w).map Prod.fst) o) : Curved.takeOrder (Curved.topPoints w) o = [] ↔ Curved.topPoints w = [] := by
  have := (Curved.order_perm h).1
  exact ⟨fun e => by rw [e] at this; exact this.symm.eq_nil, fun e => by rw [e] at this ⊢; exact this.eq_nil⟩

/-- **C156, needs.** For a mesh on which the provisioner is built: if no node lies within 19 of the origin (the indices looked for are never used), or no node of a wall face lies in the window 3250 < x < 4750, y > 200, then the
program raises before anything is written. -/
theorem C156_needs (hn : Numerics la eps ztol tol N) (hm : m.Ok P) (hb : m.bcType.length = 3 * m.K) (hsort : ∀ l, Curved.IsArgsort l (sort l)) {bc : List Int} (h1 : correctTable m.ev m.vert 2 m.bcType = .ok bc) {g : Grid}
    (h2 : buildGrid la eps ztol tol N { m with bcType := bc } = .ok g)
    (h : (¬ ∃ i < g.np, ∃ k < m.K, Curved.apart (g.pyX.at' i k, g.pyY.at' i k) (0, 0) < 19) ∨
      ¬ ∃ e < 3 * m.K, ∃ i ≤ N, bc[e]? = some 3 ∧ 3250 < (g.faceNode e i).1 ∧ (g.faceNode e i).1 < 4750 ∧ 200 < (g.faceNode e i).2) :
    curvedStart la eps ztol tol N sort spl m = .throws := by
  obtain ⟨xs, hg, hN, hK, -⟩ := (grid_of hn hm hb h1 h2).spec
  have hK : g.K = m.K := hK
  obtain ⟨F, hF, -⟩ := hg.filter_total (0.9 * N) (by positivity) (by
    have hpos : (1 : ℝ) ≤ N := by exact_mod_cast hn.order
    rw [hN]
    intro e
    linarith) 4 (by norm_num)
  have hc := Curved.C140_centre g.np g.K g.pyX.at' g.pyY.at'
  unfold curvedStart
  rw [h1, Out.bind_ok, h2, Out.bind_ok, hF, Out.bind_ok]
  by_cases hce : ∃ i < g.np, ∃ k < g.K, Curved.apart (g.pyX.at' i k, g.pyY.at' i k) (0, 0) < 19
  · obtain ⟨i, k, e, -⟩ := hc.1 hce
    rw [e, Out.bind_ok]
    have h := h.resolve_left (by rw [← hK]; exact not_not.2 hce)
    have hw := wall_points hg
    by_cases hex : ∃ e < 3 * g.K, bc[e]? = some 3
    · obtain ⟨w, e', hw⟩ := hw.2 hex
      rw [e', Out.bind_ok]
      have hnil : Curved.topPoints w = [] := by
        by_contra hne
        obtain ⟨p, hp⟩ := List.exists_mem_of_ne_nil _ hne
        obtain ⟨hp, hq⟩ := List.mem_filter.1 hp
        obtain ⟨e, he, i, hi, ht, rfl⟩ := (hw p).1 hp
        obtain ⟨q1, q2, q3⟩ := of_decide_eq_true hq
        exact h ⟨e, by omega, i, by omega, ht, q2, q3, q1⟩
      dsimp only
      rw [(Curved.C140_resampled w _).1 ((order_nil (hsort _)).2 hnil)]
      rfl
    · rw [hw.1 hex]
      rfl
  · rw [hc.2 hce]
    rfl

/-! ### The channel -/

/-- Face `e` lies on one of the two lines. -/
def OnLine (m : Mesh) (e : ℕ) : Prop := (SW.Mesh.ends m e).1.1 = 0 ∧ (SW.Mesh.ends m e).2.1 = 0 ∨ (SW.Mesh.ends m e).1.1 = 8000 ∧ (SW.Mesh.ends m e).2.1 = 8000

/-- The mesh of a channel from x = 0 to x = 8000 as it comes from the file, and the pairing `Q` of faces meant: faces on the two lines are paired at equal heights, other faces with their neighbour `P`.  All other
boundary faces are walls; some are. -/
structure FileChannel (m : Mesh) (P Q : ℕ → ℕ) : Prop where
  ok : m.Ok P
  tags : m.bcType.length = 3 * m.K
  between : Between m
  lt : ∀ e < 3 * m.K, Q e < 3 * m.K
  inv : ∀ e < 3 * m.K, Q (Q e) = e
  rest : ∀ e < 3 * m.K, ¬ OnLine m e → Q e = P e
  mate : ∀ e < 3 * m.K, OnLine m e → OnLine m (Q e) ∧ (SW.Mesh.ends m (Q e)).1.1 ≠ (SW.Mesh.ends m e).1.1 ∧ (SW.Mesh.ends m (Q e)).1.2 = (SW.Mesh.ends m e).2.2 ∧ (SW.Mesh.ends m (Q e)).2.2 = (SW.Mesh.ends m e).1.2
  walls : ∀ e < 3 * m.K, P e = e → ¬ OnLine m e → m.bcType[e]? = some 3
  wall : ∃ e < 3 * m.K, P e = e ∧ ¬ OnLine m e
  lines : ∃ e < 3 * m.K, OnLine m e

theorem channel_of_file (hc : FileChannel m P Q) (hn : Numerics la eps ztol tol N) (h : curvedStart la eps ztol tol N sort spl m = .ok s) :
    Channel s.grid P s.bc Q 0 8000 ∧ (∀ e < 3 * m.K, IsOpen P s.bc e ↔ OnLine m e) ∧ ∀ e < 3 * m.K, P e = e → ¬ OnLine m e → IsWall P s.bc e := by
  obtain ⟨_, _, _, _, _, _, _, _, _, _, _, h1, -⟩ := start_inv h
  obtain ⟨bc, e1, -, hb⟩ := C117_channel hc.ok hc.tags hc.between 2
  rw [h1, Out.ok.injEq] at e1
  subst e1
  obtain ⟨xs, -, -, hK, ht⟩ := (start_grid hn hc.ok hc.tags h).spec
  have hK : s.grid.K = m.K := hK
  have hw : ∀ e < 3 * m.K, P e = e → ¬ OnLine m e → IsWall P s.bc e := fun e he hp hl => ⟨hp, by rw [(hb e he).2 hl]; exact hc.walls e he hp hl⟩
  have ho : ∀ e < 3 * m.K, IsOpen P s.bc e ↔ OnLine m e := by
    intro e he
    refine ⟨fun ⟨hp, ht⟩ => ?_, fun hl => (hb e he).1 hl⟩
    by_contra hl
    have := (hw e he hp hl).2
    rw [ht] at this
    simp at this
  have hends : ∀ e < 3 * m.K, s.grid.ends e = SW.Mesh.ends m e := by
    intro e he
    unfold Grid.ends SW.Mesh.ends
    rw [ht _ (by show e / 3 < m.K; omega)]
    rfl
  refine ⟨⟨by norm_num, by rw [hK]; exact hc.lt, by rw [hK]; exact hc.inv, ?_, ?_, ?_⟩, ho, hw⟩
  · rw [hK]
    exact fun e he hno => hc.rest e he fun hl => hno ((ho e he).2 hl)
  · rw [hK]
    intro e he hop
    rw [hends e he]
    rcases (ho e he).1 hop with ⟨a, b⟩ | ⟨a, b⟩
    · exact ⟨a.trans b.symm, Or.inl a⟩
    · exact ⟨a.trans b.symm, Or.inr a⟩
  · rw [hK]
    intro e he hop
    obtain ⟨a, b, c, d⟩ := hc.mate e he ((ho e he).1 hop)
    rw [hends e he, hends _ (hc.lt e he)]
    exact ⟨(ho _ (hc.lt e he)).2 a, b, c, d⟩

/-- **C156, the run.** On the mesh of a channel, whenever the set-up returns and the contexts of the Gauss points and of the cubature are built, the Gauss points of the two ends are paired, the filter is built, and every pass of
the time loop that returns changes the totals of volume and tracer by no more than the step times the cubature error on the elements listed as curved. -/
theorem C156_run (hc : FileChannel m P Q) (hn : Numerics la eps ztol tol N) (h : curvedStart la eps ztol tol N sort spl m = .ok s) {ts : TriSolve} (hts : TriSolves ts)
    {dpotrf : ℕ → List ℝ → Int × List ℝ} (hpo : Dense.PotrfOk dpotrf) {NC : ℤ} {c : Cubature} (hcu : Ctx.buildCubature la dpotrf s.grid NC = .ok c) {pts : List (ℝ × ℝ × ℝ)} (hw : Cub.Works NC pts)
    (hd : Ctx.Determines N pts) (hNC : (N : ℤ) ≤ NC) {NG : ℕ} (hNG : 1 ≤ NG) {ga : GaussFace} (hga : Ctx.buildGauss la eps s.grid { m with bcType := s.bc } NG = .ok ga) (hsp : Spread s.grid P s.bc ga) :
    ∃ (gP : List ℕ) (F : Matrix (Fin s.grid.np) (Fin s.grid.np) ℝ), s.grid.gaussPeriodic ga = .ok (ga.mapM, gP) ∧ s.grid.filter (0.9 * N) 4 = .ok (fun i j => some (F i j)) ∧
      ∀ (grav f CFL : ℝ) (CD zx zy H : DMat ℝ) (q q' : PySim) (M L M' L' : ℝ), s.grid.stepCurved (s.grid.rhsWeak ts c ga grav f CD zx zy s.grid.pyJ s.els ga.mapM gP) grav CFL H F q = .ok q' →
        IsTotal s.grid q.q.h.at' M → IsTotal s.grid q.hN.at' L → IsTotal s.grid q'.q.h.at' M' → IsTotal s.grid q'.hN.at' L' →
        ∃ q1 r, pyMid (s.grid.rhsWeak ts c ga grav f CD zx zy s.grid.pyJ s.els ga.mapM gP) F q = .ok q1 ∧ s.grid.rhsWeak ts c ga grav f CD zx zy s.grid.pyJ s.els ga.mapM gP q1.1 q1.2 = .ok r ∧
          (∀ A, Pieces s.grid r.1.h.at' A → |M' - M| ≤ |q.dt| * defect s.grid s.els A) ∧ ∀ A, Pieces s.grid r.2.at' A → |L' - L| ≤ |q.dt| * defect s.grid s.els A := by
  obtain ⟨hch, ho, hwl⟩ := channel_of_file hc hn h
  have hg := start_grid hn hc.ok hc.tags h
  obtain ⟨xs, -, hN, hK, -⟩ := hg.spec
  have hK : s.grid.K = m.K := hK
  obtain ⟨e, he, hp, hl⟩ := hc.wall
  obtain ⟨e', he', hl'⟩ := hc.lines
  have hset := C115_setup hg hpo hcu hw hd hNG hga ⟨e, he, hwl e he hp hl⟩ hts (curved := s.els) fun k hk => ((C156_list hc.ok h k).1 hk).1
  obtain ⟨gP, σ, h1, h2⟩ := C116_setup hset hch hsp ⟨e', by rw [hK]; exact he', (ho e' he').2 hl'⟩
  have hpos : (1 : ℝ) ≤ N := by exact_mod_cast hn.order
  obtain ⟨F, hF, hpass⟩ := C118_pass h2 (fun e he hq => by
    rw [hK] at he
    by_cases hl : OnLine m e
    · have := (hc.mate e he hl).2.1
      rw [hq] at this
      exact absurd rfl this
    · exact hwl e he ((hc.rest e he hl).symm.trans hq) hl) (by rw [hN]; omega) (0.9 * N) (by positivity) (by rw [hN]; intro e; linarith) 4 (by norm_num)
  exact ⟨gP, F, h1, hF, hpass⟩

end Blitzdg.SW
