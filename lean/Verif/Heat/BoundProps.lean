import Verif.Heat.Bound
import Verif.Heat.Props
import Verif.SW.PyTagsProps
import Verif.SW.GridLow

/-! C141: boundary tags and boundary data of heat2d.py. -/

namespace Blitzdg.Heat

open MvPolynomial
open Matrix
open Filter Topology
open Blitzdg.Sparse (DMat Csc Represents cooVal)
open Blitzdg.Nodes1D (Lapack exactLapack exactLapack_ok)
open Blitzdg.DG2D
open Blitzdg.SW (Grid Mesh GridSpec Provisioned buildGrid faceEnds pick reshapeF)
open Blitzdg.Poisson (ctxOf mat bil ext HasNodes Fits Tagged Connected FaceValues tagOf l2Form sipForm val bil_mat)

/-! ### Specification -/

/-- The sides of the trapezoid with the corners (0, 0), (4, 0), (3, 1.3), (1, 1.3). -/
inductive Side
  | bottom
  | right
  | top
  | left

/-- A multiple of the distance of a point from the line through the side: positive inside the trapezoid. -/
noncomputable def Side.off : Side → ℝ × ℝ → ℝ
  | .bottom, z => z.2
  | .right, z => 26 / 5 - 1.3 * z.1 - z.2
  | .top, z => 1.3 - z.2
  | .left, z => 1.3 * z.1 - z.2

/-- The boundary condition intended on the side: 7 is Neuman, 6 is Dirichlet. -/
def Side.tag : Side → Int
  | .bottom => 7
  | .right => 6
  | .top => 6
  | .left => 6

/-- Both ends of the segment are on the line of the side. -/
def OnSide (s : Side) (e : (ℝ × ℝ) × (ℝ × ℝ)) : Prop := s.off e.1 = 0 ∧ s.off e.2 = 0

/-- The mesh is one of the trapezoid: its vertices are in it, and a vertex nearer than `δ` to the line of a side is on it; boundary faces are on the sides. -/
structure Trapezoid (δ : ℝ) (m : Mesh) (P : ℕ → ℕ) : Prop where
  margin : 2e-12 ≤ δ
  inside : ∀ k < m.K, ∀ j < 3, ∀ s : Side, s.off (m.corner k j) = 0 ∨ δ ≤ s.off (m.corner k j)
  fills : ∀ e < 3 * m.K, P e = e → ∃ s, OnSide s (m.ends e)

/-! ### The loop over the faces -/

variable {la : Lapack} {eps ztol tol δ : ℝ} {N : ℕ} {m : Mesh} {P : ℕ → ℕ} {g : Grid}

theorem vertex_ok (h : m.Ok P) {e j : ℕ} (he : e < m.K) (hj : j < 3) : vertexOf m.ev m.vert e j = .ok (m.corner e j) := by
  have h1 : 3 * e + j < m.ev.length := by rw [h.lenEv]; omega
  have h2 := h.ltEv _ (List.getElem_mem h1)
  have h3 : 3 * m.ev[3 * e + j] < m.vert.length := by rw [h.lenVert]; omega
  have h4 : 3 * m.ev[3 * e + j] + 1 < m.vert.length := by rw [h.lenVert]; omega
  unfold vertexOf Mesh.corner
  rw [List.getElem?_eq_getElem h1]
  simp only
  rw [List.getElem?_eq_getElem h3, List.getElem?_eq_getElem h4]
  simp only [List.getD_eq_getElem _ _ h1, List.getD_eq_getElem _ _ h3, List.getD_eq_getElem _ _ h4]

theorem ends_corner (m : Mesh) {c : ℕ} : (m.ends c).1 = m.corner (c / 3) (c % 3) ∧ (m.ends c).2 = m.corner (c / 3) ((c % 3 + 1) % 3) := by
  unfold SW.Mesh.ends
  rcases (by omega : c % 3 = 0 ∨ c % 3 = 1 ∨ c % 3 = 2) with h | h | h <;> simp [h, faceEnds, Mesh.tri]

theorem side_loop (h : m.Ok P) (n : ℕ) (hn : n ≤ 3 * m.K) (bc : List Int) (hb : 3 * m.K ≤ bc.length) :
    ∃ bc', loopM (sideStep m.ev m.vert) bc (List.range n) = .ok bc' ∧ bc'.length = bc.length ∧
      ∀ c, bc'[c]? = if c < n then some (sideTag (bc.getD c 0) (m.ends c).1 (m.ends c).2) else bc[c]? := by
  induction n with
  | zero => exact ⟨bc, rfl, rfl, fun c => by simp⟩
  | succ n ih =>
    obtain ⟨bc', h1, h2, h3⟩ := ih (by omega)
    have hlt : n < bc'.length := by omega
    have hold : bc'[n] = bc.getD n 0 := by
      have := h3 n
      rw [if_neg (lt_irrefl n), List.getElem?_eq_getElem hlt, List.getElem?_eq_getElem (by omega)] at this
      rw [Option.some.inj this, List.getD_eq_getElem _ _ (by omega)]
    have hstep : sideStep m.ev m.vert bc' n = .ok (bc'.set n (sideTag (bc.getD n 0) (m.ends n).1 (m.ends n).2)) := by
      unfold sideStep
      rw [vertex_ok h (by omega) (by omega), vertex_ok h (by omega) (by omega), List.getElem?_eq_getElem hlt]
      simp only [Out.bind_ok, Out.pure_eq]
      rw [(ends_corner m).1, (ends_corner m).2, hold]
    refine ⟨_, by rw [List.range_succ, loopM_append, h1, Out.bind_ok, loopM_cons, hstep]; rfl, by simp [h2], fun c => ?_⟩
    by_cases hc : c = n
    · subst hc
      rw [List.getElem?_set_self hlt, if_pos (Nat.lt_succ_self c)]
    · rw [List.getElem?_set_ne (Ne.symm hc), h3 c]
      congr 1
      exact propext ⟨fun h => by omega, fun h => by omega⟩

theorem table_ok (h : m.Ok P) (hb : m.bcType.length = 3 * m.K) :
    ∃ bc, sideTable m.ev m.vert m.bcType = .ok bc ∧ bc.length = 3 * m.K ∧ ∀ c < 3 * m.K, bc[c]? = some (sideTag (m.bcType.getD c 0) (m.ends c).1 (m.ends c).2) := by
  obtain ⟨bc, h1, h2, h3⟩ := side_loop h (3 * m.K) (le_refl _) m.bcType hb.ge
  refine ⟨bc, ?_, h2.trans hb, fun c hc => by rw [h3 c, if_pos hc]⟩
  unfold sideTable
  rw [hb, Nat.mul_div_cancel_left _ (by norm_num), h1]

/-! ### Geometry -/

/-- The midpoint is near the line of a side exactly if the face is on it. -/
theorem near_iff {s : Side} {a b : ℝ × ℝ} (hδ : 2e-12 ≤ δ) (ha : s.off a = 0 ∨ δ ≤ s.off a) (hb : s.off b = 0 ∨ δ ≤ s.off b) :
    |(s.off a + s.off b) / 2| < 1e-12 ↔ OnSide s (a, b) := by
  unfold OnSide
  simp only
  generalize s.off a = u at *
  generalize s.off b = v at *
  constructor
  · intro h
    rw [abs_lt] at h
    rcases ha with rfl | ha <;> rcases hb with rfl | hb
    · exact ⟨rfl, rfl⟩
    · exfalso; linarith [h.2]
    · exfalso; linarith [h.2]
    · exfalso; linarith [h.2]
  · rintro ⟨rfl, rfl⟩
    norm_num

open Classical in
theorem sideTag_eq (old : Int) (a b : ℝ × ℝ) : sideTag old a b = if |(Side.top.off a + Side.top.off b) / 2| < 1e-12 then 6 else if |(Side.bottom.off a + Side.bottom.off b) / 2| < 1e-12 then 7
    else if |(Side.left.off a + Side.left.off b) / 2| < 1e-12 then 6 else if |(Side.right.off a + Side.right.off b) / 2| < 1e-12 then 6 else old := by
  have e1 : |(Side.top.off a + Side.top.off b) / 2| = |0.5 * (a.2 + b.2) - 1.3| := by
    rw [← abs_neg]; congr 1; simp only [Side.off]; ring
  have e2 : |(Side.bottom.off a + Side.bottom.off b) / 2| = |0.5 * (a.2 + b.2)| := by
    congr 1; simp only [Side.off]; ring
  have e3 : |(Side.left.off a + Side.left.off b) / 2| = |0.5 * (a.2 + b.2) - 1.3 * (0.5 * (a.1 + b.1))| := by
    rw [← abs_neg]; congr 1; simp only [Side.off]; ring
  have e4 : |(Side.right.off a + Side.right.off b) / 2| = |0.5 * (a.2 + b.2) + 1.3 * (0.5 * (a.1 + b.1)) - 26 / 5| := by
    rw [← abs_neg]; congr 1; simp only [Side.off]; ring
  rw [e1, e2, e3, e4]
  rfl

/-- The ends of a face of a triangle are different. -/
theorem ends_ne {T : Tri} (h : 0 < cross T) {f : ℕ} (hf : f < 3) : (faceEnds T f).1 ≠ (faceEnds T f).2 := by
  intro he
  unfold cross at h
  rcases (by omega : f = 0 ∨ f = 1 ∨ f = 2) with rfl | rfl | rfl <;>
    simp only [faceEnds, if_true, if_false, one_ne_zero, OfNat.ofNat_ne_zero, show ¬ (2 : ℕ) = 1 by norm_num, Prod.mk.injEq] at he <;> rw [he.1, he.2] at h <;> nlinarith

/-- A segment is on the line of one side only. -/
theorem side_unique {s t : Side} {e : (ℝ × ℝ) × (ℝ × ℝ)} (hs : OnSide s e) (ht : OnSide t e) (he : e.1 ≠ e.2) : s = t := by
  obtain ⟨⟨x, y⟩, ⟨x', y'⟩⟩ := e
  simp only [OnSide] at hs ht
  by_contra hst
  apply he
  simp only [Prod.mk.injEq]
  cases s <;> cases t <;> first | exact absurd rfl hst | (simp only [Side.off] at hs ht; constructor <;> linarith [hs.1, hs.2, ht.1, ht.2])

/-- The corner of a triangle that is not on face `f`. -/
def apex (T : Tri) (f : ℕ) : ℝ × ℝ := if f = 0 then (T.xc, T.yc) else if f = 1 then (T.xa, T.ya) else (T.xb, T.yb)

theorem cross_apex (T : Tri) {f : ℕ} (hf : f < 3) : cross T = ((faceEnds T f).2.1 - (faceEnds T f).1.1) * ((apex T f).2 - (faceEnds T f).1.2) - ((faceEnds T f).2.2 - (faceEnds T f).1.2) * ((apex T f).1 - (faceEnds T f).1.1) := by
  unfold cross
  rcases (by omega : f = 0 ∨ f = 1 ∨ f = 2) with rfl | rfl | rfl <;> simp [faceEnds, apex] <;> ring

/-- The sign of the third corner with respect to a line through the two others: there is a number depending on the two others only. -/
theorem apex_side (s : Side) : ∃ φ : (ℝ × ℝ) × (ℝ × ℝ) → ℝ, (∀ e, φ e.swap = -φ e) ∧ ∀ T : Tri, ∀ f < 3, OnSide s (faceEnds T f) → cross T = φ (faceEnds T f) * s.off (apex T f) := by
  cases s
  · refine ⟨fun e => e.2.1 - e.1.1, fun e => by simp, fun T f hf hs => ?_⟩
    rw [cross_apex T hf]
    simp only [OnSide, Side.off] at hs ⊢
    rw [hs.1, hs.2]; ring
  · refine ⟨fun e => -(e.2.1 - e.1.1), fun e => by simp, fun T f hf hs => ?_⟩
    rw [cross_apex T hf]
    simp only [OnSide, Side.off] at hs ⊢
    have h1 : (faceEnds T f).2.2 = 26 / 5 - 1.3 * (faceEnds T f).2.1 := by linarith [hs.2]
    have h2 : (faceEnds T f).1.2 = 26 / 5 - 1.3 * (faceEnds T f).1.1 := by linarith [hs.1]
    rw [h1, h2]; ring
  · refine ⟨fun e => -(e.2.1 - e.1.1), fun e => by simp, fun T f hf hs => ?_⟩
    rw [cross_apex T hf]
    simp only [OnSide, Side.off] at hs ⊢
    have h1 : (faceEnds T f).2.2 = 1.3 := by linarith [hs.2]
    have h2 : (faceEnds T f).1.2 = 1.3 := by linarith [hs.1]
    rw [h1, h2]; ring
  · refine ⟨fun e => -(e.2.1 - e.1.1), fun e => by simp, fun T f hf hs => ?_⟩
    rw [cross_apex T hf]
    simp only [OnSide, Side.off] at hs ⊢
    have h1 : (faceEnds T f).2.2 = 1.3 * (faceEnds T f).2.1 := by linarith [hs.2]
    have h2 : (faceEnds T f).1.2 = 1.3 * (faceEnds T f).1.1 := by linarith [hs.1]
    rw [h1, h2]; ring

theorem apex_corner (m : Mesh) (k : ℕ) {f : ℕ} (hf : f < 3) : ∃ j < 3, apex (m.tri k) f = m.corner k j := by
  rcases (by omega : f = 0 ∨ f = 1 ∨ f = 2) with rfl | rfl | rfl
  · exact ⟨2, by omega, rfl⟩
  · exact ⟨0, by omega, rfl⟩
  · exact ⟨1, by omega, rfl⟩

/-- A face on a side of the trapezoid has no neighbour. -/
theorem side_boundary (h : m.Ok P) (ht : Trapezoid δ m P) {e : ℕ} (he : e < 3 * m.K) {s : Side} (hs : OnSide s (m.ends e)) : P e = e := by
  by_contra hne
  have hm := h.meet e he hne
  have hlt : P e < 3 * m.K := h.conn.lt e he
  obtain ⟨φ, hφ, hc⟩ := apex_side s
  have c1 := hc (m.tri (e / 3)) (e % 3) (by omega) hs
  have c2 := hc (m.tri (P e / 3)) (P e % 3) (by omega) (by rw [hm]; exact ⟨hs.2, hs.1⟩)
  rw [hm, hφ] at c2
  have p1 := h.ccw (e / 3) (by omega)
  have p2 := h.ccw (P e / 3) (by omega)
  obtain ⟨j, hj, ej⟩ := apex_corner m (e / 3) (f := e % 3) (by omega)
  obtain ⟨j', hj', ej'⟩ := apex_corner m (P e / 3) (f := P e % 3) (by omega)
  have n1 : 0 ≤ s.off (apex (m.tri (e / 3)) (e % 3)) := by
    rw [ej]
    rcases ht.inside (e / 3) (by omega) j hj s with h | h
    · exact h.ge
    · linarith [ht.margin]
  have n2 : 0 ≤ s.off (apex (m.tri (P e / 3)) (P e % 3)) := by
    rw [ej']
    rcases ht.inside (P e / 3) (by omega) j' hj' s with h | h
    · exact h.ge
    · linarith [ht.margin]
  rw [c1] at p1
  rw [c2] at p2
  rcases le_total 0 (φ (faceEnds (m.tri (e / 3)) (e % 3))) with hp | hp
  · nlinarith [mul_nonneg hp n2]
  · nlinarith [mul_nonneg (neg_nonneg.2 hp) n1]

theorem near_side (ht : Trapezoid δ m P) {e : ℕ} (he : e < 3 * m.K) (s : Side) : |(s.off (m.ends e).1 + s.off (m.ends e).2) / 2| < 1e-12 ↔ OnSide s (m.ends e) := by
  have h1 := ht.inside (e / 3) (by omega) (e % 3) (by omega) s
  have h2 := ht.inside (e / 3) (by omega) ((e % 3 + 1) % 3) (by omega) s
  rw [← (ends_corner m).1] at h1
  rw [← (ends_corner m).2] at h2
  exact near_iff ht.margin h1 h2

theorem sideTag_on (ht : Trapezoid δ m P) (h : m.Ok P) {e : ℕ} (he : e < 3 * m.K) (old : Int) {s : Side} (hs : OnSide s (m.ends e)) : sideTag old (m.ends e).1 (m.ends e).2 = s.tag := by
  have hne : (m.ends e).1 ≠ (m.ends e).2 := ends_ne (h.ccw (e / 3) (by omega)) (by omega)
  rw [sideTag_eq]
  have hu : ∀ t, |(t.off (m.ends e).1 + t.off (m.ends e).2) / 2| < 1e-12 ↔ t = s := fun t => (near_side ht he t).trans ⟨fun h => side_unique h hs hne, fun h => h ▸ hs⟩
  have h1 := hu .top
  have h2 := hu .bottom
  have h3 := hu .left
  have h4 := hu .right
  cases s <;> split_ifs <;> simp_all [Side.tag]

theorem sideTag_off (ht : Trapezoid δ m P) {e : ℕ} (he : e < 3 * m.K) (old : Int) (hs : ∀ s, ¬ OnSide s (m.ends e)) : sideTag old (m.ends e).1 (m.ends e).2 = old := by
  have hu : ∀ t : Side, ¬ |(t.off (m.ends e).1 + t.off (m.ends e).2) / 2| < 1e-12 := fun t h => hs t ((near_side ht he t).1 h)
  rw [sideTag_eq, if_neg (hu _), if_neg (hu _), if_neg (hu _), if_neg (hu _)]

/-- **C141, tags.** On a mesh of the trapezoid the corrected table has tag 6 on the faces of the left, the right and the upper side, tag 7 on the faces of the lower side, and what it had before on all other faces, which
are the interior ones. -/
theorem C141_tags (h : m.Ok P) (hb : m.bcType.length = 3 * m.K) (ht : Trapezoid δ m P) :
    ∃ bc, sideTable m.ev m.vert m.bcType = .ok bc ∧ bc.length = 3 * m.K ∧ ({ m with bcType := bc } : Mesh).Ok P ∧ ∀ e < 3 * m.K,
      (P e = e ↔ ∃ s, OnSide s (m.ends e)) ∧ (∀ s, OnSide s (m.ends e) → bc[e]? = some s.tag) ∧ (P e ≠ e → bc[e]? = m.bcType[e]?) := by
  obtain ⟨bc, h1, h2, h3⟩ := table_ok h hb
  have hiff : ∀ e < 3 * m.K, (P e = e ↔ ∃ s, OnSide s (m.ends e)) := fun e he => ⟨ht.fills e he, fun ⟨s, hs⟩ => side_boundary h ht he hs⟩
  refine ⟨bc, h1, h2, ⟨h.conn, h.lenEv, h.ltEv, h.lenVert, h2.ge, h.ccw, h.meet⟩, fun e he => ⟨hiff e he, fun s hs => ?_, fun hP => ?_⟩⟩
  · rw [h3 e he, sideTag_on ht h he _ hs]
  · rw [h3 e he, sideTag_off ht he _ fun s hs => hP (side_boundary h ht he hs), List.getElem?_eq_getElem (by omega), List.getD_eq_getElem _ _ (by omega)]

/-! ### The data -/

theorem put_map (idx : List ℕ) (f : ℕ → ℝ) (a : List ℝ) : (put a idx (idx.map f)).length = a.length ∧ ∀ i : ℕ, i < a.length → (put a idx (idx.map f))[i]? = if i ∈ idx then some (f i) else a[i]? := by
  unfold put
  induction idx generalizing a with
  | nil => simp
  | cons j l ih =>
    rw [List.map_cons, List.zip_cons_cons, List.foldl_cons]
    obtain ⟨h1, h2⟩ := ih (a.set j (f j))
    rw [List.length_set] at h1 h2
    refine ⟨h1, fun i hi => ?_⟩
    rw [h2 i hi]
    by_cases hl : i ∈ l
    · rw [if_pos hl, if_pos (List.mem_cons_of_mem _ hl)]
    · rw [if_neg hl]
      by_cases hj : i = j
      · subst hj
        rw [if_pos List.mem_cons_self, List.getElem?_set_self hi]
      · rw [if_neg (by simp [hl, hj]), List.getElem?_set_ne (Ne.symm hj)]

theorem mem_whereIdx (c : List Bool) (i : ℕ) : i ∈ whereIdx c ↔ c[i]? = some true := by
  unfold whereIdx
  rw [List.mem_filter, List.mem_range, List.getD_eq_getElem?_getD]
  constructor
  · rintro ⟨h1, h2⟩
    rw [List.getElem?_eq_getElem h1] at h2 ⊢
    simpa using h2
  · intro h
    obtain ⟨h1, h2⟩ := List.getElem?_eq_some_iff.1 h
    exact ⟨h1, by rw [h]; rfl⟩

open Classical in
/-- The value the script assigns to a face node at the point `z`. -/
noncomputable def given (z : ℝ × ℝ) : ℝ :=
  if |Side.left.off z| < 1e-12 then -1 / 4 else if |Side.top.off z| < 1e-12 then (Real.exp (4 * (z.1 - 3)) - 1) / 4 else if |Side.right.off z| < 1e-12 then 1 - 10 / 13 * z.2 else 0

theorem dirichlet_get (n : ℕ) (Fx Fy : List ℝ) (hx : Fx.length = n) (hy : Fy.length = n) :
    (dirichlet n Fx Fy).length = n ∧ ∀ i < n, (dirichlet n Fx Fy).getD i 0 = given (Fx.getD i 0, Fy.getD i 0) := by
  classical
  unfold dirichlet
  simp only
  obtain ⟨l1, v1⟩ := put_map (whereIdx (List.zipWith (fun x y => decide (|y + 1.3 * x - 26 / 5| < 1e-12)) Fx Fy)) (fun i => 1 - 10 / 13 * Fy.getD i 0) (List.replicate n 0)
  rw [List.length_replicate] at l1 v1
  generalize ha : put (List.replicate n 0) _ _ = A1 at l1 v1
  obtain ⟨l2, v2⟩ := put_map (whereIdx (Fy.map fun y => decide (|y - 1.3| < 1e-12))) (fun i => 0.25 * (Real.exp (4 * (Fx.getD i 0 - 3)) - 1)) A1
  generalize hb : put A1 _ _ = A2 at l2 v2
  obtain ⟨l3, v3⟩ := put_map (whereIdx (List.zipWith (fun x y => decide (|y - 1.3 * x| < 1e-12)) Fx Fy)) (fun _ => -0.25 * 1) A2
  refine ⟨by rw [l3, l2, l1], fun i hi => ?_⟩
  rw [List.getD_eq_getElem?_getD, v3 i (by omega), v2 i (by omega), v1 i (by omega)]
  have ex : Fx[i]? = some (Fx.getD i 0) := by rw [List.getD_eq_getElem _ _ (by omega), List.getElem?_eq_getElem]
  have ey : Fy[i]? = some (Fy.getD i 0) := by rw [List.getD_eq_getElem _ _ (by omega), List.getElem?_eq_getElem]
  simp only [mem_whereIdx, List.getElem?_zipWith, List.getElem?_map, ex, ey, Option.map_some, Option.some.injEq, decide_eq_true_eq]
  generalize Fx.getD i 0 = x
  generalize Fy.getD i 0 = y
  have e1 : |Side.top.off (x, y)| = |y - 1.3| := by rw [← abs_neg]; congr 1; simp only [Side.off]; ring
  have e3 : |Side.left.off (x, y)| = |y - 1.3 * x| := by rw [← abs_neg]; congr 1; simp only [Side.off]; ring
  have e4 : |Side.right.off (x, y)| = |y + 1.3 * x - 26 / 5| := by rw [← abs_neg]; congr 1; simp only [Side.off]; ring
  unfold given
  rw [e1, e3, e4]
  split_ifs <;> simp [hi] <;> norm_num
  ring

/-- The place of node `i` of face `e`. -/
noncomputable def nodeAt (g : Grid) (e i : ℕ) : ℝ × ℝ := (SW.gridX (g.tri (e / 3)) g.n (g.n.mask i (e % 3)), SW.gridY (g.tri (e / 3)) g.n (g.n.mask i (e % 3)))

theorem data_ok {x : List ℝ} {bt : List Int} (hg : GridSpec P x bt g) : ∃ u q, boundaryData g = .ok (u, q) ∧ u.rows = 3 * (g.N + 1) ∧ u.cols = g.K ∧ q.rows = 3 * (g.N + 1) ∧ q.cols = g.K ∧
    (∀ r k, q.at' r k = 0) ∧ ∀ e < 3 * g.K, ∀ i ≤ g.N, u.at' (e % 3 * (g.N + 1) + i) (e / 3) = given (nodeAt g e i) := by
  have hnf : g.nf = (g.N + 1) * 3 * g.K := by unfold Grid.nf; ring
  have hidx : ∀ c < g.nf, ∃ e i, e < 3 * g.K ∧ i ≤ g.N ∧ c = (g.N + 1) * e + i := by
    intro c hc
    refine ⟨c / (g.N + 1), c % (g.N + 1), ?_, ?_, (Nat.div_add_mod c (g.N + 1)).symm⟩
    · rw [Nat.div_lt_iff_lt_mul (by omega)]
      rw [hnf] at hc
      nlinarith
    · exact Nat.lt_succ_iff.1 (Nat.mod_lt _ (by omega))
  have hvol : ∀ e < 3 * g.K, ∀ i ≤ g.N, vol g.np 3 g.n.mask e i < g.np * g.K := by
    intro e he i hi
    unfold vol
    have := hg.maskLt (e % 3) (by omega) i hi
    have h2 : e / 3 + 1 ≤ g.K := by omega
    nlinarith
  have hrange : ∀ v ∈ g.maps.vmapM, v < g.np * g.K := by
    intro v hv
    obtain ⟨c, hc, rfl⟩ := List.getElem_of_mem hv
    obtain ⟨e, i, he, hi, rfl⟩ := hidx c (by rw [← hg.lenM]; exact hc)
    have := hg.vmapM e he i hi
    rw [List.getElem?_eq_getElem hc] at this
    rw [Option.some.inj this]
    exact hvol e he i hi
  have hX := SW.pick_getD (SW.flatF g.pyX) g.maps.vmapM (fun v hv => by rw [SW.flatF_length]; exact hrange v hv)
  have hY := SW.pick_getD (SW.flatF g.pyY) g.maps.vmapM (fun v hv => by rw [SW.flatF_length]; exact hrange v hv)
  obtain ⟨l, hd⟩ := dirichlet_get ((g.N + 1) * 3 * g.K) (g.maps.vmapM.map fun i => (SW.flatF g.pyX).getD i 0) (g.maps.vmapM.map fun i => (SW.flatF g.pyY).getD i 0)
    (by rw [List.length_map, hg.lenM, hnf]) (by rw [List.length_map, hg.lenM, hnf])
  refine ⟨_, _, by unfold boundaryData; rw [hX, Out.bind_ok, hY, Out.bind_ok]; rfl, by simp [reshapeF]; ring, rfl, by simp [reshapeF]; ring, rfl, fun r k => ?_, fun e he i hi => ?_⟩
  · simp only [reshapeF]
    rw [List.getD_eq_getElem?_getD, List.getElem?_replicate]
    split_ifs <;> rfl
  · simp only [reshapeF]
    have hc : e % 3 * (g.N + 1) + i + (g.N + 1) * 3 * (e / 3) = (g.N + 1) * e + i := by
      have : e = 3 * (e / 3) + e % 3 := (Nat.div_add_mod e 3).symm
      generalize e / 3 = a at *
      generalize e % 3 = b at *
      subst this
      ring
    have hlt : (g.N + 1) * e + i < (g.N + 1) * 3 * g.K := by nlinarith
    rw [hc, hd _ hlt]
    have hv := hg.vmapM e he i hi
    have hlt' : (g.N + 1) * e + i < g.maps.vmapM.length := by rw [hg.lenM, hnf]; exact hlt
    have hv' : g.maps.vmapM[(g.N + 1) * e + i] = vol g.np 3 g.n.mask e i := by
      rw [List.getElem?_eq_getElem hlt'] at hv
      exact Option.some.inj hv
    have hF : ∀ a : DMat ℝ, a.rows = g.np → a.cols = g.K → (g.maps.vmapM.map fun i => (SW.flatF a).getD i 0).getD ((g.N + 1) * e + i) 0 = a.at' (g.n.mask i (e % 3)) (e / 3) := by
      intro a ha hb
      rw [List.getD_eq_getElem _ _ (by rw [List.length_map]; exact hlt'), List.getElem_map, hv']
      have := SW.flatF_get a (g.n.mask i (e % 3)) (e / 3) (by rw [ha]; exact hg.maskLt _ (by omega) i hi) (by rw [hb]; omega)
      unfold vol
      rw [List.getD_eq_getElem?_getD, ← ha, this, Option.getD_some]
    rw [hF g.pyX rfl rfl, hF g.pyY rfl rfl]
    rfl

/-- The temperature prescribed on the sides: falling from 1 to 0 along the right side, an exponential on the upper side, -1/4 on the left side. -/
noncomputable def Side.data : Side → ℝ × ℝ → ℝ
  | .bottom, _ => 0
  | .right, z => 1 - 10 / 13 * z.2
  | .top, z => (Real.exp (4 * (z.1 - 3)) - 1) / 4
  | .left, _ => -1 / 4

theorem node_off {x : List ℝ} {bt : List Int} (hg : GridSpec P x bt g) {s : Side} {e i : ℕ} (hi : i ≤ g.N) (hs : OnSide s (faceEnds (g.tri (e / 3)) (e % 3))) : s.off (nodeAt g e i) = 0 := by
  unfold nodeAt
  rw [Poisson.node_on hg (e / 3) (f := e % 3) (by omega) hi]
  generalize faceEnds (g.tri (e / 3)) (e % 3) = E at *
  generalize Poisson.posn x (e % 3) i = t
  obtain ⟨h1, h2⟩ := hs
  cases s <;> simp only [Side.off, SW.lerp] at h1 h2 ⊢
  · rw [h1, h2]; ring
  · rw [show E.1.2 = 26 / 5 - 1.3 * E.1.1 by linarith, show E.2.2 = 26 / 5 - 1.3 * E.2.1 by linarith]; ring
  · rw [show E.1.2 = 1.3 by linarith, show E.2.2 = 1.3 by linarith]; ring
  · rw [show E.1.2 = 1.3 * E.1.1 by linarith, show E.2.2 = 1.3 * E.2.1 by linarith]; ring

/-- The values on the sides. -/
theorem given_left {z : ℝ × ℝ} (h : Side.left.off z = 0) : given z = Side.left.data z := by
  unfold given
  rw [if_pos (by rw [h]; norm_num)]
  rfl

theorem given_top {z : ℝ × ℝ} (h : Side.top.off z = 0) (hc : 1e-12 ≤ Side.left.off z ∨ Side.left.off z = 0) : given z = if z = (1, 1.3) then -1 / 4 else Side.top.data z := by
  have hz : z = (1, 1.3) ↔ Side.left.off z = 0 := by
    obtain ⟨a, b⟩ := z
    simp only [Side.off, Prod.mk.injEq] at h ⊢
    constructor
    · rintro ⟨rfl, rfl⟩; norm_num
    · intro hl; constructor <;> linarith
  unfold given
  rcases hc with hc | hc
  · rw [if_neg (by rw [abs_of_pos (by linarith)]; linarith), if_pos (by rw [h]; norm_num), if_neg (fun hz' => by rw [hz.1 hz'] at hc; norm_num at hc)]
    rfl
  · rw [if_pos (by rw [hc]; norm_num), if_pos (hz.2 hc)]

theorem given_right {z : ℝ × ℝ} (h : Side.right.off z = 0) (hl : 0 ≤ Side.top.off z) (hc : 1e-12 ≤ Side.top.off z ∨ Side.top.off z = 0) : given z = Side.right.data z := by
  have e : 1.3 ≤ Side.left.off z := by simp only [Side.off] at h hl ⊢; linarith
  unfold given
  rw [if_neg (by rw [abs_of_pos (by linarith)]; linarith)]
  rcases hc with hc | hc
  · rw [if_neg (by rw [abs_of_pos (by linarith)]; linarith), if_pos (by rw [h]; norm_num)]
    rfl
  · have hy : z.2 = 1.3 := by simp only [Side.off] at hc; linarith
    have hx : z.1 = 3 := by simp only [Side.off] at h; rw [hy] at h; linarith
    rw [if_pos (by rw [hc]; norm_num), hx]
    simp only [Side.data]
    rw [hy]
    norm_num

/-- The positions of the nodes along the faces, with the ends. -/
theorem spec_gll (h : Provisioned la eps ztol tol N m P g) : ∃ x, GridSpec P x m.bcType g ∧ g.N = N ∧ g.K = m.K ∧ (∀ k < m.K, g.tri k = m.tri k) ∧ x.getD 0 0 = -1 ∧ x.getD N 0 = 1 ∧
    ∀ i j : ℕ, i < j → j ≤ N → 2 * tol ≤ x.getD j 0 - x.getD i 0 := by
  have hb := h.built
  unfold buildGrid at hb
  cases hel : triElement la eps ztol tol N with
  | ok no =>
    obtain ⟨g', x, h1, h2, h3, -, -, h4, h6, h5⟩ := SW.buildGrid_spec la h.lapack eps h.eps_pos h.eps_le ztol tol h.ztol_pos h.tol_pos N h.order h.ztol_lt m P h.mesh no.1 no.2 hel h.gap
    rw [h.built] at h1
    obtain rfl : g = g' := by simpa using h1
    obtain ⟨a, b, -⟩ := gll_facts la h.lapack eps h.eps_pos h.eps_le N h.order x h6
    exact ⟨x, h5, h2, h3, h4, a, b, h.gap x h6⟩
  | throws => rw [hel] at hb; cases hb
  | ub => rw [hel] at hb; cases hb

/-- A node of a face is on the line of a side or away from it. -/
theorem node_away (h : Provisioned la eps ztol tol N m P g) (ht : Trapezoid δ m P) (hδ : 1e-12 ≤ δ * tol) (s : Side) {e i : ℕ} (he : e < 3 * g.K) (hi : i ≤ g.N) :
    1e-12 ≤ s.off (nodeAt g e i) ∨ s.off (nodeAt g e i) = 0 := by
  obtain ⟨x, hg, hN, hK, htri, hm1, hp1, hgap⟩ := spec_gll h
  have h1 := ht.inside (e / 3) (by omega) (e % 3) (by omega) s
  have h2 := ht.inside (e / 3) (by omega) ((e % 3 + 1) % 3) (by omega) s
  rw [← (ends_corner m).1] at h1
  rw [← (ends_corner m).2] at h2
  have hE : m.ends e = faceEnds (g.tri (e / 3)) (e % 3) := by unfold SW.Mesh.ends; rw [htri _ (by omega)]
  rw [hE] at h1 h2
  unfold nodeAt
  rw [Poisson.node_on hg (e / 3) (f := e % 3) (by omega) hi]
  have hpos : Poisson.posn x (e % 3) i = -1 ∨ Poisson.posn x (e % 3) i = 1 ∨ -1 + 2 * tol ≤ Poisson.posn x (e % 3) i ∧ Poisson.posn x (e % 3) i ≤ 1 - 2 * tol := by
    have hx : x.getD i 0 = -1 ∨ x.getD i 0 = 1 ∨ -1 + 2 * tol ≤ x.getD i 0 ∧ x.getD i 0 ≤ 1 - 2 * tol := by
      by_cases h0 : i = 0
      · left; rw [h0, hm1]
      · by_cases h0' : i = N
        · right; left; rw [h0', hp1]
        · have a := hgap 0 i (by omega) (by omega)
          have b := hgap i N (by omega) (le_refl _)
          right; right
          constructor <;> linarith
    unfold Poisson.posn SW.ori
    split_ifs
    · rcases hx with hx | hx | hx
      · right; left; rw [hx]; norm_num
      · left; rw [hx]
      · right; right; constructor <;> linarith [hx.1, hx.2]
    · exact hx
  have hlin : ∀ t, s.off (SW.lerp (faceEnds (g.tri (e / 3)) (e % 3)) t) = (1 - t) / 2 * s.off (faceEnds (g.tri (e / 3)) (e % 3)).1 + (1 + t) / 2 * s.off (faceEnds (g.tri (e / 3)) (e % 3)).2 := by
    intro t
    cases s <;> simp only [Side.off, SW.lerp] <;> ring
  rw [hlin]
  generalize Poisson.posn x (e % 3) i = t at *
  generalize s.off (faceEnds (g.tri (e / 3)) (e % 3)).1 = a at *
  generalize s.off (faceEnds (g.tri (e / 3)) (e % 3)).2 = b at *
  have htol := h.tol_pos
  have hm := ht.margin
  rcases hpos with rfl | rfl | ⟨c1, c2⟩
  · rcases h1 with rfl | h1
    · right; ring
    · left; linarith
  · rcases h2 with rfl | h2
    · right; ring
    · left; linarith
  · have k1 : tol ≤ (1 - t) / 2 := by linarith
    have k2 : tol ≤ (1 + t) / 2 := by linarith
    have hd0 : 0 < δ := by linarith
    have key : ∀ c ≥ tol, ∀ v ≥ δ, δ * tol ≤ c * v := by
      intro c hc v hv
      rw [mul_comm]
      exact mul_le_mul hc hv hd0.le (by linarith)
    rcases h1 with rfl | h1 <;> rcases h2 with rfl | h2
    · right; ring
    · left; have := key _ k2 _ h2; linarith
    · left; have := key _ k1 _ h1; linarith
    · left; have := key _ k2 _ h2; have := mul_nonneg (htol.le.trans k1) (hd0.le.trans h1); linarith

/-- **C141, data.** Whatever the grid on a mesh of the trapezoid, at every node of a face of the left, the right and the upper side the array handed over has the temperature prescribed on the side, except at the upper left
corner, where the nodes of both sides have the value of the left side.  At nodes at the same place the values are the same; the values are between -1/4 and 1; the array of fluxes is zero. -/
theorem C141_data (h : Provisioned la eps ztol tol N m P g) (ht : Trapezoid δ m P) (hδ : 1e-12 ≤ δ * tol) :
    ∃ u q, boundaryData g = .ok (u, q) ∧ u.rows = 3 * (g.N + 1) ∧ u.cols = g.K ∧ q.rows = 3 * (g.N + 1) ∧ q.cols = g.K ∧ (∀ r k, q.at' r k = 0) ∧
      (∀ e < 3 * g.K, ∀ i ≤ g.N, (OnSide .left (m.ends e) → u.at' (e % 3 * (g.N + 1) + i) (e / 3) = -1 / 4) ∧
        (OnSide .right (m.ends e) → u.at' (e % 3 * (g.N + 1) + i) (e / 3) = 1 - 10 / 13 * (nodeAt g e i).2) ∧
        (OnSide .top (m.ends e) → u.at' (e % 3 * (g.N + 1) + i) (e / 3) = if nodeAt g e i = (1, 1.3) then -1 / 4 else (Real.exp (4 * ((nodeAt g e i).1 - 3)) - 1) / 4) ∧
        ((∃ s ≠ Side.bottom, OnSide s (m.ends e)) → -1 / 4 ≤ u.at' (e % 3 * (g.N + 1) + i) (e / 3) ∧ u.at' (e % 3 * (g.N + 1) + i) (e / 3) ≤ 1)) ∧
      ∀ e < 3 * g.K, ∀ e' < 3 * g.K, ∀ i ≤ g.N, ∀ i' ≤ g.N, nodeAt g e i = nodeAt g e' i' → u.at' (e % 3 * (g.N + 1) + i) (e / 3) = u.at' (e' % 3 * (g.N + 1) + i') (e' / 3) := by
  obtain ⟨x, hg, hN, hK, htri, -⟩ := spec_gll h
  obtain ⟨u, q, e0, u1, u2, q1, q2, hq, hu⟩ := data_ok hg
  have hE : ∀ e < 3 * g.K, m.ends e = faceEnds (g.tri (e / 3)) (e % 3) := fun e he => by unfold SW.Mesh.ends; rw [htri _ (by omega)]
  have hnn : ∀ s : Side, ∀ e < 3 * g.K, ∀ i ≤ g.N, 0 ≤ s.off (nodeAt g e i) := by
    intro s e he i hi
    rcases node_away h ht hδ s he hi with h | h
    · linarith
    · exact h.ge
  have main : ∀ e < 3 * g.K, ∀ i ≤ g.N, (OnSide .left (m.ends e) → u.at' (e % 3 * (g.N + 1) + i) (e / 3) = -1 / 4) ∧
        (OnSide .right (m.ends e) → u.at' (e % 3 * (g.N + 1) + i) (e / 3) = 1 - 10 / 13 * (nodeAt g e i).2) ∧
        (OnSide .top (m.ends e) → u.at' (e % 3 * (g.N + 1) + i) (e / 3) = if nodeAt g e i = (1, 1.3) then -1 / 4 else (Real.exp (4 * ((nodeAt g e i).1 - 3)) - 1) / 4) := by
    intro e he i hi
    rw [hu e he i hi, hE e he]
    refine ⟨fun hs => given_left (node_off hg hi hs), fun hs => ?_, fun hs => ?_⟩
    · rw [given_right (node_off hg hi hs) (hnn _ e he i hi) (node_away h ht hδ _ he hi)]; rfl
    · rw [given_top (node_off hg hi hs) (node_away h ht hδ _ he hi)]; rfl
  refine ⟨u, q, e0, u1, u2, q1, q2, hq, fun e he i hi => ⟨(main e he i hi).1, (main e he i hi).2.1, (main e he i hi).2.2, ?_⟩, fun e he e' he' i hi i' hi' hz => ?_⟩
  · rintro ⟨s, hsb, hs⟩
    have hb := hnn .bottom e he i hi
    have htop := hnn .top e he i hi
    have hr := hnn .right e he i hi
    cases s
    · exact absurd rfl hsb
    · rw [(main e he i hi).2.1 hs]
      simp only [Side.off] at hb htop
      constructor <;> linarith
    · rw [(main e he i hi).2.2 hs]
      split_ifs
      · norm_num
      · have h0 := node_off (s := .top) hg hi (hE e he ▸ hs)
        simp only [Side.off] at h0 hr
        have := Real.exp_pos (4 * ((nodeAt g e i).1 - 3))
        have h1 : Real.exp (4 * ((nodeAt g e i).1 - 3)) ≤ 1 := Real.exp_le_one_iff.2 (by linarith)
        constructor <;> linarith
    · rw [(main e he i hi).1 hs]; norm_num
  · rw [hu e he i hi, hu e' he' i' hi', hz]

/-! ### Limits for arbitrary data -/

theorem written_norm {n : ℕ} (p : Fin n → ℝ) : written p = fun a => p a / ‖p‖ := by
  have : (List.ofFn fun b => |p b|).foldl max 0 = ‖p‖ := by
    obtain ⟨h1, h2⟩ := le_foldl_max (List.ofFn fun b => |p b|) 0
    refine le_antisymm ?_ ((pi_norm_le_iff_of_nonneg h1).2 fun b => h2 _ (List.mem_ofFn.2 ⟨b, rfl⟩))
    rcases foldl_max_mem (List.ofFn fun b => |p b|) 0 with h | h
    · rw [h]; exact norm_nonneg _
    · obtain ⟨b, hb⟩ := List.mem_ofFn.1 h
      rw [← hb]
      exact norm_le_pi_norm p b
  funext a
  unfold written
  rw [this]

/-- **C110, limit for arbitrary data.** On a connected mesh with a Dirichlet face, for any boundary data that are polynomials along the faces: there is exactly one solution `w` of the steady problem, from every initial
state the computed temperature tends to `w / (κ dt)`, and what is written tends to `w` scaled to maximum one. -/
theorem C110_limit_any (h : Provisioned la eps ztol tol N m P g) (hi : Fits g false) (ht : Tagged g m P) (hc : Connected g P) (hd : ∃ e < 3 * g.K, tagOf m e = 6) (S : Splu) (hS : S.Ok) (kappa dt : ℝ)
    (hk : 0 < kappa * dt) {ubc qbc : DMat ℝ} {U Q : ℕ → P2}
    (hu : FaceValues g ubc (fun e => tagOf m e = 6) U) (hq : FaceValues g qbc (fun e => tagOf m e = 7 ∨ tagOf m e = 3) Q)
    (dU : ∀ e, (U e).totalDegree ≤ g.N) (dQ : ∀ e, (Q e).totalDegree ≤ g.N) (p0 : Fin (g.np * g.K) → ℝ) :
    ∃ (state : ℕ → Fin (g.np * g.K) → ℝ) (w : Fin (g.np * g.K) → ℝ), (∀ j, heat S la (ctxOf g m) kappa dt ubc qbc p0 j = .ok (state j)) ∧
      (∀ w' : Fin (g.np * g.K) → ℝ, (∀ W V v, Is g w' W → Is g v V → sipForm g m P V W = boundary g m P V U Q) ↔ w' = w) ∧
      (∀ a, Tendsto (fun j => state j a) atTop (𝓝 (w a / (kappa * dt)))) ∧ (w ≠ 0 → ∀ a, Tendsto (fun j => written (state j) a) atTop (𝓝 (written w a))) := by
  obtain ⟨x, hg, -, hK, -⟩ := h.spec
  obtain ⟨op, mm, A, M, e, hn, -, r1, r2, f1, f2, symM, posM, -, -, hrun⟩ := heat_ok h hi ht S hS kappa dt hk.le
  obtain ⟨b, e1, b1, b2, hb⟩ := Poisson.rhs_form hg (Poisson.Provisioned.conn' h hK) (Poisson.Provisioned.bc' h hK) la h.lapack hu hq dU dQ
  obtain ⟨s, s1, s2, s3⟩ := hrun ubc qbc b e1 b1 p0
  have hpos := Poisson.definite_pos hg hc ht hd f1
  obtain ⟨w, hw, huw⟩ := Poisson.solve_of_inj _ (Poisson.definite_inj hg hc ht hd f1) (bvec g b)
  have hform : ∀ v V, Is g v V → boundary g m P V U Q = v ⬝ᵥ bvec g b := by
    intro v V hV
    have := hb (ext v) V hV
    rw [sum_bvec (np_pos hg)] at this
    rw [show boundary g m P V U Q = _ from this.symm]
    congr 1
    funext a
    exact Poisson.ext_fin v a
  have hlim : ∀ a, Tendsto (fun j => s j a) atTop (𝓝 (w a / (kappa * dt))) := by
    intro a
    have hz := decay (mat (g.np * g.K) M) (mat (g.np * g.K) A) symM posM hpos (kappa * dt) hk (fun j => s j - (kappa * dt)⁻¹ • w)
      (fun j => by
        rw [Matrix.mulVec_sub, s3, Matrix.mulVec_sub, Matrix.add_mulVec, Matrix.smul_mulVec, Matrix.mulVec_smul _ (kappa * dt)⁻¹, Matrix.mulVec_smul _ (kappa * dt)⁻¹, hw, smul_smul, mul_inv_cancel₀ hk.ne', one_smul]
        abel) a
    have := hz.add_const (w a / (kappa * dt))
    rw [zero_add] at this
    refine this.congr fun j => ?_
    simp only [Pi.sub_apply, Pi.smul_apply, smul_eq_mul]
    rw [div_eq_inv_mul]
    ring
  refine ⟨s, w, s1, fun w' => ⟨fun hw' => huw w' ?_, ?_⟩, hlim, fun hw0 a => ?_⟩
  · obtain ⟨W, hW, -⟩ := Poisson.ext_holds hg w'
    have key : ∀ v : Fin (g.np * g.K) → ℝ, v ⬝ᵥ (mat (g.np * g.K) A *ᵥ w' - bvec g b) = 0 := by
      intro v
      obtain ⟨V, hV, -⟩ := Poisson.ext_holds hg v
      rw [dotProduct_sub, bil_mat, f1 _ _ V W hV hW, hw' W V v hW hV, hform v V hV, sub_self]
    exact sub_eq_zero.1 (dotProduct_self_eq_zero.1 (key _))
  · rintro rfl W V v hW hV
    rw [← f1 _ _ V W hV hW, ← bil_mat, hw, hform v V hV]
  · have hc : Tendsto s atTop (𝓝 ((kappa * dt)⁻¹ • w)) := tendsto_pi_nhds.2 fun a => by
      have := hlim a
      rwa [div_eq_inv_mul] at this
    rw [← written_scale (kappa * dt)⁻¹ (inv_pos.2 hk) w]
    simp only [written_norm]
    exact ((tendsto_pi_nhds.1 hc) a).div hc.norm (norm_ne_zero_iff.2 (smul_ne_zero (inv_pos.2 hk).ne' hw0))

/-! ### The whole script -/

/-- **C141, run.** On a connected mesh of the trapezoid with a face on the lower side and a face on another side: the script gets to its loop with a positive step; every boundary face is either a Dirichlet or a Neuman
face and no interior face is; the Dirichlet data are the values at the nodes of a polynomial of degree at most `N` in each element, the Neuman data are zero; and from zero temperature the computed temperature tends to
the solution of the steady problem for these data, divided by `κ dt`. -/
theorem C141_run (hm : m.Ok P) (hb : m.bcType.length = 3 * m.K) (h0 : ∀ e < 3 * m.K, P e ≠ e → tagOf m e = 0) (ht : Trapezoid δ m P) (hlow : ∃ e < 3 * m.K, OnSide .bottom (m.ends e))
    (hup : ∃ e < 3 * m.K, ∃ s ≠ Side.bottom, OnSide s (m.ends e)) (hG : ∀ bc, sideTable m.ev m.vert m.bcType = .ok bc → Provisioned la eps ztol tol N { m with bcType := bc } P g)
    (hi : Fits g false) (hc : Connected g P) (S : Splu) (hS : S.Ok) (CFL kappa : ℝ) (hC : 0 < CFL) (hk : 0 < kappa) :
    ∃ a, setup la eps ztol tol N CFL kappa m = .ok a ∧ a.g = g ∧ 0 < a.dt ∧ boundaryData g = .ok (a.ubc, a.qbc) ∧
      (∀ e < 3 * m.K, (tagOf a.m e = 6 ↔ ∃ s ≠ Side.bottom, OnSide s (m.ends e)) ∧ (tagOf a.m e = 7 ↔ OnSide .bottom (m.ends e)) ∧ (P e ≠ e → tagOf a.m e = 0)) ∧
      ∃ U : ℕ → P2, (∀ k, (U k).totalDegree ≤ N) ∧ (∀ e < 3 * m.K, ∀ i ≤ N, val (U (e / 3)) (nodeAt g e i) = a.ubc.at' (e % 3 * (N + 1) + i) (e / 3)) ∧
      ∃ (state : ℕ → Fin (g.np * g.K) → ℝ) (w : Fin (g.np * g.K) → ℝ), (∀ j, heat S la (ctxOf g a.m) kappa a.dt a.ubc a.qbc (fun _ => 0) j = .ok (state j)) ∧
        (∀ w' : Fin (g.np * g.K) → ℝ, (∀ W V v, Is g w' W → Is g v V → sipForm g a.m P V W = boundary g a.m P V (fun e => U (e / 3)) fun _ => 0) ↔ w' = w) ∧
        (∀ b, Tendsto (fun j => state j b) atTop (𝓝 (w b / (kappa * a.dt)))) ∧ (w ≠ 0 → ∀ b, Tendsto (fun j => written (state j) b) atTop (𝓝 (written w b))) := by
  obtain ⟨bc, t1, t2, t3, t4⟩ := C141_tags hm hb ht
  have h := hG bc t1
  obtain ⟨x, hg, hN, hK, htri⟩ := h.spec
  have hK' : g.K = m.K := hK
  obtain ⟨u, q, d0, u1, u2, q1, q2, hq, hu⟩ := data_ok hg
  have htag : ∀ e < 3 * m.K, (tagOf { m with bcType := bc } e = 6 ↔ ∃ s ≠ Side.bottom, OnSide s (m.ends e)) ∧ (tagOf { m with bcType := bc } e = 7 ↔ OnSide .bottom (m.ends e)) ∧
      (P e ≠ e → tagOf { m with bcType := bc } e = 0) := by
    intro e he
    obtain ⟨c1, c2, c3⟩ := t4 e he
    have hv : ∀ v, bc[e]? = some v → tagOf { m with bcType := bc } e = v := by
      intro v hv
      unfold tagOf
      rw [List.getD_eq_getElem?_getD, hv]
      rfl
    have hin : P e ≠ e → tagOf { m with bcType := bc } e = 0 := by
      intro hP
      have := h0 e he hP
      unfold tagOf at this ⊢
      rw [List.getD_eq_getElem?_getD] at this ⊢
      rw [show ({ m with bcType := bc } : Mesh).bcType[e]? = m.bcType[e]? from c3 hP]
      exact this
    refine ⟨⟨fun h6 => ?_, fun ⟨s, hs, ho⟩ => ?_⟩, ⟨fun h7 => ?_, fun ho => hv _ (c2 _ ho)⟩, hin⟩
    · by_cases hP : P e = e
      · obtain ⟨s, hs⟩ := c1.1 hP
        refine ⟨s, fun hsb => ?_, hs⟩
        rw [hv _ (c2 s hs), hsb] at h6
        exact absurd h6 (by decide)
      · rw [hin hP] at h6; exact absurd h6 (by decide)
    · rw [hv _ (c2 s ho)]
      cases s
      · exact absurd rfl hs
      all_goals rfl
    · by_cases hP : P e = e
      · obtain ⟨s, hs⟩ := c1.1 hP
        rw [hv _ (c2 s hs)] at h7
        cases s
        · exact hs
        all_goals exact absurd h7 (by decide)
      · rw [hin hP] at h7; exact absurd h7 (by decide)
  have hT : Tagged g { m with bcType := bc } P := by
    intro e he
    rw [hK'] at he
    obtain ⟨c1, c2, c3⟩ := htag e he
    constructor
    · intro hP
      obtain ⟨s, hs⟩ := (t4 e he).1.1 hP
      by_cases hsb : s = .bottom
      · subst hsb; exact .inr (.inr (c2.2 hs))
      · exact .inr (.inl (c1.2 ⟨s, hsb, hs⟩))
    · intro hv
      by_contra hP
      rw [c3 hP] at hv
      revert hv; decide
  obtain ⟨el, hel, hol⟩ := hlow
  obtain ⟨eu, heu, hou⟩ := hup
  have hbc : ∀ t ≠ 0, (∃ e < 3 * m.K, tagOf { m with bcType := bc } e = t) → ∃ l, g.bc t = some l := by
    rintro t ht0 ⟨e, he, het⟩
    refine hg.bcSome t ht0 ⟨e * (g.N + 1), e, 0, by omega, by omega, ?_, rfl⟩
    have hl : e < bc.length := by omega
    unfold tagOf at het
    rw [List.getD_eq_getElem _ _ hl] at het
    rw [← het]
    exact List.getElem?_eq_getElem hl
  obtain ⟨l6, hl6⟩ := hbc 6 (by decide) ⟨eu, heu, (htag eu heu).1.2 hou⟩
  obtain ⟨l7, hl7⟩ := hbc 7 (by decide) ⟨el, hel, (htag el hel).2.1.2 hol⟩
  have hKpos : 0 < g.K := by omega
  have hdt : 0 < stepSize CFL kappa N (SW.flatF ⟨3 * (g.N + 1), g.K, g.fscale⟩) := by
    refine (C110_step hC hk N ⟨g.fscale 0 0, ?_, ?_⟩).1
    · exact List.mem_of_getElem? (SW.flatF_get ⟨3 * (g.N + 1), g.K, g.fscale⟩ 0 0 (by show 0 < 3 * (g.N + 1); omega) hKpos)
    · have := hg.fscale_pos (e := 0) (i := 0) (by omega) (by omega)
      simpa using this.ne'
  refine ⟨⟨g, { m with bcType := bc }, u, q, stepSize CFL kappa N (SW.flatF ⟨3 * (g.N + 1), g.K, g.fscale⟩)⟩, ?_, rfl, hdt, d0, htag, ?_⟩
  · unfold setup
    rw [t1, Out.bind_ok]
    simp only
    rw [h.built, Out.bind_ok, if_neg (by omega)]
    simp only [hl6, hl7, d0, Out.bind_ok]
    rfl
  have hnp := np_pos hg
  obtain ⟨V, hV⟩ := Poisson.hasNodes_exists hg fun a => given (SW.gridX (g.tri (a / g.np)) g.n (a % g.np), SW.gridY (g.tri (a / g.np)) g.n (a % g.np))
  have hVn : ∀ k < g.K, ∀ i < g.np, val (V k) (SW.gridX (g.tri k) g.n i, SW.gridY (g.tri k) g.n i) = given (SW.gridX (g.tri k) g.n i, SW.gridY (g.tri k) g.n i) := by
    intro k hk i hi
    rw [(hV k hk).2 i hi]
    simp only
    rw [Nat.add_mul_div_left _ _ hnp, Nat.div_eq_of_lt hi, Nat.add_mul_mod_self_left, Nat.mod_eq_of_lt hi, zero_add]
  have hface : ∀ e < 3 * g.K, ∀ i ≤ g.N, val (if e / 3 < g.K then V (e / 3) else 0) (nodeAt g e i) = u.at' (e % 3 * (g.N + 1) + i) (e / 3) := by
    intro e he i hi
    rw [if_pos (by omega), hu e he i hi]
    exact hVn _ (by omega) _ (hg.maskLt _ (by omega) i hi)
  have hdeg : ∀ k, (if k < g.K then V k else 0).totalDegree ≤ g.N := by
    intro k
    split_ifs with hk
    · exact (hV k hk).1
    · rw [totalDegree_zero]; omega
  refine ⟨fun k => if k < g.K then V k else 0, fun k => hN ▸ hdeg k, fun e he i hi => by rw [← hN]; exact hface e (by omega) i (by omega), ?_⟩
  refine C110_limit_any h hi hT hc ⟨eu, by omega, (htag eu heu).1.2 hou⟩ S hS kappa _ (mul_pos hk hdt) ⟨u1, u2, fun k hk f hf j hj _ => ?_⟩ ⟨q1, q2, fun k hk f hf j hj _ => ?_⟩ (fun e => hdeg (e / 3))
    (fun e => by rw [totalDegree_zero]; omega) _
  · have := hface (3 * k + f) (by omega) j hj
    unfold nodeAt at this
    rw [show (3 * k + f) / 3 = k by omega, show (3 * k + f) % 3 = f by omega] at this
    show _ = val (if (3 * k + f) / 3 < g.K then V ((3 * k + f) / 3) else 0) _
    rw [show (3 * k + f) / 3 = k by omega]
    exact this.symm
  · rw [hq, Poisson.val_zero]

/-! ### Concrete cases -/

/-- The trapezoid cut into two triangles along a diagonal, with the tags a mesh file without boundary tags gives. -/
noncomputable def trap : Mesh where
  K := 2
  nv := 4
  ev := [1, 2, 0, 2, 3, 0]
  vert := [0, 0, 0, 4, 0, 0, 3, 1.3, 0, 1, 1.3, 0]
  E := [0, 1, 0, 1, 1, 0]
  F := [0, 2, 2, 0, 1, 1]
  bcType := [3, 0, 3, 3, 3, 0]

theorem trap_ok : trap.Ok twoTri where
  conn := twoTri_conn
  lenEv := rfl
  ltEv := by intro v hv; simp only [trap, List.mem_cons, List.not_mem_nil, or_false] at hv ⊢; omega
  lenVert := rfl
  lenBc := le_refl _
  ccw := by
    intro k hk
    have hk : k < 2 := hk
    interval_cases k <;> norm_num [cross, Mesh.tri, Mesh.corner, trap]
  meet := by
    intro e he hne
    have he : e < 6 := he
    interval_cases e <;> first | exact absurd rfl hne | (norm_num [twoTri, faceEnds, Mesh.tri, Mesh.corner, trap])

theorem trap_trapezoid : Trapezoid 1 trap twoTri where
  margin := by norm_num
  inside := by
    intro k hk j hj s
    have hk : k < 2 := hk
    interval_cases k <;> interval_cases j <;> cases s <;> norm_num [Side.off, Mesh.corner, trap]
  fills := by
    intro e he hP
    have he : e < 6 := he
    interval_cases e <;> first | (exact absurd hP (by decide)) | skip
    · exact ⟨.right, by norm_num [OnSide, Side.off, SW.Mesh.ends, faceEnds, Mesh.tri, Mesh.corner, trap]⟩
    · exact ⟨.bottom, by norm_num [OnSide, Side.off, SW.Mesh.ends, faceEnds, Mesh.tri, Mesh.corner, trap]⟩
    · exact ⟨.top, by norm_num [OnSide, Side.off, SW.Mesh.ends, faceEnds, Mesh.tri, Mesh.corner, trap]⟩
    · exact ⟨.left, by norm_num [OnSide, Side.off, SW.Mesh.ends, faceEnds, Mesh.tri, Mesh.corner, trap]⟩

theorem trap_grid {N : ℕ} (hN : 1 ≤ N) (h5 : N ≤ 5) : ∃ bc g, sideTable trap.ev trap.vert trap.bcType = .ok bc ∧ Provisioned exactLapack (1 / 2 ^ 52) 1e-10 1e-5 N { trap with bcType := bc } twoTri g := by
  obtain ⟨bc, t1, -, t3, -⟩ := C141_tags trap_ok rfl trap_trapezoid
  rcases SW.C47_grid_low exactLapack exactLapack_ok (1 / 2 ^ 52) (by norm_num) (by norm_num) 1e-10 1e-5 (by norm_num) (by norm_num) (by norm_num) (by norm_num) N hN h5 _ _ t3 with ⟨h, -⟩ | ⟨g, hg⟩
  · obtain ⟨x, hx⟩ := exact_gll (1 / 2 ^ 52) (by norm_num) (by norm_num) N hN
    exact absurd hx (h x)
  · exact ⟨bc, g, t1, hg⟩

/-- C141 at order three, the order of the script: the run reaches its loop and the temperature converges. -/
example : ∃ a, setup exactLapack (1 / 2 ^ 52) 1e-10 1e-5 3 0.85 1 trap = .ok a ∧ ∃ (state : ℕ → Fin (a.g.np * a.g.K) → ℝ) (w : Fin (a.g.np * a.g.K) → ℝ),
    (∀ j, heat exactSplu exactLapack (ctxOf a.g a.m) 1 a.dt a.ubc a.qbc (fun _ => 0) j = .ok (state j)) ∧ ∀ b, Tendsto (fun j => state j b) atTop (𝓝 (w b / (1 * a.dt))) := by
  obtain ⟨bc, g, t1, hg⟩ := trap_grid (N := 3) (by omega) (by omega)
  obtain ⟨x, -, hN, hK, -⟩ := hg.spec
  have hK : g.K = 2 := hK
  have hnp : g.np = 10 := by unfold Grid.np; rw [hN]
  have hc : Connected g twoTri := Poisson.square_connected hK
  obtain ⟨a, h1, rfl, -, -, -, U, -, -, state, w, h2, -, h3, -⟩ := C141_run trap_ok rfl (by
      intro e he hP
      have he : e < 6 := he
      interval_cases e <;> first | exact absurd rfl hP | rfl) trap_trapezoid ⟨2, by decide, by norm_num [OnSide, Side.off, SW.Mesh.ends, faceEnds, Mesh.tri, Mesh.corner, trap]⟩
    ⟨3, by decide, .top, by simp, by norm_num [OnSide, Side.off, SW.Mesh.ends, faceEnds, Mesh.tri, Mesh.corner, trap]⟩ (fun bc' h' => by rw [t1] at h'; cases h'; exact hg)
    (by unfold Fits; rw [hnp, hK]; simp [intMax]) hc exactSplu exactSplu_ok 0.85 1 (by norm_num) one_pos
  exact ⟨a, h1, state, w, h2, h3⟩

/-- **C141, refuted at the corner.** On the trapezoid of two triangles, at every order from one to five: a node of a face of the upper side does not get the temperature prescribed there, but one that is
lower by `e⁻⁸/4`. -/
theorem C141_corner_false {N : ℕ} (hN : 1 ≤ N) (h5 : N ≤ 5) : ∃ bc g u q e i, sideTable trap.ev trap.vert trap.bcType = .ok bc ∧ buildGrid exactLapack (1 / 2 ^ 52) 1e-10 1e-5 N { trap with bcType := bc } = .ok g ∧
    boundaryData g = .ok (u, q) ∧ e < 3 * g.K ∧ i ≤ N ∧ OnSide .top (trap.ends e) ∧ u.at' (e % 3 * (N + 1) + i) (e / 3) = (Real.exp (4 * ((nodeAt g e i).1 - 3)) - 1) / 4 - Real.exp (-8) / 4 := by
  obtain ⟨bc, g, t1, hg⟩ := trap_grid hN h5
  obtain ⟨x, hs, hN', hK, htri, -, hp1, -⟩ := spec_gll hg
  have hK : g.K = 2 := hK
  have ht : Trapezoid 1 { trap with bcType := bc } twoTri := ⟨trap_trapezoid.margin, trap_trapezoid.inside, trap_trapezoid.fills⟩
  obtain ⟨u, q, d0, -, -, -, -, -, hd, -⟩ := C141_data hg ht (by norm_num)
  have hside : OnSide .top (trap.ends 3) := by norm_num [OnSide, Side.off, SW.Mesh.ends, faceEnds, Mesh.tri, Mesh.corner, trap]
  have hz : nodeAt g 3 N = (1, 1.3) := by
    unfold nodeAt
    rw [Poisson.node_on hs (3 / 3) (f := 3 % 3) (by omega) (by omega), htri 1 (by show 1 < 2; omega)]
    unfold Poisson.posn SW.ori
    rw [if_neg (by decide), hp1]
    norm_num [SW.lerp, faceEnds, Mesh.tri, Mesh.corner, trap]
  refine ⟨bc, g, u, q, 3, N, t1, hg.built, d0, by omega, le_refl _, hside, ?_⟩
  have := (hd 3 (by omega) N (by omega)).2.2.1 hside
  rw [hz, if_pos rfl, hN'] at this
  rw [this, hz]
  norm_num
  ring

end Blitzdg.Heat
