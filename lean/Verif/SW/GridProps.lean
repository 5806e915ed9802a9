import Verif.SW.Disc
import Verif.SW.Green
import Verif.DG2D.TraceProps
import Verif.DG2D.HashProps
import Verif.DG2D.GatherProps
import Verif.DG2D.GeomProps
import Mathlib.Tactic.LinearCombination

/-! What the solvers see of a triangle provisioner: operators, geometry, and traces which pair the nodes of neighbouring faces at the same places. -/

namespace Blitzdg.SW

open Blitzdg.Sparse (DMat)
open Blitzdg.Nodes1D (Lapack)
open Blitzdg.DG2D
open Blitzdg.Blitz
open Blitzdg.Dense (toMat)

/-! ### Points on faces -/

/-- Position along the face, running with the counter-clockwise orientation. -/
def ori (f : ℕ) (t : ℝ) : ℝ := if f = 2 then -t else t

/-- The point of a segment with parameter `t` in `[-1, 1]`. -/
noncomputable def lerp (e : (ℝ × ℝ) × (ℝ × ℝ)) (t : ℝ) : ℝ × ℝ := ((1 - t) / 2 * e.1.1 + (1 + t) / 2 * e.2.1, (1 - t) / 2 * e.1.2 + (1 + t) / 2 * e.2.2)

theorem lerp_swap (e : (ℝ × ℝ) × (ℝ × ℝ)) (t : ℝ) : lerp e.swap t = lerp e (-t) := by
  simp only [lerp, Prod.swap, Prod.mk.injEq]
  constructor <;> ring

theorem face_point (T : Tri) (n : RefNodes) (i f : ℕ) (hf : f < 3) (t : ℝ) (h : (n.r.getD i 0, n.s.getD i 0) = triFacePt f t) :
    (gridX T n i, gridY T n i) = lerp (faceEnds T f) (ori f t) := by
  obtain ⟨h1, h2⟩ : n.r.getD i 0 = (triFacePt f t).1 ∧ n.s.getD i 0 = (triFacePt f t).2 := ⟨congrArg Prod.fst h, congrArg Prod.snd h⟩
  unfold gridX gridY triCoord lerp faceEnds ori
  rw [h1, h2]
  rcases (by omega : f = 0 ∨ f = 1 ∨ f = 2) with rfl | rfl | rfl <;> simp [triFacePt] <;> constructor <;> ring

/-- Distance of two points of a segment. -/
theorem lerp_dist (e : (ℝ × ℝ) × (ℝ × ℝ)) (t u : ℝ) :
    hypot ((lerp e u).1 - (lerp e t).1) ((lerp e u).2 - (lerp e t).2) = |u - t| / 2 * hypot (e.1.1 - e.2.1) (e.1.2 - e.2.2) := by
  unfold hypot lerp
  have : ((1 - u) / 2 * e.1.1 + (1 + u) / 2 * e.2.1 - ((1 - t) / 2 * e.1.1 + (1 + t) / 2 * e.2.1)) *
      ((1 - u) / 2 * e.1.1 + (1 + u) / 2 * e.2.1 - ((1 - t) / 2 * e.1.1 + (1 + t) / 2 * e.2.1)) +
      ((1 - u) / 2 * e.1.2 + (1 + u) / 2 * e.2.2 - ((1 - t) / 2 * e.1.2 + (1 + t) / 2 * e.2.2)) *
      ((1 - u) / 2 * e.1.2 + (1 + u) / 2 * e.2.2 - ((1 - t) / 2 * e.1.2 + (1 + t) / 2 * e.2.2))
      = ((u - t) / 2) ^ 2 * ((e.1.1 - e.2.1) * (e.1.1 - e.2.1) + (e.1.2 - e.2.2) * (e.1.2 - e.2.2)) := by ring
  show √_ = _
  rw [this, Real.sqrt_mul (sq_nonneg _), Real.sqrt_sq_eq_abs, abs_div]
  norm_num

theorem ends_pos (T : Tri) (hT : 0 < cross T) (f : ℕ) (hf : f < 3) :
    0 < hypot ((faceEnds T f).1.1 - (faceEnds T f).2.1) ((faceEnds T f).1.2 - (faceEnds T f).2.2) := by
  unfold hypot
  apply Real.sqrt_pos.2
  have h0 : ∀ a b : ℝ, a ≠ 0 ∨ b ≠ 0 → 0 < a * a + b * b := by
    intro a b h
    rcases h with h | h
    · nlinarith [mul_self_pos.2 h, mul_self_nonneg b]
    · nlinarith [mul_self_pos.2 h, mul_self_nonneg a]
  apply h0
  by_contra hc
  push Not at hc
  unfold cross at hT
  rcases (by omega : f = 0 ∨ f = 1 ∨ f = 2) with rfl | rfl | rfl <;> simp only [faceEnds] at hc <;> norm_num at hc <;> obtain ⟨h1, h2⟩ := hc <;>
    rw [sub_eq_zero] at h1 h2 <;> rw [h1, h2] at hT <;> linarith

/-! ### Specification of a mesh and of the grid built on it -/

/-- Coordinates of corner `j` of element `k`, read directly from the mesh tables. -/
def Mesh.corner (m : Mesh) (k j : ℕ) : ℝ × ℝ := (m.vert.getD (3 * m.ev.getD (3 * k + j) 0) 0, m.vert.getD (3 * m.ev.getD (3 * k + j) 0 + 1) 0)

/-- Element `k`. -/
def Mesh.tri (m : Mesh) (k : ℕ) : Tri := ⟨(m.corner k 0).1, (m.corner k 0).2, (m.corner k 1).1, (m.corner k 1).2, (m.corner k 2).1, (m.corner k 2).2⟩

/-- A conforming mesh of counter-clockwise triangles.  Face `f` of element `k` has number `3 k + f`; `P` is the face on the other side, or the face itself on the boundary. -/
structure Mesh.Ok (m : Mesh) (P : ℕ → ℕ) : Prop where
  conn : Conn 3 m.K m.E m.F P
  lenEv : m.ev.length = 3 * m.K
  ltEv : ∀ v ∈ m.ev, v < m.nv
  lenVert : m.vert.length = 3 * m.nv
  lenBc : 3 * m.K ≤ m.bcType.length
  ccw : ∀ k < m.K, 0 < cross (m.tri k)
  /-- Neighbours run through their common face in opposite directions. -/
  meet : ∀ e < 3 * m.K, P e ≠ e → faceEnds (m.tri (P e / 3)) (P e % 3) = (faceEnds (m.tri (e / 3)) (e % 3)).swap

/-- The node of face `P e` at the place of node `i` of face `e`. -/
def across (P : ℕ → ℕ) (N e i : ℕ) : ℕ := if P e = e then i else if (e % 3 = 2 ↔ P e % 3 = 2) then N - i else i

/-- What `buildGrid` provides. -/
structure GridSpec (P : ℕ → ℕ) (x : List ℝ) (bcType : List Int) (g : Grid) : Prop where
  posN : 1 ≤ g.N
  nodes : g.n.r.length = g.np
  elem : ElementSpec g.N 3 (triPairs g.N) triPoly (TriSpace g.N) triInt triEdge triOnS g.n g.o
  unisolvent : toMat g.o.Vinv g.np g.np * toMat (modeMatrix (triPairs g.N) triMode g.n.r g.n.s) g.np g.np = 1
  vand : g.o.V = modeMatrix (triPairs g.N) triMode g.n.r g.n.s
  reg : AllReg Regular g.n.r g.n.s
  inc : ∀ i j : ℕ, i < j → j ≤ g.N → x.getD i 0 < x.getD j 0
  sym : ∀ i ≤ g.N, x.getD (g.N - i) 0 = -x.getD i 0
  maskLt : ∀ f < 3, ∀ i ≤ g.N, g.n.mask i f < g.np
  maskPt : ∀ f < 3, ∀ i ≤ g.N, (g.n.r.getD (g.n.mask i f) 0, g.n.s.getD (g.n.mask i f) 0) = triFacePt f (x.getD i 0)
  ccw : ∀ k < g.K, 0 < cross (g.tri k)
  lt : ∀ e < 3 * g.K, P e < 3 * g.K
  inv : ∀ e < 3 * g.K, P (P e) = e
  meet : ∀ e < 3 * g.K, P e ≠ e → faceEnds (g.tri (P e / 3)) (P e % 3) = (faceEnds (g.tri (e / 3)) (e % 3)).swap
  lenM : g.maps.vmapM.length = g.nf
  lenP : g.maps.vmapP.length = g.nf
  vmapM : ∀ e < 3 * g.K, ∀ i ≤ g.N, g.maps.vmapM[(g.N + 1) * e + i]? = some (vol g.np 3 g.n.mask e i)
  vmapP : ∀ e < 3 * g.K, ∀ i ≤ g.N, g.maps.vmapP[(g.N + 1) * e + i]? = some (vol g.np 3 g.n.mask (P e) (across P g.N e i))
  bc : ∀ t ≠ 0, ∀ l, g.bc t = some l → ∀ c, c ∈ l ↔ OnFaceWithTag (g.N + 1) (3 * g.K) bcType t c
  bcSome : ∀ t ≠ 0, (∃ c, OnFaceWithTag (g.N + 1) (3 * g.K) bcType t c) → ∃ l, g.bc t = some l
  bcNone : ∀ t ≠ 0, (¬ ∃ c, OnFaceWithTag (g.N + 1) (3 * g.K) bcType t c) → g.bc t = none

theorem across_le (P : ℕ → ℕ) (N e i : ℕ) (hi : i ≤ N) : across P N e i ≤ N := by
  unfold across
  split_ifs <;> omega

theorem across_across (P : ℕ → ℕ) (N e i : ℕ) (hi : i ≤ N) (hinv : P (P e) = e) : across P N (P e) (across P N e i) = i := by
  unfold across
  rw [hinv]
  by_cases h : P e = e
  · simp [h]
  · have h' : ¬ e = P e := fun h' => h h'.symm
    rw [if_neg h, if_neg h']
    by_cases h2 : (e % 3 = 2 ↔ P e % 3 = 2)
    · rw [if_pos h2, if_pos h2.symm]; omega
    · rw [if_neg h2, if_neg (fun h3 => h2 h3.symm)]

/-- Positions on the two faces of a pair, in terms of the parameter of the first. -/
theorem across_pos {P : ℕ → ℕ} {N : ℕ} {x : List ℝ} (hsym : ∀ i ≤ N, x.getD (N - i) 0 = -x.getD i 0) (e i : ℕ) (hi : i ≤ N) (h : P e ≠ e) :
    ori (P e % 3) (x.getD (across P N e i) 0) = -ori (e % 3) (x.getD i 0) := by
  unfold across ori
  rw [if_neg h]
  by_cases h1 : e % 3 = 2 <;> by_cases h2 : P e % 3 = 2
  · rw [if_pos (iff_of_true h1 h2), if_pos h2, if_pos h1, hsym i hi]
  · have h3 : ¬ (e % 3 = 2 ↔ P e % 3 = 2) := fun h => h2 (h.1 h1)
    rw [if_neg h3]
    simp [h1, h2]
  · have h3 : ¬ (e % 3 = 2 ↔ P e % 3 = 2) := fun h => h1 (h.2 h2)
    rw [if_neg h3]
    simp [h1, h2]
  · rw [if_pos (iff_of_false h1 h2), if_neg h2, if_neg h1, hsym i hi]

theorem gap_eq {N : ℕ} {x : List ℝ} {tol : ℝ} (ht : 0 < tol) (hgap : ∀ i j : ℕ, i < j → j ≤ N → 2 * tol ≤ x.getD j 0 - x.getD i 0) (i j : ℕ) (hi : i ≤ N) (hj : j ≤ N) :
    |x.getD j 0 - x.getD i 0| < 2 * tol ↔ j = i := by
  constructor
  · intro h
    rw [abs_lt] at h
    rcases lt_trichotomy i j with h1 | h1 | h1
    · have := hgap i j h1 hj; linarith
    · exact h1.symm
    · have := hgap j i h1 hi; linarith
  · rintro rfl
    simp; linarith

theorem vol_div {np : ℕ} {mask : ℕ → ℕ → ℕ} {e i : ℕ} (h : mask i (e % 3) < np) : vol np 3 mask e i / np = e / 3 ∧ vol np 3 mask e i % np = mask i (e % 3) := by
  unfold vol
  constructor
  · rw [Nat.add_mul_div_left _ _ (by omega), Nat.div_eq_of_lt h, Nat.zero_add]
  · rw [Nat.add_mul_mod_self_left, Nat.mod_eq_of_lt h]

/-- The nearness test pairs exactly the nodes at the same place. -/
theorem near_iff {tri : ℕ → Tri} {n : RefNodes} {np N K : ℕ} {tol : ℝ} {x : List ℝ} {P : ℕ → ℕ} (ht : 0 < tol)
    (hgap : ∀ i j : ℕ, i < j → j ≤ N → 2 * tol ≤ x.getD j 0 - x.getD i 0) (hsym : ∀ i ≤ N, x.getD (N - i) 0 = -x.getD i 0)
    (hlt : ∀ f < 3, ∀ i ≤ N, n.mask i f < np) (hpt : ∀ f < 3, ∀ i ≤ N, (n.r.getD (n.mask i f) 0, n.s.getD (n.mask i f) 0) = triFacePt f (x.getD i 0))
    (hccw : ∀ k < K, 0 < cross (tri k)) (e : ℕ) (he : e < 3 * K)
    (hmeet : P e ≠ e → faceEnds (tri (P e / 3)) (P e % 3) = (faceEnds (tri (e / 3)) (e % 3)).swap) (i m : ℕ) (hi : i ≤ N) (hm : m ≤ N) :
    nearTest tri n np tol e (vol np 3 n.mask e i) (vol np 3 n.mask (P e) m) = true ↔ m = across P N e i := by
  have e3 : e % 3 < 3 := Nat.mod_lt _ (by norm_num)
  have p3 : P e % 3 < 3 := Nat.mod_lt _ (by norm_num)
  obtain ⟨d1, d2⟩ := vol_div (hlt _ e3 i hi)
  obtain ⟨d3, d4⟩ := vol_div (hlt _ p3 m hm)
  have q1 := face_point (tri (e / 3)) n _ _ e3 _ (hpt _ e3 i hi)
  have q2 := face_point (tri (P e / 3)) n _ _ p3 _ (hpt _ p3 m hm)
  have hq2 : (gridX (tri (P e / 3)) n (n.mask m (P e % 3)), gridY (tri (P e / 3)) n (n.mask m (P e % 3)))
      = lerp (faceEnds (tri (e / 3)) (e % 3)) (if P e = e then ori (e % 3) (x.getD m 0) else -ori (P e % 3) (x.getD m 0)) := by
    by_cases h : P e = e
    · rw [if_pos h, q2, h]
    · rw [if_neg h, q2, hmeet h, lerp_swap]
  have hL := ends_pos (tri (e / 3)) (hccw _ (by omega)) (e % 3) e3
  unfold nearTest
  simp only [decide_eq_true_eq]
  rw [d1, d2, d3, d4, show gridX (tri (P e / 3)) n (n.mask m (P e % 3)) = _ from congrArg Prod.fst hq2, show gridY (tri (P e / 3)) n (n.mask m (P e % 3)) = _ from congrArg Prod.snd hq2,
    show gridX (tri (e / 3)) n (n.mask i (e % 3)) = _ from congrArg Prod.fst q1, show gridY (tri (e / 3)) n (n.mask i (e % 3)) = _ from congrArg Prod.snd q1, lerp_dist]
  set L := hypot ((faceEnds (tri (e / 3)) (e % 3)).1.1 - (faceEnds (tri (e / 3)) (e % 3)).2.1) ((faceEnds (tri (e / 3)) (e % 3)).1.2 - (faceEnds (tri (e / 3)) (e % 3)).2.2) with hLd
  have hcancel : ∀ d : ℝ, d / 2 * L < L * tol ↔ d < 2 * tol := by
    intro d
    rw [mul_comm L tol, mul_lt_mul_iff_left₀ hL]
    constructor <;> intro h <;> linarith
  rw [hcancel]
  by_cases h : P e = e
  · rw [if_pos h]
    unfold across
    rw [if_pos h, ← gap_eq ht hgap i m hi hm]
    unfold ori
    split_ifs
    · rw [show -x.getD m 0 - -x.getD i 0 = -(x.getD m 0 - x.getD i 0) by ring, abs_neg]
    · rfl
  · rw [if_neg h, ← gap_eq ht hgap (across P N e i) m (across_le P N e i hi) hm]
    have := across_pos hsym e i hi h
    have e1 : -ori (P e % 3) (x.getD m 0) - ori (e % 3) (x.getD i 0) = -(ori (P e % 3) (x.getD m 0) - ori (P e % 3) (x.getD (across P N e i) 0)) := by
      rw [this]; ring
    rw [e1, abs_neg]
    unfold ori
    split_ifs
    · rw [show -x.getD m 0 - -x.getD (across P N e i) 0 = -(x.getD m 0 - x.getD (across P N e i) 0) by ring, abs_neg]
    · rfl

theorem faceEnds_len (e : (ℝ × ℝ) × (ℝ × ℝ)) : hypot (e.swap.1.1 - e.swap.2.1) (e.swap.1.2 - e.swap.2.2) = hypot (e.1.1 - e.2.1) (e.1.2 - e.2.2) := by
  unfold hypot
  congr 1
  simp only [Prod.swap]
  ring

theorem hypot_comm (a b c d : ℝ) : hypot (a - b) (c - d) = hypot (b - a) (d - c) := by
  unfold hypot
  congr 1
  ring

/-- The gathered corners are those of the mesh. -/
theorem gather_tri (m : Mesh) (P : ℕ → ℕ) (hm : m.Ok P) :
    ∃ cs, gather 3 m.ev m.vert m.nv m.K = .ok cs ∧ ∀ k < m.K, toTri (cs.getD k []) = m.tri k := by
  obtain ⟨cs, h1, h2, h3⟩ := C67_gather_partial 3 m.ev m.vert m.nv m.K hm.lenEv hm.ltEv hm.lenVert
  refine ⟨cs, h1, fun k hk => ?_⟩
  obtain ⟨row, h4, -, h5⟩ := h3 k hk
  have e0 : cs.getD k [] = row := by rw [List.getD_eq_getElem?_getD, h4]; rfl
  have key : ∀ j < 3, row.getD j 0 = m.corner k j := by
    intro j hj
    obtain ⟨v, x, y, a1, a2, a3, a4⟩ := h5 j hj
    unfold Mesh.corner
    simp only [List.getD_eq_getElem?_getD, a1, a4, Option.getD_some, a2, a3]
  rw [e0]
  unfold toTri Mesh.tri
  rw [key 0 (by norm_num), key 1 (by norm_num), key 2 (by norm_num)]

/-- **The grid.**  For every conforming counter-clockwise mesh, every order and every tolerance below half the smallest distance of the Gauss-Lobatto points: if the reference element is
built (see C47, C74), the provisioner is built, with exact operators and traces that pair nodes at the same places. -/
theorem buildGrid_spec (la : Lapack) (hla : la.Ok) (eps : ℝ) (he0 : 0 < eps) (he1 : eps ≤ 0.1) (ztol tol : ℝ) (h0 : 0 < ztol) (ht : 0 < tol) (N : ℕ) (hN : 1 ≤ N)
    (hz : ztol < 2 / N) (m : Mesh) (P : ℕ → ℕ) (hm : m.Ok P) (n : RefNodes) (o : RefOps) (hel : triElement la eps ztol tol N = .ok (n, o))
    (hgap : ∀ x, IsGLL la eps N x → ∀ i j : ℕ, i < j → j ≤ N → 2 * tol ≤ x.getD j 0 - x.getD i 0) :
    ∃ g x, buildGrid la eps ztol tol N m = .ok g ∧ g.N = N ∧ g.K = m.K ∧ g.n = n ∧ g.o = o ∧ (∀ k < m.K, g.tri k = m.tri k) ∧ IsGLL la eps N x ∧ GridSpec P x m.bcType g := by
  have hn : triRefNodes la eps ztol tol N = .ok n := by
    unfold triElement at hel
    cases h : triRefNodes la eps ztol tol N with
    | ok n' =>
      rw [h] at hel
      simp only [Out.bind_ok] at hel
      cases h' : buildRefOps la (triPairs N) triMode triModeR triModeS 3 (N + 1) triOnS n'.mask n'.r n'.s with
      | ok o' =>
        rw [h'] at hel
        simp only [Out.bind_ok, Out.pure_eq, Out.ok.injEq, Prod.mk.injEq] at hel
        rw [hel.1]
      | throws => rw [h'] at hel; cases hel
      | ub => rw [h'] at hel; cases hel
    | throws => rw [h] at hel; cases hel
    | ub => rw [h] at hel; cases hel
  rcases C47_triangle_built la hla eps he0 he1 ztol tol h0 ht N hN hz n hn with ⟨-, h⟩ | ⟨o', h, hl, hr, hspec, hV, hVi⟩
  · rw [h] at hel; cases hel
  obtain rfl : o' = o := by rw [h] at hel; simpa using hel
  rcases C74_triangle la hla eps he0 he1 ztol tol h0 ht N hN hz with h' | ⟨x, hx, r, s, -, -, -, ⟨h', -⟩ | ⟨n', h', -, -, hmask⟩⟩
  · rw [h'] at hn; cases hn
  · rw [h'] at hn; cases hn
  obtain rfl : n' = n := by rw [h'] at hn; simpa using hn
  obtain ⟨hinc, hsym⟩ : (∀ i j : ℕ, i < j → j ≤ N → x.getD i 0 < x.getD j 0) ∧ ∀ i ≤ N, x.getD (N - i) 0 = -x.getD i 0 := by
    have hg := Jacobi.C70_gauss_lobatto la.query la.dsyevd hla.syevd 0 eps he0 he1 N hN (List.replicate (N + 1) 0) (by simp)
    simp only [Nat.cast_zero] at hg
    have hx' := hx
    unfold IsGLL at hx'
    rcases hg with ⟨x', hx''⟩ | ⟨x', hx'', -, -, -, hinc, hsym, -⟩
    · rw [hx''] at hx'; simp at hx'
    · rw [hx''] at hx'
      obtain rfl : x' = x := by simpa using hx'
      exact ⟨hinc, hsym⟩
  have hgap := hgap x hx
  set np := (N + 1) * (N + 2) / 2 with hnp
  obtain ⟨cs, hcs, htri⟩ := gather_tri m P hm
  set tri : ℕ → Tri := fun k => toTri (cs.getD k []) with htrid
  have hccw : ∀ k < m.K, 0 < cross (tri k) := fun k hk => by rw [show tri k = m.tri k from htri k hk]; exact hm.ccw k hk
  have hmeet : ∀ e < 3 * m.K, P e ≠ e → faceEnds (tri (P e / 3)) (P e % 3) = (faceEnds (tri (e / 3)) (e % 3)).swap := by
    intro e he hne
    have := hm.conn.lt e he
    rw [show tri (P e / 3) = _ from htri _ (by omega), show tri (e / 3) = _ from htri _ (by omega)]
    exact hm.meet e he hne
  have hlt : ∀ f < 3, ∀ i ≤ N, n'.mask i f < np := fun f hf i hi => by rw [← hl]; exact hmask.lt f hf i hi
  have hnear := fun e (he : e < 3 * m.K) => near_iff (tri := tri) (n := n') (P := P) ht hgap hsym hlt hmask.pt hccw e he (hmeet e he)
  obtain ⟨T, σ, hT, l1, l2, -, hmaps, -, -, -⟩ := C66_trace np (N + 1) 3 m.K n'.mask m.E m.F (nearTest tri n' np tol) P hm.conn
    (fun n f hn hf => hlt f hf n (by omega))
    (fun e i he hi => ⟨across P N e i, by have := across_le P N e i (by omega); omega, fun m' hm' => hnear e he i m' (by omega) (by omega)⟩)
    (by
      intro e i k he hi hk
      have hP := hm.conn.lt e he
      have hinv := hm.conn.inv e he
      have a1 := hnear e he i k (by omega) (by omega)
      have a2 := hnear (P e) hP k i (by omega) (by omega)
      rw [hinv] at a2
      have a3 : k = across P N e i ↔ i = across P N (P e) k := by
        constructor
        · rintro rfl; exact (across_across P N e i (by omega) hinv).symm
        · rintro rfl
          have := across_across P N (P e) k (by omega) (by rw [hinv])
          rw [hinv] at this
          exact this.symm
      rw [Bool.eq_iff_iff, a1, a2, a3])
    (by
      intro e i he hp hi
      have := (hnear e he i i (by omega) (by omega)).2 (by simp [across, hp])
      rwa [hp] at this)
  obtain ⟨bc, hbc, hbcs⟩ := buildBCHash_ok (N + 1) (3 * m.K) m.bcType TagMap.empty hm.lenBc
  refine ⟨⟨N, m.K, n', o', tri, T, bc⟩, x, ?_, rfl, rfl, rfl, rfl, htri, hx, ⟨hN, hl, hspec, ?_, hV, hr, hinc, hsym, hlt, hmask.pt, hccw, hm.conn.lt, hm.conn.inv, hmeet, ?_, ?_, ?_, ?_, ?_, ?_, ?_⟩⟩
  · unfold buildGrid
    rw [h]
    simp only [Out.bind_ok, hcs]
    show (buildMaps np (N + 1) 3 m.K n'.mask m.E m.F (nearTest tri n' np tol) >>= _) = _
    rw [hT]
    simp only [Out.bind_ok, hbc]
    rfl
  · show toMat o'.Vinv np np * toMat (modeMatrix (triPairs N) triMode n'.r n'.s) np np = 1
    rw [← hV]
    exact hl ▸ hVi
  · show T.vmapM.length = 3 * (N + 1) * m.K
    rw [l1]; ring
  · show T.vmapP.length = 3 * (N + 1) * m.K
    rw [l2]; ring
  · intro e he i hi
    exact (hmaps e i he (Nat.lt_succ_of_le hi)).2.2.2.2.1
  · intro e he i hi
    obtain ⟨b1, b2, -, -, -, -, b3⟩ := hmaps e i he (Nat.lt_succ_of_le hi)
    have := (hnear e he i (σ e i) hi (by omega)).1 b2
    rw [this] at b3
    exact b3
  · intro t ht l hl c
    change bc t = some l at hl
    rw [hbcs t, TagMap.empty] at hl
    rw [← mem_places (N + 1) (3 * m.K) m.bcType hm.lenBc]
    split_ifs at hl with hcond
    simp only [Option.getD_none, List.nil_append, Option.some.injEq] at hl
    rw [← hl]
  · rintro t ht ⟨c, hc⟩
    rw [← mem_places (N + 1) (3 * m.K) m.bcType hm.lenBc] at hc
    refine ⟨_, by
      show bc t = _
      rw [hbcs t, if_neg]
      rintro (h | h)
      · exact ht h
      · rw [h] at hc; simp at hc⟩
  · intro t ht hno
    show bc t = none
    rw [hbcs t, if_pos]
    · rfl
    · right
      rw [List.eq_nil_iff_forall_not_mem]
      intro c hc
      exact hno ⟨c, (mem_places (N + 1) (3 * m.K) m.bcType hm.lenBc t c).1 hc⟩

end Blitzdg.SW
