import Verif.Quads.Disc
import Verif.SW.Conserve

/-! What sw2dquads.py sees of a quadrilateral provisioner: operators, geometry, and traces which pair the nodes of neighbouring faces at the same places. -/

namespace Blitzdg.Quads

open Blitzdg.Sparse (DMat)
open Blitzdg.Nodes1D (Lapack)
open Blitzdg.DG2D
open Blitzdg.Blitz
open Blitzdg.Dense (toMat)
open Blitzdg.SW (Mesh lerp lerp_swap lerp_dist gap_eq hypot)

/-! ### Points on faces -/

/-- Position along the face, running with the counter-clockwise orientation. -/
def ori (f : ℕ) (t : ℝ) : ℝ := if 2 ≤ f then -t else t

theorem quad_point (Q : Quad) (n : RefNodes) (i f : ℕ) (hf : f < 4) (t : ℝ) (h : (n.r.getD i 0, n.s.getD i 0) = quadEdge f t) :
    (nodeX Q n i, nodeY Q n i) = lerp (ends Q f) (ori f t) := by
  obtain ⟨h1, h2⟩ : n.r.getD i 0 = (quadEdge f t).1 ∧ n.s.getD i 0 = (quadEdge f t).2 := ⟨congrArg Prod.fst h, congrArg Prod.snd h⟩
  unfold nodeX nodeY quadCoord lerp ends ori
  rw [h1, h2]
  rcases (by omega : f = 0 ∨ f = 1 ∨ f = 2 ∨ f = 3) with rfl | rfl | rfl | rfl <;> simp [quadEdge] <;> constructor <;> ring

theorem quad_ends_pos (Q : Quad) (hQ : ConvexCcw Q) (f : ℕ) (hf : f < 4) : 0 < hypot ((ends Q f).1.1 - (ends Q f).2.1) ((ends Q f).1.2 - (ends Q f).2.2) := by
  unfold hypot
  apply Real.sqrt_pos.2
  have h0 : ∀ a b : ℝ, a ≠ 0 ∨ b ≠ 0 → 0 < a * a + b * b := by
    intro a b h
    rcases h with h | h
    · nlinarith [mul_self_pos.2 h, mul_self_nonneg b]
    · nlinarith [mul_self_pos.2 h, mul_self_nonneg a]
  apply h0
  by_contra hc
  push Not at hc
  obtain ⟨q1, q2, q3, q4⟩ := hQ
  unfold corner at q1 q2 q3 q4
  rcases (by omega : f = 0 ∨ f = 1 ∨ f = 2 ∨ f = 3) with rfl | rfl | rfl | rfl <;> simp only [ends] at hc <;> norm_num at hc <;> obtain ⟨h1, h2⟩ := hc <;>
    rw [sub_eq_zero] at h1 h2
  · rw [h1, h2] at q1; linarith
  · rw [h1, h2] at q2; linarith
  · rw [h1, h2] at q3; linarith
  · rw [h1, h2] at q4; linarith

/-! ### Specification of a mesh and of the grid built on it -/

/-- Coordinates of corner `j` of element `k`, read directly from the mesh tables. -/
def corner4 (m : Mesh) (k j : ℕ) : ℝ × ℝ := (m.vert.getD (3 * m.ev.getD (4 * k + j) 0) 0, m.vert.getD (3 * m.ev.getD (4 * k + j) 0 + 1) 0)

/-- Element `k`. -/
def quadOf (m : Mesh) (k : ℕ) : Quad :=
  ⟨(corner4 m k 0).1, (corner4 m k 0).2, (corner4 m k 1).1, (corner4 m k 1).2, (corner4 m k 2).1, (corner4 m k 2).2, (corner4 m k 3).1, (corner4 m k 3).2⟩

/-- A conforming mesh of strictly convex counter-clockwise quadrilaterals.  Face `f` of element `k` has number `4 k + f`; `P` is the face on the other side, or the face itself on the boundary. -/
structure QMeshOk (m : Mesh) (P : ℕ → ℕ) : Prop where
  conn : Conn 4 m.K m.E m.F P
  lenEv : m.ev.length = 4 * m.K
  ltEv : ∀ v ∈ m.ev, v < m.nv
  lenVert : m.vert.length = 3 * m.nv
  lenBc : 4 * m.K ≤ m.bcType.length
  convex : ∀ k < m.K, ConvexCcw (quadOf m k)
  /-- Neighbours run through their common face in opposite directions. -/
  meet : ∀ e < 4 * m.K, P e ≠ e → ends (quadOf m (P e / 4)) (P e % 4) = (ends (quadOf m (e / 4)) (e % 4)).swap

/-- The node of face `P e` at the place of node `i` of face `e`. -/
def across (P : ℕ → ℕ) (N e i : ℕ) : ℕ := if P e = e then i else if (2 ≤ e % 4 ↔ 2 ≤ P e % 4) then N - i else i

/-- What `buildQGrid` provides. -/
structure QSpec (P : ℕ → ℕ) (x : List ℝ) (bcType : List Int) (g : QGrid) : Prop where
  posN : 1 ≤ g.N
  nodes : g.n.r.length = g.np
  inSquare : ∀ i < g.np, |g.n.r.getD i 0| ≤ 1 ∧ |g.n.s.getD i 0| ≤ 1
  elem : ElementSpec g.N 4 (quadPairs g.N) quadPoly (QuadSpace g.N) quadInt quadEdge quadOnS g.n g.o
  unisolvent : toMat g.o.Vinv g.np g.np * toMat (modeMatrix (quadPairs g.N) quadMode g.n.r g.n.s) g.np g.np = 1
  vand : g.o.V = modeMatrix (quadPairs g.N) quadMode g.n.r g.n.s
  inc : ∀ i j : ℕ, i < j → j ≤ g.N → x.getD i 0 < x.getD j 0
  sym : ∀ i ≤ g.N, x.getD (g.N - i) 0 = -x.getD i 0
  maskLt : ∀ f < 4, ∀ i ≤ g.N, g.n.mask i f < g.np
  maskPt : ∀ f < 4, ∀ i ≤ g.N, (g.n.r.getD (g.n.mask i f) 0, g.n.s.getD (g.n.mask i f) 0) = quadEdge f (x.getD i 0)
  convex : ∀ k < g.K, ConvexCcw (g.quad k)
  lt : ∀ e < 4 * g.K, P e < 4 * g.K
  inv : ∀ e < 4 * g.K, P (P e) = e
  meet : ∀ e < 4 * g.K, P e ≠ e → ends (g.quad (P e / 4)) (P e % 4) = (ends (g.quad (e / 4)) (e % 4)).swap
  lenM : g.maps.vmapM.length = g.nf
  lenP : g.maps.vmapP.length = g.nf
  vmapM : ∀ e < 4 * g.K, ∀ i ≤ g.N, g.maps.vmapM[(g.N + 1) * e + i]? = some (vol g.np 4 g.n.mask e i)
  vmapP : ∀ e < 4 * g.K, ∀ i ≤ g.N, g.maps.vmapP[(g.N + 1) * e + i]? = some (vol g.np 4 g.n.mask (P e) (across P g.N e i))
  bc : ∀ t ≠ 0, ∀ l, g.bc t = some l → ∀ c, c ∈ l ↔ OnFaceWithTag (g.N + 1) (4 * g.K) bcType t c
  bcSome : ∀ t ≠ 0, (∃ c, OnFaceWithTag (g.N + 1) (4 * g.K) bcType t c) → ∃ l, g.bc t = some l
  bcNone : ∀ t ≠ 0, (¬ ∃ c, OnFaceWithTag (g.N + 1) (4 * g.K) bcType t c) → g.bc t = none

theorem across_le (P : ℕ → ℕ) (N e i : ℕ) (hi : i ≤ N) : across P N e i ≤ N := by
  unfold across
  split_ifs <;> omega

theorem across_across (P : ℕ → ℕ) (N e i : ℕ) (hi : i ≤ N) (hinv : P (P e) = e) : across P N (P e) (across P N e i) = i := by
  unfold across
  rw [hinv]
  by_cases h : P e = e
  · simp [h]
  · have h' : ¬ e = P e := fun h' => h h'.symm
    rw [if_neg h, if_neg h']
    by_cases h2 : (2 ≤ e % 4 ↔ 2 ≤ P e % 4)
    · rw [if_pos h2, if_pos h2.symm]; omega
    · rw [if_neg h2, if_neg (fun h3 => h2 h3.symm)]

/-- Positions on the two faces of a pair, in terms of the parameter of the first. -/
theorem across_pos {P : ℕ → ℕ} {N : ℕ} {x : List ℝ} (hsym : ∀ i ≤ N, x.getD (N - i) 0 = -x.getD i 0) (e i : ℕ) (hi : i ≤ N) (h : P e ≠ e) :
    ori (P e % 4) (x.getD (across P N e i) 0) = -ori (e % 4) (x.getD i 0) := by
  unfold across ori
  rw [if_neg h]
  by_cases h1 : 2 ≤ e % 4 <;> by_cases h2 : 2 ≤ P e % 4
  · rw [if_pos (iff_of_true h1 h2), if_pos h2, if_pos h1, hsym i hi]
  · have h3 : ¬ (2 ≤ e % 4 ↔ 2 ≤ P e % 4) := fun h => h2 (h.1 h1)
    rw [if_neg h3]
    simp [h1, h2]
  · have h3 : ¬ (2 ≤ e % 4 ↔ 2 ≤ P e % 4) := fun h => h1 (h.2 h2)
    rw [if_neg h3]
    simp [h1, h2]
  · rw [if_pos (iff_of_false h1 h2), if_neg h2, if_neg h1, hsym i hi]

theorem vol_div4 {np : ℕ} {mask : ℕ → ℕ → ℕ} {e i : ℕ} (h : mask i (e % 4) < np) : vol np 4 mask e i / np = e / 4 ∧ vol np 4 mask e i % np = mask i (e % 4) := by
  unfold vol
  constructor
  · rw [Nat.add_mul_div_left _ _ (by omega), Nat.div_eq_of_lt h, Nat.zero_add]
  · rw [Nat.add_mul_mod_self_left, Nat.mod_eq_of_lt h]

/-- The nearness test pairs exactly the nodes at the same place. -/
theorem nearQ_iff {quad : ℕ → Quad} {n : RefNodes} {np N K : ℕ} {tol : ℝ} {x : List ℝ} {P : ℕ → ℕ} (ht : 0 < tol)
    (hgap : ∀ i j : ℕ, i < j → j ≤ N → 2 * tol ≤ x.getD j 0 - x.getD i 0) (hsym : ∀ i ≤ N, x.getD (N - i) 0 = -x.getD i 0)
    (hlt : ∀ f < 4, ∀ i ≤ N, n.mask i f < np) (hpt : ∀ f < 4, ∀ i ≤ N, (n.r.getD (n.mask i f) 0, n.s.getD (n.mask i f) 0) = quadEdge f (x.getD i 0))
    (hccw : ∀ k < K, ConvexCcw (quad k)) (e : ℕ) (he : e < 4 * K)
    (hmeet : P e ≠ e → ends (quad (P e / 4)) (P e % 4) = (ends (quad (e / 4)) (e % 4)).swap) (i m : ℕ) (hi : i ≤ N) (hm : m ≤ N) :
    nearQ quad n np tol e (vol np 4 n.mask e i) (vol np 4 n.mask (P e) m) = true ↔ m = across P N e i := by
  have e3 : e % 4 < 4 := Nat.mod_lt _ (by norm_num)
  have p3 : P e % 4 < 4 := Nat.mod_lt _ (by norm_num)
  obtain ⟨d1, d2⟩ := vol_div4 (hlt _ e3 i hi)
  obtain ⟨d3, d4⟩ := vol_div4 (hlt _ p3 m hm)
  have q1 := quad_point (quad (e / 4)) n _ _ e3 _ (hpt _ e3 i hi)
  have q2 := quad_point (quad (P e / 4)) n _ _ p3 _ (hpt _ p3 m hm)
  have hq2 : (nodeX (quad (P e / 4)) n (n.mask m (P e % 4)), nodeY (quad (P e / 4)) n (n.mask m (P e % 4)))
      = lerp (ends (quad (e / 4)) (e % 4)) (if P e = e then ori (e % 4) (x.getD m 0) else -ori (P e % 4) (x.getD m 0)) := by
    by_cases h : P e = e
    · rw [if_pos h, q2, h]
    · rw [if_neg h, q2, hmeet h, lerp_swap]
  have hL := quad_ends_pos (quad (e / 4)) (hccw _ (by omega)) (e % 4) e3
  unfold nearQ
  simp only [decide_eq_true_eq]
  rw [d1, d2, d3, d4, show nodeX (quad (P e / 4)) n (n.mask m (P e % 4)) = _ from congrArg Prod.fst hq2, show nodeY (quad (P e / 4)) n (n.mask m (P e % 4)) = _ from congrArg Prod.snd hq2,
    show nodeX (quad (e / 4)) n (n.mask i (e % 4)) = _ from congrArg Prod.fst q1, show nodeY (quad (e / 4)) n (n.mask i (e % 4)) = _ from congrArg Prod.snd q1, lerp_dist]
  set L := hypot ((ends (quad (e / 4)) (e % 4)).1.1 - (ends (quad (e / 4)) (e % 4)).2.1) ((ends (quad (e / 4)) (e % 4)).1.2 - (ends (quad (e / 4)) (e % 4)).2.2) with hLd
  have hcancel : ∀ d : ℝ, d / 2 * L < L * tol ↔ d < 2 * tol := by
    intro d
    rw [mul_comm L tol, mul_lt_mul_iff_left₀ hL]
    constructor <;> intro h <;> linarith
  rw [hcancel]
  by_cases h : P e = e
  · rw [if_pos h]
    unfold across
    rw [if_pos h, ← gap_eq ht hgap i m hi hm]
    unfold ori
    split_ifs
    · rw [show -x.getD m 0 - -x.getD i 0 = -(x.getD m 0 - x.getD i 0) by ring, abs_neg]
    · rfl
  · rw [if_neg h, ← gap_eq ht hgap (across P N e i) m (across_le P N e i hi) hm]
    have := across_pos hsym e i hi h
    have e1 : -ori (P e % 4) (x.getD m 0) - ori (e % 4) (x.getD i 0) = -(ori (P e % 4) (x.getD m 0) - ori (P e % 4) (x.getD (across P N e i) 0)) := by
      rw [this]; ring
    rw [e1, abs_neg]
    unfold ori
    split_ifs
    · rw [show -x.getD m 0 - -x.getD (across P N e i) 0 = -(x.getD m 0 - x.getD (across P N e i) 0) by ring, abs_neg]
    · rfl

/-- The gathered corners are those of the mesh. -/
theorem gather_quad (m : Mesh) (P : ℕ → ℕ) (hm : QMeshOk m P) :
    ∃ cs, gather 4 m.ev m.vert m.nv m.K = .ok cs ∧ ∀ k < m.K, toQuad (cs.getD k []) = quadOf m k := by
  obtain ⟨cs, h1, h2, h3⟩ := C67_gather_partial 4 m.ev m.vert m.nv m.K hm.lenEv hm.ltEv hm.lenVert
  refine ⟨cs, h1, fun k hk => ?_⟩
  obtain ⟨row, h4, -, h5⟩ := h3 k hk
  have e0 : cs.getD k [] = row := by rw [List.getD_eq_getElem?_getD, h4]; rfl
  have key : ∀ j < 4, row.getD j 0 = corner4 m k j := by
    intro j hj
    obtain ⟨v, x, y, a1, a2, a3, a4⟩ := h5 j hj
    unfold corner4
    simp only [List.getD_eq_getElem?_getD, a1, a4, Option.getD_some, a2, a3]
  rw [e0]
  unfold toQuad quadOf
  rw [key 0 (by norm_num), key 1 (by norm_num), key 2 (by norm_num), key 3 (by norm_num)]

/-- **The grid.**  For every conforming mesh of convex counter-clockwise quadrilaterals, every order and every tolerance below half the smallest distance of the Gauss-Lobatto points: the provisioner
is built unless the eigenvalue routine fails, with exact operators and traces that pair nodes at the same places. -/
theorem buildQGrid_spec (la : Lapack) (hla : la.Ok) (eps : ℝ) (he0 : 0 < eps) (he1 : eps ≤ 0.1) (tol : ℝ) (ht : 0 < tol) (N : ℕ) (hN : 1 ≤ N)
    (m : Mesh) (P : ℕ → ℕ) (hm : QMeshOk m P) (hgll : ∃ x, IsGLL la eps N x)
    (hgap : ∀ x, IsGLL la eps N x → ∀ i j : ℕ, i < j → j ≤ N → 2 * tol ≤ x.getD j 0 - x.getD i 0) :
    ∃ g x, buildQGrid la eps tol N m = .ok g ∧ g.N = N ∧ g.K = m.K ∧ quadElement la eps tol N = .ok (g.n, g.o) ∧ (∀ k < m.K, g.quad k = quadOf m k) ∧ IsGLL la eps N x ∧ QSpec P x m.bcType g := by
  rcases C47_quadrilateral la hla eps he0 he1 tol ht N hN with ⟨-, h⟩ | ⟨x, hx, -, hok⟩
  · exact absurd hgll h
  obtain ⟨hm1, hp1, hinc, hsym⟩ : x.getD 0 0 = -1 ∧ x.getD N 0 = 1 ∧ (∀ i j : ℕ, i < j → j ≤ N → x.getD i 0 < x.getD j 0) ∧ ∀ i ≤ N, x.getD (N - i) 0 = -x.getD i 0 := by
    have hg := Jacobi.C70_gauss_lobatto la.query la.dsyevd hla.syevd 0 eps he0 he1 N hN (List.replicate (N + 1) 0) (by simp)
    simp only [Nat.cast_zero] at hg
    have hx' := hx
    unfold IsGLL at hx'
    rcases hg with ⟨x', hx''⟩ | ⟨x', hx'', -, hm1, hp1, hinc, hsym, -⟩
    · rw [hx''] at hx'; simp at hx'
    · rw [hx''] at hx'
      obtain rfl : x' = x := by simpa using hx'
      exact ⟨hm1, hp1, hinc, hsym⟩
  have hfirst : tol ≤ x.getD 1 0 + 1 := by
    have := hgap x hx 0 1 (by norm_num) hN
    rw [hm1] at this
    linarith
  obtain ⟨n, o, hel, hl, hmask, hspec, hV, hVi⟩ := hok hfirst
  have hn : quadRefNodes la eps tol N = .ok n := by
    unfold quadElement at hel
    obtain ⟨n', hn', h2⟩ := Out.bind_eq_ok.1 hel
    obtain ⟨o', ho', h3⟩ := Out.bind_eq_ok.1 h2
    simp only [Out.pure_eq, Out.ok.injEq, Prod.mk.injEq] at h3
    rw [hn', h3.1]
  have hsq : ∀ i < (N + 1) * (N + 1), |n.r.getD i 0| ≤ 1 ∧ |n.s.getD i 0| ≤ 1 := by
    rcases C74_quadrilateral la hla eps he0 he1 tol ht N hN with h' | ⟨x', hx', -, -, hok'⟩
    · rw [h'] at hn; cases hn
    obtain rfl : x' = x := by
      have h1 := hx
      have h2 := hx'
      unfold IsGLL at h1 h2
      rw [h1] at h2
      simpa using h2.symm
    obtain ⟨n', hn', -, -, hrs, -⟩ := hok' hfirst
    obtain rfl : n' = n := by rw [hn'] at hn; simpa using hn
    have hin : ∀ i ≤ N, |x'.getD i 0| ≤ 1 := by
      intro i hi
      rw [abs_le]
      constructor
      · rcases Nat.eq_zero_or_pos i with rfl | h
        · exact hm1.ge
        · have := hinc 0 i h hi; linarith
      · rcases Nat.lt_or_ge i N with h | h
        · have := hinc i N h le_rfl; linarith
        · rw [show i = N by omega, hp1]
    intro i hi
    have hj : i / (N + 1) ≤ N := by have := (Nat.div_lt_iff_lt_mul (by omega : 0 < N + 1)).2 hi; omega
    have hk : i % (N + 1) ≤ N := by have := Nat.mod_lt i (by omega : 0 < N + 1); omega
    have := hrs _ hj _ hk
    rw [Nat.div_add_mod'] at this
    rw [this.1, this.2]
    exact ⟨hin _ hj, hin _ hk⟩
  have hgap := hgap x hx
  set np := (N + 1) * (N + 1) with hnp
  obtain ⟨cs, hcs, hquad⟩ := gather_quad m P hm
  set quad : ℕ → Quad := fun k => toQuad (cs.getD k []) with hquadd
  have hconv : ∀ k < m.K, ConvexCcw (quad k) := fun k hk => by rw [show quad k = quadOf m k from hquad k hk]; exact hm.convex k hk
  have hmeet : ∀ e < 4 * m.K, P e ≠ e → ends (quad (P e / 4)) (P e % 4) = (ends (quad (e / 4)) (e % 4)).swap := by
    intro e he hne
    have := hm.conn.lt e he
    rw [show quad (P e / 4) = _ from hquad _ (by omega), show quad (e / 4) = _ from hquad _ (by omega)]
    exact hm.meet e he hne
  have hlt : ∀ f < 4, ∀ i ≤ N, n.mask i f < np := fun f hf i hi => by rw [← hl]; exact hmask.lt f hf i hi
  have hnear := fun e (he : e < 4 * m.K) => nearQ_iff (quad := quad) (n := n) (P := P) ht hgap hsym hlt hmask.pt hconv e he (hmeet e he)
  obtain ⟨T, σ, hT, l1, l2, -, hmaps, -, -, -⟩ := C66_trace np (N + 1) 4 m.K n.mask m.E m.F (nearQ quad n np tol) P hm.conn
    (fun n f hn hf => hlt f hf n (by omega))
    (fun e i he hi => ⟨across P N e i, by have := across_le P N e i (by omega); omega, fun m' hm' => hnear e he i m' (by omega) (by omega)⟩)
    (by
      intro e i k he hi hk
      have hP := hm.conn.lt e he
      have hinv := hm.conn.inv e he
      have a1 := hnear e he i k (by omega) (by omega)
      have a2 := hnear (P e) hP k i (by omega) (by omega)
      rw [hinv] at a2
      have a3 : k = across P N e i ↔ i = across P N (P e) k := by
        constructor
        · rintro rfl; exact (across_across P N e i (by omega) hinv).symm
        · rintro rfl
          have := across_across P N (P e) k (by omega) (by rw [hinv])
          rw [hinv] at this
          exact this.symm
      rw [Bool.eq_iff_iff, a1, a2, a3])
    (by
      intro e i he hp hi
      have := (hnear e he i i (by omega) (by omega)).2 (by simp [across, hp])
      rwa [hp] at this)
  obtain ⟨bc, hbc, hbcs⟩ := buildBCHash_ok (N + 1) (4 * m.K) m.bcType TagMap.empty hm.lenBc
  refine ⟨⟨N, m.K, n, o, quad, T, bc⟩, x, ?_, rfl, rfl, hel, hquad, hx, ⟨hN, hl, hsq, hspec, ?_, hV, hinc, hsym, hlt, hmask.pt, hconv, hm.conn.lt, hm.conn.inv, hmeet, ?_, ?_, ?_, ?_, ?_, ?_, ?_⟩⟩
  · unfold buildQGrid
    rw [hel]
    simp only [Out.bind_ok, hcs]
    show (buildMaps np (N + 1) 4 m.K n.mask m.E m.F (nearQ quad n np tol) >>= _) = _
    rw [hT]
    simp only [Out.bind_ok, hbc]
    rfl
  · show toMat o.Vinv np np * toMat (modeMatrix (quadPairs N) quadMode n.r n.s) np np = 1
    rw [← hV]
    exact hl ▸ hVi
  · show T.vmapM.length = 4 * (N + 1) * m.K
    rw [l1]; ring
  · show T.vmapP.length = 4 * (N + 1) * m.K
    rw [l2]; ring
  · intro e he i hi
    exact (hmaps e i he (Nat.lt_succ_of_le hi)).2.2.2.2.1
  · intro e he i hi
    obtain ⟨b1, b2, -, -, -, -, b3⟩ := hmaps e i he (Nat.lt_succ_of_le hi)
    have := (hnear e he i (σ e i) hi (by omega)).1 b2
    rw [this] at b3
    exact b3
  · intro t ht l hl c
    change bc t = some l at hl
    rw [hbcs t, TagMap.empty] at hl
    rw [← mem_places (N + 1) (4 * m.K) m.bcType hm.lenBc]
    split_ifs at hl with hcond
    simp only [Option.getD_none, List.nil_append, Option.some.injEq] at hl
    rw [← hl]
  · rintro t ht ⟨c, hc⟩
    rw [← mem_places (N + 1) (4 * m.K) m.bcType hm.lenBc] at hc
    refine ⟨_, by
      show bc t = _
      rw [hbcs t, if_neg]
      rintro (h | h)
      · exact ht h
      · rw [h] at hc; simp at hc⟩
  · intro t ht hno
    show bc t = none
    rw [hbcs t, if_pos]
    · rfl
    · right
      rw [List.eq_nil_iff_forall_not_mem]
      intro c hc
      exact hno ⟨c, (mem_places (N + 1) (4 * m.K) m.bcType hm.lenBc t c).1 hc⟩

end Blitzdg.Quads
