import Verif.DG2D.NodesProps
import Mathlib.LinearAlgebra.Lagrange

/-! The reference elements as the code builds them: C47, C71 (operators), C42/C43 with these operators, C46 (interpolation). -/

namespace Blitzdg.DG2D

open MvPolynomial
open Blitzdg.Sparse (DMat)
open Blitzdg.Dense (Done directSolve computeInverse toMat C37_inverse colMat)
open Blitzdg.Nodes1D (Lapack uncaught vandermonde)
open Blitzdg.Jacobi (gllPoints before)

/-! ### Unisolvence -/

section
variable {pairs : List (ℕ × ℕ)} {f fr fs : ℕ × ℕ → ℝ → ℝ → ℝ} {Reg : ℝ → ℝ → Prop} {q : ℕ × ℕ → P2} {Space : P2 → Prop} {I : (ℝ → ℝ → ℝ) → ℝ}

/-- If the space contains a Lagrange basis for the nodes, the Vandermonde matrix is invertible. -/
theorem unit_of_basis (h : Modal pairs f fr fs Reg q Space I) (r s : List ℝ) (hp : pairs.length = r.length) (hr : AllReg Reg r s)
    (hL : ∀ i < r.length, ∃ p, Space p ∧ ∀ j < r.length, nodal r s p j = if j = i then 1 else 0) : IsUnit (toMat (modeMatrix pairs f r s) r.length r.length) := by
  have hc : ∀ i : Fin r.length, ∃ c : Fin r.length → ℝ, (toMat (modeMatrix pairs f r s) r.length r.length).mulVec c = Pi.single i 1 := by
    intro i
    obtain ⟨p, hps, hpn⟩ := hL i i.2
    obtain ⟨c, rfl⟩ := h.coeffs hp hps
    refine ⟨c, ?_⟩
    funext j
    rw [← (h.nodal_comb hr rfl c j).1, hpn j j.2, Pi.single_apply]
    simp only [Fin.ext_iff]
  choose c hc using hc
  have e : toMat (modeMatrix pairs f r s) r.length r.length * (Matrix.of fun k i => c i k) = 1 := by
    ext j i
    have := congrFun (hc i) j
    rw [Matrix.mul_apply, Matrix.one_apply]
    rw [Pi.single_apply] at this
    exact this
  exact ⟨⟨_, _, e, mul_eq_one_comm.1 e⟩, rfl⟩

end

theorem lag_basis (N : ℕ) (x : ℕ → ℝ) (hx : ∀ i j : ℕ, i < j → j ≤ N → x i ≠ x j) (i : ℕ) (hi : i ≤ N) :
    ∃ p : Polynomial ℝ, p.natDegree ≤ N ∧ ∀ j ≤ N, p.eval (x j) = if j = i then 1 else 0 := by
  have inj : Set.InjOn x (Finset.range (N + 1) : Finset ℕ) := by
    intro a ha b hb e
    have ha : a < N + 1 := by simpa using ha
    have hb : b < N + 1 := by simpa using hb
    rcases Nat.lt_trichotomy a b with h | h | h
    · exact absurd e (hx a b h (by omega))
    · exact h
    · exact absurd e.symm (hx b a h (by omega))
  have hm : i ∈ Finset.range (N + 1) := Finset.mem_range.2 (by omega)
  refine ⟨Lagrange.basis (Finset.range (N + 1)) x i, ?_, ?_⟩
  · rw [Polynomial.natDegree_eq_of_degree_eq_some (Lagrange.degree_basis inj hm)]; simp
  · intro j hj
    split_ifs with h
    · subst h; exact Lagrange.eval_basis_self inj hm
    · exact Lagrange.eval_basis_of_ne (fun e => h e.symm) (Finset.mem_range.2 (by omega))

/-- Points of a tensor grid with distinct coordinates determine the polynomials of degree at most `N` in each variable. -/
theorem quad_unisolvent' (N : ℕ) (r s : List ℝ) (x y : ℕ → ℝ) (hx : ∀ i j : ℕ, i < j → j ≤ N → x i ≠ x j) (hy : ∀ i j : ℕ, i < j → j ≤ N → y i ≠ y j)
    (hl : r.length = (N + 1) * (N + 1)) (a b : ℕ → ℕ) (hab : ∀ k < r.length, a k ≤ N ∧ b k ≤ N ∧ r.getD k 0 = x (a k) ∧ s.getD k 0 = y (b k))
    (hinj : ∀ k < r.length, ∀ l < r.length, a k = a l → b k = b l → k = l) :
    IsUnit (toMat (modeMatrix (quadPairs N) quadMode r s) r.length r.length) := by
  apply unit_of_basis (quadModal N) r s (by rw [quadPairs_length, hl]) (fun _ _ => trivial)
  intro k hk
  obtain ⟨p, hp, hpe⟩ := lag_basis N x hx (a k) (hab k hk).1
  obtain ⟨g, hg, hge⟩ := lag_basis N y hy (b k) (hab k hk).2.1
  refine ⟨inR p * inS g, quad_mem N _ (inR_inS_mem N p g hp hg), ?_⟩
  intro l hl'
  rw [nodal, (hab l hl').2.2.1, (hab l hl').2.2.2, map_mul, ev_inR, ev_inS, hpe _ (hab l hl').1, hge _ (hab l hl').2.1]
  by_cases e : l = k
  · rw [if_pos e, if_pos (by rw [e]), if_pos (by rw [e]), one_mul]
  · rw [if_neg e]
    by_cases e1 : a l = a k
    · rw [if_neg (fun e2 : b l = b k => e (hinj l hl' k hk e1 e2)), mul_zero]
    · rw [if_neg e1, zero_mul]

theorem div_mod_facts (N k : ℕ) (hk : k < (N + 1) * (N + 1)) : k / (N + 1) ≤ N ∧ k % (N + 1) ≤ N ∧ k = k / (N + 1) * (N + 1) + k % (N + 1) := by
  refine ⟨?_, ?_, ?_⟩
  · have := Nat.div_lt_of_lt_mul hk; omega
  · have := Nat.mod_lt k (show N + 1 > 0 by omega); omega
  · have := Nat.div_add_mod k (N + 1)
    rw [Nat.mul_comm] at this; omega

theorem quad_unisolvent (N : ℕ) (r s : List ℝ) (x y : ℕ → ℝ) (hx : ∀ i j : ℕ, i < j → j ≤ N → x i ≠ x j) (hy : ∀ i j : ℕ, i < j → j ≤ N → y i ≠ y j)
    (hl : r.length = (N + 1) * (N + 1)) (hrs : ∀ j ≤ N, ∀ i ≤ N, r.getD (j * (N + 1) + i) 0 = x j ∧ s.getD (j * (N + 1) + i) 0 = y i) :
    IsUnit (toMat (modeMatrix (quadPairs N) quadMode r s) r.length r.length) := by
  apply quad_unisolvent' N r s x y hx hy hl (fun k => k / (N + 1)) (fun k => k % (N + 1))
  · intro k hk
    obtain ⟨h1, h2, h3⟩ := div_mod_facts N k (by omega)
    have := hrs _ h1 _ h2
    rw [← h3] at this
    exact ⟨h1, h2, this⟩
  · intro k hk l hl' e1 e2
    have h1 := (div_mod_facts N k (by omega)).2.2
    have h2 := (div_mod_facts N l (by omega)).2.2
    rw [h1, h2, e1, e2]

/-! ### Masks give faces -/

theorem faceCoords_getD (N : ℕ) (fm : ℕ → ℕ → ℕ) (onS : ℕ → Bool) (r s : List ℝ) (f i : ℕ) (hi : i ≤ N) :
    (faceCoords (N + 1) fm onS r s f).getD i 0 = (if onS f then s else r).getD (fm i f) 0 := by
  unfold faceCoords
  rw [List.getD_eq_getElem _ _ (by simp; omega), List.getElem_map, List.getElem_range]

theorem tri_faces {N : ℕ} {tol : ℝ} {x : List ℝ} {n : RefNodes} (hinc : ∀ i j : ℕ, i < j → j ≤ N → x.getD i 0 < x.getD j 0)
    (h : MaskSpec N 3 triFacePt triFaceDist tol x n) : Faces N 3 n.mask triOnS triEdge n.r n.s := by
  have co : ∀ f < 3, ∀ i ≤ N, (faceCoords (N + 1) n.mask triOnS n.r n.s f).getD i 0 = if f = 1 then -x.getD i 0 else x.getD i 0 := by
    intro f hf i hi
    rw [faceCoords_getD N _ _ _ _ _ _ hi]
    have e := h.pt f hf i hi
    rcases (by omega : f = 0 ∨ f = 1 ∨ f = 2) with rfl | rfl | rfl
    · exact (Prod.mk.inj e).1
    · exact (Prod.mk.inj e).1
    · exact (Prod.mk.inj e).2
  refine ⟨h.lt, ?_, ?_⟩
  · intro f hf i hi
    rw [h.pt f hf i hi, co f hf i hi]
    rcases (by omega : f = 0 ∨ f = 1 ∨ f = 2) with rfl | rfl | rfl
    · rfl
    · show (-x.getD i 0, x.getD i 0) = (-x.getD i 0, - -x.getD i 0)
      rw [neg_neg]
    · rfl
  · intro f hf i j hij hj
    rw [co f hf i (by omega), co f hf j hj]
    have := hinc i j hij hj
    split_ifs
    · intro e; linarith
    · exact this.ne

theorem quad_faces {N : ℕ} {tol : ℝ} {x : List ℝ} {n : RefNodes} (hinc : ∀ i j : ℕ, i < j → j ≤ N → x.getD i 0 < x.getD j 0)
    (h : MaskSpec N 4 quadEdge quadFaceDist tol x n) : Faces N 4 n.mask quadOnS quadEdge n.r n.s := by
  have co : ∀ f < 4, ∀ i ≤ N, (faceCoords (N + 1) n.mask quadOnS n.r n.s f).getD i 0 = x.getD i 0 := by
    intro f hf i hi
    rw [faceCoords_getD N _ _ _ _ _ _ hi]
    have e := h.pt f hf i hi
    rcases (by omega : f = 0 ∨ f = 1 ∨ f = 2 ∨ f = 3) with rfl | rfl | rfl | rfl
    · exact (Prod.mk.inj e).1
    · exact (Prod.mk.inj e).2
    · exact (Prod.mk.inj e).1
    · exact (Prod.mk.inj e).2
  refine ⟨h.lt, ?_, ?_⟩
  · intro f hf i hi
    rw [h.pt f hf i hi, co f hf i hi]
  · intro f hf i j hij hj
    rw [co f hf i (by omega), co f hf j hj]
    exact (hinc i j hij hj).ne

/-! ### The elements -/

/-- What the operators of an element must satisfy. -/
structure ElementSpec (N nf : ℕ) (pairs : List (ℕ × ℕ)) (q : ℕ × ℕ → P2) (Space : P2 → Prop) (I : (ℝ → ℝ → ℝ) → ℝ) (γ : ℕ → ℝ → ℝ × ℝ) (onS : ℕ → Bool)
    (n : RefNodes) (o : RefOps) : Prop where
  diff : DiffSpec Space I n.r n.s o.d
  lift : LiftSpec N nf Space I γ (fun f j => (if onS f then n.s else n.r).getD (n.mask j f) 0) n.r n.s o.lift
  modal : ModalSpec pairs q n.r n.s o.Vinv

theorem liftSpec_congr {N nf : ℕ} {Space : P2 → Prop} {I : (ℝ → ℝ → ℝ) → ℝ} {γ : ℕ → ℝ → ℝ × ℝ} {t t' : ℕ → ℕ → ℝ} {r s : List ℝ} {lift : DMat ℝ}
    (e : ∀ f, ∀ j ≤ N, t f j = t' f j) (h : LiftSpec N nf Space I γ t r s lift) : LiftSpec N nf Space I γ t' r s lift := by
  intro f hf g hg
  obtain ⟨w, h1, h2, h3⟩ := h f hf g hg
  refine ⟨w, h1, ?_, h3⟩
  intro i hi
  rw [← h2 i hi]
  apply Finset.sum_congr rfl
  intro j hj
  rw [e f j (by have := Finset.mem_range.1 hj; omega)]

/-- **C47, C71, quadrilaterals.** For every order `N ≥ 1` the construction of the reference element throws only if the eigenvalue routine fails; provided the first two Gauss-Lobatto
points are not closer than the tolerance, it otherwise succeeds - no linear solve fails - and the operators are exact on all polynomials of degree `N` in each variable. -/
theorem C47_quadrilateral (la : Lapack) (hla : la.Ok) (eps : ℝ) (he0 : 0 < eps) (he1 : eps ≤ 0.1) (tol : ℝ) (ht : 0 < tol) (N : ℕ) (hN : 1 ≤ N) :
    (quadElement la eps tol N = .throws ∧ ¬ ∃ x, IsGLL la eps N x) ∨
    ∃ x, IsGLL la eps N x ∧ (x.getD 1 0 + 1 < tol → quadElement la eps tol N = .ub) ∧
      (tol ≤ x.getD 1 0 + 1 → ∃ n o, quadElement la eps tol N = .ok (n, o) ∧ n.r.length = (N + 1) * (N + 1) ∧ MaskSpec N 4 quadEdge quadFaceDist tol x n ∧
        ElementSpec N 4 (quadPairs N) quadPoly (QuadSpace N) quadInt quadEdge quadOnS n o ∧
        o.V = modeMatrix (quadPairs N) quadMode n.r n.s ∧ toMat o.Vinv n.r.length n.r.length * toMat o.V n.r.length n.r.length = 1) := by
  rcases C74_quadrilateral la hla eps he0 he1 tol ht N hN with h | ⟨x, hx, hinc, hub, hok⟩
  · left
    refine ⟨by unfold quadElement; rw [h]; rfl, ?_⟩
    rintro ⟨x, hx⟩
    rcases C74_quadrilateral la hla eps he0 he1 tol ht N hN with h' | ⟨x', hx', -, hub, hok⟩
    · -- the Gauss-Lobatto points exist, so the node construction does not throw
      unfold quadRefNodes at h
      rw [hx] at h
      simp only [uncaught, Out.bind_ok] at h
      revert h
      simp only [faceMask_eq]
      intro h
      split_ifs at h <;> simp at h
    · rcases lt_or_ge (x'.getD 1 0 + 1) tol with h1 | h1
      · rw [hub h1] at h; cases h
      · obtain ⟨n, h2, -⟩ := hok h1
        rw [h2] at h; cases h
  · right
    refine ⟨x, hx, ?_, ?_⟩
    · intro h; unfold quadElement; rw [hub h]; rfl
    · intro h
      obtain ⟨n, hn, hl, -, hrs, hm⟩ := hok h
      have hF := quad_faces hinc hm
      have hu := quad_unisolvent N n.r n.s (fun i => x.getD i 0) (fun i => x.getD i 0) (fun i j h1 h2 => (hinc i j h1 h2).ne) (fun i j h1 h2 => (hinc i j h1 h2).ne) hl hrs
      rcases refOps (quadModal N) la hla N 4 n.mask quadOnS quadEdge n.r n.s (by rw [hl]; positivity) hF (quadTrace N) (by rw [quadPairs_length, hl])
        (fun _ _ => trivial) with ⟨h1, -⟩ | ⟨-, o, h1, h2, h3, h4, h5, h6⟩
      · exact absurd hu h1
      · refine ⟨n, o, ?_, hl, hm, ⟨h2, liftSpec_congr (fun f j hj => faceCoords_getD N _ _ _ _ _ _ hj) h3, h4⟩, h5, h6⟩
        unfold quadElement
        rw [hn]
        simp only [Out.bind_ok, h1]
        rfl

/-- **C47, C71, triangles, part.** For every order `N ≥ 1`: if the reference nodes are built (see `C74_triangle`) and none but the top vertex lies on the line `s = 1` (in particular if all lie in
the triangle), then either the nodes do not determine the polynomials of degree `N` and the construction throws, or it succeeds and the operators are exact on all polynomials of
total degree `N`.  (`C47_triangle_built` removes the condition.) -/
theorem C47_triangle_regular (la : Lapack) (hla : la.Ok) (eps : ℝ) (he0 : 0 < eps) (he1 : eps ≤ 0.1) (ztol tol : ℝ) (h0 : 0 < ztol) (ht : 0 < tol) (N : ℕ) (hN : 1 ≤ N)
    (hz : ztol < 2 / N) (n : RefNodes) (hn : triRefNodes la eps ztol tol N = .ok n) (hr : AllReg Regular n.r n.s) :
    (¬ IsUnit (toMat (modeMatrix (triPairs N) triMode n.r n.s) n.r.length n.r.length) ∧ triElement la eps ztol tol N = .throws) ∨
    ∃ o, triElement la eps ztol tol N = .ok (n, o) ∧ n.r.length = (N + 1) * (N + 2) / 2 ∧
      ElementSpec N 3 (triPairs N) triPoly (TriSpace N) triInt triEdge triOnS n o ∧
      o.V = modeMatrix (triPairs N) triMode n.r n.s ∧ toMat o.Vinv n.r.length n.r.length * toMat o.V n.r.length n.r.length = 1 := by
  rcases C74_triangle la hla eps he0 he1 ztol tol h0 ht N hN hz with h | ⟨x, hx, r, s, hrl, hsl, -, ⟨h, -⟩ | ⟨n', h, rfl, rfl, hm⟩⟩
  · rw [h] at hn; cases hn
  · rw [h] at hn; cases hn
  rw [h] at hn
  obtain rfl : n' = n := by injection hn
  have hinc : ∀ i j : ℕ, i < j → j ≤ N → x.getD i 0 < x.getD j 0 := by
    have hg := Jacobi.C70_gauss_lobatto la.query la.dsyevd hla.syevd 0 eps he0 he1 N hN (List.replicate (N + 1) 0) (by simp)
    simp only [Nat.cast_zero] at hg
    unfold IsGLL at hx
    rcases hg with ⟨x', hx'⟩ | ⟨x', hx', -, -, -, hinc, -⟩
    · rw [hx'] at hx; simp at hx
    · rw [hx'] at hx
      obtain rfl : x' = x := by simpa using hx
      exact hinc
  have hF := tri_faces hinc hm
  have hpos : 0 < n'.r.length := lt_of_le_of_lt (Nat.zero_le _) (hF.lt 0 (by omega) 0 (by omega))
  rcases refOps (triModal N) la hla N 3 n'.mask triOnS triEdge n'.r n'.s hpos hF (triTrace N) (by rw [triPairs_length, hrl]; rfl) hr
    with ⟨h1, h2⟩ | ⟨-, o, h1, h2, h3, h4, h5, h6⟩
  · left
    refine ⟨h1, ?_⟩
    unfold triElement
    rw [h]
    simp only [Out.bind_ok, h2]
    rfl
  · right
    refine ⟨o, ?_, hrl, ⟨h2, liftSpec_congr (fun f j hj => faceCoords_getD N _ _ _ _ _ _ hj) h3, h4⟩, h5, h6⟩
    unfold triElement
    rw [h]
    simp only [Out.bind_ok, h1]
    rfl

/-- The row of the Vandermonde matrix of a node on the line `s = 1` is that of the top vertex, so if the matrix is invertible no node but the top vertex lies on that line. -/
theorem regular_of_unit (N : ℕ) (r s : List ℝ) (hu : IsUnit (toMat (modeMatrix (triPairs N) triMode r s) r.length r.length)) (t : ℕ) (ht : t < r.length)
    (htop : r.getD t 0 = -1 ∧ s.getD t 0 = 1) : AllReg Regular r s := by
  intro k hk
  by_cases h : s.getD k 0 = 1
  swap
  · exact Or.inl h
  by_cases hkt : k = t
  · subst hkt; exact Or.inr htop
  exfalso
  have hrow : toMat (modeMatrix (triPairs N) triMode r s) r.length r.length ⟨k, hk⟩ = toMat (modeMatrix (triPairs N) triMode r s) r.length r.length ⟨t, ht⟩ := by
    funext j
    show triMode _ (r.getD k 0) (s.getD k 0) = triMode _ (r.getD t 0) (s.getD t 0)
    unfold triMode rsToa
    rw [h, htop.2]
    simp
  rw [Matrix.isUnit_iff_isUnit_det, Matrix.det_zero_of_row_eq (fun e => hkt (Fin.mk.inj e)) hrow] at hu
  exact not_isUnit_zero hu

/-- **C47, C71, triangles of every order.** For every order `N ≥ 1` for which the reference nodes are built (see `C74_triangle`): either the nodes do not determine the polynomials of degree `N`
and the construction throws, or it succeeds and the operators are exact on all polynomials of total degree `N`.  No condition on where the nodes lie: a node other than the top vertex on the line
`s = 1`, where the collapsed coordinates are singular, makes the Vandermonde matrix singular.  (That the warp-and-blend nodes determine the polynomials for every `N` is an open mathematical question;
for `N ≤ 5` see `C47_triangle_low`.) -/
theorem C47_triangle_built (la : Lapack) (hla : la.Ok) (eps : ℝ) (he0 : 0 < eps) (he1 : eps ≤ 0.1) (ztol tol : ℝ) (h0 : 0 < ztol) (ht : 0 < tol) (N : ℕ) (hN : 1 ≤ N)
    (hz : ztol < 2 / N) (n : RefNodes) (hn : triRefNodes la eps ztol tol N = .ok n) :
    (¬ IsUnit (toMat (modeMatrix (triPairs N) triMode n.r n.s) n.r.length n.r.length) ∧ triElement la eps ztol tol N = .throws) ∨
    ∃ o, triElement la eps ztol tol N = .ok (n, o) ∧ n.r.length = (N + 1) * (N + 2) / 2 ∧ AllReg Regular n.r n.s ∧
      ElementSpec N 3 (triPairs N) triPoly (TriSpace N) triInt triEdge triOnS n o ∧
      o.V = modeMatrix (triPairs N) triMode n.r n.s ∧ toMat o.Vinv n.r.length n.r.length * toMat o.V n.r.length n.r.length = 1 := by
  have hn0 := hn
  rcases C74_triangle la hla eps he0 he1 ztol tol h0 ht N hN hz with h | ⟨x, hx, r, s, hrl, hsl, -, ⟨h, -⟩ | ⟨n', h, rfl, rfl, hm⟩⟩
  · rw [h] at hn; cases hn
  · rw [h] at hn; cases hn
  rw [h] at hn
  obtain rfl : n' = n := by injection hn
  obtain ⟨hp1, hinc⟩ : x.getD N 0 = 1 ∧ ∀ i j : ℕ, i < j → j ≤ N → x.getD i 0 < x.getD j 0 := by
    have hg := Jacobi.C70_gauss_lobatto la.query la.dsyevd hla.syevd 0 eps he0 he1 N hN (List.replicate (N + 1) 0) (by simp)
    simp only [Nat.cast_zero] at hg
    unfold IsGLL at hx
    rcases hg with ⟨x', hx'⟩ | ⟨x', hx', -, -, hp1, hinc, -⟩
    · rw [hx'] at hx; simp at hx
    · rw [hx'] at hx
      obtain rfl : x' = x := by simpa using hx
      exact ⟨hp1, hinc⟩
  by_cases hu : IsUnit (toMat (modeMatrix (triPairs N) triMode n'.r n'.s) n'.r.length n'.r.length)
  · have htop := Prod.mk.inj (hm.pt 2 (by omega) N (le_refl _))
    simp only [hp1] at htop
    have hreg : AllReg Regular n'.r n'.s := regular_of_unit N _ _ hu _ (hm.lt 2 (by omega) N (le_refl _)) (by simpa using htop)
    rcases C47_triangle_regular la hla eps he0 he1 ztol tol h0 ht N hN hz n' hn0 hreg with ⟨h1, -⟩ | ⟨o, h1, h2, h3⟩
    · exact absurd hu h1
    · exact Or.inr ⟨o, h1, h2, hreg, h3⟩
  · left
    refine ⟨hu, ?_⟩
    have hF := tri_faces hinc hm
    obtain ⟨M, hM⟩ : ∃ M : ℕ → DMat ℝ, ∀ f < 3, edgeMass la (faceCoords (N + 1) n'.mask triOnS n'.r n'.s f) = .ok (M f) := by
      have hm : ∀ f, ∃ M, f < 3 → edgeMass la (faceCoords (N + 1) n'.mask triOnS n'.r n'.s f) = .ok M := by
        intro f
        by_cases hf : f < 3
        · obtain ⟨M, h1, -⟩ := edgeMass_ok la hla N _ (by simp [faceCoords]) (hF.distinct f hf)
          exact ⟨M, fun _ => h1⟩
        · exact ⟨fresh 0 0, fun h => absurd h hf⟩
      choose M hM using hm
      exact ⟨M, hM⟩
    have hinj : ∀ f < 3, ∀ i < N + 1, ∀ j < N + 1, n'.mask i f = n'.mask j f → i = j := by
      intro f hf i hi j hj e
      have e' : (faceCoords (N + 1) n'.mask triOnS n'.r n'.s f).getD i 0 = (faceCoords (N + 1) n'.mask triOnS n'.r n'.s f).getD j 0 := by
        rw [faceCoords_getD N _ _ _ _ _ _ (by omega), faceCoords_getD N _ _ _ _ _ _ (by omega), e]
      rcases Nat.lt_trichotomy i j with h' | h' | h'
      · exact absurd e' (hF.distinct f hf i j h' (by omega))
      · exact h'
      · exact absurd e'.symm (hF.distinct f hf j i h' (by omega))
    obtain ⟨E, hE, -⟩ := faceMatrix_ok la 3 (N + 1) n'.r.length n'.mask triOnS n'.r n'.s M hM hinj
    unfold triElement buildRefOps
    rw [hn0]
    simp only [Out.bind_ok, hE]
    rw [invertInto_throws la hla (modeMatrix (triPairs N) triMode n'.r n'.s) n'.r.length ⟨rfl, by rw [show (modeMatrix (triPairs N) triMode n'.r n'.s).cols = (triPairs N).length from rfl, triPairs_length, hrl]; rfl⟩ hu]
    rfl

/-! ### Geometry with these operators -/

theorem exactLinear_of_diff {Space : P2 → Prop} {I : (ℝ → ℝ → ℝ) → ℝ} {r s : List ℝ} {d : Diff} (h : DiffSpec Space I r s d) (h1 : Space 1) (hx : Space (X 0)) (hy : Space (X 1)) :
    ExactLinear (toMat d.Dr r.length r.length) (toMat d.Ds r.length r.length) (fun i => r.getD i 0) (fun i => s.getD i 0) := by
  have key : ∀ (D : DMat ℝ) (i : Fin r.length) (p : P2), (toMat D r.length r.length).mulVec (fun j => nodal r s p j) i
      = ∑ j ∈ Finset.range r.length, D.at' i j * nodal r s p j := by
    intro D i p
    rw [Finset.sum_range]; rfl
  have e1 : (fun _ : Fin r.length => (1 : ℝ)) = fun j : Fin r.length => nodal r s 1 j := by funext j; simp [nodal]
  have ex : (fun j : Fin r.length => r.getD j 0) = fun j : Fin r.length => nodal r s (X 0) j := by funext j; simp [nodal]
  have ey : (fun j : Fin r.length => s.getD j 0) = fun j : Fin r.length => nodal r s (X 1) j := by funext j; simp [nodal]
  have n01 : (0 : Fin 2) ≠ 1 := by decide
  constructor
  · rw [e1]; funext i; rw [key, h.dr 1 h1 i i.2]; simp [nodal]
  · rw [ex]; funext i; rw [key, h.dr _ hx i i.2]; simp [nodal]
  · rw [ey]; funext i; rw [key, h.dr _ hy i i.2, pderiv_X_of_ne n01.symm]; simp [nodal]
  · rw [e1]; funext i; rw [key, h.ds 1 h1 i i.2]; simp [nodal]
  · rw [ex]; funext i; rw [key, h.ds _ hx i i.2, pderiv_X_of_ne n01]; simp [nodal]
  · rw [ey]; funext i; rw [key, h.ds _ hy i i.2]; simp [nodal]

theorem exactBilinear_of_diff {Space : P2 → Prop} {I : (ℝ → ℝ → ℝ) → ℝ} {r s : List ℝ} {d : Diff} (h : DiffSpec Space I r s d) (h1 : Space 1) (hx : Space (X 0)) (hy : Space (X 1))
    (hxy : Space (X 0 * X 1)) :
    ExactBilinear (toMat d.Dr r.length r.length) (toMat d.Ds r.length r.length) (fun i => r.getD i 0) (fun i => s.getD i 0) := by
  have key : ∀ (D : DMat ℝ) (i : Fin r.length) (p : P2), (toMat D r.length r.length).mulVec (fun j => nodal r s p j) i
      = ∑ j ∈ Finset.range r.length, D.at' i j * nodal r s p j := by
    intro D i p
    rw [Finset.sum_range]; rfl
  have exy : (fun j : Fin r.length => r.getD j 0 * s.getD j 0) = fun j : Fin r.length => nodal r s (X 0 * X 1) j := by funext j; simp [nodal]
  have n01 : (0 : Fin 2) ≠ 1 := by decide
  refine { exactLinear_of_diff h h1 hx hy with rrs := ?_, srs := ?_ }
  · rw [exy]; funext i; rw [key, h.dr _ hxy i i.2]
    simp [nodal, Derivation.leibniz, pderiv_X_of_ne n01.symm]
  · rw [exy]; funext i; rw [key, h.ds _ hxy i i.2]
    simp [nodal, Derivation.leibniz, pderiv_X_of_ne n01]

theorem tri_low (N : ℕ) (hN : 1 ≤ N) : TriSpace N 1 ∧ TriSpace N (X 0) ∧ TriSpace N (X 1) := by
  refine ⟨?_, ?_, ?_⟩
  · unfold TriSpace; rw [totalDegree_one]; omega
  · unfold TriSpace; rw [totalDegree_X]; omega
  · unfold TriSpace; rw [totalDegree_X]; omega

theorem quad_low (N : ℕ) (hN : 1 ≤ N) : QuadSpace N 1 ∧ QuadSpace N (X 0) ∧ QuadSpace N (X 1) ∧ QuadSpace N (X 0 * X 1) := by
  have hX : ∀ i k : Fin 2, (X i : P2).degreeOf k ≤ if k = i then 1 else 0 := by
    intro i k; rw [degreeOf_X]
  refine ⟨?_, ?_, ?_, ?_⟩
  · intro k; rw [degreeOf_one]; omega
  · intro k; exact (hX 0 k).trans (by split_ifs <;> omega)
  · intro k; exact (hX 1 k).trans (by split_ifs <;> omega)
  · intro k
    refine (degreeOf_mul_le _ _ _).trans ?_
    have h0 := hX 0 k
    have h1 := hX 1 k
    fin_cases k <;> simp at h0 h1 ⊢ <;> omega

/-- **C42, triangles, with the operators of the code.** The differentiation matrices of a built triangle element satisfy the hypotheses of `C42_tri` and `C43_tri`. -/
theorem C42_tri_built {N : ℕ} (hN : 1 ≤ N) {n : RefNodes} {o : RefOps} (h : ElementSpec N 3 (triPairs N) triPoly (TriSpace N) triInt triEdge triOnS n o) :
    ExactLinear (toMat o.d.Dr n.r.length n.r.length) (toMat o.d.Ds n.r.length n.r.length) (fun i => n.r.getD i 0) (fun i => n.s.getD i 0) :=
  exactLinear_of_diff h.diff (tri_low N hN).1 (tri_low N hN).2.1 (tri_low N hN).2.2

/-- **C42, quadrilaterals, with the operators of the code.** -/
theorem C42_quad_built {N : ℕ} (hN : 1 ≤ N) {n : RefNodes} {o : RefOps} (h : ElementSpec N 4 (quadPairs N) quadPoly (QuadSpace N) quadInt quadEdge quadOnS n o) :
    ExactBilinear (toMat o.d.Dr n.r.length n.r.length) (toMat o.d.Ds n.r.length n.r.length) (fun i => n.r.getD i 0) (fun i => n.s.getD i 0) :=
  exactBilinear_of_diff h.diff (quad_low N hN).1 (quad_low N hN).2.1 (quad_low N hN).2.2.1 (quad_low N hN).2.2.2

/-! ### Interpolation (C46) -/

/-- The interpolation matrix is exact: it turns nodal values of a polynomial of the space into its values at the output points. -/
def InterpSpec (Space : P2 → Prop) (r s rout sout : List ℝ) (IM : DMat ℝ) : Prop :=
  ∀ p, Space p → ∀ k < rout.length, ∑ j ∈ Finset.range r.length, IM.at' k j * nodal r s p j = nodal rout sout p k

theorem interp_exact {pairs : List (ℕ × ℕ)} {f fr fs : ℕ × ℕ → ℝ → ℝ → ℝ} {Reg : ℝ → ℝ → Prop} {q : ℕ × ℕ → P2} {Space : P2 → Prop} {I : (ℝ → ℝ → ℝ) → ℝ}
    (h : Modal pairs f fr fs Reg q Space I) (r s rout sout : List ℝ) (hp : pairs.length = r.length) (hr : AllReg Reg r s) (ho : AllReg Reg rout sout) (Vinv : DMat ℝ)
    (hV : toMat Vinv r.length r.length * toMat (modeMatrix pairs f r s) r.length r.length = 1) :
    InterpSpec Space r s rout sout (mul (modeMatrix pairs f rout sout) Vinv) := by
  intro p hps k hk
  obtain ⟨c, rfl⟩ := h.coeffs hp hps
  have e : (toMat (mul (modeMatrix pairs f rout sout) Vinv) rout.length r.length).mulVec (fun j => nodal r s (comb pairs q c) j) ⟨k, hk⟩ = nodal rout sout (comb pairs q c) k := by
    have h1 : (fun j : Fin r.length => nodal r s (comb pairs q c) j) = (toMat (modeMatrix pairs f r s) r.length r.length).mulVec c := by
      funext j; exact (h.nodal_comb hr rfl c j).1
    rw [h1, toMat_mul _ _ _ r.length _ (by exact hp), Matrix.mulVec_mulVec, Matrix.mul_assoc, hV, Matrix.mul_one]
    exact ((h.nodal_comb ho rfl c ⟨k, hk⟩).1).symm
  rw [← e, Finset.sum_range]
  rfl

/-- **C46, triangles.** With the inverse Vandermonde matrix of a built element, `computeInterpMatrix` is exact on polynomials of degree `N` at every set of output points inside the
triangle; it changes no state. -/
theorem C46_triangle (N : ℕ) (n : RefNodes) (o : RefOps) (hl : n.r.length = (N + 1) * (N + 2) / 2) (hr : AllReg Regular n.r n.s)
    (hV : o.V = modeMatrix (triPairs N) triMode n.r n.s) (hi : toMat o.Vinv n.r.length n.r.length * toMat o.V n.r.length n.r.length = 1) (rout sout : List ℝ)
    (ho : ∀ k < rout.length, -1 ≤ rout.getD k 0 ∧ rout.getD k 0 + sout.getD k 0 ≤ 0) :
    InterpSpec (TriSpace N) n.r n.s rout sout (triInterp N o.Vinv rout sout) :=
  interp_exact (triModal N) n.r n.s rout sout (by rw [triPairs_length, hl]; rfl) hr (fun k hk => regular_of_mem (ho k hk).1 (ho k hk).2) o.Vinv (hV ▸ hi)

theorem triElement_nodes {la : Lapack} {eps ztol tol : ℝ} {N : ℕ} {n : RefNodes} {o : RefOps} (h : triElement la eps ztol tol N = .ok (n, o)) : triRefNodes la eps ztol tol N = .ok n := by
  unfold triElement at h
  obtain ⟨n', h1, h⟩ := Out.bind_eq_ok.1 h
  obtain ⟨o', -, h⟩ := Out.bind_eq_ok.1 h
  obtain ⟨rfl, -⟩ := Prod.mk.inj (Out.ok.inj h)
  exact h1

/-- What a triangle element has once it is built, at any order. -/
theorem triElement_spec (la : Lapack) (hla : la.Ok) (eps : ℝ) (he0 : 0 < eps) (he1 : eps ≤ 0.1) (ztol tol : ℝ) (h0 : 0 < ztol) (ht : 0 < tol) (N : ℕ) (hN : 1 ≤ N)
    (hz : ztol < 2 / N) (n : RefNodes) (o : RefOps) (h : triElement la eps ztol tol N = .ok (n, o)) :
    n.r.length = (N + 1) * (N + 2) / 2 ∧ AllReg Regular n.r n.s ∧ ElementSpec N 3 (triPairs N) triPoly (TriSpace N) triInt triEdge triOnS n o ∧
      o.V = modeMatrix (triPairs N) triMode n.r n.s ∧ toMat o.Vinv n.r.length n.r.length * toMat o.V n.r.length n.r.length = 1 := by
  rcases C47_triangle_built la hla eps he0 he1 ztol tol h0 ht N hN hz n (triElement_nodes h) with ⟨-, h'⟩ | ⟨o', h', h''⟩
  · rw [h'] at h; cases h
  · rw [h'] at h
    obtain rfl : o' = o := (Prod.mk.inj (Out.ok.inj h)).2
    exact h''

/-- **C46, triangles, after construction.** Whatever the order: on a built element interpolation is exact. -/
theorem C46_triangle_built (la : Lapack) (hla : la.Ok) (eps : ℝ) (he0 : 0 < eps) (he1 : eps ≤ 0.1) (ztol tol : ℝ) (h0 : 0 < ztol) (ht : 0 < tol) (N : ℕ) (hN : 1 ≤ N)
    (hz : ztol < 2 / N) (n : RefNodes) (o : RefOps) (h : triElement la eps ztol tol N = .ok (n, o)) (rout sout : List ℝ)
    (ho : ∀ k < rout.length, -1 ≤ rout.getD k 0 ∧ rout.getD k 0 + sout.getD k 0 ≤ 0) :
    InterpSpec (TriSpace N) n.r n.s rout sout (triInterp N o.Vinv rout sout) := by
  obtain ⟨h1, h2, -, h3, h4⟩ := triElement_spec la hla eps he0 he1 ztol tol h0 ht N hN hz n o h
  exact C46_triangle N n o h1 h2 h3 h4 rout sout ho

/-- **C46 fails for quadrilaterals.** With as many output points as nodes, and whatever the stored inverse was, the returned matrix is the identity - whatever the output points - and the
stored inverse is replaced by that of the output points (or the call throws, if these do not determine the polynomials). -/
theorem C46_quad_identity (la : Lapack) (hla : la.Ok) (N : ℕ) (Vinv : DMat ℝ) (np : ℕ) (hnp : np = (N + 1) * (N + 1)) (hVi : Vinv.rows = np ∧ Vinv.cols = np) (rout sout : List ℝ)
    (hl : rout.length = np) :
    (¬ IsUnit (toMat (modeMatrix (quadPairs N) quadMode rout sout) np np) ∧ quadInterp la N Vinv rout sout = .throws) ∨
    ∃ IM Vinv', quadInterp la N Vinv rout sout = .ok (IM, Vinv') ∧ toMat IM np np = 1 ∧ toMat Vinv' np np * toMat (modeMatrix (quadPairs N) quadMode rout sout) np np = 1 := by
  have hc : (modeMatrix (quadPairs N) quadMode rout sout).cols = np := by rw [hnp]; exact quadPairs_length N
  have hpos : 0 < np := by rw [hnp]; positivity
  unfold quadInterp
  rcases C37_inverse la.dgetrf la.dgetri hla.getri (modeMatrix (quadPairs N) quadMode rout sout) Vinv np ⟨hl, hc⟩ hVi with ⟨X, hX, -, -, e1, e2⟩ | ⟨hX, hu⟩
  · right
    refine ⟨_, _, by simp only [hX, Out.bind_ok, uncaught]; rfl, ?_, e2⟩
    rw [toMat_mul _ _ _ np _ hc, e1]
  · left
    exact ⟨fun h => hu ⟨hpos, h⟩, by simp only [hX, Out.bind_ok, uncaught]; rfl⟩

/-- **C46, fewer output points than nodes:** the buffer of the inverter overflows. -/
theorem C46_quad_short (la : Lapack) (N : ℕ) (Vinv : DMat ℝ) (rout sout : List ℝ) (h0 : 0 < rout.length) (hl : rout.length < (N + 1) * (N + 1)) :
    quadInterp la N Vinv rout sout = .ub := by
  unfold quadInterp computeInverse
  have : Blitz.reshapeMatTo1D (modeMatrix (quadPairs N) quadMode rout sout) (List.replicate ((modeMatrix (quadPairs N) quadMode rout sout).rows *
      (modeMatrix (quadPairs N) quadMode rout sout).rows) 0) false = .ub := by
    apply Blitz.C10_flatten_ub
    rw [List.length_replicate]
    have e1 : (modeMatrix (quadPairs N) quadMode rout sout).rows = rout.length := rfl
    have e2 : (modeMatrix (quadPairs N) quadMode rout sout).cols = (N + 1) * (N + 1) := quadPairs_length N
    rw [e1, e2]
    exact Nat.mul_lt_mul_of_pos_left hl h0
  simp only [this, Out.bind_ub]

/-- **C46, more output points than nodes:** the call throws, as the padded matrix is singular. -/
theorem C46_quad_long (la : Lapack) (hla : la.Ok) (N : ℕ) (Vinv : DMat ℝ) (rout sout : List ℝ) (hl : (N + 1) * (N + 1) < rout.length) :
    quadInterp la N Vinv rout sout = .throws := by
  have e2 : (modeMatrix (quadPairs N) quadMode rout sout).cols = (N + 1) * (N + 1) := quadPairs_length N
  obtain ⟨a, ha, hla', -, hrest⟩ := Blitz.C10_flatten (modeMatrix (quadPairs N) quadMode rout sout) (List.replicate (rout.length * rout.length) 0) false
    (by rw [List.length_replicate, e2]; exact Nat.mul_le_mul_left _ hl.le)
  have hal : a.length = rout.length * rout.length := by rw [hla', List.length_replicate]
  rw [e2] at hrest
  have hrest : ∀ k, rout.length * ((N + 1) * (N + 1)) ≤ k → a[k]? = (List.replicate (rout.length * rout.length) (0 : ℝ))[k]? := hrest
  set n := rout.length with hn
  have hnot : ∀ B : Matrix (Fin n) (Fin n) ℝ, colMat n n a * B ≠ 1 := by
    intro B hB
    have hB' := mul_eq_one_comm.1 hB
    have := congrFun (congrFun hB' ⟨(N + 1) * (N + 1), hl⟩) ⟨(N + 1) * (N + 1), hl⟩
    rw [Matrix.mul_apply, Matrix.one_apply, if_pos rfl] at this
    have hz : ∀ k : Fin n, colMat n n a k ⟨(N + 1) * (N + 1), hl⟩ = 0 := by
      intro k
      have hk : a[(N + 1) * (N + 1) * n + k]? = (List.replicate (n * n) (0 : ℝ))[(N + 1) * (N + 1) * n + k]? := hrest _ (by rw [Nat.mul_comm]; omega)
      simp only [colMat]
      rw [List.getD_eq_getElem?_getD, hk, List.getElem?_replicate]
      split_ifs <;> rfl
    simp only [hz, mul_zero, Finset.sum_const_zero] at this
    exact absurd this (by norm_num)
  have hs := hla.getri.sound n a hal
  have hcall : computeInverse la.dgetrf la.dgetri (modeMatrix (quadPairs N) quadMode rout sout) Vinv = .ok (.threw Vinv) := by
    unfold computeInverse
    rw [show (modeMatrix (quadPairs N) quadMode rout sout).rows = n from rfl, ha]
    simp only [Out.bind_ok]
    by_cases h1 : (la.dgetrf n a).1 < 0
    · rw [if_pos h1]
    rw [if_neg h1]
    by_cases h2 : (la.dgetrf n a).1 > 0
    · rw [if_pos h2]
    rw [if_neg h2]
    by_cases h3 : (la.dgetri n (la.dgetrf n a).2.1 (la.dgetrf n a).2.2).1 < 0
    · rw [if_pos h3]
    rw [if_neg h3]
    by_cases h4 : (la.dgetri n (la.dgetrf n a).2.1 (la.dgetrf n a).2.2).1 > 0
    · rw [if_pos h4]
    exact absurd (hs (by omega) (by omega)) (hnot _)
  unfold quadInterp
  simp only [hcall, Out.bind_ok, uncaught]
  rfl

/-- Hence with as many points as nodes the result is right only where output point and node coincide in every polynomial; e.g. it is wrong for the function `r` at every output point
whose `r`-coordinate differs from that of the node with the same number. -/
theorem C46_quad_wrong (la : Lapack) (hla : la.Ok) (N : ℕ) (hN : 1 ≤ N) (Vinv : DMat ℝ) (hVi : Vinv.rows = (N + 1) * (N + 1) ∧ Vinv.cols = (N + 1) * (N + 1)) (r s rout sout : List ℝ)
    (hr : r.length = (N + 1) * (N + 1)) (hl : rout.length = (N + 1) * (N + 1)) (k : ℕ) (hk : k < rout.length) (hne : rout.getD k 0 ≠ r.getD k 0)
    (IM Vinv' : DMat ℝ) (h : quadInterp la N Vinv rout sout = .ok (IM, Vinv')) : ¬ InterpSpec (QuadSpace N) r s rout sout IM := by
  intro hs
  rcases C46_quad_identity la hla N Vinv _ rfl hVi rout sout hl with ⟨-, h'⟩ | ⟨IM', V', h', hI, -⟩
  · rw [h'] at h; cases h
  rw [h'] at h
  obtain rfl : IM' = IM := by injection h with h; exact (Prod.mk.inj h).1
  have := hs (X 0) (quad_low N hN).2.1 k hk
  rw [Finset.sum_eq_single k] at this
  · have e := congrFun (congrFun hI ⟨k, by omega⟩) ⟨k, by omega⟩
    rw [Matrix.one_apply, if_pos rfl] at e
    simp only [toMat] at e
    rw [e] at this
    simp only [nodal, eval_X, Matrix.cons_val_zero, one_mul] at this
    exact hne this.symm
  · intro j hj hjk
    have hj := Finset.mem_range.1 hj
    have e := congrFun (congrFun hI ⟨k, by omega⟩) ⟨j, by omega⟩
    rw [Matrix.one_apply, if_neg (by intro e; exact hjk (Fin.mk.inj e).symm)] at e
    simp only [toMat] at e
    rw [e, zero_mul]
  · intro hn; exact absurd (Finset.mem_range.2 (by omega)) hn

/-- The output points of `splitElements` for quadrilaterals (src/QuadNodesProvisioner.cpp lines 736-744): equidistant, `r` running fastest. -/
noncomputable def splitPts (N : ℕ) : List ℝ × List ℝ :=
  ((quadPairs N).map fun p => -1 + 2 * (p.2 : ℝ) / N, (quadPairs N).map fun p => -1 + 2 * (p.1 : ℝ) / N)

/-- **Consequence for output.** For every order the matrix with which `splitElements` claims to interpolate to equidistant points is the identity, and the call replaces the stored inverse by
that of the equidistant points. -/
theorem C46_quad_split (la : Lapack) (hla : la.Ok) (N : ℕ) (_hN : 1 ≤ N) (Vinv : DMat ℝ) (np : ℕ) (hnp : np = (N + 1) * (N + 1)) (hVi : Vinv.rows = np ∧ Vinv.cols = np) :
    ∃ IM Vinv', quadInterp la N Vinv (splitPts N).1 (splitPts N).2 = .ok (IM, Vinv') ∧ toMat IM np np = 1 ∧
      toMat Vinv' np np * toMat (modeMatrix (quadPairs N) quadMode (splitPts N).1 (splitPts N).2) np np = 1 := by
  have hl : (splitPts N).1.length = np := by rw [hnp, splitPts, List.length_map, quadPairs_length]
  have hd : ∀ i j : ℕ, i < j → j ≤ N → -1 + 2 * (i : ℝ) / N ≠ -1 + 2 * (j : ℝ) / N := by
    intro i j h hj e
    have := equidistant_distinct N i j h hj
    rw [equidistant_getD N i (by omega), equidistant_getD N j hj] at this
    exact this e
  have hu : IsUnit (toMat (modeMatrix (quadPairs N) quadMode (splitPts N).1 (splitPts N).2) np np) := by
    have := quad_unisolvent' N (splitPts N).1 (splitPts N).2 (fun i => -1 + 2 * (i : ℝ) / N) (fun i => -1 + 2 * (i : ℝ) / N) hd hd (by rw [hl, hnp])
      (fun k => ((quadPairs N).getD k (0, 0)).2) (fun k => ((quadPairs N).getD k (0, 0)).1)
      (by
        intro k hk
        have hk' : k < (quadPairs N).length := by rw [quadPairs_length]; omega
        have hm := mem_quadPairs (getD_mem (quadPairs N) (0, 0) k hk')
        refine ⟨hm.2, hm.1, ?_, ?_⟩
        · rw [splitPts, getD_map' _ _ (0, 0) _ _ hk']
        · rw [splitPts, getD_map' _ _ (0, 0) _ _ hk'])
      (by
        intro k hk l hl' e1 e2
        have hk' : k < (quadPairs N).length := by rw [quadPairs_length]; omega
        have hl'' : l < (quadPairs N).length := by rw [quadPairs_length]; omega
        have e := Prod.ext e2 e1
        rw [List.getD_eq_getElem _ _ hk', List.getD_eq_getElem _ _ hl''] at e
        exact (quadPairs_nodup N).getElem_inj_iff.1 e)
    rw [hl] at this
    exact this
  rcases C46_quad_identity la hla N Vinv np hnp hVi (splitPts N).1 (splitPts N).2 hl with ⟨h, -⟩ | h
  · exact absurd hu h
  · exact h

/-! ### The hypotheses are met -/

open Blitzdg.Nodes1D (exactLapack exactLapack_ok)

theorem exact_gll (eps : ℝ) (h0 : 0 < eps) (h1 : eps ≤ 0.1) (N : ℕ) (hN : 1 ≤ N) : ∃ x, IsGLL exactLapack eps N x := by
  obtain ⟨x', h'⟩ := Jacobi.gll_returns 0 eps h0 h1 N hN (List.replicate (N + 1) 0) (by simp)
  simp only [Nat.cast_zero] at h'
  exact ⟨x', h'⟩

/-- With an exact LAPACK quadrilateral elements of order 1 are built with the tolerance of the code. -/
theorem demo_quad : ∃ n o, quadElement exactLapack (1 / 2 ^ 52) 1e-5 1 = .ok (n, o) ∧
    ElementSpec 1 4 (quadPairs 1) quadPoly (QuadSpace 1) quadInt quadEdge quadOnS n o := by
  rcases C47_quadrilateral exactLapack exactLapack_ok (1 / 2 ^ 52) (by norm_num) (by norm_num) 1e-5 (by norm_num) 1 (le_refl _) with ⟨-, h⟩ | ⟨x, hx, -, h⟩
  · exact absurd (exact_gll _ (by norm_num) (by norm_num) 1 (le_refl _)) h
  · have e : x = [-1, 1] := by
      unfold IsGLL gllPoints at hx
      simp [wr] at hx
      exact hx.symm
    obtain ⟨n, o, h1, -, -, h2, -⟩ := h (by rw [e]; norm_num)
    exact ⟨n, o, h1, h2⟩

/-- ... and triangle elements of order 1. -/
theorem demo_tri : ∃ n o, triElement exactLapack (1 / 2 ^ 52) 1e-10 1e-5 1 = .ok (n, o) ∧
    ElementSpec 1 3 (triPairs 1) triPoly (TriSpace 1) triInt triEdge triOnS n o ∧ n.r.length = 3 ∧ AllReg Regular n.r n.s ∧
    (n.r.getD 0 0 = -1 ∧ n.s.getD 0 0 = -1) ∧ (n.r.getD 1 0 = 1 ∧ n.s.getD 1 0 = -1) ∧ (n.r.getD 2 0 = -1 ∧ n.s.getD 2 0 = 1) := by
  rcases C74_triangle exactLapack exactLapack_ok (1 / 2 ^ 52) (by norm_num) (by norm_num) 1e-10 1e-5 (by norm_num) (by norm_num) 1 (le_refl _) (by norm_num) with
    h | ⟨x, hx, r, s, hrl, hsl, hp, h⟩
  · exfalso
    obtain ⟨x, hx⟩ := exact_gll (1 / 2 ^ 52) (by norm_num) (by norm_num) 1 (le_refl _)
    have e : x = [-1, 1] := by
      have hx' := hx
      unfold IsGLL gllPoints at hx'
      simp [wr] at hx'
      exact hx'.symm
    subst e
    obtain ⟨xy, hxy, -⟩ := equilateral_ok exactLapack exactLapack_ok (1 / 2 ^ 52) 1e-10 (by norm_num) 1 (le_refl _) (by norm_num) _ hx (by norm_num) (by norm_num)
      (by intro i hi; interval_cases i <;> norm_num)
    unfold triRefNodes at h
    rw [hxy] at h
    simp only [Out.bind_ok, faceMask_eq] at h
    split_ifs at h <;> simp at h
  have e : x = [-1, 1] := by
    have hx' := hx
    unfold IsGLL gllPoints at hx'
    simp [wr] at hx'
    exact hx'.symm
  subst e
  have p0 : (r.getD 0 0, s.getD 0 0) = (-1, -1) := hp 0 (by omega) 0 (by omega) 0 (by decide) (by decide)
  have p1 : (r.getD 1 0, s.getD 1 0) = (1, -1) := hp 0 (by omega) 1 (by omega) 1 (by decide) (by decide)
  have p2 : (r.getD 2 0, s.getD 2 0) = (-1, 1) := hp 2 (by omega) 1 (by omega) 2 (by decide) (by decide)
  have p0 := Prod.mk.inj p0
  have p1 := Prod.mk.inj p1
  have p2 := Prod.mk.inj p2
  have hl3 : r.length = 3 := hrl
  rcases h with ⟨-, f, hf, k, hk, hd, ho⟩ | ⟨n, hn, rfl, rfl, hm⟩
  · exfalso
    rw [hl3] at hk
    interval_cases f <;> interval_cases k <;> simp only [p0, p1, p2] at hd <;>
      first
        | (norm_num [triFaceDist] at hd; done)
        | (revert ho; decide)
  have hreg : AllReg Regular n.r n.s := by
    intro k hk
    rw [hl3] at hk
    apply regular_of_mem <;> interval_cases k <;> simp only [p0, p1, p2] <;> norm_num
  have hu : IsUnit (toMat (modeMatrix (triPairs 1) triMode n.r n.s) n.r.length n.r.length) := by
    apply unit_of_basis (triModal 1) n.r n.s (by rw [hl3]; rfl) hreg
    intro i hi
    rw [hl3] at hi ⊢
    obtain ⟨t1, t2, t3⟩ := tri_low 1 (le_refl _)
    have hc : ∀ a b c : ℝ, TriSpace 1 (C a * X 0 + C b * X 1 + C c) := by
      intro a b c
      unfold TriSpace
      refine (totalDegree_add _ _).trans (max_le ((totalDegree_add _ _).trans (max_le ?_ ?_)) ?_)
      · exact (totalDegree_mul _ _).trans (by rw [totalDegree_C, totalDegree_X])
      · exact (totalDegree_mul _ _).trans (by rw [totalDegree_C, totalDegree_X])
      · rw [totalDegree_C]; omega
    interval_cases i
    · refine ⟨_, hc (-1 / 2) (-1 / 2) 0, ?_⟩
      intro j hj
      interval_cases j <;> simp only [nodal, p0, p1, p2] <;> norm_num
    · refine ⟨_, hc (1 / 2) 0 (1 / 2), ?_⟩
      intro j hj
      interval_cases j <;> simp only [nodal, p0, p1, p2] <;> norm_num
    · refine ⟨_, hc 0 (1 / 2) (1 / 2), ?_⟩
      intro j hj
      interval_cases j <;> simp only [nodal, p0, p1, p2] <;> norm_num
  rcases C47_triangle_regular exactLapack exactLapack_ok (1 / 2 ^ 52) (by norm_num) (by norm_num) 1e-10 1e-5 (by norm_num) (by norm_num) 1 (le_refl _) (by norm_num) n hn hreg
    with ⟨h, -⟩ | ⟨o, h, -, h2, -⟩
  · exact absurd hu h
  · exact ⟨n, o, h, h2, hl3, hreg, p0, p1, p2⟩

/-- `C46_quad_wrong` is not vacuous: for bilinear elements, interpolation to the four points `(±1/2, ±1/2)` returns and is wrong. -/
theorem demo_interp_wrong : ∃ IM Vinv', quadInterp exactLapack 1 (fresh 4 4) [-1 / 2, -1 / 2, 1 / 2, 1 / 2] [-1 / 2, 1 / 2, -1 / 2, 1 / 2] = .ok (IM, Vinv') ∧
    ¬ InterpSpec (QuadSpace 1) [-1, -1, 1, 1] [-1, 1, -1, 1] [-1 / 2, -1 / 2, 1 / 2, 1 / 2] [-1 / 2, 1 / 2, -1 / 2, 1 / 2] IM := by
  have hu := quad_unisolvent 1 [-1 / 2, -1 / 2, 1 / 2, 1 / 2] [-1 / 2, 1 / 2, -1 / 2, 1 / 2] (fun i => if i = 0 then -1 / 2 else 1 / 2) (fun i => if i = 0 then -1 / 2 else 1 / 2)
    (by intro i j h1 h2; obtain rfl : i = 0 := by omega
        obtain rfl : j = 1 := by omega
        norm_num)
    (by intro i j h1 h2; obtain rfl : i = 0 := by omega
        obtain rfl : j = 1 := by omega
        norm_num) rfl
    (by intro j hj i hi; interval_cases j <;> interval_cases i <;> norm_num)
  rcases C46_quad_identity exactLapack exactLapack_ok 1 (fresh 4 4) 4 rfl ⟨rfl, rfl⟩ [-1 / 2, -1 / 2, 1 / 2, 1 / 2] [-1 / 2, 1 / 2, -1 / 2, 1 / 2] rfl with ⟨h, -⟩ | ⟨IM, V', h, -⟩
  · exact absurd hu h
  · refine ⟨IM, V', h, ?_⟩
    exact C46_quad_wrong exactLapack exactLapack_ok 1 (le_refl _) (fresh 4 4) ⟨rfl, rfl⟩ [-1, -1, 1, 1] [-1, 1, -1, 1] _ _ rfl rfl 0 (by norm_num) (by norm_num) IM V' h

end Blitzdg.DG2D
