import Verif.DG2D.ElementProps

/-! Warp-and-blend nodes of a triangle determine the polynomials: reduction to the interior nodes, for every order. -/

namespace Blitzdg.DG2D

open MvPolynomial
open Blitzdg.Dense (toMat)
open Blitzdg.Jacobi (before)

section
variable {pairs : List (ℕ × ℕ)} {f fr fs : ℕ × ℕ → ℝ → ℝ → ℝ} {Reg : ℝ → ℝ → Prop} {q : ℕ × ℕ → P2} {Space : P2 → Prop} {I : (ℝ → ℝ → ℝ) → ℝ}

/-- If for every node the space contains a function that does not vanish there and vanishes at all other nodes of the same or lower rank, the Vandermonde matrix is invertible. -/
theorem unit_of_ranked (h : Modal pairs f fr fs Reg q Space I) (r s : List ℝ) (hp : pairs.length = r.length) (hr : AllReg Reg r s) (rank : ℕ → ℕ)
    (hL : ∀ i < r.length, ∃ p, Space p ∧ nodal r s p i ≠ 0 ∧ ∀ j < r.length, j ≠ i → rank j ≤ rank i → nodal r s p j = 0) :
    IsUnit (toMat (modeMatrix pairs f r s) r.length r.length) := by
  have hc : ∀ i : Fin r.length, ∃ c : Fin r.length → ℝ, (toMat (modeMatrix pairs f r s) r.length r.length).mulVec c i ≠ 0 ∧
      ∀ j : Fin r.length, j ≠ i → rank j ≤ rank i → (toMat (modeMatrix pairs f r s) r.length r.length).mulVec c j = 0 := by
    intro i
    obtain ⟨p, hps, hpn, hpz⟩ := hL i i.2
    obtain ⟨c, rfl⟩ := h.coeffs hp hps
    refine ⟨c, ?_, fun j hj hr' => ?_⟩
    · rw [← (h.nodal_comb hr rfl c i).1]; exact hpn
    · rw [← (h.nodal_comb hr rfl c j).1]; exact hpz j j.2 (fun e => hj (Fin.ext e)) hr'
  choose c hc0 hcz using hc
  set V := toMat (modeMatrix pairs f r s) r.length r.length with hV
  set A : Matrix (Fin r.length) (Fin r.length) ℝ := V * (Matrix.of fun k i => c i k) with hA
  have hAe : ∀ j i, A j i = V.mulVec (c i) j := fun j i => by rw [hA, Matrix.mul_apply]; rfl
  have hinj : Function.Injective A.mulVec := by
    refine (injective_iff_map_eq_zero A.mulVecLin).2 ?_
    intro d hd
    have hd : A.mulVec d = 0 := hd
    have key : ∀ m, ∀ k : Fin r.length, rank k = m → d k = 0 := by
      intro m
      induction m using Nat.strong_induction_on with
      | _ m ih =>
        intro k hk
        have e := congrFun hd k
        rw [Matrix.mulVec, dotProduct, Finset.sum_eq_single k] at e
        · rw [hAe] at e
          exact (mul_eq_zero.1 e).resolve_left (hc0 k)
        · intro l _ hlk
          rcases lt_or_ge (rank l) m with h1 | h1
          · rw [ih _ h1 l rfl, mul_zero]
          · rw [hAe, hcz l k (fun e => hlk e.symm) (by omega), zero_mul]
        · intro hn; exact absurd (Finset.mem_univ _) hn
    funext k
    exact key _ k rfl
  have hu := Matrix.mulVec_injective_iff_isUnit.1 hinj
  rw [Matrix.isUnit_iff_isUnit_det, hA, Matrix.det_mul] at hu
  exact (Matrix.isUnit_iff_isUnit_det _).2 (isUnit_of_mul_isUnit_left hu)

end

/-! ### Barycentric coordinates -/

noncomputable def bary1 : P2 := C (-1 / 2) * (X 0 + X 1)
noncomputable def bary2 : P2 := C (1 / 2) * (X 0 + 1)
noncomputable def bary3 : P2 := C (1 / 2) * (X 1 + 1)

theorem ev_bary (r s : ℝ) : ev r s bary1 = -(r + s) / 2 ∧ ev r s bary2 = (r + 1) / 2 ∧ ev r s bary3 = (s + 1) / 2 := by
  unfold bary1 bary2 bary3
  refine ⟨?_, ?_, ?_⟩ <;> simp <;> ring

theorem deg_lin (c : ℝ) (p q : P2) (hp : p.totalDegree ≤ 1) (hq : q.totalDegree ≤ 1) : (C c * (p + q)).totalDegree ≤ 1 := by
  refine (totalDegree_mul _ _).trans ?_
  rw [totalDegree_C, Nat.zero_add]
  exact (totalDegree_add _ _).trans (max_le hp hq)

theorem deg_X (i : Fin 2) : (X i : P2).totalDegree ≤ 1 := by rw [totalDegree_X]
theorem deg_one : (1 : P2).totalDegree ≤ 1 := by rw [totalDegree_one]; omega

theorem deg_bary : bary1.totalDegree ≤ 1 ∧ bary2.totalDegree ≤ 1 ∧ bary3.totalDegree ≤ 1 :=
  ⟨deg_lin _ _ _ (deg_X 0) (deg_X 1), deg_lin _ _ _ (deg_X 0) deg_one, deg_lin _ _ _ (deg_X 1) deg_one⟩

theorem deg_embed (i : Fin 2) (g : Polynomial ℝ) : (Polynomial.aeval (X i : P2) g).totalDegree ≤ g.natDegree := by
  rw [Polynomial.aeval_eq_sum_range]
  refine totalDegree_finsetSum_le fun j hj => ?_
  have hj := Finset.mem_range.1 hj
  rw [smul_eq_C_mul]
  refine (totalDegree_mul _ _).trans ?_
  rw [totalDegree_C, Nat.zero_add]
  refine (totalDegree_pow _ _).trans ?_
  rw [totalDegree_X]
  omega

theorem deg_mul {p q : P2} {a b : ℕ} (hp : p.totalDegree ≤ a) (hq : q.totalDegree ≤ b) : (p * q).totalDegree ≤ a + b :=
  (totalDegree_mul _ _).trans (Nat.add_le_add hp hq)

/-- Lagrange functions at the inner ones of `N + 1` points. -/
theorem inner_lag (N : ℕ) (x : ℕ → ℝ) (hx : ∀ i j : ℕ, i < j → j ≤ N → x i < x j) (i : ℕ) (h0 : 0 < i) (hi : i < N) :
    ∃ g : Polynomial ℝ, g.natDegree ≤ N - 2 ∧ g.eval (x i) = 1 ∧ ∀ j, 0 < j → j < N → j ≠ i → g.eval (x j) = 0 := by
  obtain ⟨g, h1, h2⟩ := lag_basis (N - 2) (fun j => x (j + 1)) (fun a b hab hb => (hx (a + 1) (b + 1) (by omega) (by omega)).ne) (i - 1) (by omega)
  refine ⟨g, h1, ?_, ?_⟩
  · have := h2 (i - 1) (by omega)
    simp only [if_true] at this
    rwa [show i - 1 + 1 = i by omega] at this
  · intro j hj0 hj hji
    have := h2 (j - 1) (by omega)
    rw [if_neg (by omega)] at this
    rwa [show j - 1 + 1 = j by omega] at this

/-- Lattice points that lie on no face. -/
def Inner (N : ℕ) (p : ℕ × ℕ) : Prop := 0 < p.1 ∧ 0 < p.2 ∧ p.1 + p.2 < N

instance (N : ℕ) (p : ℕ × ℕ) : Decidable (Inner N p) := by unfold Inner; infer_instance

/-- The rank of a node: vertex, edge, interior. -/
def nodeRank (N : ℕ) (p : ℕ × ℕ) : ℕ := if p = (0, 0) ∨ p = (0, N) ∨ p = (N, 0) then 0 else if Inner N p then 2 else 1

/-- **Reduction.** If the nodes on the faces are at increasing points from -1 to 1, and the nodes inside are off the faces and determine the polynomials of degree `N - 3`, then
all nodes determine the polynomials of degree `N`. -/
theorem tri_unisolvent (N : ℕ) (hN : 1 ≤ N) (r s : List ℝ) (hl : (triPairs N).length = r.length) (x : ℕ → ℝ) (hm1 : x 0 = -1) (hp1 : x N = 1)
    (hinc : ∀ i j : ℕ, i < j → j ≤ N → x i < x j) (hr : AllReg Regular r s)
    (hpos : ∀ k < r.length, ∀ p, (triPairs N).getD k (0, 0) = p → (p.1 = 0 → r.getD k 0 = x p.2 ∧ s.getD k 0 = -1) ∧
      (p.1 + p.2 = N → r.getD k 0 = -x p.1 ∧ s.getD k 0 = x p.1) ∧ (p.2 = 0 → r.getD k 0 = -1 ∧ s.getD k 0 = x p.1))
    (hoff : ∀ k < r.length, Inner N ((triPairs N).getD k (0, 0)) → r.getD k 0 ≠ -1 ∧ s.getD k 0 ≠ -1 ∧ r.getD k 0 + s.getD k 0 ≠ 0)
    (hin : ∀ k < r.length, Inner N ((triPairs N).getD k (0, 0)) → ∃ ψ : P2, ψ.totalDegree ≤ N - 3 ∧ nodal r s ψ k ≠ 0 ∧
      ∀ j < r.length, Inner N ((triPairs N).getD j (0, 0)) → j ≠ k → nodal r s ψ j = 0) :
    IsUnit (toMat (modeMatrix (triPairs N) triMode r s) r.length r.length) := by
  have hinj : ∀ j < r.length, ∀ k < r.length, j ≠ k → (triPairs N).getD j (0, 0) ≠ (triPairs N).getD k (0, 0) := by
    intro j hj k hk hjk e
    rw [List.getD_eq_getElem _ _ (by omega), List.getD_eq_getElem _ _ (by omega)] at e
    exact hjk ((triPairs_nodup N).getElem_inj_iff.1 e)
  have hmem : ∀ k < r.length, ((triPairs N).getD k (0, 0)).1 + ((triPairs N).getD k (0, 0)).2 ≤ N := fun k hk => mem_triPairs.1 (getD_mem _ _ k (by omega))
  apply unit_of_ranked (triModal N) r s hl hr fun k => nodeRank N ((triPairs N).getD k (0, 0))
  intro k hk
  obtain ⟨b1, b2, b3⟩ := deg_bary
  -- what is needed, in terms of lattice points
  have main : ∀ p, (triPairs N).getD k (0, 0) = p → ∃ φ : P2, φ.totalDegree ≤ N ∧ nodal r s φ k ≠ 0 ∧ ∀ j < r.length, ∀ p', (triPairs N).getD j (0, 0) = p' → p' ≠ p →
      nodeRank N p' ≤ nodeRank N p → nodal r s φ j = 0 := by
    rintro ⟨a, b⟩ hp
    have hab : a + b ≤ N := by have := hmem k hk; rw [hp] at this; exact this
    have hpk := hpos k hk _ hp
    simp only at hpk
    -- values of the barycentric coordinates at the nodes of a face
    have hv : ∀ j < r.length, ∀ a' b', (triPairs N).getD j (0, 0) = (a', b') → (a' = 0 → ev (r.getD j 0) (s.getD j 0) bary3 = 0) ∧
        (a' + b' = N → ev (r.getD j 0) (s.getD j 0) bary1 = 0) ∧ (b' = 0 → ev (r.getD j 0) (s.getD j 0) bary2 = 0) := by
      intro j hj a' b' e
      have := hpos j hj _ e
      simp only at this
      refine ⟨fun h => ?_, fun h => ?_, fun h => ?_⟩
      · rw [(ev_bary _ _).2.2, (this.1 h).2]; norm_num
      · rw [(ev_bary _ _).1, (this.2.1 h).1, (this.2.1 h).2]; ring
      · rw [(ev_bary _ _).2.1, (this.2.2 h).1]; norm_num
    have hcase : (a, b) = (0, 0) ∨ (a, b) = (0, N) ∨ (a, b) = (N, 0) ∨ (a = 0 ∧ 0 < b ∧ b < N) ∨ (a + b = N ∧ 0 < a ∧ a < N) ∨ (b = 0 ∧ 0 < a ∧ a < N) ∨ Inner N (a, b) := by
      simp only [Prod.mk.injEq, Inner]; omega
    have hrank0 : ∀ p' : ℕ × ℕ, nodeRank N p' ≤ 0 → p' = (0, 0) ∨ p' = (0, N) ∨ p' = (N, 0) := by
      intro p' h
      unfold nodeRank at h
      split_ifs at h with h1 h2
      · exact h1
      · omega
      · omega
    have hrank1 : ∀ p' : ℕ × ℕ, p'.1 + p'.2 ≤ N → nodeRank N p' ≤ 1 → p'.1 = 0 ∨ p'.1 + p'.2 = N ∨ p'.2 = 0 := by
      intro p' hle h
      unfold nodeRank at h
      split_ifs at h with h1 h2
      · rcases h1 with rfl | rfl | rfl <;> simp
      · omega
      · unfold Inner at h2; omega
    rcases hcase with h | h | h | h | h | h | h
    · obtain ⟨rfl, rfl⟩ := Prod.mk.inj h
      refine ⟨bary1, by omega, ?_, ?_⟩
      · have := (hpk.1 rfl)
        rw [nodal, (ev_bary _ _).1, this.1, this.2, hm1]; norm_num
      · intro j hj p' e hne hrk
        rcases hrank0 p' (by simpa [nodeRank] using hrk) with rfl | rfl | rfl
        · exact absurd rfl hne
        · exact ((hv j hj _ _ e).2.1 (by omega))
        · exact ((hv j hj _ _ e).2.1 (by omega))
    · obtain ⟨rfl, rfl⟩ := Prod.mk.inj h
      refine ⟨bary2, by omega, ?_, ?_⟩
      · have := (hpk.1 rfl)
        rw [nodal, (ev_bary _ _).2.1, this.1, hp1]; norm_num
      · intro j hj p' e hne hrk
        rcases hrank0 p' (by simpa [nodeRank] using hrk) with rfl | rfl | rfl
        · exact ((hv j hj _ _ e).2.2 rfl)
        · exact absurd rfl hne
        · exact ((hv j hj _ _ e).2.2 rfl)
    · obtain ⟨rfl, rfl⟩ := Prod.mk.inj h
      refine ⟨bary3, by omega, ?_, ?_⟩
      · have := (hpk.2.2 rfl)
        rw [nodal, (ev_bary _ _).2.2, this.2, hp1]; norm_num
      · intro j hj p' e hne hrk
        rcases hrank0 p' (by simpa [nodeRank] using hrk) with rfl | rfl | rfl
        · exact ((hv j hj _ _ e).1 rfl)
        · exact ((hv j hj _ _ e).1 rfl)
        · exact absurd rfl hne
    · -- bottom edge
      obtain ⟨rfl, hb0, hbN⟩ := h
      obtain ⟨g, g1, g2, g3⟩ := inner_lag N x hinc b hb0 hbN
      have hlo := hinc 0 b hb0 (by omega)
      have hhi := hinc b N hbN (le_refl _)
      rw [hm1] at hlo
      rw [hp1] at hhi
      refine ⟨bary1 * bary2 * inR g, (deg_mul (deg_mul b1 b2) ((deg_embed 0 g).trans g1)).trans (by omega), ?_, ?_⟩
      · have := (hpk.1 rfl)
        rw [nodal, map_mul, map_mul, ev_inR, (ev_bary _ _).1, (ev_bary _ _).2.1, this.1, this.2, g2]
        have h1 : -(x b + -1) / 2 ≠ 0 := by intro e; linarith
        have h2 : (x b + 1) / 2 ≠ 0 := by intro e; linarith
        exact mul_ne_zero (mul_ne_zero h1 h2) one_ne_zero
      · rintro j hj ⟨a', b'⟩ e hne hrk
        have hle : a' + b' ≤ N := by have := hmem j hj; rw [e] at this; exact this
        have hr1 : nodeRank N (0, b) ≤ 1 := by unfold nodeRank Inner; split_ifs <;> simp_all
        rw [nodal, map_mul, map_mul]
        rcases hrank1 (a', b') hle (hrk.trans hr1) with h1 | h1 | h1
        · simp only at h1
          subst h1
          by_cases hb1 : b' = 0
          · rw [(hv j hj _ _ e).2.2 hb1, mul_zero, zero_mul]
          by_cases hb2 : b' = N
          · rw [(hv j hj _ _ e).2.1 (by omega), zero_mul, zero_mul]
          have := ((hpos j hj _ e).1 rfl).1
          simp only at this
          rw [ev_inR, this, g3 b' (by omega) (by omega) (fun e => hne (by rw [e])), mul_zero]
        · rw [(hv j hj _ _ e).2.1 h1, zero_mul, zero_mul]
        · rw [(hv j hj _ _ e).2.2 h1, mul_zero, zero_mul]
    · -- hypotenuse
      obtain ⟨hN', ha0, haN⟩ := h
      obtain ⟨g, g1, g2, g3⟩ := inner_lag N x hinc a ha0 haN
      have hlo := hinc 0 a ha0 (by omega)
      have hhi := hinc a N haN (le_refl _)
      rw [hm1] at hlo
      rw [hp1] at hhi
      refine ⟨bary2 * bary3 * inS g, (deg_mul (deg_mul b2 b3) ((deg_embed 1 g).trans g1)).trans (by omega), ?_, ?_⟩
      · have := (hpk.2.1 hN')
        rw [nodal, map_mul, map_mul, ev_inS, (ev_bary _ _).2.1, (ev_bary _ _).2.2, this.1, this.2, g2]
        have h1 : (-x a + 1) / 2 ≠ 0 := by intro e; linarith
        have h2 : (x a + 1) / 2 ≠ 0 := by intro e; linarith
        exact mul_ne_zero (mul_ne_zero h1 h2) one_ne_zero
      · rintro j hj ⟨a', b'⟩ e hne hrk
        have hle : a' + b' ≤ N := by have := hmem j hj; rw [e] at this; exact this
        have hr1 : nodeRank N (a, b) ≤ 1 := by unfold nodeRank Inner; split_ifs <;> simp_all
        rw [nodal, map_mul, map_mul]
        rcases hrank1 (a', b') hle (hrk.trans hr1) with h1 | h1 | h1
        · rw [(hv j hj _ _ e).1 h1, mul_zero, zero_mul]
        · simp only at h1
          by_cases hb1 : a' = 0
          · rw [(hv j hj _ _ e).1 hb1, mul_zero, zero_mul]
          by_cases hb2 : a' = N
          · rw [(hv j hj _ _ e).2.2 (by omega), zero_mul, zero_mul]
          have := ((hpos j hj _ e).2.1 h1).2
          simp only at this
          rw [ev_inS, this, g3 a' (by omega) (by omega) (fun e => hne (by rw [e, show b' = b by omega])), mul_zero]
        · rw [(hv j hj _ _ e).2.2 h1, zero_mul, zero_mul]
    · -- left side
      obtain ⟨rfl, ha0, haN⟩ := h
      obtain ⟨g, g1, g2, g3⟩ := inner_lag N x hinc a ha0 haN
      have hlo := hinc 0 a ha0 (by omega)
      have hhi := hinc a N haN (le_refl _)
      rw [hm1] at hlo
      rw [hp1] at hhi
      refine ⟨bary1 * bary3 * inS g, (deg_mul (deg_mul b1 b3) ((deg_embed 1 g).trans g1)).trans (by omega), ?_, ?_⟩
      · have := (hpk.2.2 rfl)
        rw [nodal, map_mul, map_mul, ev_inS, (ev_bary _ _).1, (ev_bary _ _).2.2, this.1, this.2, g2]
        have h1 : -(-1 + x a) / 2 ≠ 0 := by intro e; linarith
        have h2 : (x a + 1) / 2 ≠ 0 := by intro e; linarith
        exact mul_ne_zero (mul_ne_zero h1 h2) one_ne_zero
      · rintro j hj ⟨a', b'⟩ e hne hrk
        have hle : a' + b' ≤ N := by have := hmem j hj; rw [e] at this; exact this
        have hr1 : nodeRank N (a, 0) ≤ 1 := by unfold nodeRank Inner; split_ifs <;> simp_all
        rw [nodal, map_mul, map_mul]
        rcases hrank1 (a', b') hle (hrk.trans hr1) with h1 | h1 | h1
        · rw [(hv j hj _ _ e).1 h1, mul_zero, zero_mul]
        · rw [(hv j hj _ _ e).2.1 h1, zero_mul, zero_mul]
        · simp only at h1
          subst h1
          by_cases hb1 : a' = 0
          · rw [(hv j hj _ _ e).1 hb1, mul_zero, zero_mul]
          by_cases hb2 : a' = N
          · rw [(hv j hj _ _ e).2.1 (by omega), zero_mul, zero_mul]
          have := ((hpos j hj _ e).2.2 rfl).2
          simp only at this
          rw [ev_inS, this, g3 a' (by omega) (by omega) (fun e => hne (by rw [e])), mul_zero]
    · -- interior
      have hI : Inner N ((triPairs N).getD k (0, 0)) := by rw [hp]; exact h
      obtain ⟨ψ, d, e1, e2⟩ := hin k hk hI
      obtain ⟨o1, o2, o3⟩ := hoff k hk hI
      refine ⟨bary1 * bary2 * bary3 * ψ, (deg_mul (deg_mul (deg_mul b1 b2) b3) d).trans (by unfold Inner at h; simp only at h; omega), ?_, ?_⟩
      · rw [nodal, map_mul, map_mul, map_mul, (ev_bary _ _).1, (ev_bary _ _).2.1, (ev_bary _ _).2.2]
        have h1 : -(r.getD k 0 + s.getD k 0) / 2 ≠ 0 := by intro e; apply o3; linarith
        have h2 : (r.getD k 0 + 1) / 2 ≠ 0 := by intro e; apply o1; linarith
        have h3 : (s.getD k 0 + 1) / 2 ≠ 0 := by intro e; apply o2; linarith
        exact mul_ne_zero (mul_ne_zero (mul_ne_zero h1 h2) h3) e1
      · rintro j hj ⟨a', b'⟩ e hne -
        have hle : a' + b' ≤ N := by have := hmem j hj; rw [e] at this; exact this
        have hjk : j ≠ k := by rintro rfl; exact hne (e.symm.trans hp)
        rw [nodal, map_mul, map_mul, map_mul]
        by_cases hI' : Inner N (a', b')
        · have := e2 j hj (by rw [e]; exact hI') hjk
          rw [nodal] at this
          rw [this, mul_zero]
        have : a' = 0 ∨ a' + b' = N ∨ b' = 0 := by unfold Inner at hI'; simp only at hI'; omega
        rcases this with h1 | h1 | h1
        · rw [(hv j hj _ _ e).1 h1]; ring
        · rw [(hv j hj _ _ e).2.1 h1]; ring
        · rw [(hv j hj _ _ e).2.2 h1]; ring
  obtain ⟨φ, h1, h2, h3⟩ := main _ rfl
  exact ⟨φ, h1, h2, fun j hj hjk hrk => h3 j hj _ rfl (hinj j hj k hk hjk) hrk⟩

end Blitzdg.DG2D
