import Verif.SW.OpenProps

/-! C87, C89, C91, C92: sponge layer, sloping beds, depth file, main loop of src/sw2d. -/

namespace Blitzdg.SW

open Blitzdg.Sparse (DMat colMajor mem_colMajor)
open Blitzdg.Nodes1D (Lapack)
open Blitzdg.DG2D
open Blitzdg.Blitz

variable {la : Lapack} {eps ztol tol : ℝ} {N : ℕ} {m : Mesh} {P : ℕ → ℕ} {x : List ℝ} {bt : List Int} {g : Grid}

/-! ### C89: sloping bed -/

/-- Nodes facing each other across a face lie at the same place. -/
theorem GridSpec.same_place (hg : GridSpec P x bt g) {e i : ℕ} (he : e < 3 * g.K) (hi : i ≤ g.N) :
    gridX (g.tri (P e / 3)) g.n (g.n.mask (across P g.N e i) (P e % 3)) = gridX (g.tri (e / 3)) g.n (g.n.mask i (e % 3)) ∧
    gridY (g.tri (P e / 3)) g.n (g.n.mask (across P g.N e i) (P e % 3)) = gridY (g.tri (e / 3)) g.n (g.n.mask i (e % 3)) := by
  by_cases hP : P e = e
  · have : across P g.N e i = i := by unfold across; rw [if_pos hP]
    rw [this, hP]
    exact ⟨rfl, rfl⟩
  · have h1 := face_point (g.tri (e / 3)) g.n _ (e % 3) (by omega) _ (hg.maskPt (e % 3) (by omega) i hi)
    have h2 := face_point (g.tri (P e / 3)) g.n _ (P e % 3) (by omega) _ (hg.maskPt (P e % 3) (by omega) _ (across_le P g.N e i hi))
    rw [hg.meet e he hP, across_pos hg.sym e i hi hP, lerp_swap, neg_neg, ← h1] at h2
    exact ⟨congrArg Prod.fst h2, congrArg Prod.snd h2⟩

/-- Depths sampled from a function of the place are continuous. -/
theorem GridSpec.sampled (hg : GridSpec P x bt g) (f : ℝ → ℝ → ℝ) : Continuous' P g ⟨g.np, g.K, fun i k => f (gridX (g.tri k) g.n i) (gridY (g.tri k) g.n i)⟩ := by
  intro e he i hi
  obtain ⟨a, b⟩ := hg.same_place he hi
  unfold bedOut bedIn
  simp only
  rw [a, b]

/-- The depth `10 + x`. -/
noncomputable def slope (g : Grid) : DMat ℝ := ⟨g.np, g.K, fun i k => 10 + gridX (g.tri k) g.n i⟩

/-- **C89, sloping bed.** The claim that water at rest stays at rest away from the open boundary is false for sloping beds: on the square, with depth `10 + x` and the exact slopes `1` and `0`,
water at rest is set in motion in an element without open faces. -/
theorem C89_slope_false : ∃ (obc : ℕ → Bool) (g : Grid) (bc : TagMap) (W O : ℕ → Prop), Provisioned Nodes1D.exactLapack (1 / 2 ^ 52) 1e-10 1e-5 1 square twoTri g ∧
    g.reopen square obc = .ok { g with bc := bc } ∧ Tags g bc W O ∧ (∀ f < 3, ¬ O f) ∧ ∀ ph : Phys, 0 < ph.g → ∀ t,
    ∃ r, ({ g with bc := bc } : Grid).rhsFull ph ⟨slope g, ⟨g.np, g.K, fun _ _ => 1⟩, zeroMat g.np g.K⟩ t ⟨slope g, zeroMat g.np g.K, zeroMat g.np g.K⟩ = .ok r ∧ r.hu.at' 0 0 ≠ 0 := by
  obtain ⟨g, hP, p0, p1, p2⟩ := square_grid
  obtain ⟨x, hg, hN, hK, ht⟩ := hP.spec
  have hc : Corners g := ⟨hN, p0, p1, p2⟩
  have hK : g.K = 2 := hK
  have hO : square.EndsIn (fun v => v == 1 || v == 3) 3 := by
    unfold Mesh.EndsIn
    simp [square]
  obtain ⟨bc, h1, h2⟩ := C90_open hP (fun v => v == 1 || v == 3) ⟨0, by decide, rfl⟩ ⟨3, by decide, Or.inr hO⟩
  have hno : ∀ f < 3, ¬ (square.bcType[f]? = some 2 ∨ square.EndsIn (fun v => v == 1 || v == 3) f) := by
    intro f hf
    unfold Mesh.EndsIn
    interval_cases f <;> simp [square]
  refine ⟨_, g, bc, _, _, hP, h1, h2, hno, fun ph hph t => ?_⟩
  have t0 : g.tri 0 = ⟨0, 0, 1, 0, 0, 1⟩ := by rw [ht 0 (by decide), square_tri.1]
  have t1 : g.tri 1 = ⟨1, 0, 1, 1, 0, 1⟩ := by rw [ht 1 (by decide), square_tri.2]
  have s0 : (slope g).at' 0 0 = 10 ∧ (slope g).at' 1 0 = 11 ∧ (slope g).at' 2 0 = 10 := by
    unfold slope gridX triCoord
    simp only [t0, p0.1, p0.2, p1.1, p1.2, p2.1, p2.2]
    norm_num
  have s1 : (slope g).at' 0 1 = 11 ∧ (slope g).at' 1 1 = 11 ∧ (slope g).at' 2 1 = 10 := by
    unfold slope gridX triCoord
    simp only [t1, p0.1, p0.2, p1.1, p1.2, p2.1, p2.2]
    norm_num
  obtain ⟨r, h3, h4⟩ := hg.rest (by omega) h2 ph ⟨slope g, ⟨g.np, g.K, fun _ _ => 1⟩, zeroMat g.np g.K⟩ t ⟨rfl, rfl⟩ (by
    intro i hi k hk
    rw [hc.np] at hi
    rw [hK] at hk
    show 0 < (slope g).at' i k
    interval_cases i <;> interval_cases k <;> simp [s0, s1]) (hg.sampled fun x _ => 10 + x) (k := 0) (by omega) (fun f hf => by rw [Nat.mul_zero, Nat.zero_add]; exact hno f hf)
  refine ⟨r, h3, ?_⟩
  rw [(h4 0 (by rw [hc.np]; norm_num)).2.1]
  unfold Grid.slopeX
  simp only
  obtain ⟨d1, d2⟩ := hc.diff hg (fun j => (slope g).at' j 0 * (slope g).at' j 0 / 2) (i := 0) (by norm_num)
  rw [d1, d2, hg.deriv_eq 0 0 (by rw [hc.np]; norm_num), t0, s0.1, s0.2.1, s0.2.2]
  simp only [metric, triDerivOf, jac]
  norm_num
  exact hph.ne'

/-! ### Cases meeting the hypotheses of C88 and C89 -/

/-- The tide never exceeds three metres. -/
theorem tide_bound (t : ℝ) : |tide t| ≤ 3 := by
  unfold tide
  set c := Real.cos (2 * Real.pi / (3600 * 12.42) * t)
  set u := Real.tanh (0.15 / 3600 * (t - 3600 * 12.42))
  have hc : |c| ≤ 1 := Real.abs_cos_le_one _
  have hu : |u + 1| ≤ 2 := by
    have h1 : u < 1 := Real.tanh_lt_one _
    have h2 : -1 < u := Real.neg_one_lt_tanh _
    rw [abs_le]
    constructor <;> linarith
  have : |3 * c * 0.5 * (u + 1)| = 3 * 0.5 * (|c| * |u + 1|) := by
    rw [abs_mul, abs_mul, abs_mul]
    norm_num
    ring
  rw [this]
  have := mul_le_mul hc hu (abs_nonneg _) (by norm_num)
  linarith

/-- C88 and C89 for the square with the side from vertex 1 to vertex 3 opened, ten metres of moving or resting water and any time. -/
example (ph : Phys) (t u v : ℝ) : ∃ (g : Grid) (bc : TagMap), Provisioned Nodes1D.exactLapack (1 / 2 ^ 52) 1e-10 1e-5 1 square twoTri g ∧
    (∃ r M, ({ g with bc := bc } : Grid).rhsFull ph ⟨⟨g.np, g.K, fun _ _ => 10⟩, zeroMat g.np g.K, zeroMat g.np g.K⟩ t
      ⟨⟨g.np, g.K, fun _ _ => 10⟩, ⟨g.np, g.K, fun _ _ => u⟩, ⟨g.np, g.K, fun _ _ => v⟩⟩ = .ok r ∧ IsTotal g r.h.at' M) ∧
    (∃ r, ({ g with bc := bc } : Grid).rhsFull ph (g.bed 1 ⟨g.np, g.K, fun _ _ => 10⟩) t ⟨⟨g.np, g.K, fun _ _ => 10⟩, zeroMat g.np g.K, zeroMat g.np g.K⟩ = .ok r ∧
      ∀ i < g.np, r.at' i 0 = ⟨0, 0, 0⟩) := by
  classical
  obtain ⟨g, hP, -⟩ := square_grid
  have hO : ∀ e < 6, square.EndsIn (fun v => v == 1 || v == 3) e ↔ e = 3 := by
    intro e he
    unfold Mesh.EndsIn
    interval_cases e <;> simp [square]
  obtain ⟨bc, h1, h2⟩ := C90_open hP (fun v => v == 1 || v == 3) ⟨0, by decide, rfl⟩ ⟨3, by decide, Or.inr ((hO 3 (by norm_num)).2 rfl)⟩
  refine ⟨g, bc, hP, ?_, ?_⟩
  · obtain ⟨r, lam, x, h3, -, -, -, h4⟩ := C88_budget hP (by decide) h2 (by
      intro e he
      have he : e < 6 := he
      rw [hO e he]
      interval_cases e <;> simp [square, twoTri]) ph ⟨⟨g.np, g.K, fun _ _ => 10⟩, zeroMat g.np g.K, zeroMat g.np g.K⟩ t
      ⟨⟨g.np, g.K, fun _ _ => 10⟩, ⟨g.np, g.K, fun _ _ => u⟩, ⟨g.np, g.K, fun _ _ => v⟩⟩ ⟨⟨rfl, rfl⟩, ⟨rfl, rfl⟩, ⟨rfl, rfl⟩⟩ ⟨rfl, rfl⟩ (by
      intro e _ i _
      have hb := abs_le.1 (tide_bound t)
      unfold star bedIn bedOut extFull
      simp only
      rw [starPair_eq (by simp [inner, Fields.at'])]
      · simp only [inner, outer, Fields.at', wallState, bedIn]
        refine ⟨by norm_num, ?_⟩
        split_ifs <;> simp only <;> linarith
      · simp only [inner, outer, Fields.at', wallState, bedIn]
        split_ifs <;> simp only <;> linarith)
    exact ⟨r, _, h3, h4⟩
  · exact C89_flat hP h2 1 ph t 10 (by norm_num) (k := 0) (by decide) (by
      intro f hf
      rw [hO _ (by omega)]
      interval_cases f <;> simp [square])

/-! ### C87: sponge layer -/

/-- **C87, damping.** Dividing by `1 + c m^2` with `c ≥ 0` never increases a momentum, keeps its sign, and for `c > 0` bounds it by `1 / (2 √c)`, however large it was. -/
theorem C87_damping (c m : ℝ) (hc : 0 ≤ c) : |sponge c m| ≤ |m| ∧ (0 < m → 0 < sponge c m) ∧ (m < 0 → sponge c m < 0) ∧ (c = 0 → sponge c m = m) ∧
    (0 < c → |sponge c m| ≤ 1 / (2 * √c)) := by
  have hd : 0 < 1 + c * m * m := by nlinarith [mul_nonneg hc (mul_self_nonneg m)]
  unfold sponge
  refine ⟨?_, fun h => div_pos h hd, fun h => div_neg_of_neg_of_pos h hd, fun h => by rw [h]; simp, fun h => ?_⟩
  · rw [abs_div, abs_of_pos hd]
    apply div_le_self (abs_nonneg m)
    nlinarith [mul_nonneg hc (mul_self_nonneg m)]
  · have hs := Real.sqrt_pos.2 h
    rw [abs_div, abs_of_pos hd, div_le_div_iff₀ hd (by positivity), one_mul]
    have h1 : √c * √c = c := Real.mul_self_sqrt hc
    have h2 : |m| * |m| = m * m := abs_mul_abs_self m
    nlinarith [sq_nonneg (√c * |m| - 1)]

/-- The search for the nearest open node. -/
theorem nearest_ok (xV yV : List ℝ) (vm : List ℕ) (R x0 y0 : ℝ) (L : List ℕ) (D : ℕ → ℝ)
    (hL : ∀ c ∈ L, ∃ o a b, vm[c]? = some o ∧ xV[o]? = some a ∧ yV[o]? = some b ∧ D c = hypot (x0 - a) (y0 - b)) (d0 : ℝ) :
    ∃ d, loopM (fun d c => do
        let o ← rd vm c
        let a ← rd xV o
        let b ← rd yV o
        pure (if hypot (x0 - a) (y0 - b) < R ∧ hypot (x0 - a) (y0 - b) < d then hypot (x0 - a) (y0 - b) else d)) d0 L = .ok d ∧
      d ≤ d0 ∧ (d = d0 ∨ ∃ c ∈ L, d = D c ∧ D c < R) ∧ ∀ c ∈ L, D c < R → d ≤ D c := by
  induction L generalizing d0 with
  | nil => exact ⟨d0, rfl, le_refl _, Or.inl rfl, by simp⟩
  | cons c L ih =>
    obtain ⟨o, a, b, h1, h2, h3, h4⟩ := hL c (by simp)
    obtain ⟨d, e1, e2, e3, e4⟩ := ih (fun c' hc' => hL c' (by simp [hc'])) (if D c < R ∧ D c < d0 then D c else d0)
    refine ⟨d, ?_, ?_, ?_, ?_⟩
    · rw [loopM_cons, rd_eq_ok.2 h1]
      simp only [Out.bind_ok, rd_eq_ok.2 h2, rd_eq_ok.2 h3, ← h4, Out.pure_eq]
      exact e1
    · refine e2.trans ?_
      split_ifs with h
      · exact h.2.le
      · exact le_refl _
    · rcases e3 with h | ⟨c', hc', h⟩
      · split_ifs at h with hh
        · exact Or.inr ⟨c, by simp, h, hh.1⟩
        · exact Or.inl h
      · exact Or.inr ⟨c', by simp [hc'], h⟩
    · intro c' hc' hR
      rcases List.mem_cons.1 hc' with rfl | hc'
      · refine e2.trans ?_
        split_ifs with h
        · exact le_refl _
        · rw [not_and] at h
          exact not_lt.1 (h hR)
      · exact e4 c' hc' hR

/-- The loop over all nodes. -/
theorem sponge_loop (f : ℕ × ℕ → Out ℝ) (D : ℕ × ℕ → ℝ) (v : ℝ → ℝ) (L : List (ℕ × ℕ)) (hf : ∀ nk ∈ L, f nk = .ok (D nk)) (c0 : DMat ℝ) :
    ∃ c, loopM (fun c nk => do
        let d ← f nk
        pure (if d < 1e12 then mset c nk.1 nk.2 (v d) else c)) c0 L = .ok c ∧ c.rows = c0.rows ∧ c.cols = c0.cols ∧
      ∀ n k, c.at' n k = if (n, k) ∈ L ∧ D (n, k) < 1e12 then v (D (n, k)) else c0.at' n k := by
  induction L generalizing c0 with
  | nil => exact ⟨c0, rfl, rfl, rfl, fun n k => by simp⟩
  | cons p L ih =>
    obtain ⟨c, h1, h2, h3, h4⟩ := ih (fun q hq => hf q (by simp [hq])) (if D p < 1e12 then mset c0 p.1 p.2 (v (D p)) else c0)
    refine ⟨c, ?_, ?_, ?_, fun n k => ?_⟩
    · rw [loopM_cons, hf p (by simp)]
      simp only [Out.bind_ok, Out.pure_eq]
      exact h1
    · rw [h2]; split_ifs <;> rfl
    · rw [h3]; split_ifs <;> rfl
    · rw [h4]
      by_cases hp : (n, k) = p
      · subst hp
        by_cases hd : D (n, k) < 1e12
        · simp [hd, mset]
        · simp [hd]
      · have : (if D p < 1e12 then mset c0 p.1 p.2 (v (D p)) else c0).at' n k = c0.at' n k := by
          split_ifs
          · unfold mset
            simp only
            rw [if_neg]
            rintro ⟨rfl, rfl⟩
            exact hp rfl
          · rfl
        rw [this]
        simp [hp]

/-- Distance from node `i` of element `k` to node `j` of face `e`. -/
noncomputable def toFaceNode (g : Grid) (i k e j : ℕ) : ℝ :=
  hypot (gridX (g.tri k) g.n i - gridX (g.tri (e / 3)) g.n (g.n.mask j (e % 3))) (gridY (g.tri k) g.n i - gridY (g.tri (e / 3)) g.n (g.n.mask j (e % 3)))

/-- **C87, coefficient.** For orders up to four: the sponge coefficient at a node is `S (1 - d/R)`, `d` being the distance to the nearest open boundary node, if that is less than `R`, and zero
otherwise. -/
theorem C87_coeff_partial (h : Provisioned la eps ztol tol N m P g) (hN : N ≤ 4) {bc : TagMap} {W O : ℕ → Prop} (hT : Tags g bc W O) (S R : ℝ) (hR : R ≤ 1e12) :
    ∃ c, ({ g with bc := bc } : Grid).buildSponge S R = .ok c ∧ Fits g c ∧ ∀ i < g.np, ∀ k < g.K,
      (∃ e < 3 * g.K, O e ∧ ∃ j ≤ g.N, toFaceNode g i k e j < R ∧ (∀ e' < 3 * g.K, O e' → ∀ j' ≤ g.N, toFaceNode g i k e j ≤ toFaceNode g i k e' j') ∧
        c.at' i k = S * (1 - toFaceNode g i k e j / R)) ∨
      ((∀ e < 3 * g.K, O e → ∀ j ≤ g.N, R ≤ toFaceNode g i k e j) ∧ c.at' i k = 0) := by
  obtain ⟨x, hg, hNe, hKe, -⟩ := h.spec
  obtain ⟨L, l1, l2, l3⟩ := hT.out
  have hsz : g.np * g.K ≤ g.nf := by
    unfold Grid.np Grid.nf
    apply Nat.mul_le_mul_right
    rw [hNe]
    interval_cases N <;> decide
  have vec : ∀ f : ℕ → ℕ → ℝ, ∃ v, reshapeMatTo1D ⟨g.np, g.K, f⟩ (zeros g.nf) false = .ok v ∧ ∀ e < 3 * g.K, ∀ j ≤ g.N, v[vol g.np 3 g.n.mask e j]? = some (f (g.n.mask j (e % 3)) (e / 3)) := by
    intro f
    obtain ⟨v, h1, h2, h3, -⟩ := C10_flatten ⟨g.np, g.K, f⟩ (zeros g.nf) false (by simpa [zeros] using hsz)
    refine ⟨v, h1, fun e he j hj => ?_⟩
    have hm := hg.maskLt (e % 3) (by omega) j hj
    have := h3 (g.n.mask j (e % 3)) (e / 3) hm (by show e / 3 < g.K; omega)
    rw [← this]
    congr 1
    simp only [pos, vol, Bool.false_eq_true]
    ring_nf
    simp [Nat.mul_comm]
  obtain ⟨xV, x1, x2⟩ := vec fun i k => gridX (g.tri k) g.n i
  obtain ⟨yV, y1, y2⟩ := vec fun i k => gridY (g.tri k) g.n i
  have hdec : ∀ c ∈ L, ∃ e j, e < 3 * g.K ∧ j ≤ g.N ∧ c = g.fn e j ∧ O e := by
    intro c hc
    obtain ⟨e, j, he, hj, rfl⟩ := fn_surj (l2 c hc)
    exact ⟨e, j, he, hj, rfl, (l3 e he j hj).1 hc⟩
  have near : ∀ nk : ℕ × ℕ, ∃ d, nearestOpen xV yV g.maps.vmapM L R (gridX (g.tri nk.2) g.n nk.1) (gridY (g.tri nk.2) g.n nk.1) = .ok d ∧
      (d = 1e12 ∨ ∃ e j, e < 3 * g.K ∧ j ≤ g.N ∧ O e ∧ d = toFaceNode g nk.1 nk.2 e j ∧ toFaceNode g nk.1 nk.2 e j < R) ∧
      ∀ e < 3 * g.K, O e → ∀ j ≤ g.N, toFaceNode g nk.1 nk.2 e j < R → d ≤ toFaceNode g nk.1 nk.2 e j := by
    intro nk
    have hD : ∀ e < 3 * g.K, ∀ j ≤ g.N, toFaceNode g nk.1 nk.2 (g.fn e j / (g.N + 1)) (g.fn e j % (g.N + 1)) = toFaceNode g nk.1 nk.2 e j := by
      intro e he j hj
      have d1 : g.fn e j / (g.N + 1) = e := by unfold Grid.fn; rw [Nat.mul_add_div (Nat.succ_pos _), Nat.div_eq_of_lt (by omega)]; omega
      have m1 : g.fn e j % (g.N + 1) = j := by unfold Grid.fn; rw [Nat.mul_add_mod, Nat.mod_eq_of_lt (by omega)]
      rw [d1, m1]
    obtain ⟨d, n1, -, n3, n4⟩ := nearest_ok xV yV g.maps.vmapM R (gridX (g.tri nk.2) g.n nk.1) (gridY (g.tri nk.2) g.n nk.1) L
      (fun c => toFaceNode g nk.1 nk.2 (c / (g.N + 1)) (c % (g.N + 1))) (by
        intro c hc
        obtain ⟨e, j, he, hj, rfl, -⟩ := hdec c hc
        exact ⟨_, _, _, hg.vmapM e he j hj, x2 e he j hj, y2 e he j hj, hD e he j hj⟩) 1e12
    refine ⟨d, n1, ?_, fun e he hO j hj hR' => ?_⟩
    · rcases n3 with h | ⟨c, hc, h1, h2⟩
      · exact Or.inl h
      · obtain ⟨e, j, he, hj, rfl, hO⟩ := hdec c hc
        rw [hD e he j hj] at h1 h2
        exact Or.inr ⟨e, j, he, hj, hO, h1, h2⟩
    · have := n4 (g.fn e j) ((l3 e he j hj).2 hO)
      rw [hD e he j hj] at this
      exact this hR'
  choose D hD1 hD2 hD3 using near
  obtain ⟨c, c1, c2, c3, c4⟩ := sponge_loop (fun nk => nearestOpen xV yV g.maps.vmapM L R (gridX (g.tri nk.2) g.n nk.1) (gridY (g.tri nk.2) g.n nk.1)) D (fun d => S * (1 - d / R))
    (colMajor g.np g.K) (fun nk _ => hD1 nk) (zeroMat g.np g.K)
  refine ⟨c, ?_, ⟨c2, c3⟩, fun i hi k hk => ?_⟩
  · unfold Grid.buildSponge tagNodes
    simp only [l1, Out.bind_ok]
    change (reshapeMatTo1D ⟨g.np, g.K, fun i k => gridX (g.tri k) g.n i⟩ (zeros g.nf) false >>= fun xV =>
      reshapeMatTo1D ⟨g.np, g.K, fun i k => gridY (g.tri k) g.n i⟩ (zeros g.nf) false >>= fun yV =>
      loopM (fun c nk => nearestOpen xV yV g.maps.vmapM L R (gridX (g.tri nk.2) g.n nk.1) (gridY (g.tri nk.2) g.n nk.1) >>= fun d =>
        pure (if d < 1e12 then mset c nk.1 nk.2 (S * (1 - d / R)) else c)) (zeroMat g.np g.K) (colMajor g.np g.K)) = Out.ok c
    rw [x1, Out.bind_ok, y1, Out.bind_ok]
    exact c1
  · have hmem : (i, k) ∈ colMajor g.np g.K := mem_colMajor.2 ⟨hi, hk⟩
    rw [c4]
    rcases hD2 (i, k) with h | ⟨e, j, he, hj, hO, h1, h2⟩
    · right
      rw [if_neg (by rw [h]; simp)]
      refine ⟨fun e he hO j hj => ?_, rfl⟩
      by_contra hlt
      have := hD3 (i, k) e he hO j hj (not_le.1 hlt)
      rw [h] at this
      have := not_le.1 hlt
      linarith
    · left
      have hlt : D (i, k) < 1e12 := by rw [h1]; linarith
      rw [if_pos ⟨hmem, hlt⟩]
      refine ⟨e, he, hO, j, hj, h2, fun e' he' hO' j' hj' => ?_, by rw [h1]⟩
      by_cases h3 : toFaceNode g i k e' j' < R
      · have := hD3 (i, k) e' he' hO' j' hj' h3
        rw [h1] at this
        exact this
      · have h2' : toFaceNode g i k e j < R := h2
        linarith [not_lt.1 h3]

/-- **C87, overflow.** From order five on the coordinates of all nodes do not fit into the two arrays, which have one place per face node: undefined behaviour. -/
theorem C87_overflow (h : Provisioned la eps ztol tol N m P g) (hK : 0 < m.K) (hN : 5 ≤ N) {bc : TagMap} {W O : ℕ → Prop} (hT : Tags g bc W O) (S R : ℝ) :
    ({ g with bc := bc } : Grid).buildSponge S R = .ub := by
  obtain ⟨x, hg, hNe, hKe, -⟩ := h.spec
  obtain ⟨L, l1, -⟩ := hT.out
  unfold Grid.buildSponge tagNodes
  simp only [l1, Out.bind_ok]
  rw [C10_flatten_ub]
  · rfl
  · show (zeros g.nf).length < g.np * g.K
    unfold zeros Grid.nf Grid.np
    rw [List.length_replicate]
    apply Nat.mul_lt_mul_of_pos_right _ (by omega)
    rw [Nat.lt_div_iff_mul_lt (by norm_num), hNe]
    have : (N + 1) * 7 ≤ (N + 1) * (N + 2) := Nat.mul_le_mul_left _ (by omega)
    omega

/-- The claim that the sponge layer can be built for every order is false as soon as a grid of order five exists; what remains is `C87_coeff_partial`. -/
example : 3 * (5 + 1) < (5 + 1) * (5 + 2) / 2 := by decide

/-- The parts apply to the square with one open side. -/
example : ∃ (g : Grid) (bc : TagMap) (c : DMat ℝ), Provisioned Nodes1D.exactLapack (1 / 2 ^ 52) 1e-10 1e-5 1 square twoTri g ∧
    ({ g with bc := bc } : Grid).buildSponge 10000 1000 = .ok c := by
  obtain ⟨g, hP, -⟩ := square_grid
  have hO : square.EndsIn (fun v => v == 1 || v == 3) 3 := by
    unfold Mesh.EndsIn
    simp [square]
  obtain ⟨bc, h1, h2⟩ := C90_open hP (fun v => v == 1 || v == 3) ⟨0, by decide, rfl⟩ ⟨3, by decide, Or.inr hO⟩
  obtain ⟨c, h3, -⟩ := C87_coeff_partial hP (by norm_num) h2 10000 1000 (by norm_num)
  exact ⟨g, bc, c, hP, h3⟩

/-! ### C91: depth file -/

theorem fill_loop (vals l : List ℝ) (k : ℕ) (h : k + vals.length ≤ l.length) :
    ∃ d, loopM (fun (s : List ℝ × ℕ) v => do
        let d ← wr s.1 s.2 v
        pure (d, s.2 + 1)) (l, k) vals = .ok (d, k + vals.length) ∧ d.length = l.length ∧
      ∀ c : ℕ, d.getD c 0 = if k ≤ c ∧ c < k + vals.length then vals.getD (c - k) 0 else l.getD c 0 := by
  induction vals generalizing l k with
  | nil => exact ⟨l, rfl, rfl, fun c => by simp⟩
  | cons v vals ih =>
    have hk : k < l.length := by simp at h; omega
    obtain ⟨d, h1, h2, h3⟩ := ih (l.set k v) (k + 1) (by simp at h ⊢; omega)
    refine ⟨d, ?_, by simpa using h2, fun c => ?_⟩
    · rw [loopM_cons, wr_of_lt hk]
      refine h1.trans ?_
      simp
      omega
    · rw [h3, getD_set _ _ _ _ hk]
      by_cases hc : c = k
      · subst hc; simp
      · by_cases h4 : k ≤ c ∧ c < k + (vals.length + 1)
        · rw [if_pos (by omega), if_pos (by simpa using h4)]
          obtain ⟨j, rfl⟩ : ∃ j, c = k + 1 + j := ⟨c - k - 1, by omega⟩
          rw [show k + 1 + j - (k + 1) = j by omega, show k + 1 + j - k = j + 1 by omega]
          simp
        · rw [if_neg (by omega), if_neg hc, if_neg (by simpa using h4)]

theorem fill_ub (vals l : List ℝ) (k : ℕ) (hk : k ≤ l.length) (h : l.length < k + vals.length) :
    loopM (fun (s : List ℝ × ℕ) v => do
        let d ← wr s.1 s.2 v
        pure (d, s.2 + 1)) (l, k) vals = .ub := by
  induction vals generalizing l k with
  | nil => simp at h; omega
  | cons v vals ih =>
    rw [loopM_cons]
    by_cases hlt : k < l.length
    · rw [wr_of_lt hlt]
      simp only [Out.bind_ok, Out.pure_eq]
      exact ih _ _ (by simp; omega) (by simp at h ⊢; omega)
    · unfold wr
      rw [if_neg hlt]
      rfl

/-- **C91.** A file with at most `Np*K` values gives the depth at node `n` of element `k` as value number `k*Np + n`, raised to 150, and 150 for values the file does not have ... -/
theorem C91_depth_partial (vals : List ℝ) (np K : ℕ) (h : vals.length ≤ np * K) :
    ∃ H, readDepth vals np K = .ok H ∧ H.rows = np ∧ H.cols = K ∧ ∀ n < np, ∀ k < K, H.at' n k = if k * np + n < vals.length then max 150 (vals.getD (k * np + n) 0) else 150 := by
  obtain ⟨d, h1, h2, h3⟩ := fill_loop vals (zeros (np * K)) 0 (by simpa [zeros] using h)
  have hd : d.length = np * K := by rw [h2]; simp [zeros]
  obtain ⟨H, g1, g2, g3, g4⟩ := C10_unflatten (d.map fun v : ℝ => if v < 150 then 150 else v) (zeroMat np K) false (by simp [hd, zeroMat])
  refine ⟨H, ?_, g2, g3, fun n hn k hk => ?_⟩
  · unfold readDepth fillDepth
    rw [h1]
    simp only [Out.bind_ok, Out.pure_eq]
    rw [← g1]
    unfold reshape1DToMat
    have : (fun (s : DMat ℝ × ℕ) (ij : ℕ × ℕ) => rd (d.map fun v : ℝ => if v < 150 then 150 else v) s.2 >>= fun x => (pure (mset s.1 ij.1 ij.2 x, s.2 + 1) : Out (DMat ℝ × ℕ)))
        = fun (s : DMat ℝ × ℕ) (nk : ℕ × ℕ) => rd d s.2 >>= fun v => (Out.ok (mset s.1 nk.1 nk.2 (if v < 150 then 150 else v), s.2 + 1) : Out (DMat ℝ × ℕ)) := by
      funext s ij
      unfold rd
      rw [List.getElem?_map]
      cases d[s.2]? <;> rfl
    rw [this]
    rfl
  · have := g4 n k hn hk
    have hp : pos false (zeroMat np K).rows (zeroMat np K).cols n k = k * np + n := by
      simp [pos, zeroMat]
    have hlt : k * np + n < np * K := by
      have : np * (k + 1) ≤ np * K := Nat.mul_le_mul_left _ hk
      have e : np * (k + 1) = k * np + np := by ring
      omega
    rw [hp, List.getElem?_map, List.getElem?_eq_getElem (by omega)] at this
    simp only [Option.map_some, Option.some.injEq] at this
    rw [this, ← List.getD_eq_getElem d 0 (by omega)]
    have h4 := h3 (k * np + n)
    by_cases hc : k * np + n < vals.length
    · rw [if_pos ⟨Nat.zero_le _, by omega⟩, Nat.sub_zero] at h4
      rw [h4, if_pos hc]
      split_ifs with h5
      · rw [max_eq_left h5.le]
      · rw [max_eq_right (not_lt.1 h5)]
    · rw [if_neg (by omega)] at h4
      have h6 : (zeros (np * K)).getD (k * np + n) 0 = 0 := by
        unfold zeros
        rw [List.getD_eq_getElem _ _ (by simpa using hlt)]
        simp
      rw [h4, h6, if_neg hc]
      norm_num

/-- ... but a longer file is written past the end of the array: undefined behaviour. -/
theorem C91_overflow (vals : List ℝ) (np K : ℕ) (h : np * K < vals.length) : readDepth vals np K = .ub := by
  unfold readDepth fillDepth
  rw [fill_ub vals (zeros (np * K)) 0 (by simp) (by simpa [zeros] using h)]
  rfl

example : ∃ H, readDepth [200, 100, 300] 2 2 = .ok H ∧ H.at' 0 0 = 200 ∧ H.at' 1 0 = 150 ∧ H.at' 0 1 = 300 ∧ H.at' 1 1 = 150 := by
  obtain ⟨H, h1, -, -, h2⟩ := C91_depth_partial [200, 100, 300] 2 2 (by norm_num)
  refine ⟨H, h1, ?_, ?_, ?_, ?_⟩
  · rw [h2 0 (by norm_num) 0 (by norm_num)]; norm_num
  · rw [h2 1 (by norm_num) 0 (by norm_num)]; norm_num
  · rw [h2 0 (by norm_num) 1 (by norm_num)]; norm_num
  · rw [h2 1 (by norm_num) 1 (by norm_num)]; norm_num

/-! ### C92: main loop -/

theorem pass_ok {ph : Phys} {CFL : ℝ} {b : Bed} {c : DMat ℝ} {a : ℕ} {s s' : SimFull} (h : g.passFull ph CFL b c a s = .ok s') :
    ∃ dt, g.dtFull ph.g CFL (s.σ a) = .ok dt ∧ stepSw2d (g.rhsFull ph b s.t) dt c a s.σ = .ok s'.σ ∧ s'.t = s.t + dt ∧ |g.etaOf b.H (s.σ a)| ≤ 1e8 := by
  unfold Grid.passFull at h
  cases h1 : g.dtFull ph.g CFL (s.σ a) with
  | ok dt =>
    rw [h1] at h
    simp only [Out.bind_ok] at h
    cases h2 : stepSw2d (g.rhsFull ph b s.t) dt c a s.σ with
    | ok σ =>
      rw [h2] at h
      simp only [Out.bind_ok] at h
      split_ifs at h with h3
      simp only [Out.pure_eq, Out.ok.injEq] at h
      rw [← h]
      exact ⟨dt, rfl, h2, rfl, not_lt.1 h3⟩
    | throws => rw [h2] at h; cases h
    | ub => rw [h2] at h; cases h
  | throws => rw [h1] at h; cases h
  | ub => rw [h1] at h; cases h

/-- **C92.** Unlike src/sw2d-simple, src/sw2d keeps its clock: in a run of any number of passes, the time is the initial time plus the sum of the step sizes with which the fields were advanced; and
every state *from which* a pass was made has passed the test for blow-up - not the last one. -/
theorem C92_run (ph : Phys) (CFL : ℝ) (b : Bed) (c : DMat ℝ) (a : ℕ) (S : ℕ → SimFull) (n : ℕ) (hS : ∀ j < n, g.passFull ph CFL b c a (S j) = .ok (S (j + 1))) :
    ∃ dt : ℕ → ℝ, (∀ j < n, g.dtFull ph.g CFL ((S j).σ a) = .ok (dt j) ∧ stepSw2d (g.rhsFull ph b (S j).t) (dt j) c a (S j).σ = .ok (S (j + 1)).σ ∧ |g.etaOf b.H ((S j).σ a)| ≤ 1e8) ∧
      (S n).t = (S 0).t + ∑ j ∈ Finset.range n, dt j := by
  induction n with
  | zero => exact ⟨fun _ => 0, by simp, by simp⟩
  | succ n ih =>
    obtain ⟨dt, h1, h2⟩ := ih fun j hj => hS j (by omega)
    obtain ⟨d, a1, a2, a3, a4⟩ := pass_ok (hS n (by omega))
    refine ⟨fun j => if j = n then d else dt j, fun j hj => ?_, ?_⟩
    · by_cases hjn : j = n
      · subst hjn
        simp only [if_true]
        exact ⟨a1, a2, a4⟩
      · simp only [if_neg hjn]
        exact h1 j (by omega)
    · rw [Finset.sum_range_succ, if_pos rfl, a3, h2, add_assoc]
      congr 2
      apply Finset.sum_congr rfl
      intro j hj
      rw [if_neg (Finset.mem_range.1 hj).ne]

/-- **C87, every pass.** Whatever the rates of change, after a pass of the main loop both momenta at a node with sponge coefficient `c > 0` are at most `1 / (2 √c)`; the sponge acts last. -/
theorem C87_pass {ph : Phys} {CFL : ℝ} {b : Bed} {c : DMat ℝ} {a : ℕ} {s s' : SimFull} (h : g.passFull ph CFL b c a s = .ok s') (i k : ℕ) (hc : 0 < c.at' i k) :
    |(s'.σ a).hu.at' i k| ≤ 1 / (2 * √(c.at' i k)) ∧ |(s'.σ a).hv.at' i k| ≤ 1 / (2 * √(c.at' i k)) := by
  obtain ⟨dt, -, h1, -⟩ := pass_ok h
  unfold stepSw2d stepFull at h1
  cases h2 : g.rhsFull ph b s.t (s.σ a) with
  | ok r =>
    rw [h2] at h1
    simp only [Out.bind_ok] at h1
    cases h3 : g.rhsFull ph b s.t ((s.σ.set (copyFields a) ((Fields.axpy dt r (s.σ a)).sponged c)) (copyFields a)) with
    | ok r2 =>
      rw [h3] at h1
      simp only [Out.bind_ok, Out.pure_eq, Out.ok.injEq] at h1
      rw [← h1, Store.set, if_pos rfl]
      exact ⟨(C87_damping _ _ hc.le).2.2.2.2 hc, (C87_damping _ _ hc.le).2.2.2.2 hc⟩
    | throws => rw [h3] at h1; cases h1
    | ub => rw [h3] at h1; cases h1
  | throws => rw [h2] at h1; cases h1
  | ub => rw [h2] at h1; cases h1

end Blitzdg.SW
