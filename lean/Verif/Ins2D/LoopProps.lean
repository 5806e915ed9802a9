import Verif.Ins2D.RunProps
import Mathlib.Analysis.SpecialFunctions.Artanh

/-!
C145: what the time loop of src/ins2d does once it is entered.
-/

namespace Blitzdg.Ins2D

open Blitzdg.Sparse (DMat Csc)
open Blitzdg.Nodes1D (Lapack)
open Blitzdg.DG2D
open Blitzdg.Quads
open Blitzdg.Csv (Str Lines)
open Blitzdg.SW (Mesh listMax listMax_spec Left asMatrix zeroMat filterRow filterInPlace)

variable {la : Lapack} {eps tol : ℝ} {N : ℕ} {m : Mesh} {P : ℕ → ℕ} {g : QGrid}

/-! ### Specification -/

/-- `D` is the largest minus the smallest value of `w` over the nodes of the grid. -/
def IsSpread (g : QGrid) (w : ℕ → ℕ → ℝ) (D : ℝ) : Prop :=
  ∃ i < g.np, ∃ k < g.K, ∃ i' < g.np, ∃ k' < g.K, D = w i k - w i' k' ∧ ∀ a < g.np, ∀ b < g.K, w i' k' ≤ w a b ∧ w a b ≤ w i k

/-- Speed of the flow at node `i` of face `e` (face `e % 4` of element `e / 4`), times the ratio of face to element there. -/
noncomputable def flowRate (g : QGrid) (q : Flow) (e i : ℕ) : ℝ :=
  g.fscale (e % 4 * (g.N + 1) + i) (e / 4) * √(q.u.at' (g.n.mask i (e % 4)) (e / 4) ^ 2 + q.v.at' (g.n.mask i (e % 4)) (e / 4) ^ 2)

/-- The step of the loop: the Courant number *times* the smallest rate over all face nodes. -/
def IsStep (g : QGrid) (CFL c0 : ℝ) (q : Flow) (dt : ℝ) : Prop :=
  (∀ e < 4 * g.K, ∀ i ≤ g.N, dt ≤ CFL * propagation g.N c0 (flowRate g q e i)) ∧ ∃ e < 4 * g.K, ∃ i ≤ g.N, dt = CFL * propagation g.N c0 (flowRate g q e i)

/-- `w` is `u` filtered in place: the rows above are already filtered when they are read. -/
def Smoothed {n : ℕ} (F : Matrix (Fin n) (Fin n) ℝ) (u w : ℕ → ℕ → ℝ) : Prop := ∀ (i : Fin n) (k : ℕ), w i k = ∑ j, F i j * (if j < i then w j k else u j k)

/-- The same for the three rates. -/
def SmoothedFlow {n : ℕ} (F : Matrix (Fin n) (Fin n) ℝ) (r w : Flow) : Prop := Smoothed F r.rho.at' w.rho.at' ∧ Smoothed F r.u.at' w.u.at' ∧ Smoothed F r.v.at' w.v.at'

/-- `q' = q + c r` at every node. -/
def Moved (c : ℝ) (r q q' : Flow) : Prop :=
  ∀ i k, q'.rho.at' i k = q.rho.at' i k + c * r.rho.at' i k ∧ q'.u.at' i k = q.u.at' i k + c * r.u.at' i k ∧ q'.v.at' i k = q.v.at' i k + c * r.v.at' i k

/-- The midpoint rule with filtered rates. -/
def Midpoint (g : QGrid) (grav : ℝ) (F : Matrix (Fin g.np) (Fin g.np) ℝ) (vort : Flow → ℕ → ℕ → ℝ) (s : Sim) (q : Flow) : Prop :=
  ∃ r w half r' w' : Flow, (elemOf g).rhs grav (vort s.q) s.q = .ok r ∧ SmoothedFlow F r w ∧ Moved (s.dt / 2) w s.q half ∧
    (elemOf g).rhs grav (vort half) half = .ok r' ∧ SmoothedFlow F r' w' ∧ Moved s.dt w' s.q q

/-- The state in which the loop is entered, for a basin of height `H` with density difference `D`. -/
structure Starts (g : QGrid) (grav CFL t0 H D : ℝ) (s : Sim) : Prop where
  time : s.t = t0
  rest : ∀ i k, s.q.u.at' i k = 0 ∧ s.q.v.at' i k = 0
  density : ∀ i k, s.q.rho.at' i k = 1 + 0.003 * (1 - Real.tanh (5 * (nodeY (g.quad k) g.n i + 0.005 * nodeX (g.quad k) g.n i + 0.075))) / 2
  height : IsSpread g (fun i k => nodeY (g.quad k) g.n i) H ∧ 0 < H
  difference : IsSpread g s.q.rho.at' D ∧ 0 < D
  step : s.dt = min ((g.N + 1) ^ 2 / 2 * (√(grav * D / H) * H) / CFL) (CFL / √(grav * D / H))

/-- The densities of the states 0, 10, 20, ... with their numbers. -/
def everyTenth (S : ℕ → Sim) (c : ℕ) : List (ℕ × DMat ℝ) := (List.range c).map fun j => (10 * j, (S (10 * j)).q.rho)

/-- The end of a run of the loop with at most `n` passes: `S j` is the state after `j` passes, `c0` the bound of the wave speed. -/
structure LoopRan (g : QGrid) (p : Numbers) (F : Matrix (Fin g.np) (Fin g.np) ℝ) (mem : ℕ → Flow → ℕ → ℕ → ℝ) (c0 : ℝ) (n : ℕ) (r : InsRun) (how : Left) (S : ℕ → Sim) : Prop where
  last : r.s = S r.count
  passes : ∀ j < r.count, (S j).t < p.finalTime ∧ Midpoint g p.grav F (mem j) (S j) (S (j + 1)).q ∧ (∀ i < g.np, ∀ k < g.K, |(S (j + 1)).q.rho.at' i k| ≤ 1e8) ∧
    IsStep g p.CFL c0 (S (j + 1)).q (S (j + 1)).dt ∧ (S (j + 1)).t = (S j).t + (S (j + 1)).dt
  finished : how = .finished → p.finalTime ≤ r.s.t ∧ r.files = everyTenth S ((r.count + 9) / 10)
  goingOn : how = .goingOn → r.count = n ∧ r.files = everyTenth S ((r.count + 9) / 10)
  threw : how = .threw → r.s.t < p.finalTime ∧ (∃ q, Midpoint g p.grav F (mem r.count) r.s q ∧ ∃ i < g.np, ∃ k < g.K, 1e8 < |q.rho.at' i k|) ∧ r.files = everyTenth S (r.count / 10 + 1)
  defined : how ≠ .undefined

/-! ### Proofs -/

theorem node_index {np K i k : ℕ} (hi : i < np) (hk : k < K) : i * K + k < np * K ∧ (i * K + k) / K = i ∧ (i * K + k) % K = k := by
  refine ⟨?_, ?_, ?_⟩
  · calc i * K + k < i * K + K := by omega
      _ = (i + 1) * K := by ring
      _ ≤ np * K := Nat.mul_le_mul_right _ hi
  · rw [Nat.add_comm, Nat.add_mul_div_right _ _ (by omega), Nat.div_eq_of_lt hk, Nat.zero_add]
  · rw [Nat.add_comm, Nat.add_mul_mod_self_right, Nat.mod_eq_of_lt hk]

theorem index_node {np K c : ℕ} (h : c < np * K) : c / K < np ∧ c % K < K := by
  have hK : 0 < K := by rcases Nat.eq_zero_or_pos K with rfl | h'; · simp at h
                        · exact h'
  exact ⟨(Nat.div_lt_iff_lt_mul hK).2 h, Nat.mod_lt _ hK⟩

/-- The maximum over all nodes. -/
theorem nodesMax (hn : 0 < g.np) (hK : 0 < g.K) (w : ℕ → ℕ → ℝ) : ∃ i < g.np, ∃ k < g.K, listMax ((List.range (g.np * g.K)).map fun c => w (c / g.K) (c % g.K)) = w i k ∧ ∀ a < g.np, ∀ b < g.K, w a b ≤ w i k := by
  obtain ⟨h1, h2⟩ := listMax_spec ((List.range (g.np * g.K)).map fun c => w (c / g.K) (c % g.K)) (by
    have := Nat.mul_pos hn hK
    simp only [ne_eq, List.map_eq_nil_iff, List.range_eq_nil]; omega)
  obtain ⟨c, hc, e⟩ := List.mem_map.1 h2
  obtain ⟨i1, i2⟩ := index_node (List.mem_range.1 hc)
  refine ⟨_, i1, _, i2, e.symm, fun a ha b hb => ?_⟩
  obtain ⟨j1, j2, j3⟩ := node_index ha hb
  rw [e]
  exact h1 _ (List.mem_map.2 ⟨a * g.K + b, List.mem_range.2 j1, by rw [j2, j3]⟩)

theorem spread_is (hn : 0 < g.np) (hK : 0 < g.K) (w : ℕ → ℕ → ℝ) : IsSpread g w (spread g w) := by
  obtain ⟨i, hi, k, hk, e, h1⟩ := nodesMax hn hK w
  obtain ⟨i', hi', k', hk', e', h1'⟩ := nodesMax hn hK fun i k => -w i k
  refine ⟨i, hi, k, hk, i', hi', k', hk', ?_, fun a ha b hb => ⟨by linarith [h1' a ha b hb], h1 a ha b hb⟩⟩
  unfold spread
  rw [e, e']
  ring

/-- A spread is positive if two nodes differ. -/
theorem spread_pos {w : ℕ → ℕ → ℝ} {D : ℝ} (h : IsSpread g w D) (hne : ∃ i < g.np, ∃ k < g.K, ∃ j < g.np, ∃ l < g.K, w i k ≠ w j l) : 0 < D := by
  obtain ⟨i, hi, k, hk, i', hi', k', hk', rfl, h⟩ := h
  obtain ⟨a, ha, b, hb, c, hc, d, hd, hne⟩ := hne
  have h1 := h a ha b hb
  have h2 := h c hc d hd
  by_contra hn
  exact hne (by linarith [h1.1, h1.2, h2.1, h2.2])

/-- A linear function that is not constant takes two values at the nodes of an element. -/
theorem nodes_differ (h : QProvisioned la eps tol N m P g) {k : ℕ} (hk : k < g.K) (a b : ℝ) (hb : b ≠ 0) :
    ∃ i < g.np, ∃ j < g.np, a * nodeX (g.quad k) g.n i + b * nodeY (g.quad k) g.n i ≠ a * nodeX (g.quad k) g.n j + b * nodeY (g.quad k) g.n j := by
  obtain ⟨x, hg, -⟩ := h.spec
  have h0 : 0 < g.np := by unfold QGrid.np; positivity
  by_contra hn
  push Not at hn
  have hj := hg.jac_pos h0 hk
  rw [← hg.deriv_eq 0 k h0] at hj
  obtain ⟨d1, d2⟩ := hg.diff_const h0
  have key : ∀ D : ℕ → ℝ, ∑ j ∈ Finset.range g.np, D j = 0 → a * ∑ j ∈ Finset.range g.np, D j * nodeX (g.quad k) g.n j + b * ∑ j ∈ Finset.range g.np, D j * nodeY (g.quad k) g.n j = 0 := by
    intro D hD
    rw [Finset.mul_sum, Finset.mul_sum, ← Finset.sum_add_distrib]
    calc _ = ∑ j ∈ Finset.range g.np, D j * (a * nodeX (g.quad k) g.n 0 + b * nodeY (g.quad k) g.n 0) := Finset.sum_congr rfl fun j hj => by
            rw [← hn j (Finset.mem_range.1 hj) 0 h0]; ring
      _ = 0 := by rw [← Finset.sum_mul, hD, zero_mul]
  have k1 := key _ d1
  have k2 := key _ d2
  have k1 : a * (g.deriv 0 k).xr + b * (g.deriv 0 k).yr = 0 := k1
  have k2 : a * (g.deriv 0 k).xs + b * (g.deriv 0 k).ys = 0 := k2
  unfold jac at hj
  have : b * ((g.deriv 0 k).xr * (g.deriv 0 k).ys - (g.deriv 0 k).xs * (g.deriv 0 k).yr) = 0 := by linear_combination (g.deriv 0 k).xr * k2 - (g.deriv 0 k).xs * k1
  rcases mul_eq_zero.1 this with h | h
  · exact hb h
  · linarith

/-- The rates at the face nodes. -/
theorem mem_faceRates (h : QProvisioned la eps tol N m P g) (q : Flow) (f : ℝ) : f ∈ faceRates g q ↔ ∃ e < 4 * g.K, ∃ i ≤ g.N, f = flowRate g q e i := by
  obtain ⟨x, hg, -⟩ := h.spec
  have hnp : 0 < g.np := by unfold QGrid.np; positivity
  have key : ∀ e < 4 * g.K, ∀ i ≤ g.N, (|g.fscale (((g.N + 1) * e + i) % (4 * (g.N + 1))) (((g.N + 1) * e + i) / (4 * (g.N + 1)))| *
      √(q.u.at' (g.maps.vmapM.getD ((g.N + 1) * e + i) 0 % g.np) (g.maps.vmapM.getD ((g.N + 1) * e + i) 0 / g.np) * q.u.at' (g.maps.vmapM.getD ((g.N + 1) * e + i) 0 % g.np) (g.maps.vmapM.getD ((g.N + 1) * e + i) 0 / g.np) +
        q.v.at' (g.maps.vmapM.getD ((g.N + 1) * e + i) 0 % g.np) (g.maps.vmapM.getD ((g.N + 1) * e + i) 0 / g.np) * q.v.at' (g.maps.vmapM.getD ((g.N + 1) * e + i) 0 % g.np) (g.maps.vmapM.getD ((g.N + 1) * e + i) 0 / g.np))) = flowRate g q e i := by
    intro e he i hi
    have hm := hg.maskLt (e % 4) (Nat.mod_lt _ (by norm_num)) i hi
    have hv := hg.vmapM e he i hi
    have e1 : g.maps.vmapM.getD ((g.N + 1) * e + i) 0 = g.n.mask i (e % 4) + g.np * (e / 4) := by
      rw [List.getD_eq_getElem?_getD, hv]; rfl
    have hr : e % 4 * (g.N + 1) + i < 4 * (g.N + 1) := by
      have : e % 4 ≤ 3 := by omega
      calc e % 4 * (g.N + 1) + i < e % 4 * (g.N + 1) + (g.N + 1) := by omega
        _ = (e % 4 + 1) * (g.N + 1) := by ring
        _ ≤ 4 * (g.N + 1) := Nat.mul_le_mul_right _ (by omega)
    have hs : (g.N + 1) * e + i = (e % 4 * (g.N + 1) + i) + (e / 4) * (4 * (g.N + 1)) := by
      conv_lhs => rw [← Nat.div_add_mod e 4]
      ring
    have e2 : ((g.N + 1) * e + i) % (4 * (g.N + 1)) = e % 4 * (g.N + 1) + i := by rw [hs, Nat.add_mul_mod_self_right, Nat.mod_eq_of_lt hr]
    have e3 : ((g.N + 1) * e + i) / (4 * (g.N + 1)) = e / 4 := by rw [hs, Nat.add_mul_div_right _ _ (by omega), Nat.div_eq_of_lt hr, Nat.zero_add]
    rw [e1, e2, e3, Nat.add_mul_mod_self_left, Nat.mod_eq_of_lt hm, Nat.add_mul_div_left _ _ hnp, Nat.div_eq_of_lt hm, Nat.zero_add]
    have hpos : 0 < g.fscale (e % 4 * (g.N + 1) + i) (e / 4) := by
      rw [hg.fscale_eq (e % 4) i (e / 4) (Nat.mod_lt _ (by norm_num)) hi]
      exact div_pos (nrm_pos (hg.convex _ (by omega)) _ (Nat.mod_lt _ (by norm_num))) (hg.jac_pos hm (by omega))
    rw [abs_of_pos hpos]
    unfold flowRate
    rw [sq, sq]
  unfold faceRates
  rw [List.mem_map]
  constructor
  · rintro ⟨c, hc, rfl⟩
    rw [List.mem_range] at hc
    have he : c / (g.N + 1) < 4 * g.K := by
      rw [Nat.div_lt_iff_lt_mul (by omega)]
      unfold QGrid.nf at hc
      calc c < 4 * (g.N + 1) * g.K := hc
        _ = 4 * g.K * (g.N + 1) := by ring
    have hi : c % (g.N + 1) ≤ g.N := Nat.lt_succ_iff.1 (Nat.mod_lt _ (by omega))
    refine ⟨_, he, _, hi, ?_⟩
    rw [← key _ he _ hi, Nat.div_add_mod]
  · rintro ⟨e, he, i, hi, rfl⟩
    refine ⟨(g.N + 1) * e + i, ?_, key e he i hi⟩
    rw [List.mem_range]
    unfold QGrid.nf
    calc (g.N + 1) * e + i < (g.N + 1) * e + (g.N + 1) := by omega
      _ = (e + 1) * (g.N + 1) := by ring
      _ ≤ 4 * g.K * (g.N + 1) := Nat.mul_le_mul_right _ he
      _ = 4 * (g.N + 1) * g.K := by ring

theorem flowRate_nonneg (q : Flow) {f : ℝ} (hf : f ∈ faceRates g q) : 0 ≤ f := by
  unfold faceRates at hf
  obtain ⟨c, -, rfl⟩ := List.mem_map.1 hf
  simp only
  positivity

theorem faceRates_ne (hK : 0 < g.K) (q : Flow) : faceRates g q ≠ [] := by
  unfold faceRates QGrid.nf
  have : 0 < 4 * (g.N + 1) * g.K := by positivity
  simp only [ne_eq, List.map_eq_nil_iff, List.range_eq_nil]
  omega

theorem dtLoop_step (h : QProvisioned la eps tol N m P g) (hK : 0 < g.K) {CFL c0 : ℝ} (hC : 0 < CFL) (h0 : 0 < c0) (q : Flow) : IsStep g CFL c0 q (dtLoop CFL g.N c0 (faceRates g q)) := by
  obtain ⟨f0, m0, e0, hm⟩ := dtLoop_prop CFL hC g.N c0 (faceRates g q) (faceRates_ne hK q) fun f hf => by linarith [flowRate_nonneg q hf]
  obtain ⟨e, he, i, hi, rfl⟩ := (mem_faceRates h q f0).1 m0
  refine ⟨fun e' he' i' hi' => ?_, e, he, i, hi, e0⟩
  rw [e0]
  exact mul_le_mul_of_nonneg_left (hm _ ((mem_faceRates h q _).2 ⟨e', he', i', hi', rfl⟩)) hC.le

/-- Filtering in place, row after row. -/
theorem filter_smoothed {n : ℕ} (F : Matrix (Fin n) (Fin n) ℝ) (u : ℕ → ℕ → ℝ) : Smoothed F u (filterInPlace F u) := by
  have out : ∀ (l : List (Fin n)) (u : ℕ → ℕ → ℝ) (a k : ℕ), (∀ i ∈ l, a ≠ (i : ℕ)) → l.foldl (filterRow F) u a k = u a k := by
    intro l
    induction l with
    | nil => intro u a k _; rfl
    | cons i l ih =>
      intro u a k ha
      rw [List.foldl_cons, ih _ a k fun j hj => ha j (List.mem_cons_of_mem _ hj)]
      unfold filterRow
      rw [if_neg (ha i List.mem_cons_self)]
  intro i k
  unfold filterInPlace
  obtain ⟨l1, l2, hl⟩ := List.append_of_mem (List.mem_finRange i)
  have hs : (List.finRange n).Pairwise (· < ·) := List.pairwise_lt_finRange n
  rw [hl] at hs ⊢
  rw [List.pairwise_append] at hs
  obtain ⟨-, hs2, hs3⟩ := hs
  rw [List.pairwise_cons] at hs2
  have before : ∀ j : Fin n, j < i → j ∈ l1 := by
    intro j hj
    have : j ∈ l1 ++ i :: l2 := by rw [← hl]; exact List.mem_finRange j
    rcases List.mem_append.1 this with h | h
    · exact h
    · rcases List.mem_cons.1 h with rfl | h
      · exact absurd hj (lt_irrefl _)
      · exact absurd (hs2.1 j h) (by omega)
  have fin : ∀ a k, (∀ j ∈ i :: l2, a ≠ (j : ℕ)) → (l1 ++ i :: l2).foldl (filterRow F) u a k = l1.foldl (filterRow F) u a k := by
    intro a k ha
    rw [List.foldl_append]
    exact out _ _ a k ha
  have hi : (l1 ++ i :: l2).foldl (filterRow F) u i k = ∑ j : Fin n, F i j * l1.foldl (filterRow F) u j k := by
    rw [List.foldl_append, List.foldl_cons, out l2 _ i k fun j hj e => by have := hs2.1 j hj; rw [Fin.lt_def] at this; omega]
    unfold filterRow
    rw [if_pos rfl]
  rw [hi]
  refine Finset.sum_congr rfl fun j _ => ?_
  congr 1
  split_ifs with hj
  · refine (fin j k fun b hb e => ?_).symm
    have hjb : j = b := Fin.ext e
    subst hjb
    rcases List.mem_cons.1 hb with rfl | hb
    · exact lt_irrefl _ hj
    · exact absurd (hs2.1 j hb) (by omega)
  · refine out l1 u j k fun b hb e => hj ?_
    have hjb : j = b := Fin.ext e
    subst hjb
    exact hs3 j hb i List.mem_cons_self

theorem filtered_smoothed {n : ℕ} (F : Matrix (Fin n) (Fin n) ℝ) (r : Flow) : SmoothedFlow F r (r.filtered F) := ⟨filter_smoothed F _, filter_smoothed F _, filter_smoothed F _⟩

theorem rhoMax_lt (hn : 0 < g.np) (hK : 0 < g.K) (q : Flow) : (1e8 < |rhoMax g q| ↔ ∃ i < g.np, ∃ k < g.K, 1e8 < |q.rho.at' i k|) := by
  obtain ⟨i, hi, k, hk, e, h1⟩ := nodesMax hn hK fun i k => |q.rho.at' i k|
  have e : rhoMax g q = |q.rho.at' i k| := e
  rw [e, abs_abs]
  exact ⟨fun h => ⟨i, hi, k, hk, h⟩, fun ⟨a, ha, b, hb, h⟩ => lt_of_lt_of_le h (h1 a ha b hb)⟩

/-- One pass. -/
theorem pass_outcome (h : QProvisioned la eps tol N m P g) (hw : ∃ e < 4 * m.K, m.bcType[e]? = some 3) (p : Numbers) (hC : 0 < p.CFL) (h0 : 0 < |frequency g p.grav * height g|) (F : Matrix (Fin g.np) (Fin g.np) ℝ)
    (vort : Flow → ℕ → ℕ → ℝ) (s : Sim) (hs : FlowFits g s.q) :
    ∃ q, FlowFits g q ∧ Midpoint g p.grav F vort s q ∧
      ((insPass g p F vort s = .throws ∧ ∃ i < g.np, ∃ k < g.K, 1e8 < |q.rho.at' i k|) ∨
        ∃ dt, insPass g p F vort s = .ok ⟨q, s.t + dt, dt⟩ ∧ (∀ i < g.np, ∀ k < g.K, |q.rho.at' i k| ≤ 1e8) ∧ IsStep g p.CFL |frequency g p.grav * height g| q dt) := by
  have hK : 0 < g.K := by
    obtain ⟨x, hg, -, hKe, -⟩ := h.spec
    obtain ⟨e, he, -⟩ := hw
    omega
  have hn : 0 < g.np := by unfold QGrid.np; positivity
  obtain ⟨r1, h1⟩ := rhs_fits h hw p.grav (vort s.q) hs
  have hs1 : FlowFits g (Flow.axpy (0.5 * s.dt) (r1.filtered F) s.q) := ⟨hs.rho, hs.u, hs.v⟩
  obtain ⟨r2, h2⟩ := rhs_fits h hw p.grav (vort (Flow.axpy (0.5 * s.dt) (r1.filtered F) s.q)) hs1
  refine ⟨Flow.axpy s.dt (r2.filtered F) s.q, ⟨hs.rho, hs.u, hs.v⟩, ⟨r1, r1.filtered F, Flow.axpy (0.5 * s.dt) (r1.filtered F) s.q, r2, r2.filtered F, h1, filtered_smoothed F r1, ?_, h2, filtered_smoothed F r2, fun i k => ⟨rfl, rfl, rfl⟩⟩, ?_⟩
  · rw [show (0.5 : ℝ) * s.dt = s.dt / 2 by ring]
    exact fun i k => ⟨rfl, rfl, rfl⟩
  · unfold insPass pass
    simp only [h1, Out.bind_ok, Out.pure_eq, h2]
    split_ifs with hb
    · exact Or.inl ⟨rfl, (rhoMax_lt hn hK _).1 hb⟩
    · refine Or.inr ⟨_, rfl, fun i hi k hk => ?_, dtLoop_step h hK hC h0 _⟩
      by_contra hc
      exact hb ((rhoMax_lt hn hK _).2 ⟨i, hi, k, hk, not_le.1 hc⟩)

theorem output_everyTenth {S : ℕ → Sim} {r : InsRun} (hs : r.s = S r.count) (hf : r.files = everyTenth S ((r.count + 9) / 10)) :
    (insOutput r).files = everyTenth S (r.count / 10 + 1) ∧ (insOutput r).s = r.s ∧ (insOutput r).count = r.count := by
  unfold insOutput
  split_ifs with hc
  · refine ⟨?_, rfl, rfl⟩
    show r.files ++ _ = _
    rw [hf]
    unfold everyTenth
    rw [List.range_succ, List.map_append, show (r.count + 9) / 10 = r.count / 10 by omega]
    congr 1
    simp only [List.map_cons, List.map_nil]
    rw [show 10 * (r.count / 10) = r.count by omega, ← hs]
  · refine ⟨?_, rfl, rfl⟩
    rw [hf, show (r.count + 9) / 10 = r.count / 10 + 1 by omega]

theorem everyTenth_congr {S S' : ℕ → Sim} {c d : ℕ} (h : ∀ j ≤ d, S' j = S j) (hc : ∀ j < c, 10 * j ≤ d) : everyTenth S' c = everyTenth S c := by
  unfold everyTenth
  apply List.map_congr_left
  intro j hj
  rw [h _ (hc j (List.mem_range.1 hj))]

theorem loop_ran (h : QProvisioned la eps tol N m P g) (hw : ∃ e < 4 * m.K, m.bcType[e]? = some 3) (p : Numbers) (hC : 0 < p.CFL) (h0 : 0 < |frequency g p.grav * height g|) (F : Matrix (Fin g.np) (Fin g.np) ℝ)
    (mem : ℕ → Flow → ℕ → ℕ → ℝ) (n c : ℕ) (S : ℕ → Sim)
    (hS : ∀ j < c, (S j).t < p.finalTime ∧ Midpoint g p.grav F (mem j) (S j) (S (j + 1)).q ∧ (∀ i < g.np, ∀ k < g.K, |(S (j + 1)).q.rho.at' i k| ≤ 1e8) ∧
      IsStep g p.CFL |frequency g p.grav * height g| (S (j + 1)).q (S (j + 1)).dt ∧ (S (j + 1)).t = (S j).t + (S (j + 1)).dt)
    (r : InsRun) (hc : r.count = c) (hs : r.s = S c) (hfit : FlowFits g r.s.q) (hf : r.files = everyTenth S ((c + 9) / 10)) :
    ∃ S', S' 0 = S 0 ∧ LoopRan g p F mem |frequency g p.grav * height g| (c + n) (insLoop g p F mem n r).1 (insLoop g p F mem n r).2 S' := by
  induction n generalizing c S r with
  | zero => subst hc; exact ⟨S, rfl, hs, hS, nofun, fun _ => ⟨rfl, hf⟩, nofun, nofun⟩
  | succ n ih =>
    subst hc
    unfold insLoop
    split_ifs with ht
    · obtain ⟨o1, o2, o3⟩ := output_everyTenth hs hf
      obtain ⟨q, hq, hmid, ⟨hthr, hbig⟩ | ⟨dt, hok, hcalm, hstep⟩⟩ := pass_outcome h hw p hC h0 F (mem (insOutput r).count) (insOutput r).s (by rw [o2]; exact hfit)
      · simp only [hthr]
        rw [o2, o3] at hmid
        exact ⟨S, rfl, by rw [o2, o3]; exact hs, by rw [o3]; exact hS, nofun, nofun, fun _ => ⟨by rw [o2]; exact ht, ⟨q, by rw [o2, o3]; exact hmid, hbig⟩, by rw [o1, o3]⟩, nofun⟩
      · simp only [hok]
        rw [o2] at hok hmid
        rw [o3] at hok hmid
        obtain ⟨S', hS'⟩ : ∃ S' : ℕ → Sim, (∀ j ≤ r.count, S' j = S j) ∧ S' (r.count + 1) = ⟨q, r.s.t + dt, dt⟩ :=
          ⟨fun j => if j ≤ r.count then S j else ⟨q, r.s.t + dt, dt⟩, fun j hj => if_pos hj, if_neg (by omega)⟩
        obtain ⟨S'', z, hr⟩ := ih (r.count + 1) S' (fun j hj => by
            rcases Nat.lt_or_ge j r.count with hjc | hjc
            · rw [hS'.1 j (by omega), hS'.1 (j + 1) (by omega)]
              exact hS j hjc
            · obtain rfl : j = r.count := by omega
              rw [hS'.1 _ le_rfl, hS'.2, ← hs]
              exact ⟨ht, hmid, hcalm, hstep, rfl⟩)
          ⟨⟨q, (insOutput r).s.t + dt, dt⟩, (insOutput r).count + 1, (insOutput r).files⟩ (by show _ + 1 = _; rw [o3]) (by rw [hS'.2, o2]) hq (by
            show (insOutput r).files = _
            rw [o1, show (r.count + 1 + 9) / 10 = r.count / 10 + 1 by omega, everyTenth_congr hS'.1 fun j hj => by omega])
        refine ⟨S'', by rw [z, hS'.1 0 (by omega)], ?_⟩
        rw [show r.count + (n + 1) = r.count + 1 + n by omega]
        exact hr
    · exact ⟨S, rfl, hs, hS, fun _ => ⟨not_lt.1 ht, hf⟩, nofun, nofun, nofun⟩

/-! ### The rates on the grid -/

/-- `(a, b)` is the gradient, at node `i` of element `k`, of the polynomial with nodal values `w`: the chain rule for the map of the element. -/
def GradAt (g : QGrid) (w : ℕ → ℕ → ℝ) (i k : ℕ) (a b : ℝ) : Prop :=
  ∃ p, IsInterp g (fun j => w j k) p ∧
    let d := quadDeriv (g.quad k) (g.n.r.getD i 0) (g.n.s.getD i 0)
    nodal g.n.r g.n.s (MvPolynomial.pderiv 0 p) i = a * d.xr + b * d.yr ∧ nodal g.n.r g.n.s (MvPolynomial.pderiv 1 p) i = a * d.xs + b * d.ys

/-- Value of a field at node `j` of face `e`, on the element's own side and on the other side. -/
def own (g : QGrid) (a : DMat ℝ) (e j : ℕ) : ℝ := a.at' (g.n.mask j (e % 4)) (e / 4)
def other (P : ℕ → ℕ) (g : QGrid) (a : DMat ℝ) (e j : ℕ) : ℝ := own g a (P e) (across P g.N e j)

/-- `L` is the largest flow speed over the nodes of face `e`, both sides included. -/
def IsLargest (P : ℕ → ℕ) (g : QGrid) (q : Flow) (e : ℕ) (L : ℝ) : Prop :=
  let speed := fun j => max √(own g q.u e j ^ 2 + own g q.v e j ^ 2) √(other P g q.u e j ^ 2 + other P g q.v e j ^ 2)
  (∀ j ≤ g.N, speed j ≤ L) ∧ ∃ j ≤ g.N, L = speed j

/-- Normal flux of `a` inside face `e` minus the local Lax-Friedrichs flux, with the outward unit normal of the face. -/
noncomputable def mismatch (P : ℕ → ℕ) (g : QGrid) (q : Flow) (a : DMat ℝ) (L : ℝ) (e j : ℕ) : ℝ :=
  let n := unit (nrm (g.quad (e / 4)) (e % 4))
  let inner := own g a e j * (own g q.u e j * n.1 + own g q.v e j * n.2)
  let outer := other P g a e j * (other P g q.u e j * n.1 + other P g q.v e j * n.2)
  inner - ((inner + outer) / 2 + L / 2 * (own g a e j - other P g a e j))

/-- The mismatches on the four faces of element `k`, scaled by face length over area and lifted to node `i`. -/
noncomputable def liftedFaces (P : ℕ → ℕ) (g : QGrid) (q : Flow) (a : DMat ℝ) (L : ℕ → ℝ) (i k : ℕ) : ℝ :=
  ∑ f ∈ Finset.range 4, ∑ j ∈ Finset.range (g.N + 1), g.o.lift.at' i (f * (g.N + 1) + j) *
    (len (nrm (g.quad k) f) / jac (quadDeriv (g.quad k) (g.n.r.getD (g.n.mask j f) 0) (g.n.s.getD (g.n.mask j f) 0))) * mismatch P g q a (L (4 * k + f)) (4 * k + f) j

theorem grad_at (h : QProvisioned la eps tol N m P g) (w : ℕ → ℕ → ℝ) {i k : ℕ} (hi : i < g.np) (hk : k < g.K) : GradAt g w i k ((elemOf g).ddx w i k) ((elemOf g).ddy w i k) := by
  obtain ⟨x, hg, -⟩ := h.spec
  obtain ⟨p, hp⟩ := hg.interp_exists fun j => w j k
  have hi' : i < g.n.r.length := by rw [hg.nodes]; exact hi
  have hl : g.n.r.length = g.np := hg.nodes
  have d0 : ∑ j ∈ Finset.range g.np, g.o.d.Dr.at' i j * w j k = nodal g.n.r g.n.s (MvPolynomial.pderiv 0 p) i := by
    rw [← hg.elem.diff.dr p hp.1 i hi', hl]
    exact Finset.sum_congr rfl fun j hj => by rw [hp.2 j (Finset.mem_range.1 hj)]
  have d1 : ∑ j ∈ Finset.range g.np, g.o.d.Ds.at' i j * w j k = nodal g.n.r g.n.s (MvPolynomial.pderiv 1 p) i := by
    rw [← hg.elem.diff.ds p hp.1 i hi', hl]
    exact Finset.sum_congr rfl fun j hj => by rw [hp.2 j (Finset.mem_range.1 hj)]
  have hJ := (hg.jac_pos hi hk).ne'
  refine ⟨p, hp, ?_⟩
  have e1 : (elemOf g).ddx w i k = metric (derivOf g i k) 0 0 * nodal g.n.r g.n.s (MvPolynomial.pderiv 0 p) i + metric (derivOf g i k) 1 0 * nodal g.n.r g.n.s (MvPolynomial.pderiv 1 p) i := by
    unfold Elem.ddx elemOf
    simp only
    rw [hg.deriv_eq i k hi, d0, d1]
  have e2 : (elemOf g).ddy w i k = metric (derivOf g i k) 0 1 * nodal g.n.r g.n.s (MvPolynomial.pderiv 0 p) i + metric (derivOf g i k) 1 1 * nodal g.n.r g.n.s (MvPolynomial.pderiv 1 p) i := by
    unfold Elem.ddy elemOf
    simp only
    rw [hg.deriv_eq i k hi, d0, d1]
  rw [e1, e2]
  have hd : quadDeriv (g.quad k) (g.n.r.getD i 0) (g.n.s.getD i 0) = derivOf g i k := rfl
  rw [hd]
  simp only [metric, Matrix.of_apply, Matrix.cons_val', Matrix.cons_val_zero, Matrix.cons_val_one, Matrix.cons_val_fin_one]
  generalize nodal g.n.r g.n.s (MvPolynomial.pderiv 0 p) i = A
  generalize nodal g.n.r g.n.s (MvPolynomial.pderiv 1 p) i = B
  constructor <;> field_simp <;> unfold jac <;> ring

theorem grad_unique (h : QProvisioned la eps tol N m P g) {w : ℕ → ℕ → ℝ} {i k : ℕ} (hi : i < g.np) (hk : k < g.K) {a b a' b' : ℝ} (h1 : GradAt g w i k a b) (h2 : GradAt g w i k a' b') : a = a' ∧ b = b' := by
  obtain ⟨x, hg, -⟩ := h.spec
  obtain ⟨p, hp, p1, p2⟩ := h1
  obtain ⟨p', hp', q1, q2⟩ := h2
  obtain rfl := hg.interp_unique hp hp'
  have hJ := hg.jac_pos hi hk
  rw [q1] at p1
  rw [q2] at p2
  have hd : quadDeriv (g.quad k) (g.n.r.getD i 0) (g.n.s.getD i 0) = derivOf g i k := rfl
  rw [hd] at p1 p2
  unfold jac at hJ
  constructor
  · have : ((derivOf g i k).xr * (derivOf g i k).ys - (derivOf g i k).xs * (derivOf g i k).yr) * (a - a') = 0 := by linear_combination (derivOf g i k).yr * p2 - (derivOf g i k).ys * p1
    rcases mul_eq_zero.1 this with h | h <;> linarith
  · have : ((derivOf g i k).xr * (derivOf g i k).ys - (derivOf g i k).xs * (derivOf g i k).yr) * (b - b') = 0 := by linear_combination (derivOf g i k).xs * p1 - (derivOf g i k).xr * p2
    rcases mul_eq_zero.1 this with h | h <;> linarith

/-- Values at face nodes in terms of faces. -/
theorem sides (h : QProvisioned la eps tol N m P g) (a : DMat ℝ) {e j : ℕ} (he : e < 4 * g.K) (hj : j ≤ g.N) :
    (elemOf g).inside a ((g.N + 1) * e + j) = own g a e j ∧ (elemOf g).outside a ((g.N + 1) * e + j) = other P g a e j := by
  obtain ⟨x, hg, -⟩ := h.spec
  have hnp : 0 < g.np := by unfold QGrid.np; positivity
  have key : ∀ e j, e < 4 * g.K → j ≤ g.N → a.at' (vol g.np 4 g.n.mask e j % g.np) (vol g.np 4 g.n.mask e j / g.np) = own g a e j := by
    intro e j _ hj
    have hm := hg.maskLt (e % 4) (Nat.mod_lt _ (by norm_num)) j hj
    unfold vol own
    rw [Nat.add_mul_mod_self_left, Nat.mod_eq_of_lt hm, Nat.add_mul_div_left _ _ hnp, Nat.div_eq_of_lt hm, Nat.zero_add]
  constructor
  · unfold Elem.inside elemOf
    simp only [List.getD_eq_getElem?_getD, hg.vmapM e he j hj, Option.getD_some]
    exact key e j he hj
  · unfold Elem.outside elemOf
    simp only [List.getD_eq_getElem?_getD, hg.vmapP e he j hj, Option.getD_some]
    exact key _ _ (hg.lt e he) (across_le P g.N e j hj)

/-- **C145, the rates.** What `computeRHS` computes on a grid of convex quadrilaterals with a wall: advection of the density along its gradient, the gradient of the kinetic energy, the unwritten vorticity, gravity, and on every face the normal flux minus the
local Lax-Friedrichs flux between the element and its neighbour, for outward unit normals. -/
theorem C145_rates (h : QProvisioned la eps tol N m P g) (hw : ∃ e < 4 * m.K, m.bcType[e]? = some 3) (grav : ℝ) (vort : ℕ → ℕ → ℝ) (q : Flow) (hq : FlowFits g q) :
    ∃ r L, (elemOf g).rhs grav vort q = .ok r ∧ (∀ e < 4 * g.K, IsLargest P g q e (L e)) ∧ ∀ i < g.np, ∀ k < g.K, ∀ rx ry ex ey : ℝ, GradAt g q.rho.at' i k rx ry →
      GradAt g (fun i k => (q.u.at' i k ^ 2 + q.v.at' i k ^ 2) / 2) i k ex ey →
      r.rho.at' i k = -(q.u.at' i k * rx + q.v.at' i k * ry) + liftedFaces P g q q.rho L i k ∧
      r.u.at' i k = -ex - q.v.at' i k * vort i k + liftedFaces P g q q.u L i k ∧
      r.v.at' i k = -ey + q.u.at' i k * vort i k - grav * q.rho.at' i k + liftedFaces P g q q.v L i k := by
  obtain ⟨x, hg, -⟩ := h.spec
  obtain ⟨r, L, h1, h2, h3⟩ := C109_rates (elemOf g) (elem_wf h hw) grav vort q hq.rho hq.u hq.v
  refine ⟨r, L, h1, fun e he => ?_, fun i hi k hk rx ry ex ey g1 g2 => ?_⟩
  · obtain ⟨a1, j, hj, a2⟩ := h2 e he
    have hj : j < g.N + 1 := hj
    have key : ∀ j ≤ g.N, (elemOf g).speedAt q ((elemOf g).nfp * e + j) = max √(own g q.u e j ^ 2 + own g q.v e j ^ 2) √(other P g q.u e j ^ 2 + other P g q.v e j ^ 2) := by
      intro j hj
      show (elemOf g).speedAt q ((g.N + 1) * e + j) = _
      unfold Elem.speedAt
      rw [(sides h q.u he hj).1, (sides h q.v he hj).1, (sides h q.u he hj).2, (sides h q.v he hj).2]
    refine ⟨fun i hi => ?_, j, by omega, ?_⟩
    · simp only
      rw [← key i hi]; exact a1 i (Nat.lt_succ_of_le hi)
    · simp only
      rw [← key j (by omega)]; exact a2
  · have lf : ∀ a : DMat ℝ, ∑ c ∈ Finset.range ((elemOf g).nfp * (elemOf g).nf), (elemOf g).lift i c * (elemOf g).fscale c k * (elemOf g).correction q a L c k = liftedFaces P g q a L i k := by
      intro a
      unfold liftedFaces
      rw [show (elemOf g).nfp * (elemOf g).nf = 4 * (g.N + 1) from Nat.mul_comm _ _, sum_four]
      refine Finset.sum_congr rfl fun f hf => Finset.sum_congr rfl fun j hj => ?_
      have hf : f < 4 := Finset.mem_range.1 hf
      have hj : j ≤ g.N := Nat.lt_succ_iff.1 (Finset.mem_range.1 hj)
      have he : 4 * k + f < 4 * g.K := by omega
      have q1 : (4 * k + f) / 4 = k := by omega
      have q2 : (4 * k + f) % 4 = f := by omega
      have en : (elemOf g).nfp * (elemOf g).nf * k + (f * (g.N + 1) + j) = (g.N + 1) * (4 * k + f) + j := by
        show (g.N + 1) * 4 * k + (f * (g.N + 1) + j) = _; ring
      have eq : ((g.N + 1) * (4 * k + f) + j) / (elemOf g).nfp = 4 * k + f := by
        show _ / (g.N + 1) = _
        rw [Nat.mul_comm, Nat.add_comm, Nat.add_mul_div_right _ _ (by omega), Nat.div_eq_of_lt (by omega), Nat.zero_add]
      have hfs : (elemOf g).fscale (f * (g.N + 1) + j) k = len (nrm (g.quad k) f) / jac (quadDeriv (g.quad k) (g.n.r.getD (g.n.mask j f) 0) (g.n.s.getD (g.n.mask j f) 0)) := hg.fscale_eq f j k hf hj
      have hx : (elemOf g).nx.at' (f * (g.N + 1) + j) k = (unit (nrm (g.quad k) f)).1 := by show (unit (g.normal _ _)).1 = _; rw [hg.normal_eq f j k hf hj]
      have hy : (elemOf g).ny.at' (f * (g.N + 1) + j) k = (unit (nrm (g.quad k) f)).2 := by show (unit (g.normal _ _)).2 = _; rw [hg.normal_eq f j k hf hj]
      rw [hfs]
      congr 1
      unfold Elem.correction mismatch
      simp only [en, eq, hx, hy, (sides h a he hj).1, (sides h a he hj).2, (sides h q.u he hj).1, (sides h q.u he hj).2, (sides h q.v he hj).1, (sides h q.v he hj).2, q1, q2]
    obtain ⟨b1, b2, b3⟩ := h3 i k hk
    simp only [lf] at b1 b2 b3
    obtain ⟨rfl, rfl⟩ := grad_unique h hi hk g1 (grad_at h q.rho.at' hi hk)
    obtain ⟨rfl, rfl⟩ := grad_unique h hi hk g2 (grad_at h _ hi hk)
    exact ⟨b1, b2, b3⟩

/-! ### The loop -/

/-- The state before the first pass. -/
theorem start_ok (h : QProvisioned la eps tol N m P g) (hK : 0 < g.K) (p : Numbers) (hg : 0 < p.grav) (hC : 0 < p.CFL) :
    ∃ H D, Starts g p.grav p.CFL p.initialTime H D (insStart g p).s ∧ |frequency g p.grav * height g| = √(p.grav * D / H) * H ∧ 0 < √(p.grav * D / H) * H := by
  have hn : 0 < g.np := by unfold QGrid.np; positivity
  have hH := spread_is hn hK fun i k => nodeY (g.quad k) g.n i
  have hD := spread_is hn hK (firstFlow g).rho.at'
  have pH : 0 < spread g fun i k => nodeY (g.quad k) g.n i := by
    obtain ⟨i, hi, j, hj, hne⟩ := nodes_differ h hK 0 1 one_ne_zero
    exact spread_pos hH ⟨i, hi, 0, hK, j, hj, 0, hK, by simpa using hne⟩
  have pD : 0 < spread g (firstFlow g).rho.at' := by
    obtain ⟨i, hi, j, hj, hne⟩ := nodes_differ h hK 0.005 1 one_ne_zero
    refine spread_pos hD ⟨i, hi, 0, hK, j, hj, 0, hK, fun e => hne ?_⟩
    simp only [firstFlow] at e
    have e1 : Real.tanh (5 * (nodeY (g.quad 0) g.n i + 0.005 * nodeX (g.quad 0) g.n i + 0.075)) = Real.tanh (5 * (nodeY (g.quad 0) g.n j + 0.005 * nodeX (g.quad 0) g.n j + 0.075)) := by linarith
    have := Real.tanh_injective e1
    linarith
  have eH : height g = spread g fun i k => nodeY (g.quad k) g.n i := abs_of_pos pH
  have pc : 0 < √(p.grav * spread g (firstFlow g).rho.at' / height g) * height g := by rw [eH]; positivity
  have ec : |frequency g p.grav * height g| = √(p.grav * spread g (firstFlow g).rho.at' / height g) * height g := abs_of_pos pc
  refine ⟨height g, spread g (firstFlow g).rho.at', ⟨rfl, fun i k => ⟨rfl, rfl⟩, fun i k => ?_, ⟨by rw [eH]; exact hH, by rw [eH]; exact pH⟩, ⟨hD, pD⟩, ?_⟩, ec, pc⟩
  · show 1 + 0.003 * (-_ + 1) / 2 = _
    ring
  · show dtInit _ _ _ _ _ = _
    obtain ⟨f0, m0, -, e0⟩ := C109_initial p.CFL hC g.N |frequency g p.grav * height g| (frequency g p.grav) (faceRates g (firstFlow g)) (faceRates_ne hK _) fun f hf => by
      linarith [flowRate_nonneg _ hf, show 0 < |frequency g p.grav * height g| by rw [ec]; exact pc]
    have z : f0 = 0 := by
      obtain ⟨e, -, i, -, rfl⟩ := (mem_faceRates h _ f0).1 m0
      unfold flowRate firstFlow zeroMat
      simp
    rw [e0, z, ec]
    unfold propagation frequency
    rw [zero_add]

/-- **C145, counterfactual: the loop.** Were the Poisson matrix built and factorised, then with positive gravity and Courant number the program would enter its loop with fluid at rest and the density of the start, and `S j` being the state
after `j` passes: every pass starts before the final time and is the midpoint rule with rates filtered in place; no density then exceeds `1e8` (the run throws otherwise); the next step is the Courant number times the smallest rate over the face
nodes, and it is this new step that is added to the time.  The files are the densities of the states 0, 10, 20, ... in order. -/
theorem C145_loop {num : Str → Str → Option ℝ} {readMesh : Str → Out Mesh} {text : Str} {f : Str → ℝ} (h : Sensible la eps tol num readMesh text f m P g) (hg : 0 < f "GRAVITATIONALACCELERATION".toList) (hC : 0 < f "CFL".toList)
    (hw : ∃ e < 4 * m.K, m.bcType[e]? = some 3) (build : QGrid → Mesh → Out (Csc ℝ × Csc ℝ)) (hb : ∃ held, build g m = .ok held) (mem : ℕ → Flow → ℕ → ℕ → ℝ) (n : ℕ) :
    ∃ (F : Matrix (Fin g.np) (Fin g.np) ℝ) (r : InsRun) (how : Left) (H D : ℝ) (S : ℕ → Sim), g.filter ((given f).cutOff * g.N) ⌊(given f).filtOrder⌋ = .ok (fun i j => some (F i j)) ∧
      programWith build (fun _ => .ok ()) la eps tol num readMesh mem n 2 (some text) = .ok (.looped r how) ∧
      Starts g (f "GRAVITATIONALACCELERATION".toList) (f "CFL".toList) (f "INITIALTIME".toList) H D (S 0) ∧
      LoopRan g (given f) F mem (√(f "GRAVITATIONALACCELERATION".toList * D / H) * H) n r how S := by
  obtain ⟨F, hF, hp⟩ := program_eq h
  obtain ⟨held, hb⟩ := hb
  have hK : 0 < g.K := by
    obtain ⟨x, hg, -, hKe, -⟩ := h.grid.spec
    obtain ⟨e, he, -⟩ := hw
    omega
  obtain ⟨H, D, h1, h2, h3⟩ := start_ok h.grid hK (given f) hg hC
  obtain ⟨S, z, hr⟩ := loop_ran h.grid hw (given f) hC (by rw [h2]; exact h3) F mem n 0 (fun _ => (insStart g (given f)).s) (fun j hj => absurd hj (Nat.not_lt_zero _)) (insStart g (given f)) rfl rfl
    ⟨⟨rfl, rfl⟩, ⟨rfl, rfl⟩, rfl, rfl⟩ rfl
  rw [zero_add] at hr
  refine ⟨F, _, _, H, D, S, hF, by rw [hp, hb]; rfl, by rw [z]; exact h1, ?_⟩
  rw [h2] at hr
  exact hr

/-- The namelist of `sensible_example` with a matrix that can be built: a run with at most five passes. -/
example : ∃ f g r how S, ∃ F : Matrix (Fin g.np) (Fin g.np) ℝ, ∃ H D,
    programWith (fun _ _ => .ok (⟨0, 0, [some 0], []⟩, ⟨0, 0, [some 0], []⟩)) (fun _ => .ok ()) Nodes1D.exactLapack (1 / 2 ^ 52) 1e-5 exampleNum (fun _ => .ok sheared) (fun _ _ _ _ => 7) 5 2
      (some "GravitationalAcceleration=9.81\nFinalTime=1\nInitialTime=0.5\nPolynomialOrder=1\nCFL=0.5\nFilterCutoff=0.5\nFilterOrder=1\nMeshFile=a.msh".toList) = .ok (.looped r how) ∧
    Starts g (f "GRAVITATIONALACCELERATION".toList) (f "CFL".toList) (f "INITIALTIME".toList) H D (S 0) ∧
    LoopRan g (given f) F (fun _ _ _ _ => 7) (√(f "GRAVITATIONALACCELERATION".toList * D / H) * H) 5 r how S := by
  obtain ⟨f, g, hs, hw, p1, p2, -⟩ := sensible_example
  obtain ⟨F, r, how, H, D, S, -, h2, h3, h4⟩ := C145_loop hs p1 p2 hw (fun _ _ => .ok (⟨0, 0, [some 0], []⟩, ⟨0, 0, [some 0], []⟩)) ⟨_, rfl⟩ (fun _ _ _ _ => 7) 5
  exact ⟨f, g, r, how, S, F, H, D, h2, h3, h4⟩

end Blitzdg.Ins2D
