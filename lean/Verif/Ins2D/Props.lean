import Verif.Ins2D.Model
import Verif.SW.StepProps
import Verif.SW.Arrays

/-! C109: right-hand side, step size and clock of ins2d. -/

namespace Blitzdg.Ins2D

open Blitzdg.Sparse (DMat)
open Blitzdg.Blitz (reshapeMatTo1D reshape1DToMat applyIndexMap C10_flatten C10_unflatten C11_select)
open Blitzdg.DG2D (TagMap)
open Blitzdg.SW (zeros zeroMat tagNodes spreadMax listMax colMax listMax_spec)

/-! ### Uninitialised memory -/

/-- Two runs of the right-hand side which differ in the content of the uninitialised array. -/
theorem rhs_vort (E : Elem) (grav : ℝ) (vort vort' : ℕ → ℕ → ℝ) (q r : Flow) (h : E.rhs grav vort q = .ok r) :
    ∃ r', E.rhs grav vort' q = .ok r' ∧ r'.rho = r.rho ∧ ∀ i k, r'.u.at' i k = r.u.at' i k - q.v.at' i k * (vort' i k - vort i k) ∧
      r'.v.at' i k = r.v.at' i k + q.u.at' i k * (vort' i k - vort i k) := by
  unfold Elem.rhs at h
  simp only [Out.bind_eq_ok, Out.pure_eq, Out.ok.injEq] at h
  obtain ⟨a0, e0, a1, e1, a2, e2, a3, e3, a4, e4, a5, e5, a6, e6, a7, e7, a8, e8, a9, e9, rfl⟩ := h
  unfold Elem.rhs
  simp only [e0, e1, e2, e3, e4, e5, e6, e7, e8, e9, Out.bind_ok, Out.pure_eq]
  refine ⟨_, rfl, rfl, fun i k => ⟨?_, ?_⟩⟩ <;> ring

/-- **C109, memory.** The rate of change of the density does not depend on what the memory of the program contained before; the rates of change of the velocities do, at every node where the fluid moves
across: for any values found there, other values give other rates. -/
theorem C109_memory (E : Elem) (grav : ℝ) (vort : ℕ → ℕ → ℝ) (q r : Flow) (h : E.rhs grav vort q = .ok r) :
    (∀ vort' r', E.rhs grav vort' q = .ok r' → r'.rho = r.rho) ∧
    ∀ i k, (q.v.at' i k ≠ 0 → ∀ x : ℝ, ∃ vort' r', E.rhs grav vort' q = .ok r' ∧ r'.u.at' i k = x) ∧
      (q.u.at' i k ≠ 0 → ∀ x : ℝ, ∃ vort' r', E.rhs grav vort' q = .ok r' ∧ r'.v.at' i k = x) := by
  refine ⟨fun vort' r' h' => ?_, fun i k => ⟨fun hv x => ?_, fun hu x => ?_⟩⟩
  · obtain ⟨r2, h2, h3, -⟩ := rhs_vort E grav vort vort' q r h
    rw [h'] at h2
    injection h2 with h2
    rw [h2, h3]
  · obtain ⟨r2, h2, -, h4⟩ := rhs_vort E grav vort (fun _ _ => vort i k + (r.u.at' i k - x) / q.v.at' i k) q r h
    refine ⟨_, r2, h2, ?_⟩
    rw [(h4 i k).1]
    field_simp
    ring
  · obtain ⟨r2, h2, -, h4⟩ := rhs_vort E grav vort (fun _ _ => vort i k + (x - r.v.at' i k) / q.u.at' i k) q r h
    refine ⟨_, r2, h2, ?_⟩
    rw [(h4 i k).2]
    field_simp
    ring

/-! ### Fluid at rest -/

/-- Array sizes and index maps of a provisioner with at least one wall face. -/
structure Elem.WF (E : Elem) : Prop where
  nx : E.nx.rows = E.nfp * E.nf ∧ E.nx.cols = E.K
  ny : E.ny.rows = E.nfp * E.nf ∧ E.ny.cols = E.K
  lenM : E.vmapM.length = E.nodes
  lenP : E.vmapP.length = E.nodes
  ltM : ∀ i ∈ E.vmapM, i < E.np * E.K
  ltP : ∀ i ∈ E.vmapP, i < E.np * E.K
  wall : ∃ l, E.bc 3 = some l
  pos : 0 < E.nfp

theorem select_ok (E : Elem) (u : DMat ℝ) (hr : u.rows = E.np) (hc : u.cols = E.K) (map : List ℕ) (hl : map.length = E.nodes) (hm : ∀ i ∈ map, i < E.np * E.K) :
    ∃ v o, reshapeMatTo1D u (zeros (E.np * E.K)) false = .ok v ∧ applyIndexMap v (map.map Int.ofNat) (zeros E.nodes) = .ok o ∧
      ∀ c (hc : c < E.nodes), o[c]? = some (u.at' (map[c] % E.np) (map[c] / E.np)) := by
  obtain ⟨v, o, h1, h2, h3⟩ := C11_select u (zeros (E.np * E.K)) (zeros E.nodes) (map.map Int.ofNat) (by simp [zeros, hr, hc]) (by simp [zeros, hl])
    (by
      intro i hi
      obtain ⟨j, hj, rfl⟩ := List.mem_map.1 hi
      rw [hr, hc]
      have := hm j hj
      exact ⟨Int.natCast_nonneg j, Int.ofNat_lt.2 this⟩)
  refine ⟨v, o, h1, h2, fun c hc' => ?_⟩
  rw [h3 c (by simpa [hl] using hc'), hr]
  simp

theorem traces_ok (E : Elem) (hE : E.WF) (u : DMat ℝ) (hr : u.rows = E.np) (hc : u.cols = E.K) :
    ∃ uM uP, E.traces u = .ok (uM, uP) ∧ (∀ c, c < E.nodes → ∃ i k, uM.getD c 0 = u.at' i k) ∧ ∀ c, c < E.nodes → ∃ i k, uP.getD c 0 = u.at' i k := by
  obtain ⟨v, o, h1, h2, h3⟩ := select_ok E u hr hc E.vmapM hE.lenM hE.ltM
  obtain ⟨v', o', h1', h2', h3'⟩ := select_ok E u hr hc E.vmapP hE.lenP hE.ltP
  rw [h1] at h1'
  injection h1' with h1'
  subst h1'
  refine ⟨o, o', ?_, fun c hc => ?_, fun c hc => ?_⟩
  · unfold Elem.traces
    rw [h1, Out.bind_ok, h2, Out.bind_ok, h2']
    rfl
  · exact ⟨_, _, by rw [List.getD_eq_getElem?_getD, h3 c hc, Option.getD_some]⟩
  · exact ⟨_, _, by rw [List.getD_eq_getElem?_getD, h3' c hc, Option.getD_some]⟩

theorem colMax_zero (a : DMat ℝ) (j : ℕ) (h : ∀ i < a.rows, a.at' i j = 0) (h0 : 0 < a.rows) : colMax a j = 0 := by
  unfold colMax
  have : ∀ (l : List ℕ), (∀ i ∈ l, i < a.rows) → l.foldl (fun m i => max m (a.at' i j)) 0 = 0 := by
    intro l hl
    induction l with
    | nil => rfl
    | cons b l ih =>
      rw [List.foldl_cons, h b (hl b List.mem_cons_self), max_self]
      exact ih fun i hi => hl i (List.mem_cons_of_mem _ hi)
  rw [h 0 h0]
  exact this _ fun i hi => List.mem_range.1 hi

theorem faceSpeeds_rest (E : Elem) (h0 : 0 < E.nfp) (uM vM uP vP : List ℝ) (h : ∀ c < E.nodes, uM.getD c 0 = 0 ∧ vM.getD c 0 = 0 ∧ uP.getD c 0 = 0 ∧ vP.getD c 0 = 0) :
    ∃ lam, E.faceSpeeds uM vM uP vP = .ok lam ∧ ∀ c < E.nodes, lam.getD c 0 = 0 := by
  set s := (List.range E.nodes).map fun c =>
    max √(uM.getD c 0 * uM.getD c 0 + vM.getD c 0 * vM.getD c 0) √(uP.getD c 0 * uP.getD c 0 + vP.getD c 0 * vP.getD c 0) with hs
  have hsl : s.length = E.nodes := by simp [hs]
  have hz : ∀ c < E.nodes, s[c]? = some 0 := by
    intro c hc
    obtain ⟨a1, a2, a3, a4⟩ := h c hc
    rw [hs, List.getElem?_map, List.getElem?_range hc, Option.map_some, a1, a2, a3, a4]
    simp
  have hnf : E.nfp * (E.nf * E.K) = E.nodes := by unfold Elem.nodes; ring
  obtain ⟨a, h1, h2, h3, h4⟩ := C10_unflatten s (zeroMat E.nfp (E.nf * E.K)) false (by rw [hsl]; exact hnf.le)
  have h2 : a.rows = E.nfp := h2
  have h3 : a.cols = E.nf * E.K := h3
  have ha : ∀ i < a.rows, ∀ j < a.cols, a.at' i j = 0 := by
    intro i hi j hj
    have h5 := h4 i j (by rw [← h2]; exact hi) (by rw [← h3]; exact hj)
    have hp : Blitz.pos false (zeroMat E.nfp (E.nf * E.K)).rows (zeroMat E.nfp (E.nf * E.K)).cols i j = j * E.nfp + i := rfl
    rw [hp, hz _ (by
      rw [← hnf]
      have := Nat.mul_le_mul_right E.nfp (show j + 1 ≤ E.nf * E.K by omega)
      rw [Nat.succ_mul] at this
      rw [Nat.mul_comm E.nfp]
      omega)] at h5
    exact Option.some.inj h5
  obtain ⟨l, b1, b2, b3, -⟩ := C10_flatten (spreadMax a) s false (by show a.rows * a.cols ≤ _; rw [hsl, h2, h3]; exact hnf.le)
  refine ⟨l, ?_, fun c hc => ?_⟩
  · unfold Elem.faceSpeeds
    simp only [← hs, h1, Out.bind_ok]
    exact b1
  · have hc' : c < a.rows * a.cols := by rw [h2, h3, hnf]; exact hc
    have hr0 : 0 < a.rows := by rw [h2]; exact h0
    have hb := b3 (c % a.rows) (c / a.rows) (Nat.mod_lt _ hr0) (Nat.div_lt_of_lt_mul hc')
    have hp : Blitz.pos false (spreadMax a).rows (spreadMax a).cols (c % a.rows) (c / a.rows) = c := by
      show c / a.rows * a.rows + c % a.rows = c
      exact Nat.div_add_mod' c a.rows
    rw [hp] at hb
    rw [List.getD_eq_getElem?_getD, hb, Option.getD_some]
    show (1 + 0) * colMax a (c / a.rows) = 0
    rw [colMax_zero a _ (fun i hi => ha i hi _ (Nat.div_lt_of_lt_mul hc')) hr0, mul_zero]

theorem unflat_zero (E : Elem) (l : List ℝ) (hl : l.length = E.nodes) (hz : ∀ c < E.nodes, l[c]? = some 0) :
    ∃ d, reshape1DToMat l (zeroMat (E.nfp * E.nf) E.K) false = .ok d ∧ ∀ c < E.nfp * E.nf, ∀ k < E.K, d.at' c k = 0 := by
  have hnf : E.nfp * E.nf * E.K = E.nodes := by unfold Elem.nodes; ring
  obtain ⟨a, h1, h2, h3, h4⟩ := C10_unflatten l (zeroMat (E.nfp * E.nf) E.K) false (by rw [hl]; exact hnf.le)
  refine ⟨a, h1, fun c hc k hk => ?_⟩
  have h5 := h4 c k hc hk
  have hp : Blitz.pos false (zeroMat (E.nfp * E.nf) E.K).rows (zeroMat (E.nfp * E.nf) E.K).cols c k = k * (E.nfp * E.nf) + c := rfl
  rw [hp, hz _ (by
    rw [← hnf]
    have := Nat.mul_le_mul_right (E.nfp * E.nf) (show k + 1 ≤ E.K by omega)
    rw [Nat.succ_mul] at this
    rw [Nat.mul_comm (E.nfp * E.nf) E.K]
    omega)] at h5
  exact Option.some.inj h5

/-- **C109, refuted for fluid at rest.** Whatever the density - uniform, or stratified - fluid at rest is accelerated downwards at the rate `grav rho` at every node: no pressure balances the weight, because
the loop never uses the Poisson matrix the program builds. -/
theorem C109_rest (E : Elem) (hE : E.WF) (grav : ℝ) (vort : ℕ → ℕ → ℝ) (rho : DMat ℝ) (hr : rho.rows = E.np ∧ rho.cols = E.K) :
    ∃ r, E.rhs grav vort ⟨rho, zeroMat E.np E.K, zeroMat E.np E.K⟩ = .ok r ∧ ∀ i, ∀ k < E.K, r.rho.at' i k = 0 ∧ r.u.at' i k = 0 ∧ r.v.at' i k = -grav * rho.at' i k := by
  obtain ⟨w, hw⟩ := hE.wall
  have hnf : E.nfp * E.nf * E.K = E.nodes := by unfold Elem.nodes; ring
  obtain ⟨nx, hnx, -⟩ := C10_flatten E.nx (zeros E.nodes) false (by rw [hE.nx.1, hE.nx.2]; simp [zeros, hnf])
  obtain ⟨ny, hny, -⟩ := C10_flatten E.ny (zeros E.nodes) false (by rw [hE.ny.1, hE.ny.2]; simp [zeros, hnf])
  obtain ⟨rM, rP, t1, -⟩ := traces_ok E hE rho hr.1 hr.2
  obtain ⟨uM, uP, t2, zM, zP⟩ := traces_ok E hE (zeroMat E.np E.K) rfl rfl
  have zM : ∀ c < E.nodes, uM.getD c 0 = 0 := fun c hc => by obtain ⟨i, k, e⟩ := zM c hc; rw [e]; rfl
  have zP : ∀ c < E.nodes, uP.getD c 0 = 0 := fun c hc => by obtain ⟨i, k, e⟩ := zP c hc; rw [e]; rfl
  obtain ⟨lam, hl, zl⟩ := faceSpeeds_rest E hE.pos uM uM uP uP fun c hc => ⟨zM c hc, zM c hc, zP c hc, zP c hc⟩
  have zf : ∀ aM aP : List ℝ, ∃ d, reshape1DToMat ((List.range E.nodes).map fun c =>
      jump (nx.getD c 0) (ny.getD c 0) (lam.getD c 0) (aM.getD c 0) (uM.getD c 0) (uM.getD c 0) (aP.getD c 0) (uP.getD c 0) (uP.getD c 0)) (zeroMat (E.nfp * E.nf) E.K) false = .ok d ∧
      ∀ c < E.nfp * E.nf, ∀ k < E.K, d.at' c k = 0 := by
    intro aM aP
    apply unflat_zero
    · simp
    · intro c hc
      rw [List.getElem?_map, List.getElem?_range hc, Option.map_some, zM c hc, zP c hc, zl c hc]
      simp [jump]
  obtain ⟨d1, e1, z1⟩ := zf rM rP
  obtain ⟨d2, e2, z2⟩ := zf uM uP
  have zs : ∀ d : DMat ℝ, (∀ c < E.nfp * E.nf, ∀ k < E.K, d.at' c k = 0) → ∀ i, ∀ k < E.K, E.surface d i k = 0 := by
    intro d hd i k hk
    unfold Elem.surface
    apply Finset.sum_eq_zero
    intro c hc
    rw [hd c (Finset.mem_range.1 hc) k hk]
    ring
  have ze : (⟨rho, zeroMat E.np E.K, zeroMat E.np E.K⟩ : Flow).ener = fun _ _ => 0 := by funext i k; simp [Flow.ener, zeroMat]
  have hw' : tagNodes E.bc 3 = .ok w := by unfold tagNodes; rw [hw]
  unfold Elem.rhs
  simp only [ze, hw', Out.bind_ok, hnx, hny, t1, t2, hl, e1, e2, Out.pure_eq]
  refine ⟨_, rfl, fun i k hk => ⟨?_, ?_, ?_⟩⟩
  · simp [zs d1 z1 i k hk, zeroMat]
  · simp [zs d2 z2 i k hk, zeroMat, Elem.ddx]
  · simp [zs d2 z2 i k hk, zeroMat, Elem.ddy]

/-! ### The rates of change in closed form -/

/-- Value of a field just inside, and just outside, face node `n`. -/
def Elem.inside (E : Elem) (a : DMat ℝ) (n : ℕ) : ℝ := a.at' (E.vmapM.getD n 0 % E.np) (E.vmapM.getD n 0 / E.np)
def Elem.outside (E : Elem) (a : DMat ℝ) (n : ℕ) : ℝ := a.at' (E.vmapP.getD n 0 % E.np) (E.vmapP.getD n 0 / E.np)

/-- Larger of the two flow speeds at a face node. -/
noncomputable def Elem.speedAt (E : Elem) (q : Flow) (n : ℕ) : ℝ :=
  max √(E.inside q.u n ^ 2 + E.inside q.v n ^ 2) √(E.outside q.u n ^ 2 + E.outside q.v n ^ 2)

/-- `L` is the largest flow speed over the nodes of face `e` of the grid. -/
def Elem.IsFaceSpeed (E : Elem) (q : Flow) (e : ℕ) (L : ℝ) : Prop := (∀ i < E.nfp, E.speedAt q (E.nfp * e + i) ≤ L) ∧ ∃ i < E.nfp, L = E.speedAt q (E.nfp * e + i)

/-- Local Lax-Friedrichs correction of the quantity `a` carried by the velocity: normal flux just inside minus numerical flux, at face node `c` of element `k`, with dissipation speed `L`. -/
noncomputable def Elem.correction (E : Elem) (q : Flow) (a : DMat ℝ) (L : ℕ → ℝ) (c k : ℕ) : ℝ :=
  let n := E.nfp * E.nf * k + c
  let normal := fun b u v : ℝ => b * (u * E.nx.at' c k + v * E.ny.at' c k)
  let own := normal (E.inside a n) (E.inside q.u n) (E.inside q.v n)
  let other := normal (E.outside a n) (E.outside q.u n) (E.outside q.v n)
  own - ((own + other) / 2 + L (n / E.nfp) / 2 * (E.inside a n - E.outside a n))

theorem traces_eq (E : Elem) (hE : E.WF) (u : DMat ℝ) (hr : u.rows = E.np) (hc : u.cols = E.K) :
    ∃ uM uP, E.traces u = .ok (uM, uP) ∧ ∀ c < E.nodes, uM.getD c 0 = E.inside u c ∧ uP.getD c 0 = E.outside u c := by
  obtain ⟨v, o, h1, h2, h3⟩ := select_ok E u hr hc E.vmapM hE.lenM hE.ltM
  obtain ⟨v', o', h1', h2', h3'⟩ := select_ok E u hr hc E.vmapP hE.lenP hE.ltP
  rw [h1] at h1'
  injection h1' with h1'
  subst h1'
  refine ⟨o, o', ?_, fun c hc => ⟨?_, ?_⟩⟩
  · unfold Elem.traces
    rw [h1, Out.bind_ok, h2, Out.bind_ok, h2']
    rfl
  · rw [List.getD_eq_getElem?_getD, h3 c hc, Option.getD_some]
    unfold Elem.inside
    rw [List.getD_eq_getElem?_getD, List.getElem?_eq_getElem (by rw [hE.lenM]; exact hc), Option.getD_some]
  · rw [List.getD_eq_getElem?_getD, h3' c hc, Option.getD_some]
    unfold Elem.outside
    rw [List.getD_eq_getElem?_getD, List.getElem?_eq_getElem (by rw [hE.lenP]; exact hc), Option.getD_some]

theorem node_lt (E : Elem) {e i : ℕ} (he : e < E.nf * E.K) (hi : i < E.nfp) : E.nfp * e + i < E.nodes := by
  have := Nat.mul_le_mul_left E.nfp (show e + 1 ≤ E.nf * E.K by omega)
  have h2 : E.nodes = E.nfp * (E.nf * E.K) := by unfold Elem.nodes; ring
  rw [Nat.mul_succ] at this
  omega

theorem elem_node_lt (E : Elem) {c k : ℕ} (hk : k < E.K) (hc : c < E.nfp * E.nf) : E.nfp * E.nf * k + c < E.nodes := by
  have := Nat.mul_le_mul_left (E.nfp * E.nf) (show k + 1 ≤ E.K by omega)
  have h2 : E.nodes = E.nfp * E.nf * E.K := by unfold Elem.nodes; ring
  rw [Nat.mul_succ] at this
  omega

theorem faceSpeeds_eq (E : Elem) (h0 : 0 < E.nfp) (uM vM uP vP : List ℝ) :
    ∃ (lam : List ℝ) (L : ℕ → ℝ), E.faceSpeeds uM vM uP vP = .ok lam ∧ ∀ e < E.nf * E.K, (∀ i < E.nfp, lam.getD (E.nfp * e + i) 0 = L e) ∧
      let s := fun c => max √(uM.getD c 0 * uM.getD c 0 + vM.getD c 0 * vM.getD c 0) √(uP.getD c 0 * uP.getD c 0 + vP.getD c 0 * vP.getD c 0)
      (∀ i < E.nfp, s (E.nfp * e + i) ≤ L e) ∧ ∃ i < E.nfp, L e = s (E.nfp * e + i) := by
  set s := (List.range E.nodes).map fun c =>
    max √(uM.getD c 0 * uM.getD c 0 + vM.getD c 0 * vM.getD c 0) √(uP.getD c 0 * uP.getD c 0 + vP.getD c 0 * vP.getD c 0) with hs
  have hsl : s.length = E.nodes := by simp [hs]
  have hnf : E.nfp * (E.nf * E.K) = E.nodes := by unfold Elem.nodes; ring
  obtain ⟨a, h1, h2, h3, h4⟩ := C10_unflatten s (zeroMat E.nfp (E.nf * E.K)) false (by rw [hsl]; exact hnf.le)
  have h2 : a.rows = E.nfp := h2
  have h3 : a.cols = E.nf * E.K := h3
  obtain ⟨l, b1, b2, b3, -⟩ := C10_flatten (spreadMax a) s false (by show a.rows * a.cols ≤ _; rw [hsl, h2, h3]; exact hnf.le)
  refine ⟨l, fun e => colMax a e, ?_, fun e he => ⟨fun i hi => ?_, ?_⟩⟩
  · unfold Elem.faceSpeeds
    simp only [← hs, h1, Out.bind_ok]
    exact b1
  · have hb := b3 i e (by show i < a.rows; omega) (by show e < a.cols; omega)
    have hp : Blitz.pos false (spreadMax a).rows (spreadMax a).cols i e = E.nfp * e + i := by
      show e * a.rows + i = _
      rw [h2]; ring
    rw [hp] at hb
    rw [List.getD_eq_getElem?_getD, hb, Option.getD_some]
    show (1 + 0) * colMax a e = _
    ring
  · have hcong : ∀ j < E.nfp, a.at' j e = max √(uM.getD (E.nfp * e + j) 0 * uM.getD (E.nfp * e + j) 0 + vM.getD (E.nfp * e + j) 0 * vM.getD (E.nfp * e + j) 0)
        √(uP.getD (E.nfp * e + j) 0 * uP.getD (E.nfp * e + j) 0 + vP.getD (E.nfp * e + j) 0 * vP.getD (E.nfp * e + j) 0) := by
      intro j hj
      have h5 := h4 j e hj he
      have hp' : Blitz.pos false (zeroMat E.nfp (E.nf * E.K)).rows (zeroMat E.nfp (E.nf * E.K)).cols j e = E.nfp * e + j := by
        show e * E.nfp + j = _
        ring
      rw [hp', hs, List.getElem?_map, List.getElem?_range (node_lt E he hj), Option.map_some] at h5
      exact Option.some.inj h5
    obtain ⟨c1, j, hj, c2⟩ := SW.colMax_isMax a e (E.nfp - 1) (by omega)
    simp only
    exact ⟨fun j hj => (hcong j hj).symm.le.trans (c1 j (by omega)), j, by omega, c2.trans (hcong j (by omega))⟩

theorem flat_normal (E : Elem) (a : DMat ℝ) (ha : a.rows = E.nfp * E.nf ∧ a.cols = E.K) :
    ∃ l, reshapeMatTo1D a (zeros E.nodes) false = .ok l ∧ ∀ c < E.nfp * E.nf, ∀ k < E.K, l.getD (E.nfp * E.nf * k + c) 0 = a.at' c k := by
  have hnf : E.nfp * E.nf * E.K = E.nodes := by unfold Elem.nodes; ring
  obtain ⟨l, h1, -, h3, -⟩ := C10_flatten a (zeros E.nodes) false (by rw [ha.1, ha.2]; simp [zeros, hnf])
  refine ⟨l, h1, fun c hc k hk => ?_⟩
  have h4 := h3 c k (by omega) (by omega)
  have hp : Blitz.pos false a.rows a.cols c k = E.nfp * E.nf * k + c := by
    show k * a.rows + c = _
    rw [ha.1]; ring
  rw [hp] at h4
  rw [List.getD_eq_getElem?_getD, h4, Option.getD_some]

theorem unflat_eq (E : Elem) (f : ℕ → ℝ) :
    ∃ d, reshape1DToMat ((List.range E.nodes).map f) (zeroMat (E.nfp * E.nf) E.K) false = .ok d ∧ ∀ c < E.nfp * E.nf, ∀ k < E.K, d.at' c k = f (E.nfp * E.nf * k + c) := by
  have hnf : E.nfp * E.nf * E.K = E.nodes := by unfold Elem.nodes; ring
  obtain ⟨a, h1, h2, h3, h4⟩ := C10_unflatten ((List.range E.nodes).map f) (zeroMat (E.nfp * E.nf) E.K) false (by simp [zeroMat, hnf])
  refine ⟨a, h1, fun c hc k hk => ?_⟩
  have h5 := h4 c k hc hk
  have hp : Blitz.pos false (zeroMat (E.nfp * E.nf) E.K).rows (zeroMat (E.nfp * E.nf) E.K).cols c k = E.nfp * E.nf * k + c := by
    show k * (E.nfp * E.nf) + c = _
    ring
  rw [hp, List.getElem?_map, List.getElem?_range (elem_node_lt E hk hc), Option.map_some] at h5
  exact Option.some.inj h5

/-- **C109, rates of change.** The right-hand side never leaves its arrays.  The density is advected, and each velocity changes by the gradient of the kinetic energy, the cross product with the content of
the uninitialised array, its weight, and the lifted Lax-Friedrichs corrections of its faces, with the largest flow speed along each face as dissipation speed. -/
theorem C109_rates (E : Elem) (hE : E.WF) (grav : ℝ) (vort : ℕ → ℕ → ℝ) (q : Flow) (h1 : q.rho.rows = E.np ∧ q.rho.cols = E.K) (h2 : q.u.rows = E.np ∧ q.u.cols = E.K)
    (h3 : q.v.rows = E.np ∧ q.v.cols = E.K) :
    ∃ r L, E.rhs grav vort q = .ok r ∧ (∀ e < E.nf * E.K, E.IsFaceSpeed q e (L e)) ∧ ∀ i, ∀ k < E.K,
      let lifted := fun a => ∑ c ∈ Finset.range (E.nfp * E.nf), E.lift i c * E.fscale c k * E.correction q a L c k
      let energy := fun i k => (q.u.at' i k ^ 2 + q.v.at' i k ^ 2) / 2
      r.rho.at' i k = -(q.u.at' i k * E.ddx q.rho.at' i k + q.v.at' i k * E.ddy q.rho.at' i k) + lifted q.rho ∧
      r.u.at' i k = -E.ddx energy i k - q.v.at' i k * vort i k + lifted q.u ∧
      r.v.at' i k = -E.ddy energy i k + q.u.at' i k * vort i k - grav * q.rho.at' i k + lifted q.v := by
  obtain ⟨w, hw⟩ := hE.wall
  obtain ⟨nx, hnx, enx⟩ := flat_normal E E.nx hE.nx
  obtain ⟨ny, hny, eny⟩ := flat_normal E E.ny hE.ny
  obtain ⟨rM, rP, t1, er⟩ := traces_eq E hE q.rho h1.1 h1.2
  obtain ⟨uM, uP, t2, eu⟩ := traces_eq E hE q.u h2.1 h2.2
  obtain ⟨vM, vP, t3, ev⟩ := traces_eq E hE q.v h3.1 h3.2
  obtain ⟨lam, L, hl, hL⟩ := faceSpeeds_eq E hE.pos uM vM uP vP
  have zf := fun aM aP : List ℝ => unflat_eq E fun c =>
      jump (nx.getD c 0) (ny.getD c 0) (lam.getD c 0) (aM.getD c 0) (uM.getD c 0) (vM.getD c 0) (aP.getD c 0) (uP.getD c 0) (vP.getD c 0)
  obtain ⟨d1, e1, z1⟩ := zf rM rP
  obtain ⟨d2, e2, z2⟩ := zf uM uP
  obtain ⟨d3, e3, z3⟩ := zf vM vP
  have hlam : ∀ n < E.nodes, lam.getD n 0 = L (n / E.nfp) := by
    intro n hn
    have hn' : n < E.nfp * (E.nf * E.K) := by
      have : E.nodes = E.nfp * (E.nf * E.K) := by unfold Elem.nodes; ring
      omega
    have := (hL (n / E.nfp) (Nat.div_lt_of_lt_mul hn')).1 (n % E.nfp) (Nat.mod_lt _ hE.pos)
    rwa [Nat.div_add_mod] at this
  have zs : ∀ (a d : DMat ℝ) (aM aP : List ℝ), (∀ c < E.nodes, aM.getD c 0 = E.inside a c ∧ aP.getD c 0 = E.outside a c) →
      (∀ c < E.nfp * E.nf, ∀ k < E.K, d.at' c k = (fun c => jump (nx.getD c 0) (ny.getD c 0) (lam.getD c 0) (aM.getD c 0) (uM.getD c 0) (vM.getD c 0) (aP.getD c 0) (uP.getD c 0)
        (vP.getD c 0)) (E.nfp * E.nf * k + c)) →
      ∀ i, ∀ k < E.K, E.surface d i k = ∑ c ∈ Finset.range (E.nfp * E.nf), E.lift i c * E.fscale c k * E.correction q a L c k := by
    intro a d aM aP ha hd i k hk
    unfold Elem.surface
    apply Finset.sum_congr rfl
    intro c hc
    have hc := Finset.mem_range.1 hc
    have hn := elem_node_lt E hk hc
    rw [hd c hc k hk]
    simp only
    rw [enx c hc k hk, eny c hc k hk, hlam _ hn, (ha _ hn).1, (ha _ hn).2, (eu _ hn).1, (eu _ hn).2, (ev _ hn).1, (ev _ hn).2]
    unfold jump Elem.correction
    ring
  have ze : q.ener = fun i k => (q.u.at' i k ^ 2 + q.v.at' i k ^ 2) / 2 := by funext i k; unfold Flow.ener; ring
  have hw' : tagNodes E.bc 3 = .ok w := by unfold tagNodes; rw [hw]
  unfold Elem.rhs
  simp only [ze, hw', Out.bind_ok, hnx, hny, t1, t2, t3, hl, e1, e2, e3, Out.pure_eq]
  refine ⟨_, L, rfl, fun e he => ?_, fun i k hk => ⟨?_, ?_, ?_⟩⟩
  · have key : ∀ i < E.nfp, E.speedAt q (E.nfp * e + i) = max √(uM.getD (E.nfp * e + i) 0 * uM.getD (E.nfp * e + i) 0 + vM.getD (E.nfp * e + i) 0 * vM.getD (E.nfp * e + i) 0)
        √(uP.getD (E.nfp * e + i) 0 * uP.getD (E.nfp * e + i) 0 + vP.getD (E.nfp * e + i) 0 * vP.getD (E.nfp * e + i) 0) := by
      intro i hi
      have hn := node_lt E he hi
      unfold Elem.speedAt
      rw [(eu _ hn).1, (eu _ hn).2, (ev _ hn).1, (ev _ hn).2]
      simp only [sq]
    obtain ⟨-, c1, i, hi, c2⟩ := hL e he
    exact ⟨fun i hi => (key i hi).le.trans (c1 i hi), i, hi, c2.trans (key i hi).symm⟩
  · show _ - _ + E.surface d1 i k = _
    rw [zs q.rho d1 rM rP er z1 i k hk]
    ring
  · show _ - _ + E.surface d2 i k = _
    rw [zs q.u d2 uM uP eu z2 i k hk]
  · show _ + E.surface d3 i k = _
    rw [zs q.v d3 vM vP ev z3 i k hk]
    ring

/-- **C109, refuted for walls.** A uniform flow keeps its density, and its velocities change as if the domain had no walls, even if it runs straight into one: which faces are walls does not enter. -/
theorem C109_walls (E : Elem) (hE : E.WF) (hDr : ∀ i, ∑ j ∈ Finset.range E.np, E.Dr i j = 0) (hDs : ∀ i, ∑ j ∈ Finset.range E.np, E.Ds i j = 0) (grav : ℝ) (vort : ℕ → ℕ → ℝ)
    (rho u v : ℝ) :
    ∃ r, E.rhs grav vort ⟨⟨E.np, E.K, fun _ _ => rho⟩, ⟨E.np, E.K, fun _ _ => u⟩, ⟨E.np, E.K, fun _ _ => v⟩⟩ = .ok r ∧ ∀ i, ∀ k < E.K,
      r.rho.at' i k = 0 ∧ r.u.at' i k = -v * vort i k ∧ r.v.at' i k = u * vort i k - grav * rho := by
  obtain ⟨r, L, h1, -, h3⟩ := C109_rates E hE grav vort ⟨⟨E.np, E.K, fun _ _ => rho⟩, ⟨E.np, E.K, fun _ _ => u⟩, ⟨E.np, E.K, fun _ _ => v⟩⟩ ⟨rfl, rfl⟩ ⟨rfl, rfl⟩ ⟨rfl, rfl⟩
  have hx : ∀ (a : ℝ) i k, E.ddx (fun _ _ => a) i k = 0 := fun a i k => by unfold Elem.ddx; rw [← Finset.sum_mul, ← Finset.sum_mul, hDr, hDs]; ring
  have hy : ∀ (a : ℝ) i k, E.ddy (fun _ _ => a) i k = 0 := fun a i k => by unfold Elem.ddy; rw [← Finset.sum_mul, ← Finset.sum_mul, hDr, hDs]; ring
  refine ⟨r, h1, fun i k hk => ?_⟩
  obtain ⟨e1, e2, e3⟩ := h3 i k hk
  have hz : ∀ a : ℝ, ∑ c ∈ Finset.range (E.nfp * E.nf), E.lift i c * E.fscale c k *
      E.correction ⟨⟨E.np, E.K, fun _ _ => rho⟩, ⟨E.np, E.K, fun _ _ => u⟩, ⟨E.np, E.K, fun _ _ => v⟩⟩ ⟨E.np, E.K, fun _ _ => a⟩ L c k = 0 := by
    intro a
    apply Finset.sum_eq_zero
    intro c _
    unfold Elem.correction Elem.inside Elem.outside
    simp only
    ring
  rw [e1, e2, e3]
  simp only [hx, hy, hz]
  refine ⟨?_, ?_, ?_⟩ <;> ring

/-- **C109, advection.** Let the metric terms at a node be inverse to the derivatives of the coordinates `X`, `Y` there.  Where all fields are continuous across the faces of the element, a density which is
linear in position, `a + b x + c y`, changes at the rate `-(b u + c v)`. -/
theorem C109_advection (E : Elem) (hE : E.WF) (hDr : ∀ i, ∑ j ∈ Finset.range E.np, E.Dr i j = 0) (hDs : ∀ i, ∑ j ∈ Finset.range E.np, E.Ds i j = 0) (X Y : ℕ → ℕ → ℝ) (i k : ℕ)
    (hk : k < E.K)
    (hxx : E.rx i k * (∑ j ∈ Finset.range E.np, E.Dr i j * X j k) + E.sx i k * (∑ j ∈ Finset.range E.np, E.Ds i j * X j k) = 1)
    (hxy : E.rx i k * (∑ j ∈ Finset.range E.np, E.Dr i j * Y j k) + E.sx i k * (∑ j ∈ Finset.range E.np, E.Ds i j * Y j k) = 0)
    (hyx : E.ry i k * (∑ j ∈ Finset.range E.np, E.Dr i j * X j k) + E.sy i k * (∑ j ∈ Finset.range E.np, E.Ds i j * X j k) = 0)
    (hyy : E.ry i k * (∑ j ∈ Finset.range E.np, E.Dr i j * Y j k) + E.sy i k * (∑ j ∈ Finset.range E.np, E.Ds i j * Y j k) = 1)
    (grav : ℝ) (vort : ℕ → ℕ → ℝ) (a b c : ℝ) (u v : DMat ℝ) (hu : u.rows = E.np ∧ u.cols = E.K) (hv : v.rows = E.np ∧ v.cols = E.K)
    (hcont : ∀ w ∈ [⟨E.np, E.K, fun i k => a + b * X i k + c * Y i k⟩, u, v], ∀ n, E.nfp * E.nf * k ≤ n → n < E.nfp * E.nf * (k + 1) → E.inside w n = E.outside w n) :
    ∃ r, E.rhs grav vort ⟨⟨E.np, E.K, fun i k => a + b * X i k + c * Y i k⟩, u, v⟩ = .ok r ∧ r.rho.at' i k = -(b * u.at' i k + c * v.at' i k) := by
  obtain ⟨r, L, h1, -, h3⟩ := C109_rates E hE grav vort ⟨⟨E.np, E.K, fun i k => a + b * X i k + c * Y i k⟩, u, v⟩ ⟨rfl, rfl⟩ hu hv
  refine ⟨r, h1, ?_⟩
  rw [(h3 i k hk).1]
  have hs : ∀ (D : ℕ → ℝ), ∑ j ∈ Finset.range E.np, D j = 0 → ∑ j ∈ Finset.range E.np, D j * (a + b * X j k + c * Y j k) =
      b * (∑ j ∈ Finset.range E.np, D j * X j k) + c * ∑ j ∈ Finset.range E.np, D j * Y j k := by
    intro D hD
    have : ∀ j, D j * (a + b * X j k + c * Y j k) = a * D j + b * (D j * X j k) + c * (D j * Y j k) := fun j => by ring
    simp only [this, Finset.sum_add_distrib, ← Finset.mul_sum, hD]
    ring
  have hz : ∑ d ∈ Finset.range (E.nfp * E.nf), E.lift i d * E.fscale d k * E.correction ⟨⟨E.np, E.K, fun i k => a + b * X i k + c * Y i k⟩, u, v⟩
      ⟨E.np, E.K, fun i k => a + b * X i k + c * Y i k⟩ L d k = 0 := by
    apply Finset.sum_eq_zero
    intro d hd
    have hd := Finset.mem_range.1 hd
    have hn : E.nfp * E.nf * k + d < E.nfp * E.nf * (k + 1) := by rw [Nat.mul_succ]; omega
    unfold Elem.correction
    simp only
    rw [hcont _ (by simp) _ (by omega) hn, hcont u (by simp) _ (by omega) hn, hcont v (by simp) _ (by omega) hn]
    ring
  simp only [hz, Elem.ddx, Elem.ddy, hs _ (hDr i), hs _ (hDs i)]
  linear_combination (-(u.at' i k) * b) * hxx + (-(u.at' i k) * c) * hxy + (-(v.at' i k) * b) * hyx + (-(v.at' i k) * c) * hyy

/-! ### Step size -/

theorem dtLoop_eq (CFL : ℝ) (hC : 0 < CFL) (N : ℕ) (c0 : ℝ) (fsc : List ℝ) (hne : fsc ≠ []) (hf : ∀ f ∈ fsc, 0 < f + c0) :
    ∃ f0 ∈ fsc, dtLoop CFL N c0 fsc = CFL * rate N c0 f0 ∧ ∀ f ∈ fsc, rate N c0 f0 ≤ rate N c0 f := by
  have hp : ∀ f ∈ fsc, 0 < rate N c0 f := fun f h => by have := hf f h; unfold rate; positivity
  obtain ⟨h1, h2⟩ := listMax_spec (fsc.map fun f => 1 / rate N c0 f) (by simpa using hne)
  obtain ⟨f0, hf0, e0⟩ := List.mem_map.1 h2
  refine ⟨f0, hf0, ?_, fun f hm => ?_⟩
  · unfold dtLoop
    rw [← e0]
    field_simp
  · have := h1 _ (List.mem_map.2 ⟨f, hm, rfl⟩)
    rw [← e0] at this
    exact (one_div_le_one_div (hp f hm) (hp f0 hf0)).1 this

/-- Rate at which a disturbance of speed `f + c0`, in units of the face size, crosses the nodes of an element of order `N`. -/
noncomputable def propagation (N : ℕ) (c0 f : ℝ) : ℝ := (N + 1) ^ 2 / 2 * (f + c0)

theorem rate_eq (N : ℕ) (c0 f : ℝ) : rate N c0 f = propagation N c0 f := by unfold rate propagation; ring

theorem dtLoop_prop (CFL : ℝ) (hC : 0 < CFL) (N : ℕ) (c0 : ℝ) (fsc : List ℝ) (hne : fsc ≠ []) (hf : ∀ f ∈ fsc, 0 < f + c0) :
    ∃ f0 ∈ fsc, dtLoop CFL N c0 fsc = CFL * propagation N c0 f0 ∧ ∀ f ∈ fsc, propagation N c0 f0 ≤ propagation N c0 f := by
  simpa only [rate_eq] using dtLoop_eq CFL hC N c0 fsc hne hf

/-- **C109, step size.** The step of the main loop is the Courant number *times* the smallest rate over the face nodes, instead of divided by the largest: it satisfies the Courant condition
`dt * rate ≤ CFL` at every node exactly if the product of the smallest rate with any other is at most one ... -/
theorem C109_step (CFL : ℝ) (hC : 0 < CFL) (N : ℕ) (c0 : ℝ) (fsc : List ℝ) (hne : fsc ≠ []) (hf : ∀ f ∈ fsc, 0 < f + c0) :
    (∀ f ∈ fsc, dtLoop CFL N c0 fsc ≤ CFL * propagation N c0 f) ∧ (∃ f ∈ fsc, dtLoop CFL N c0 fsc = CFL * propagation N c0 f) ∧
    ((∀ f ∈ fsc, dtLoop CFL N c0 fsc * propagation N c0 f ≤ CFL) ↔ ∀ f ∈ fsc, ∃ f' ∈ fsc, propagation N c0 f' * propagation N c0 f ≤ 1) := by
  obtain ⟨f0, m0, e0, h0⟩ := dtLoop_prop CFL hC N c0 fsc hne hf
  have hp : ∀ f ∈ fsc, 0 < propagation N c0 f := fun f h => by have := hf f h; unfold propagation; positivity
  rw [e0]
  refine ⟨fun f hm => by have := h0 f hm; gcongr, ⟨f0, m0, rfl⟩, fun h f hm => ⟨f0, m0, ?_⟩, fun h f hm => ?_⟩
  · have := h f hm
    rw [mul_assoc] at this
    nlinarith
  · obtain ⟨f', m', h'⟩ := h f hm
    have h1 := h0 f' m'
    have h2 := hp f hm
    have : propagation N c0 f0 * propagation N c0 f ≤ 1 := le_trans (by gcongr) h'
    rw [mul_assoc]
    nlinarith

/-- ... so it is violated at *every* node once all rates exceed one, and the faster the flow, or the finer the grid, the *longer* the step. -/
theorem C109_courant_false (CFL : ℝ) (hC : 0 < CFL) (N : ℕ) (c0 : ℝ) (fsc : List ℝ) (hne : fsc ≠ []) (hf : ∀ f ∈ fsc, 0 < f + c0) :
    ((∀ f ∈ fsc, 1 < propagation N c0 f) → ∀ f ∈ fsc, CFL < dtLoop CFL N c0 fsc * propagation N c0 f) ∧
    ∀ s : ℝ, 0 < s → dtLoop CFL N (s * c0) (fsc.map (s * ·)) = s * dtLoop CFL N c0 fsc := by
  have hr : ∀ s f, propagation N (s * c0) (s * f) = s * propagation N c0 f := fun s f => by unfold propagation; ring
  refine ⟨fun h f hm => ?_, fun s hs => ?_⟩
  · obtain ⟨f0, m0, e0, h0⟩ := dtLoop_prop CFL hC N c0 fsc hne hf
    rw [e0, mul_assoc]
    nlinarith [h f0 m0, h f hm, mul_lt_mul_of_pos_left (h f hm) (lt_trans one_pos (h f0 m0))]
  · obtain ⟨f0, m0, e0, h0⟩ := dtLoop_prop CFL hC N c0 fsc hne hf
    obtain ⟨f1, m1, e1, h1⟩ := dtLoop_prop CFL hC N (s * c0) (fsc.map (s * ·)) (by simpa using hne) (by
      intro f hm
      obtain ⟨f', hf', rfl⟩ := List.mem_map.1 hm
      have := hf f' hf'
      rw [← mul_add]
      positivity)
    obtain ⟨f2, m2, rfl⟩ := List.mem_map.1 m1
    rw [e1, e0, hr]
    have a := h0 f2 m2
    have b := h1 _ (List.mem_map.2 ⟨f0, m0, rfl⟩)
    rw [hr, hr] at b
    have b' := le_of_mul_le_mul_left b hs
    rw [le_antisymm b' a]
    ring

/-- The initial step is bounded by the smallest rate divided by the Courant number: a smaller Courant number allows a longer step, until the buoyancy frequency limits it. -/
theorem C109_initial (CFL : ℝ) (hC : 0 < CFL) (N : ℕ) (c0 nb : ℝ) (fsc : List ℝ) (hne : fsc ≠ []) (hf : ∀ f ∈ fsc, 0 < f + c0) :
    ∃ f0 ∈ fsc, (∀ f ∈ fsc, propagation N c0 f0 ≤ propagation N c0 f) ∧ dtInit CFL N c0 nb fsc = min (propagation N c0 f0 / CFL) (CFL / nb) := by
  have hp : ∀ f ∈ fsc, 0 < propagation N c0 f := fun f h => by have := hf f h; unfold propagation; positivity
  obtain ⟨h1, h2⟩ := listMax_spec (fsc.map fun f => CFL / propagation N c0 f) (by simpa using hne)
  obtain ⟨f0, hf0, e0⟩ := List.mem_map.1 h2
  refine ⟨f0, hf0, fun f hm => ?_, ?_⟩
  · have := h1 _ (List.mem_map.2 ⟨f, hm, rfl⟩)
    rw [← e0] at this
    exact (div_le_div_iff_of_pos_left hC (hp f hm) (hp f0 hf0)).1 this
  · unfold dtInit
    simp only [rate_eq]
    rw [← e0, one_div_div]

/-! ### Clock -/

/-- **C109, clock.** In a run of any number of passes, each pass advances the fields by the step size with which it began, but the clock by the next one. -/
theorem C109_clock (rhs : Flow → Out Flow) (big : Flow → Prop) [DecidablePred big] (step : Flow → ℝ) (S : ℕ → Sim) (n : ℕ) (hS : ∀ j < n, pass rhs big step (S j) = .ok (S (j + 1))) :
    (∀ j < n, ∃ r, (S (j + 1)).q = Flow.axpy (S j).dt r (S j).q ∧ ¬ big (S (j + 1)).q) ∧
    (S n).t - (S 0).t = ∑ j ∈ Finset.range n, (S j).dt + ((S n).dt - (S 0).dt) := by
  have key : ∀ j < n, (∃ r, (S (j + 1)).q = Flow.axpy (S j).dt r (S j).q ∧ ¬ big (S (j + 1)).q) ∧ (S (j + 1)).t = (S j).t + (S (j + 1)).dt := by
    intro j hj
    have h := hS j hj
    unfold pass at h
    simp only [Out.bind_eq_ok] at h
    obtain ⟨r1, -, r2, -, h⟩ := h
    split_ifs at h with hb
    simp only [Out.pure_eq, Out.ok.injEq] at h
    rw [← h]
    exact ⟨⟨r2, rfl, hb⟩, rfl⟩
  refine ⟨fun j hj => (key j hj).1, ?_⟩
  clear hS
  induction n with
  | zero => simp
  | succ n ih =>
    have h1 := ih fun j hj => key j (by omega)
    have h2 := (key n (by omega)).2
    rw [Finset.sum_range_succ]
    linarith

/-! ### Examples -/

/-- One square element of order one whose four sides are walls. -/
noncomputable def demo : Elem where
  np := 4
  K := 1
  nf := 4
  nfp := 2
  Dr := fun i j => if j % 2 = i % 2 then (if j < 2 then -1 / 2 else 1 / 2) else 0
  Ds := fun i j => if j / 2 = i / 2 % 2 then (if j % 2 = 0 then -1 / 2 else 1 / 2) else 0
  rx := fun _ _ => 1
  ry := fun _ _ => 0
  sx := fun _ _ => 0
  sy := fun _ _ => 1
  nx := ⟨8, 1, fun c _ => if c < 2 then 0 else if c < 4 then 1 else if c < 6 then 0 else -1⟩
  ny := ⟨8, 1, fun c _ => if c < 2 then -1 else if c < 4 then 0 else if c < 6 then 1 else 0⟩
  fscale := fun _ _ => 2
  lift := fun _ _ => 1
  vmapM := [0, 2, 2, 3, 1, 3, 0, 1]
  vmapP := [0, 2, 2, 3, 1, 3, 0, 1]
  bc := fun t => if t = 3 then some [0, 1, 2, 3, 4, 5, 6, 7] else none

theorem demo_wf : demo.WF := ⟨⟨rfl, rfl⟩, ⟨rfl, rfl⟩, rfl, rfl, by decide, by decide, ⟨_, rfl⟩, by decide⟩

theorem demo_sums : (∀ i, ∑ j ∈ Finset.range demo.np, demo.Dr i j = 0) ∧ ∀ i, ∑ j ∈ Finset.range demo.np, demo.Ds i j = 0 := by
  constructor <;> intro i
  · have : i % 2 = 0 ∨ i % 2 = 1 := by omega
    rcases this with h | h <;> norm_num [demo, Finset.sum_range_succ, h]
  · have : i / 2 % 2 = 0 ∨ i / 2 % 2 = 1 := by omega
    rcases this with h | h <;> norm_num [demo, Finset.sum_range_succ, h]

/-- On the reference square, a density increasing with `x` decreases where the flow is to the right. -/
example : ∃ r, demo.rhs 0 (fun _ _ => 0) ⟨⟨4, 1, fun i _ => 10 + 2 * (if i < 2 then -1 else 1) + 0 * (if i % 2 = 0 then -1 else 1)⟩, ⟨4, 1, fun _ _ => 3⟩, ⟨4, 1, fun _ _ => 5⟩⟩ = .ok r ∧
    r.rho.at' 1 0 = -6 := by
  obtain ⟨r, h1, h2⟩ := C109_advection demo demo_wf demo_sums.1 demo_sums.2 (fun i _ => if i < 2 then -1 else 1) (fun i _ => if i % 2 = 0 then -1 else 1) 1 0 (by decide)
    (by norm_num [demo, Finset.sum_range_succ]) (by norm_num [demo, Finset.sum_range_succ]) (by norm_num [demo, Finset.sum_range_succ]) (by norm_num [demo, Finset.sum_range_succ])
    0 (fun _ _ => 0) 10 2 0 ⟨4, 1, fun _ _ => 3⟩ ⟨4, 1, fun _ _ => 5⟩ ⟨rfl, rfl⟩ ⟨rfl, rfl⟩ (fun w _ n _ _ => rfl)
  refine ⟨r, h1, ?_⟩
  rw [h2]
  norm_num

/-- Water of density one starts falling. -/
example : ∃ r, demo.rhs 9.81 (fun _ _ => 7) ⟨⟨4, 1, fun _ _ => 1⟩, zeroMat 4 1, zeroMat 4 1⟩ = .ok r ∧ r.v.at' 0 0 = -9.81 := by
  obtain ⟨r, h1, h2⟩ := C109_rest demo demo_wf 9.81 (fun _ _ => 7) ⟨4, 1, fun _ _ => 1⟩ ⟨rfl, rfl⟩
  exact ⟨r, h1, by rw [(h2 0 0 (by decide)).2.2]; norm_num⟩

/-- A flow with speed three straight through the walls is not stopped. -/
example : ∃ r, demo.rhs 0 (fun _ _ => 0) ⟨⟨4, 1, fun _ _ => 1⟩, ⟨4, 1, fun _ _ => 3⟩, ⟨4, 1, fun _ _ => 0⟩⟩ = .ok r ∧ r.u.at' 0 0 = 0 := by
  obtain ⟨r, h1, h2⟩ := C109_walls demo demo_wf demo_sums.1 demo_sums.2 0 (fun _ _ => 0) 1 3 0
  exact ⟨r, h1, by rw [(h2 0 0 (by decide)).2.1]; norm_num⟩

/-- Order three, two face nodes: the Courant condition is violated at both. -/
example : ∀ f ∈ [(1 : ℝ), 2], (0.5 : ℝ) < dtLoop 0.5 3 0.5 [1, 2] * propagation 3 0.5 f := by
  refine (C109_courant_false 0.5 (by norm_num) 3 0.5 [1, 2] (by simp) ?_).1 ?_ <;> intro f hf <;> simp at hf <;> rcases hf with rfl | rfl <;> norm_num [propagation]

end Blitzdg.Ins2D
