import Verif.SW.PyRhs
import Verif.SW.MassProps
import Verif.SW.SetupProps

/-!
C114: the right-hand side of the Python shallow water solver (strong form, with a tracer) on every grid the triangle provisioner builds, called with the grid's own index maps.
-/

namespace Blitzdg.SW

open Blitzdg.Sparse (DMat)
open Blitzdg.Nodes1D (Lapack)
open Blitzdg.DG2D

variable {P : ℕ → ℕ} {x : List ℝ} {bt : List Int} {g : Grid}

/-! ### Arrays -/

theorem pick_ok (a : List ℝ) (idx : List ℕ) (h : ∀ c i : ℕ, idx[c]? = some i → i < a.length) :
    ∃ r, pick a idx = .ok r ∧ r.length = idx.length ∧ ∀ c i : ℕ, idx[c]? = some i → r[c]? = a[i]? := by
  induction idx with
  | nil => exact ⟨[], rfl, rfl, fun c i hc => by simp at hc⟩
  | cons j l ih =>
    obtain ⟨r, h1, h2, h3⟩ := ih fun c i hc => h (c + 1) i (by simpa using hc)
    have hj := h 0 j rfl
    refine ⟨a[j] :: r, ?_, by simp [h2], fun c i hc => ?_⟩
    · unfold pick
      rw [List.getElem?_eq_getElem hj]
      simp only [h1, Out.bind_ok, Out.pure_eq]
    · cases c with
      | zero => simp only [List.getElem?_cons_zero, Option.some.injEq] at hc ⊢; subst hc; rw [List.getElem?_eq_getElem hj]
      | succ c => simp only [List.getElem?_cons_succ] at hc ⊢; exact h3 c i hc

theorem flatF_length (a : DMat ℝ) : (flatF a).length = a.rows * a.cols := by simp [flatF]

theorem flatF_get (a : DMat ℝ) (i k : ℕ) (hi : i < a.rows) (hk : k < a.cols) : (flatF a)[i + a.rows * k]? = some (a.at' i k) := by
  have hlt : i + a.rows * k < a.rows * a.cols := by
    have : a.rows * (k + 1) ≤ a.rows * a.cols := Nat.mul_le_mul_left _ hk
    have e : a.rows * (k + 1) = a.rows * k + a.rows := by ring
    omega
  unfold flatF
  rw [List.getElem?_map, List.getElem?_range hlt]
  simp only [Option.map_some, Nat.add_mul_mod_self_left, Nat.mod_eq_of_lt hi, Nat.add_mul_div_left _ _ (show 0 < a.rows by omega), Nat.div_eq_of_lt hi, Nat.zero_add]

/-- Tracer at the two sides of node `i` of face `e`. -/
def innerN (g : Grid) (hN : DMat ℝ) (e i : ℕ) : ℝ := hN.at' (g.n.mask i (e % 3)) (e / 3)
def outerN (P : ℕ → ℕ) (g : Grid) (hN : DMat ℝ) (e i : ℕ) : ℝ := hN.at' (g.n.mask (across P g.N e i) (P e % 3)) (P e / 3)

/-- A state with its tracer. -/
def State.with4 (s : State) (n : ℝ) : Q4 := ⟨s.h, s.hu, s.hv, n⟩

theorem sideOf_ok (q : Fields) (hN : DMat ℝ) (hq : q.Fits g) (hN' : Fits g hN) (hwet : Wet g q) (vmap : List ℕ) (T : ℕ → ℕ → ℕ × ℕ) (hlen : vmap.length = g.nf)
    (hT : ∀ e < 3 * g.K, ∀ i ≤ g.N, (T e i).1 < g.np ∧ (T e i).2 < g.K ∧ vmap[g.fn e i]? = some ((T e i).1 + g.np * (T e i).2)) :
    ∃ m, sideOf q hN vmap = .ok m ∧ m.length = g.nf ∧ ∀ e < 3 * g.K, ∀ i ≤ g.N, m[g.fn e i]? = some ((q.at' (T e i).1 (T e i).2).with4 (hN.at' (T e i).1 (T e i).2)) := by
  have hr : ∀ a : DMat ℝ, Fits g a → ∀ c i : ℕ, vmap[c]? = some i → i < (flatF a).length := by
    intro a ha c i hc
    have hcl : c < g.nf := by rw [← hlen]; exact (List.getElem?_eq_some_iff.1 hc).1
    obtain ⟨e, j, he, hj, rfl⟩ := fn_surj hcl
    obtain ⟨t1, t2, t3⟩ := hT e he j hj
    rw [t3] at hc
    obtain rfl := Option.some.inj hc
    rw [flatF_length, ha.1, ha.2]
    have : g.np * ((T e j).2 + 1) ≤ g.np * g.K := Nat.mul_le_mul_left _ t2
    have e1 : g.np * ((T e j).2 + 1) = g.np * (T e j).2 + g.np := by ring
    omega
  have hv : ∀ (a : DMat ℝ) (l : List ℝ), Fits g a → (∀ c i : ℕ, vmap[c]? = some i → l[c]? = (flatF a)[i]?) → ∀ e < 3 * g.K, ∀ i ≤ g.N, l.getD (g.fn e i) 0 = a.at' (T e i).1 (T e i).2 := by
    intro a l ha hl e he i hi
    obtain ⟨t1, t2, t3⟩ := hT e he i hi
    have := hl _ _ t3
    have hf := flatF_get a (T e i).1 (T e i).2 (by rw [ha.1]; exact t1) (by rw [ha.2]; exact t2)
    rw [ha.1] at hf
    exact getD_some (this.trans hf)
  obtain ⟨h, a1, a2, a3⟩ := pick_ok (flatF q.h) vmap (hr _ hq.1)
  obtain ⟨hu, b1, b2, b3⟩ := pick_ok (flatF q.hu) vmap (hr _ hq.2.1)
  obtain ⟨hv', c1, c2, c3⟩ := pick_ok (flatF q.hv) vmap (hr _ hq.2.2)
  obtain ⟨n, d1, d2, d3⟩ := pick_ok (flatF hN) vmap (hr _ hN')
  refine ⟨_, by unfold sideOf; simp only [a1, b1, c1, d1, Out.bind_ok, Out.pure_eq]; rfl, by simp [hlen], fun e he i hi => ?_⟩
  rw [List.getElem?_map, List.getElem?_range (by rw [hlen]; exact fn_lt he hi)]
  obtain ⟨t1, t2, -⟩ := hT e he i hi
  have hne : q.h.at' (T e i).1 (T e i).2 ≠ 0 := (hwet _ t1 _ t2).ne'
  simp only [Option.map_some, Option.some.injEq, State.with4, Fields.at']
  rw [hv _ _ hq.1 a3 e he i hi, hv _ _ hq.2.1 b3 e he i hi, hv _ _ hq.2.2 c3 e he i hi, hv _ _ hN' d3 e he i hi, mul_div_cancel₀ _ hne, mul_div_cancel₀ _ hne]

/-- What the wall assignments leave at node `c`. -/
noncomputable def pyWalled (x y : ℝ) (a b : Q4) : Q4 := { b with hu := a.hu - 2 * x * (a.hu * x + a.hv * y), hv := a.hv - 2 * y * (a.hu * x + a.hv * y) }

theorem pyWall_loop (nx ny : List ℝ) (n : ℕ) (hnx : nx.length = n) (hny : ny.length = n) (m : List Q4) (hm : m.length = n) (W : List ℕ) (hW : ∀ w ∈ W, w < n) (p : List Q4) (hp : p.length = n) :
    ∃ p', loopM (pyWall nx ny m) p W = .ok p' ∧ p'.length = n ∧ ∀ c < n,
      p'.getD c Q4.none = if c ∈ W then pyWalled (nx.getD c 0) (ny.getD c 0) (m.getD c Q4.none) (p.getD c Q4.none) else p.getD c Q4.none := by
  induction W generalizing p with
  | nil => exact ⟨p, rfl, hp, fun c _ => by simp⟩
  | cons w W ih =>
    have hw := hW w (by simp)
    have hstep : pyWall nx ny m p w = .ok (p.set w (pyWalled (nx.getD w 0) (ny.getD w 0) (m.getD w Q4.none) (p.getD w Q4.none))) := by
      unfold pyWall
      rw [List.getElem?_eq_getElem (show w < m.length by omega), List.getElem?_eq_getElem (show w < p.length by omega), List.getElem?_eq_getElem (show w < nx.length by omega),
        List.getElem?_eq_getElem (show w < ny.length by omega), List.getD_eq_getElem _ _ (show w < nx.length by omega), List.getD_eq_getElem _ _ (show w < ny.length by omega),
        List.getD_eq_getElem _ _ (show w < m.length by omega), List.getD_eq_getElem _ _ (show w < p.length by omega)]
      rfl
    obtain ⟨p', h1, h2, h3⟩ := ih (fun v hv => hW v (by simp [hv])) (p.set w (pyWalled (nx.getD w 0) (ny.getD w 0) (m.getD w Q4.none) (p.getD w Q4.none))) (by simpa using hp)
    refine ⟨p', by rw [loopM_cons, hstep, Out.bind_ok, h1], h2, fun c hc => ?_⟩
    rw [h3 c hc]
    have hg : (p.set w (pyWalled (nx.getD w 0) (ny.getD w 0) (m.getD w Q4.none) (p.getD w Q4.none))).getD c Q4.none
        = if c = w then pyWalled (nx.getD c 0) (ny.getD c 0) (m.getD c Q4.none) (p.getD c Q4.none) else p.getD c Q4.none := by
      rw [List.getD_eq_getElem?_getD, List.getElem?_set]
      by_cases h : w = c
      · subst h; simp [hp, hw]
      · rw [if_neg h, if_neg (fun h' => h h'.symm), List.getD_eq_getElem?_getD]
    rw [hg]
    by_cases hcw : c = w
    · subst hcw
      by_cases hcW : c ∈ W <;> simp [hcW, pyWalled]
    · simp only [List.mem_cons, hcw, false_or, if_false]

theorem pyFaceMax_isMax (s : ℕ → ℝ) (e i : ℕ) (hi : i ≤ g.N) : IsMax g.N (fun j => s (g.fn e j)) (pyFaceMax (g.N + 1) s (g.fn e i)) := by
  have hd : g.fn e i / (g.N + 1) = e := by
    unfold Grid.fn
    rw [Nat.mul_add_div (Nat.succ_pos _), Nat.div_eq_of_lt (by omega), Nat.add_zero]
  unfold pyFaceMax
  rw [hd]
  obtain ⟨h1, h2⟩ := foldl_max_ge (fun i => s ((g.N + 1) * e + i)) (List.range (g.N + 1)) (s ((g.N + 1) * e))
  refine ⟨fun j hj => h2 j (List.mem_range.2 (by omega)), ?_⟩
  rcases foldl_max_mem (fun i => s ((g.N + 1) * e + i)) (List.range (g.N + 1)) (s ((g.N + 1) * e)) with h3 | ⟨j, hj, h3⟩
  · exact ⟨0, Nat.zero_le _, h3⟩
  · exact ⟨j, by have := List.mem_range.1 hj; omega, h3⟩

theorem pyFlux_eq (grav : ℝ) (s : State) (n : ℝ) : (pyF grav (s.with4 n)).c1 = (fluxF grav s).c1 ∧ (pyF grav (s.with4 n)).c2 = (fluxF grav s).c2 ∧ (pyF grav (s.with4 n)).c3 = (fluxF grav s).c3 ∧
    (pyG grav (s.with4 n)).c1 = (fluxG grav s).c1 ∧ (pyG grav (s.with4 n)).c2 = (fluxG grav s).c2 ∧ (pyG grav (s.with4 n)).c3 = (fluxG grav s).c3 := by
  refine ⟨rfl, ?_, ?_, rfl, ?_, ?_⟩ <;> simp only [pyF, pyG, fluxF, fluxG, State.with4] <;> ring

theorem pyJump_eq (grav nx ny lam : ℝ) (m p : State) (a b : ℝ) : (pyJump grav nx ny lam (m.with4 a) (p.with4 b)).c1 = (jumpFlux grav nx ny lam m p).c1 ∧
    (pyJump grav nx ny lam (m.with4 a) (p.with4 b)).c2 = (jumpFlux grav nx ny lam m p).c2 ∧ (pyJump grav nx ny lam (m.with4 a) (p.with4 b)).c3 = (jumpFlux grav nx ny lam m p).c3 := by
  obtain ⟨a1, a2, a3, a4, a5, a6⟩ := pyFlux_eq grav m a
  obtain ⟨b1, b2, b3, b4, b5, b6⟩ := pyFlux_eq grav p b
  refine ⟨?_, ?_, ?_⟩
  · simp only [pyJump, jumpFlux, a1, a4, b1, b4]; rfl
  · simp only [pyJump, jumpFlux, a2, a5, b2, b5]; rfl
  · simp only [pyJump, jumpFlux, a3, a6, b3, b6]; rfl

/-- Velocity. -/
noncomputable def State.vel (s : State) : ℝ × ℝ := (s.hu / s.h, s.hv / s.h)

/-- Jump of the tracer flux minus the dissipation. -/
noncomputable def tracerJump (nx ny lam : ℝ) (m p : State) (a b : ℝ) : ℝ := 0.5 * ((a * m.vel.1 - b * p.vel.1) * nx + (a * m.vel.2 - b * p.vel.2) * ny - lam * (a - b))

/-- The Python right-hand side written out, with the same inner and exterior states as src/sw2d-simple. -/
theorem GridSpec.rhsPy_ok (hg : GridSpec P x bt g) (grav f CD : ℝ) (zx zy : DMat ℝ) (q : Fields) (hN : DMat ℝ) (hq : q.Fits g) (hN' : Fits g hN) (hwet : Wet g q) (hw : ∃ e < 3 * g.K, bt[e]? = some 3) :
    ∃ (Λ : ℕ → ℕ → ℝ) (d1 d2 d3 d4 : DMat ℝ) (r : Fields) (n : DMat ℝ), g.rhsPy grav f CD zx zy g.maps.vmapM g.maps.vmapP q hN = .ok (r, n) ∧ r.Fits g ∧ Fits g n ∧
      (∀ i k, r.h.at' i k = g.divergence (fun j k => (fluxF grav (q.at' j k)).c1) (fun j k => (fluxG grav (q.at' j k)).c1) i k + g.surface d1 i k) ∧
      (∀ i k, r.hu.at' i k = g.divergence (fun j k => (fluxF grav (q.at' j k)).c2) (fun j k => (fluxG grav (q.at' j k)).c2) i k + g.surface d2 i k
        + (sourcePy CD f (q.at' i k)).1 - grav * q.h.at' i k * zx.at' i k) ∧
      (∀ i k, r.hv.at' i k = g.divergence (fun j k => (fluxF grav (q.at' j k)).c3) (fun j k => (fluxG grav (q.at' j k)).c3) i k + g.surface d3 i k
        + (sourcePy CD f (q.at' i k)).2 - grav * q.h.at' i k * zy.at' i k) ∧
      (∀ i k, n.at' i k = g.divergence (fun j k => hN.at' j k * (q.at' j k).vel.1) (fun j k => hN.at' j k * (q.at' j k).vel.2) i k + g.surface d4 i k) ∧
      (∀ e < 3 * g.K, ∀ i ≤ g.N, IsMax g.N (fun j => max (speed grav (inner g q e j)) (speed grav (exterior P bt g q e j))) (Λ e i)) ∧
      ∀ e < 3 * g.K, ∀ i ≤ g.N,
        d1.at' (e % 3 * (g.N + 1) + i) (e / 3) = (jumpFlux grav (faceNormal g e).1 (faceNormal g e).2 (Λ e i) (inner g q e i) (exterior P bt g q e i)).c1 ∧
        d2.at' (e % 3 * (g.N + 1) + i) (e / 3) = (jumpFlux grav (faceNormal g e).1 (faceNormal g e).2 (Λ e i) (inner g q e i) (exterior P bt g q e i)).c2 ∧
        d3.at' (e % 3 * (g.N + 1) + i) (e / 3) = (jumpFlux grav (faceNormal g e).1 (faceNormal g e).2 (Λ e i) (inner g q e i) (exterior P bt g q e i)).c3 ∧
        d4.at' (e % 3 * (g.N + 1) + i) (e / 3) = tracerJump (faceNormal g e).1 (faceNormal g e).2 (Λ e i) (inner g q e i) (exterior P bt g q e i) (innerN g hN e i) (outerN P g hN e i) := by
  obtain ⟨ew, hew, htw⟩ := hw
  obtain ⟨W, hW⟩ := hg.bcSome 3 (by norm_num) ⟨g.fn ew 0, (tagged_iff hew (Nat.zero_le _)).2 htw⟩
  have hWm := hg.bc 3 (by norm_num) W hW
  have hWlt : ∀ w ∈ W, w < g.nf := by
    intro w hw
    obtain ⟨e, i, he, hi, -, rfl⟩ := (hWm w).1 hw
    have := fn_lt (g := g) he (show i ≤ g.N by omega)
    unfold Grid.fn at this
    rwa [Nat.mul_comm] at this
  have hrow : ∀ e i, i ≤ g.N → e % 3 * (g.N + 1) + i < 3 * (g.N + 1) := by
    intro e i hi
    have : (e % 3 + 1) * (g.N + 1) ≤ 3 * (g.N + 1) := Nat.mul_le_mul_right _ (by omega)
    have e1 : (e % 3 + 1) * (g.N + 1) = e % 3 * (g.N + 1) + (g.N + 1) := by ring
    omega
  have hfn : ∀ e i, e % 3 * (g.N + 1) + i + 3 * (g.N + 1) * (e / 3) = g.fn e i := by
    intro e i
    unfold Grid.fn
    conv_rhs => rw [← Nat.div_add_mod e 3]
    ring
  have hnx : ∀ e < 3 * g.K, ∀ i ≤ g.N, (flatF g.nx).getD (g.fn e i) 0 = (faceNormal g e).1 ∧ (flatF g.ny).getD (g.fn e i) 0 = (faceNormal g e).2 := by
    intro e he i hi
    have a := flatF_get g.nx _ (e / 3) (hrow e i hi) (show e / 3 < g.K by omega)
    have b := flatF_get g.ny _ (e / 3) (hrow e i hi) (show e / 3 < g.K by omega)
    have a' : (flatF g.nx)[g.fn e i]? = some (g.nx.at' (e % 3 * (g.N + 1) + i) (e / 3)) := by rw [← hfn]; exact a
    have b' : (flatF g.ny)[g.fn e i]? = some (g.ny.at' (e % 3 * (g.N + 1) + i) (e / 3)) := by rw [← hfn]; exact b
    rw [getD_some a', getD_some b']
    unfold Grid.nx Grid.ny faceNormal
    simp only [hg.normal_eq (e % 3) i (e / 3) (by omega) hi, and_self]
  have hvol : ∀ e i, vol g.np 3 g.n.mask e i = g.n.mask i (e % 3) + g.np * (e / 3) := by
    intro e i; unfold vol; ring
  obtain ⟨m, m1, m2, m3⟩ := sideOf_ok q hN hq hN' hwet g.maps.vmapM (fun e i => (g.n.mask i (e % 3), e / 3)) hg.lenM fun e he i hi =>
    ⟨hg.maskLt _ (by omega) i hi, by show e / 3 < g.K; omega, by rw [← hvol]; exact hg.vmapM e he i hi⟩
  obtain ⟨p, p1, p2, p3⟩ := sideOf_ok q hN hq hN' hwet g.maps.vmapP (fun e i => (g.n.mask (across P g.N e i) (P e % 3), P e / 3)) hg.lenP fun e he i hi =>
    ⟨hg.maskLt _ (by omega) _ (across_le P g.N e i hi), by have := hg.lt e he; show P e / 3 < g.K; omega, by rw [← hvol]; exact hg.vmapP e he i hi⟩
  have lx : (flatF g.nx).length = g.nf := flatF_length _
  have ly : (flatF g.ny).length = g.nf := flatF_length _
  obtain ⟨p', w1, w2, w3⟩ := pyWall_loop (flatF g.nx) (flatF g.ny) g.nf lx ly m m2 W hWlt p p2
  have gd : ∀ (l : List Q4) (c : ℕ) (v : Q4), l[c]? = some v → l.getD c Q4.none = v := by
    intro l c v h; rw [List.getD_eq_getElem?_getD, h]; rfl
  have hin : ∀ e < 3 * g.K, ∀ i ≤ g.N, m.getD (g.fn e i) Q4.none = (inner g q e i).with4 (innerN g hN e i) := fun e he i hi => gd _ _ _ (m3 e he i hi)
  have hext : ∀ e < 3 * g.K, ∀ i ≤ g.N, p'.getD (g.fn e i) Q4.none = (exterior P bt g q e i).with4 (outerN P g hN e i) := by
    intro e he i hi
    have hiff : g.fn e i ∈ W ↔ bt[e]? = some 3 := (hWm _).trans (tagged_iff he hi)
    rw [w3 _ (fn_lt he hi), (hnx e he i hi).1, (hnx e he i hi).2, hin e he i hi, gd _ _ _ (p3 e he i hi)]
    unfold exterior
    by_cases ht : bt[e]? = some 3
    · rw [if_pos (hiff.2 ht), if_pos ht]; rfl
    · rw [if_neg (fun h => ht (hiff.1 h)), if_neg ht]; rfl
  set lam := pyFaceMax (g.N + 1) (nodeSpeed grav m p') with hlam
  set dF := (List.range g.nf).map fun c => pyJump grav ((flatF g.nx).getD c 0) ((flatF g.ny).getD c 0) (lam c) (m.getD c Q4.none) (p'.getD c Q4.none) with hdF
  have hd : ∀ e < 3 * g.K, ∀ i ≤ g.N, ∀ c : V4 → ℝ, (reshapeF (3 * (g.N + 1)) g.K (dF.map c)).at' (e % 3 * (g.N + 1) + i) (e / 3)
      = c (pyJump grav (faceNormal g e).1 (faceNormal g e).2 (lam (g.fn e i)) ((inner g q e i).with4 (innerN g hN e i)) ((exterior P bt g q e i).with4 (outerN P g hN e i))) := by
    intro e he i hi c
    show (dF.map c).getD (e % 3 * (g.N + 1) + i + 3 * (g.N + 1) * (e / 3)) 0 = _
    have := fn_lt (g := g) he hi
    rw [hfn, List.getD_eq_getElem _ _ (by rw [hdF]; simpa using this)]
    simp only [hdF, List.getElem_map, List.getElem_range]
    rw [(hnx e he i hi).1, (hnx e he i hi).2, hin e he i hi, hext e he i hi]
  refine ⟨fun e i => lam (g.fn e i), reshapeF (3 * (g.N + 1)) g.K (dF.map V4.c1), reshapeF (3 * (g.N + 1)) g.K (dF.map V4.c2), reshapeF (3 * (g.N + 1)) g.K (dF.map V4.c3), reshapeF (3 * (g.N + 1)) g.K (dF.map V4.c4), ?_⟩
  have hrun : g.rhsPy grav f CD zx zy g.maps.vmapM g.maps.vmapP q hN = .ok (
      { h := ⟨g.np, g.K, fun i k => g.divergence (fun j k => (pyF grav ((q.at' j k).with4 (hN.at' j k))).c1) (fun j k => (pyG grav ((q.at' j k).with4 (hN.at' j k))).c1) i k
          + g.surface (reshapeF (3 * (g.N + 1)) g.K (dF.map V4.c1)) i k⟩
        hu := ⟨g.np, g.K, fun i k => g.divergence (fun j k => (pyF grav ((q.at' j k).with4 (hN.at' j k))).c2) (fun j k => (pyG grav ((q.at' j k).with4 (hN.at' j k))).c2) i k
          + g.surface (reshapeF (3 * (g.N + 1)) g.K (dF.map V4.c2)) i k + (sourcePy CD f (q.at' i k)).1 - grav * q.h.at' i k * zx.at' i k⟩
        hv := ⟨g.np, g.K, fun i k => g.divergence (fun j k => (pyF grav ((q.at' j k).with4 (hN.at' j k))).c3) (fun j k => (pyG grav ((q.at' j k).with4 (hN.at' j k))).c3) i k
          + g.surface (reshapeF (3 * (g.N + 1)) g.K (dF.map V4.c3)) i k + (sourcePy CD f (q.at' i k)).2 - grav * q.h.at' i k * zy.at' i k⟩ },
      ⟨g.np, g.K, fun i k => g.divergence (fun j k => (pyF grav ((q.at' j k).with4 (hN.at' j k))).c4) (fun j k => (pyG grav ((q.at' j k).with4 (hN.at' j k))).c4) i k
        + g.surface (reshapeF (3 * (g.N + 1)) g.K (dF.map V4.c4)) i k⟩) := by
    unfold Grid.rhsPy tagNodes
    simp only [hW, Out.bind_ok, m1, p1]
    rw [if_neg (by simp [m2, p2])]
    simp only [w1, Out.bind_ok, Out.pure_eq]
    rfl
  refine ⟨_, _, hrun, ⟨⟨rfl, rfl⟩, ⟨rfl, rfl⟩, ⟨rfl, rfl⟩⟩, ⟨rfl, rfl⟩, fun i k => ?_, fun i k => ?_, fun i k => ?_, fun i k => rfl, ?_, ?_⟩
  · simp only [(pyFlux_eq grav _ _).1, (pyFlux_eq grav _ _).2.2.2.1]
  · simp only [(pyFlux_eq grav _ _).2.1, (pyFlux_eq grav _ _).2.2.2.2.1]
  · simp only [(pyFlux_eq grav _ _).2.2.1, (pyFlux_eq grav _ _).2.2.2.2.2]
  · intro e he i hi
    have hs : ∀ j ≤ g.N, nodeSpeed grav m p' (g.fn e j) = max (speed grav (inner g q e j)) (speed grav (exterior P bt g q e j)) := by
      intro j hj
      unfold nodeSpeed
      rw [hin e he j hj, hext e he j hj]
      rfl
    obtain ⟨a, j, hj, b⟩ := pyFaceMax_isMax (g := g) (nodeSpeed grav m p') e i hi
    exact ⟨fun j hj => by have := a j hj; beta_reduce at this; rwa [hs j hj] at this, j, hj, b.trans (hs j hj)⟩
  · intro e he i hi
    obtain ⟨j1, j2, j3⟩ := pyJump_eq grav (faceNormal g e).1 (faceNormal g e).2 (lam (g.fn e i)) (inner g q e i) (exterior P bt g q e i) (innerN g hN e i) (outerN P g hN e i)
    exact ⟨(hd e he i hi _).trans j1, (hd e he i hi _).trans j2, (hd e he i hi _).trans j3, (hd e he i hi _).trans rfl⟩

/-- Without a wall face the right-hand side raises `KeyError`. -/
theorem GridSpec.rhsPy_throws (hg : GridSpec P x bt g) (hw : ¬ ∃ e < 3 * g.K, bt[e]? = some 3) (grav f CD : ℝ) (zx zy : DMat ℝ) (vM vP : List ℕ) (q : Fields) (hN : DMat ℝ) :
    g.rhsPy grav f CD zx zy vM vP q hN = .throws := by
  have : g.bc 3 = none := by
    apply hg.bcNone 3 (by norm_num)
    rintro ⟨c, e, i, he, -, h, -⟩
    exact hw ⟨e, he, h⟩
  unfold Grid.rhsPy tagNodes
  rw [this]
  rfl

theorem surface_congr (g : Grid) (d d' : DMat ℝ) {i k : ℕ} (hk : k < g.K) (h : ∀ e < 3 * g.K, ∀ i ≤ g.N, d.at' (e % 3 * (g.N + 1) + i) (e / 3) = d'.at' (e % 3 * (g.N + 1) + i) (e / 3)) :
    g.surface d i k = g.surface d' i k := by
  unfold Grid.surface
  rw [sum_three, sum_three]
  apply Finset.sum_congr rfl
  intro f hf
  have hf := Finset.mem_range.1 hf
  apply Finset.sum_congr rfl
  intro j hj
  have hj := Finset.mem_range.1 hj
  have := h (3 * k + f) (by omega) j (by omega)
  rw [show (3 * k + f) % 3 = f by omega, show (3 * k + f) / 3 = k by omega] at this
  rw [this]

theorem isMax_same {N : ℕ} {s : ℕ → ℝ} {M M' : ℝ} (h : IsMax N s M) (h' : IsMax N s M') : M = M' :=
  isMax_unique h h' (fun i hi => ⟨i, hi, rfl⟩) fun i hi => ⟨i, hi, rfl⟩

/-! ### C114 -/

variable {la : Lapack} {eps ztol tol : ℝ} {N : ℕ} {m : Mesh}

/-- The source terms as the code has them: Coriolis force and drag of either momentum equation, bed slope `(zx, zy)`. -/
noncomputable def sourceX (grav f CD : ℝ) (q : Fields) (zx : DMat ℝ) (i k : ℕ) : ℝ :=
  f * q.hv.at' i k - CD * √((q.hu.at' i k / q.h.at' i k) ^ 2 + (q.hv.at' i k / q.h.at' i k) ^ 2) * (q.hu.at' i k / q.h.at' i k) - grav * q.h.at' i k * zx.at' i k
noncomputable def sourceY (grav f CD : ℝ) (q : Fields) (zy : DMat ℝ) (i k : ℕ) : ℝ :=
  -f * q.hu.at' i k + CD * √((q.hu.at' i k / q.h.at' i k) ^ 2 + (q.hv.at' i k / q.h.at' i k) ^ 2) * (q.hv.at' i k / q.h.at' i k) - grav * q.h.at' i k * zy.at' i k

/-- **C114, agreement.** For every state with positive depth the Python solver computes the rate of change of the depth of src/sw2d-simple, and its rates of change of the momenta plus the source terms. -/
theorem C114_agree (h : Provisioned la eps ztol tol N m P g) (hw : ∃ e < 3 * m.K, m.bcType[e]? = some 3) (grav f CD : ℝ) (zx zy : DMat ℝ) (q : Fields) (hN : DMat ℝ) (hq : q.Fits g)
    (hN' : Fits g hN) (hwet : Wet g q) :
    ∃ r n s, g.rhsPy grav f CD zx zy g.maps.vmapM g.maps.vmapP q hN = .ok (r, n) ∧ g.rhsSimple grav q = .ok s ∧ r.Fits g ∧ Fits g n ∧ ∀ i < g.np, ∀ k < g.K,
      r.h.at' i k = s.h.at' i k ∧ r.hu.at' i k = s.hu.at' i k + sourceX grav f CD q zx i k ∧ r.hv.at' i k = s.hv.at' i k + sourceY grav f CD q zy i k := by
  obtain ⟨x, hg, -, hK, -⟩ := h.spec
  rw [← hK] at hw
  obtain ⟨Λ, d1, d2, d3, d4, r, n, h1, f1, f2, e1, e2, e3, e4, hΛ, hd⟩ := hg.rhsPy_ok grav f CD zx zy q hN hq hN' hwet hw
  obtain ⟨Λ', d1', d2', d3', s, h1', -, -, -, e1', e2', e3', hΛ', hd'⟩ := hg.rhsSimple_ok grav q hq.1 hq.2.1 hq.2.2 hw
  have hL : ∀ e < 3 * g.K, ∀ i ≤ g.N, Λ e i = Λ' e i := fun e he i hi => isMax_same (hΛ e he i hi) (hΛ' e he i hi)
  refine ⟨r, n, s, h1, h1', f1, f2, fun i hi k hk => ⟨?_, ?_, ?_⟩⟩
  · rw [e1, e1', surface_congr g d1 d1' hk fun e he i hi => by rw [(hd e he i hi).1, (hd' e he i hi).1, hL e he i hi]]
  · rw [e2, e2', surface_congr g d2 d2' hk fun e he i hi => by rw [(hd e he i hi).2.1, (hd' e he i hi).2.1, hL e he i hi]]
    simp only [sourcePy, sourceX, Fields.at', pow_two]
    ring
  · rw [e3, e3', surface_congr g d3 d3' hk fun e he i hi => by rw [(hd e he i hi).2.2.1, (hd' e he i hi).2.2, hL e he i hi]]
    simp only [sourcePy, sourceY, Fields.at', pow_two]
    ring

theorem IsTotal.congr {u v : ℕ → ℕ → ℝ} (h : ∀ i < g.np, ∀ k < g.K, u i k = v i k) {M : ℝ} (hM : IsTotal g u M) : IsTotal g v M := by
  obtain ⟨p, h1, h2⟩ := hM
  exact ⟨p, fun k hk => ⟨(h1 k hk).1, fun i hi => ((h1 k hk).2 i hi).trans (h i hi k hk)⟩, h2⟩

/-- Flux of tracer out of an element. -/
noncomputable def tracerFlux (nx ny lam : ℝ) (m p : State) (a b : ℝ) : ℝ := 0.5 * ((a * m.vel.1 + b * p.vel.1) * nx + (a * m.vel.2 + b * p.vel.2) * ny + lam * (a - b))

theorem tracerFlux_anti (nx ny lam : ℝ) (m p : State) (a b : ℝ) : tracerFlux (-nx) (-ny) lam p m b a = -tracerFlux nx ny lam m p a b := by
  unfold tracerFlux; ring

/-- Through a wall no tracer flows. -/
theorem tracerFlux_wall (nx ny lam : ℝ) (hn : nx * nx + ny * ny = 1) (m : State) (a : ℝ) : tracerFlux nx ny lam m (wallState nx ny m) a a = 0 := by
  have : (wallState nx ny m).vel.1 * nx + (wallState nx ny m).vel.2 * ny = -(m.vel.1 * nx + m.vel.2 * ny) := by
    simp only [State.vel, wallState]
    by_cases h : m.h = 0
    · simp [h]
    · field_simp
      linear_combination -2 * (m.hu * nx + m.hv * ny) * hn
  unfold tracerFlux
  linear_combination (0.5 * a) * this

/-- **C114, totals.** When every boundary face is a wall, neither water nor tracer is created or lost, whatever the state. -/
theorem C114_total (h : Provisioned la eps ztol tol N m P g) (hw : ∀ e < 3 * m.K, m.bcType[e]? = some 3 ↔ P e = e) (hw1 : ∃ e < 3 * m.K, P e = e) (grav f CD : ℝ) (zx zy : DMat ℝ) (q : Fields)
    (hN : DMat ℝ) (hq : q.Fits g) (hN' : Fits g hN) (hwet : Wet g q) :
    ∃ r n, g.rhsPy grav f CD zx zy g.maps.vmapM g.maps.vmapP q hN = .ok (r, n) ∧ (∀ M, IsTotal g r.h.at' M ↔ M = 0) ∧ ∀ M, IsTotal g n.at' M ↔ M = 0 := by
  have hw3 : ∃ e < 3 * m.K, m.bcType[e]? = some 3 := by
    obtain ⟨e, he, hP⟩ := hw1
    exact ⟨e, he, (hw e he).2 hP⟩
  obtain ⟨r, n, s, h1, h1', f1, f2, ha⟩ := C114_agree h hw3 grav f CD zx zy q hN hq hN' hwet
  obtain ⟨s', hs, -, hm⟩ := C80_mass h hw hw1 grav q hq hwet
  rw [h1'] at hs
  obtain rfl : s = s' := by simpa using hs
  refine ⟨r, n, h1, fun M => ?_, ?_⟩
  · rw [← hm]
    exact ⟨fun hM => hM.congr fun i hi k hk => (ha i hi k hk).1, fun hM => hM.congr fun i hi k hk => (ha i hi k hk).1.symm⟩
  obtain ⟨x, hg, -, hK, -⟩ := h.spec
  rw [← hK] at hw hw1 hw3
  obtain ⟨Λ, d1, d2, d3, d4, r', n', h1'', -, -, -, -, -, e4, hΛ, hd⟩ := hg.rhsPy_ok grav f CD zx zy q hN hq hN' hwet hw3
  rw [h1] at h1''
  obtain ⟨rfl, rfl⟩ : r = r' ∧ n = n' := by simpa using h1''
  have hout : ∀ e < 3 * g.K, ∀ i ≤ g.N, outFlux g (fun j k => hN.at' j k * (q.at' j k).vel.1) (fun j k => hN.at' j k * (q.at' j k).vel.2) d4 e i
      = tracerFlux (faceNormal g e).1 (faceNormal g e).2 (Λ e i) (inner g q e i) (exterior P m.bcType g q e i) (innerN g hN e i) (outerN P g hN e i) := by
    intro e he i hi
    unfold outFlux
    rw [(hd e he i hi).2.2.2]
    unfold tracerJump tracerFlux inner innerN faceNormal
    ring
  have hwo : WallsOutside P m.bcType g := fun e he ht => (hw e he).1 ht
  have hb := hg.balance _ _ d4 (by
    intro e he hne i hi
    have hPe := hg.lt e he
    have hnP : P (P e) ≠ P e := by rw [hg.inv e he]; exact fun h => hne h.symm
    rw [hout _ hPe _ (across_le P g.N e i hi), hout e he i hi, speeds_agree hg hwo grav q Λ hΛ he hne hi, normal_opp hg he hne]
    have x1 : exterior P m.bcType g q (P e) (across P g.N e i) = inner g q e i := by
      unfold exterior
      rw [if_neg (fun h => hnP (hwo _ hPe h)), outer_across hg q he hi]
    have x2 : exterior P m.bcType g q e i = outer P g q e i := by
      unfold exterior
      rw [if_neg (fun h => hne (hwo e he h))]
    have x3 : outerN P g hN (P e) (across P g.N e i) = innerN g hN e i := by
      unfold outerN innerN
      rw [across_across P g.N e i hi (hg.inv e he), hg.inv e he]
    have x4 : innerN g hN (P e) (across P g.N e i) = outerN P g hN e i := rfl
    rw [x1, x2, x3, x4, inner_across]
    exact tracerFlux_anti _ _ _ _ _ _ _)
  have hz : IsTotal g n.at' 0 := by
    have hfun : n.at' = fun i k => g.divergence (fun j k => hN.at' j k * (q.at' j k).vel.1) (fun j k => hN.at' j k * (q.at' j k).vel.2) i k + g.surface d4 i k := by
      funext i k; exact e4 i k
    rw [hfun]
    rw [Finset.sum_eq_zero, neg_zero] at hb
    · exact hb
    · intro e he
      obtain ⟨he, hPe⟩ := Finset.mem_filter.1 he
      have he := Finset.mem_range.1 he
      have hz : ∀ i ≤ g.N, outFlux g (fun j k => hN.at' j k * (q.at' j k).vel.1) (fun j k => hN.at' j k * (q.at' j k).vel.2) d4 e i = 0 * 0 := by
        intro i hi
        have x5 : outerN P g hN e i = innerN g hN e i := by
          unfold outerN innerN across
          rw [if_pos hPe, hPe]
        rw [hout e he i hi, exterior_wall q hPe ((hw e he).2 hPe), x5, tracerFlux_wall _ _ _ (normal_unit hg he), zero_mul]
      rw [faceInt_congr hg.inc (fun i => 0 * 0) _ hz, faceInt_smul]
      ring
  exact fun M => ⟨fun hM => hg.total_unique hM hz, fun hM => hM ▸ hz⟩

/-- **C114, constant concentration.** If the amount of tracer is everywhere `c` times the depth, so are the rates of change: the concentration stays `c`. -/
theorem C114_constant (h : Provisioned la eps ztol tol N m P g) (hw : ∃ e < 3 * m.K, m.bcType[e]? = some 3) (grav f CD : ℝ) (zx zy : DMat ℝ) (q : Fields) (hN : DMat ℝ) (hq : q.Fits g)
    (hN' : Fits g hN) (hwet : Wet g q) (c : ℝ) (hc : ∀ i < g.np, ∀ k < g.K, hN.at' i k = c * q.h.at' i k) :
    ∃ r n, g.rhsPy grav f CD zx zy g.maps.vmapM g.maps.vmapP q hN = .ok (r, n) ∧ ∀ i < g.np, ∀ k < g.K, n.at' i k = c * r.h.at' i k := by
  obtain ⟨x, hg, -, hK, -⟩ := h.spec
  rw [← hK] at hw
  obtain ⟨Λ, d1, d2, d3, d4, r, n, h1, f1, f2, e1, e2, e3, e4, hΛ, hd⟩ := hg.rhsPy_ok grav f CD zx zy q hN hq hN' hwet hw
  refine ⟨r, n, h1, fun i hi k hk => ?_⟩
  have hF : ∀ j < g.np, hN.at' j k * (q.at' j k).vel.1 = c * (fluxF grav (q.at' j k)).c1 ∧ hN.at' j k * (q.at' j k).vel.2 = c * (fluxG grav (q.at' j k)).c1 := by
    intro j hj
    have hne : q.h.at' j k ≠ 0 := (hwet j hj k hk).ne'
    rw [hc j hj k hk]
    simp only [State.vel, Fields.at', fluxF, fluxG]
    constructor <;> field_simp
  have hdiv : g.divergence (fun j k => hN.at' j k * (q.at' j k).vel.1) (fun j k => hN.at' j k * (q.at' j k).vel.2) i k
      = c * g.divergence (fun j k => (fluxF grav (q.at' j k)).c1) (fun j k => (fluxG grav (q.at' j k)).c1) i k := by
    have s : ∀ (D : DMat ℝ) (u v : ℕ → ℝ), (∀ j < g.np, u j = c * v j) → ∑ j ∈ Finset.range g.np, D.at' i j * u j = c * ∑ j ∈ Finset.range g.np, D.at' i j * v j := by
      intro D u v huv
      rw [Finset.mul_sum]
      apply Finset.sum_congr rfl
      intro j hj
      rw [huv j (Finset.mem_range.1 hj)]
      ring
    unfold Grid.divergence
    rw [s _ _ (fun j => (fluxF grav (q.at' j k)).c1) fun j hj => (hF j hj).1, s _ _ (fun j => (fluxF grav (q.at' j k)).c1) fun j hj => (hF j hj).1,
      s _ _ (fun j => (fluxG grav (q.at' j k)).c1) fun j hj => (hF j hj).2, s _ _ (fun j => (fluxG grav (q.at' j k)).c1) fun j hj => (hF j hj).2]
    ring
  have hsurf : g.surface d4 i k = c * g.surface d1 i k := by
    have : g.surface d4 i k = g.surface ⟨d1.rows, d1.cols, fun a b => c * d1.at' a b⟩ i k := by
      apply surface_congr g _ _ hk
      intro e he j hj
      obtain ⟨a1, -, -, a4⟩ := hd e he j hj
      show _ = c * d1.at' _ _
      rw [a1, a4]
      have hP := hg.lt e he
      have i1 : innerN g hN e j = c * (inner g q e j).h := hc _ (hg.maskLt _ (by omega) j hj) _ (by omega)
      have i2 : outerN P g hN e j = c * (exterior P m.bcType g q e j).h := by
        have : (exterior P m.bcType g q e j).h = (outer P g q e j).h := by unfold exterior; split_ifs <;> rfl
        rw [this]
        exact hc _ (hg.maskLt _ (by omega) _ (across_le P g.N e j hj)) _ (by omega)
      have p1 : (inner g q e j).h ≠ 0 := (hwet _ (hg.maskLt _ (by omega) j hj) _ (by omega)).ne'
      have p2 : (exterior P m.bcType g q e j).h ≠ 0 := by
        have : (exterior P m.bcType g q e j).h = (outer P g q e j).h := by unfold exterior; split_ifs <;> rfl
        rw [this]
        exact (hwet _ (hg.maskLt _ (by omega) _ (across_le P g.N e j hj)) _ (by omega)).ne'
      rw [i1, i2]
      simp only [tracerJump, jumpFlux, fluxF, fluxG, State.vel]
      field_simp
    rw [this]
    unfold Grid.surface
    rw [Finset.mul_sum]
    apply Finset.sum_congr rfl
    intro a _
    ring
  rw [e4, e1, hdiv, hsurf]
  ring

/-- **C114, rest.** Still water of constant depth over a level bed with a tracer which is continuous across faces stays as it is. -/
theorem C114_rest (h : Provisioned la eps ztol tol N m P g) (hw : ∃ e < 3 * m.K, m.bcType[e]? = some 3) (grav f CD : ℝ) (q : Fields) (hN : DMat ℝ) (hq : q.Fits g) (hN' : Fits g hN) (depth : ℝ)
    (hd : 0 < depth) (hs : ∀ i < g.np, ∀ k < g.K, q.at' i k = ⟨depth, 0, 0⟩) (hcont : Continuous' P g hN) :
    ∃ r n, g.rhsPy grav f CD (zeroMat g.np g.K) (zeroMat g.np g.K) g.maps.vmapM g.maps.vmapP q hN = .ok (r, n) ∧ ∀ i < g.np, ∀ k < g.K, r.at' i k = ⟨0, 0, 0⟩ ∧ n.at' i k = 0 := by
  have hwet : Wet g q := fun i hi k hk => by have := congrArg State.h (hs i hi k hk); simp only [Fields.at'] at this; rw [this]; exact hd
  obtain ⟨r, n, s, h1, h1', f1, f2, ha⟩ := C114_agree h hw grav f CD (zeroMat g.np g.K) (zeroMat g.np g.K) q hN hq hN' hwet
  obtain ⟨s', hs', hz⟩ := C81_rest h hw grav q hq depth hd hs
  rw [h1'] at hs'
  obtain rfl : s = s' := by simpa using hs'
  refine ⟨r, n, h1, fun i hi k hk => ⟨?_, ?_⟩⟩
  · have h0 := hs i hi k hk
    obtain ⟨a, b, c⟩ := ha i hi k hk
    have z := hz i hi k hk
    simp only [Fields.at', State.mk.injEq] at z h0 ⊢
    rw [a, b, c, z.1, z.2.1, z.2.2]
    unfold sourceX sourceY
    rw [h0.2.1, h0.2.2]
    simp [zeroMat]
  · obtain ⟨x, hg, -, hK, -⟩ := h.spec
    rw [← hK] at hw
    obtain ⟨Λ, d1, d2, d3, d4, r', n', h1'', -, -, -, -, -, e4, hΛ, hd4⟩ := hg.rhsPy_ok grav f CD (zeroMat g.np g.K) (zeroMat g.np g.K) q hN hq hN' hwet hw
    rw [h1] at h1''
    obtain ⟨rfl, rfl⟩ : r = r' ∧ n = n' := by simpa using h1''
    have hvel : ∀ j < g.np, (q.at' j k).vel = (0, 0) := by
      intro j hj
      rw [hs j hj k hk]
      simp [State.vel]
    rw [e4, hg.divergence_const _ _ 0 0 hi (fun j hj => by rw [hvel j hj]; simp) (fun j hj => by rw [hvel j hj]; simp), surface_zero g d4 hk fun e he j hj => ?_]
    · ring
    rw [(hd4 e he j hj).2.2.2]
    have hP := hg.lt e he
    have i1 : inner g q e j = ⟨depth, 0, 0⟩ := hs _ (hg.maskLt _ (by omega) j hj) _ (by omega)
    have i2 : outer P g q e j = ⟨depth, 0, 0⟩ := hs _ (hg.maskLt _ (by omega) _ (across_le P g.N e j hj)) _ (by omega)
    have i3 : exterior P m.bcType g q e j = ⟨depth, 0, 0⟩ := by
      unfold exterior
      rw [i1, i2]
      split_ifs <;> simp [wallState]
    have i4 : outerN P g hN e j = innerN g hN e j := hcont e he j hj
    rw [i1, i3, i4]
    simp [tracerJump, State.vel]

/-- **C114, sloping bed.** Still water with a level surface over a sloping bed is set in motion: on the square, depth `10 + x`, bed elevation `-(10 + x)`, so that `zx` is exactly `-1` and `zy` zero. -/
theorem C114_slope_false : ∃ g, Provisioned Nodes1D.exactLapack (1 / 2 ^ 52) 1e-10 1e-5 1 square twoTri g ∧ ∀ grav, 0 < grav → ∀ f CD : ℝ,
    ∃ r n, g.rhsPy grav f CD ⟨g.np, g.K, fun _ _ => -1⟩ (zeroMat g.np g.K) g.maps.vmapM g.maps.vmapP ⟨slope g, zeroMat g.np g.K, zeroMat g.np g.K⟩ (slope g) = .ok (r, n) ∧ r.hu.at' 0 0 ≠ 0 := by
  obtain ⟨g, hP, p0, p1, p2⟩ := square_grid
  refine ⟨g, hP, fun grav hgrav f CD => ?_⟩
  obtain ⟨x, hg, hN, hK, ht⟩ := hP.spec
  have hc : Corners g := ⟨hN, p0, p1, p2⟩
  have hK : g.K = 2 := hK
  have t0 : g.tri 0 = ⟨0, 0, 1, 0, 0, 1⟩ := by rw [ht 0 (by decide), square_tri.1]
  have t1 : g.tri 1 = ⟨1, 0, 1, 1, 0, 1⟩ := by rw [ht 1 (by decide), square_tri.2]
  have s0 : (slope g).at' 0 0 = 10 ∧ (slope g).at' 1 0 = 11 ∧ (slope g).at' 2 0 = 10 := by
    unfold slope gridX triCoord
    simp only [t0, p0.1, p0.2, p1.1, p1.2, p2.1, p2.2]
    norm_num
  have s1 : (slope g).at' 0 1 = 11 ∧ (slope g).at' 1 1 = 11 ∧ (slope g).at' 2 1 = 10 := by
    unfold slope gridX triCoord
    simp only [t1, p0.1, p0.2, p1.1, p1.2, p2.1, p2.2]
    norm_num
  set q : Fields := ⟨slope g, zeroMat g.np g.K, zeroMat g.np g.K⟩ with hq
  have hwet : Wet g q := by
    intro i hi k hk
    rw [hc.np] at hi
    rw [hK] at hk
    show 0 < (slope g).at' i k
    interval_cases i <;> interval_cases k <;> simp [s0, s1]
  obtain ⟨Λ, d1, d2, d3, d4, r, n, h1, -, -, -, e2, -, -, -, hd⟩ := hg.rhsPy_ok grav f CD ⟨g.np, g.K, fun _ _ => -1⟩ (zeroMat g.np g.K) q (slope g) ⟨⟨rfl, rfl⟩, ⟨rfl, rfl⟩, rfl, rfl⟩ ⟨rfl, rfl⟩ hwet
    ⟨0, by rw [hK]; decide, rfl⟩
  refine ⟨r, n, h1, ?_⟩
  have hqa : ∀ i k, q.at' i k = ⟨(slope g).at' i k, 0, 0⟩ := fun i k => rfl
  have hcont := hg.sampled fun x _ => 10 + x
  rw [e2, surface_zero g d2 (by omega) fun e he j hj => ?_]
  · simp only [hqa, fluxF, fluxG, sourcePy]
    have : ∀ D : ℕ → ℝ, ∑ j ∈ Finset.range g.np, D j * (0 * 0 / (slope g).at' j 0 + 0.5 * grav * (slope g).at' j 0 * (slope g).at' j 0)
        = grav * ∑ j ∈ Finset.range g.np, D j * ((slope g).at' j 0 * (slope g).at' j 0 / 2) := by
      intro D
      rw [Finset.mul_sum]
      apply Finset.sum_congr rfl
      intro j _
      simp only [zero_mul, zero_div, zero_add]
      ring
    obtain ⟨c1, c2⟩ := hc.diff hg (fun j => (slope g).at' j 0 * (slope g).at' j 0 / 2) (i := 0) (by norm_num)
    simp only [Grid.divergence, this]
    rw [c1, c2, hg.deriv_eq 0 0 (by rw [hc.np]; norm_num), t0, s0.2.1, s0.2.2, show q.h.at' 0 0 = 10 from s0.1]
    simp only [metric, triDerivOf, jac]
    simp
    intro h0
    apply hgrav.ne'
    linarith
  · rw [(hd e he j hj).2.1]
    have hin : inner g q e j = ⟨bedIn g (slope g) e j, 0, 0⟩ := rfl
    have hext : exterior twoTri square.bcType g q e j = inner g q e j := by
      have ho : outer twoTri g q e j = inner g q e j := by
        show (⟨bedOut twoTri g (slope g) e j, 0, 0⟩ : State) = ⟨bedIn g (slope g) e j, 0, 0⟩
        rw [show bedOut twoTri g (slope g) e j = bedIn g (slope g) e j from hcont e he j hj]
      unfold exterior
      rw [ho, hin]
      split_ifs <;> simp [wallState]
    rw [hext, (C51_flux grav _ _ _ (inner g q e j) (inner g q e j)).2.2.1]

theorem pick_bad (a : List ℝ) (idx : List ℕ) : (∃ i ∈ idx, a.length ≤ i) → pick a idx = .throws := by
  induction idx with
  | nil => rintro ⟨i, hi, -⟩; simp at hi
  | cons j l ih =>
    rintro ⟨i, hi, hl⟩
    unfold pick
    cases hj : a[j]? with
    | none => rfl
    | some v =>
      rcases List.mem_cons.1 hi with rfl | hm
      · rw [List.getElem?_eq_none hl] at hj; cases hj
      · rw [ih ⟨i, hm, hl⟩]; rfl

theorem pick_cases (a : List ℝ) (idx : List ℕ) : (∃ r, pick a idx = .ok r) ∨ pick a idx = .throws := by
  by_cases h : ∃ i ∈ idx, a.length ≤ i
  · exact Or.inr (pick_bad a idx h)
  · push Not at h
    obtain ⟨r, hr, -⟩ := pick_ok a idx fun c i hc => h i (List.mem_of_getElem? hc)
    exact Or.inl ⟨r, hr⟩

theorem sideOf_cases (q : Fields) (hN : DMat ℝ) (idx : List ℕ) : (∃ r, sideOf q hN idx = .ok r) ∨ sideOf q hN idx = .throws := by
  unfold sideOf
  rcases pick_cases (flatF q.h) idx with ⟨a, ha⟩ | ha <;> rcases pick_cases (flatF q.hu) idx with ⟨b, hb⟩ | hb <;> rcases pick_cases (flatF q.hv) idx with ⟨c, hc⟩ | hc <;>
    rcases pick_cases (flatF hN) idx with ⟨d, hd⟩ | hd <;> simp only [ha, hb, hc, hd, Out.bind_ok, Out.pure_eq] <;> first | exact Or.inr rfl | exact Or.inl ⟨_, rfl⟩

theorem sideOf_bad (q : Fields) (hN : DMat ℝ) (hq : q.Fits g) (idx : List ℕ) (h : ∃ i ∈ idx, g.np * g.K ≤ i) : sideOf q hN idx = .throws := by
  have : pick (flatF q.h) idx = .throws := pick_bad _ _ (by rw [flatF_length, hq.1.1, hq.1.2]; exact h)
  unfold sideOf
  rw [this]
  rfl

/-- **C114, indices.** An index array with an entry beyond the nodes raises an exception; nothing is read outside the arrays. -/
theorem C114_index (g : Grid) (grav f CD : ℝ) (zx zy : DMat ℝ) (vM vP : List ℕ) (q : Fields) (hN : DMat ℝ) (hq : q.Fits g) (h : ∃ i ∈ vM ++ vP, g.np * g.K ≤ i) :
    g.rhsPy grav f CD zx zy vM vP q hN = .throws := by
  unfold Grid.rhsPy tagNodes
  cases g.bc 3 with
  | none => rfl
  | some W =>
    obtain ⟨i, hi, hl⟩ := h
    rcases List.mem_append.1 hi with hm | hm
    · simp only [sideOf_bad q hN hq vM ⟨i, hm, hl⟩, Out.bind_ok]
      rfl
    · rcases sideOf_cases q hN vM with ⟨r, hr⟩ | hr
      · simp only [hr, sideOf_bad q hN hq vP ⟨i, hm, hl⟩, Out.bind_ok]
        rfl
      · simp only [hr, Out.bind_ok]
        rfl

/-- **C114, no wall.** -/
theorem C114_no_wall (h : Provisioned la eps ztol tol N m P g) (hw : ¬ ∃ e < 3 * m.K, m.bcType[e]? = some 3) (grav f CD : ℝ) (zx zy : DMat ℝ) (vM vP : List ℕ) (q : Fields) (hN : DMat ℝ) :
    g.rhsPy grav f CD zx zy vM vP q hN = .throws := by
  obtain ⟨x, hg, -, hK, -⟩ := h.spec
  rw [← hK] at hw
  exact hg.rhsPy_throws hw grav f CD zx zy vM vP q hN

/-- The hypotheses hold on the square for moving water of varying depth with a tracer of constant or varying concentration. -/
example : ∃ (g : Grid) (q : Fields) (hN hN1 : DMat ℝ), q.Fits g ∧ Wet g q ∧ q.hu.at' 0 1 ≠ 0 ∧ hN.at' 0 0 ≠ hN.at' 0 1 ∧
    (∃ r n, g.rhsPy 9.81 1e-4 2e-3 (zeroMat g.np g.K) (zeroMat g.np g.K) g.maps.vmapM g.maps.vmapP q hN = .ok (r, n) ∧ (∀ M, IsTotal g r.h.at' M ↔ M = 0) ∧ ∀ M, IsTotal g n.at' M ↔ M = 0) ∧
    ∃ r n, g.rhsPy 9.81 1e-4 2e-3 (zeroMat g.np g.K) (zeroMat g.np g.K) g.maps.vmapM g.maps.vmapP q hN1 = .ok (r, n) ∧ ∀ i < g.np, ∀ k < g.K, n.at' i k = 3 * r.h.at' i k := by
  obtain ⟨g, hg, -⟩ := square_grid
  have hf : Fields.Fits ⟨⟨g.np, g.K, fun i k => 1 + i + k⟩, ⟨g.np, g.K, fun i k => i + 2 * k⟩, ⟨g.np, g.K, fun i _ => -i⟩⟩ g := ⟨⟨rfl, rfl⟩, ⟨rfl, rfl⟩, rfl, rfl⟩
  have hwet : Wet g ⟨⟨g.np, g.K, fun i k => 1 + i + k⟩, ⟨g.np, g.K, fun i k => i + 2 * k⟩, ⟨g.np, g.K, fun i _ => -i⟩⟩ := by
    intro i _ k _; simp only; positivity
  exact ⟨g, _, ⟨g.np, g.K, fun i k => i * i + 5 * k⟩, ⟨g.np, g.K, fun i k => 3 * (1 + i + k)⟩, hf, hwet, by norm_num, by norm_num,
    C114_total hg square_walls.1 square_walls.2 _ _ _ _ _ _ _ hf ⟨rfl, rfl⟩ hwet, C114_constant hg ⟨0, by decide, rfl⟩ _ _ _ _ _ _ _ hf ⟨rfl, rfl⟩ hwet 3 fun _ _ _ _ => rfl⟩

/-- Water at rest with a tracer growing with x. -/
example : ∃ (g : Grid) (hN : DMat ℝ), Fits g hN ∧ hN.at' 0 0 ≠ hN.at' 1 0 ∧
    ∃ r n, g.rhsPy 9.81 1e-4 2e-3 (zeroMat g.np g.K) (zeroMat g.np g.K) g.maps.vmapM g.maps.vmapP ⟨⟨g.np, g.K, fun _ _ => 10⟩, zeroMat g.np g.K, zeroMat g.np g.K⟩ hN = .ok (r, n) ∧
      ∀ i < g.np, ∀ k < g.K, r.at' i k = ⟨0, 0, 0⟩ ∧ n.at' i k = 0 := by
  obtain ⟨g, hP, p0, p1, p2⟩ := square_grid
  obtain ⟨x, hg, hN, hK, ht⟩ := hP.spec
  have t0 : g.tri 0 = ⟨0, 0, 1, 0, 0, 1⟩ := by rw [ht 0 (by decide), square_tri.1]
  refine ⟨g, slope g, ⟨rfl, rfl⟩, ?_, C114_rest hP ⟨0, by decide, rfl⟩ _ _ _ _ _ ⟨⟨rfl, rfl⟩, ⟨rfl, rfl⟩, rfl, rfl⟩ ⟨rfl, rfl⟩ 10 (by norm_num) (fun _ _ _ _ => rfl) (hg.sampled fun x _ => 10 + x)⟩
  unfold slope gridX triCoord
  simp only [t0, p0.1, p0.2, p1.1, p1.2]
  norm_num

end Blitzdg.SW
