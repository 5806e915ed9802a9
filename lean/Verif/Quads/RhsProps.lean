import Verif.Quads.Conserve
import Verif.SW.PyLoopProps

/-! The right-hand side of sw2dquads.py on every grid the quadrilateral provisioner builds. -/

namespace Blitzdg.Quads

open Blitzdg.Sparse (DMat)
open Blitzdg.Nodes1D (Lapack)
open Blitzdg.DG2D
open Blitzdg.SW (Mesh Fields State V3 hypot tagNodes flatF reshapeF pick pick_ok flatF_length flatF_get getD_some fluxF fluxG jumpFlux numFlux wallState speed pyFaceMax IsMax isMax_unique isMax_same
  foldl_max_ge foldl_max_mem faceInt faceInt_congr faceInt_smul num_anti C50_wall C51_flux len_neg2)

variable {P : ℕ → ℕ} {x : List ℝ} {bt : List Int} {g : QGrid}

/-- Number of node `i` of face `e` among all face nodes. -/
def QGrid.fn (g : QGrid) (e i : ℕ) : ℕ := (g.N + 1) * e + i

theorem fn_lt {e i : ℕ} (he : e < 4 * g.K) (hi : i ≤ g.N) : g.fn e i < g.nf := by
  unfold QGrid.fn QGrid.nf
  have : (g.N + 1) * (e + 1) ≤ (g.N + 1) * (4 * g.K) := Nat.mul_le_mul_left _ he
  have e1 : (g.N + 1) * (e + 1) = (g.N + 1) * e + (g.N + 1) := by ring
  have e2 : (g.N + 1) * (4 * g.K) = 4 * (g.N + 1) * g.K := by ring
  omega

/-- Every face node has a face and a place on it. -/
theorem fn_surj {c : ℕ} (hc : c < g.nf) : ∃ e i, e < 4 * g.K ∧ i ≤ g.N ∧ c = g.fn e i := by
  refine ⟨c / (g.N + 1), c % (g.N + 1), ?_, ?_, (Nat.div_add_mod _ _).symm⟩
  · apply Nat.div_lt_of_lt_mul
    unfold QGrid.nf at hc
    have e2 : (g.N + 1) * (4 * g.K) = 4 * (g.N + 1) * g.K := by ring
    omega
  · have := Nat.mod_lt c (show 0 < g.N + 1 by omega); omega

theorem fn_inj {e i e' i' : ℕ} (hi : i ≤ g.N) (hi' : i' ≤ g.N) (h : g.fn e i = g.fn e' i') : e = e' ∧ i = i' := by
  unfold QGrid.fn at h
  have d1 : ((g.N + 1) * e + i) / (g.N + 1) = e := by rw [Nat.mul_add_div (Nat.succ_pos _), Nat.div_eq_of_lt (by omega)]; omega
  have d2 : ((g.N + 1) * e' + i') / (g.N + 1) = e' := by rw [Nat.mul_add_div (Nat.succ_pos _), Nat.div_eq_of_lt (by omega)]; omega
  have m1 : ((g.N + 1) * e + i) % (g.N + 1) = i := by rw [Nat.mul_add_mod, Nat.mod_eq_of_lt (by omega)]
  have m2 : ((g.N + 1) * e' + i') % (g.N + 1) = i' := by rw [Nat.mul_add_mod, Nat.mod_eq_of_lt (by omega)]
  rw [h] at d1 m1
  omega

/-- A field has one column per element and one row per node. -/
def Fits (g : QGrid) (u : DMat ℝ) : Prop := u.rows = g.np ∧ u.cols = g.K

/-- Unit normal of face `e`. -/
noncomputable def faceNormal (g : QGrid) (e : ℕ) : ℝ × ℝ := unit (nrm (g.quad (e / 4)) (e % 4))

/-- State inside at node `i` of face `e`, and state of the neighbour at the same place (the same state on the boundary). -/
def inner (g : QGrid) (q : Fields) (e i : ℕ) : State := q.at' (g.n.mask i (e % 4)) (e / 4)
def outer (P : ℕ → ℕ) (g : QGrid) (q : Fields) (e i : ℕ) : State := q.at' (g.n.mask (across P g.N e i) (P e % 4)) (P e / 4)

/-- Exterior state used by src/sw2d-simple: the neighbour's, with reflected momentum on wall faces. -/
noncomputable def exterior (P : ℕ → ℕ) (bt : List Int) (g : QGrid) (q : Fields) (e i : ℕ) : State :=
  if bt[e]? = some 3 then
    ⟨(outer P g q e i).h, (wallState (faceNormal g e).1 (faceNormal g e).2 (inner g q e i)).hu, (wallState (faceNormal g e).1 (faceNormal g e).2 (inner g q e i)).hv⟩
  else outer P g q e i

theorem tagged_iff {e i : ℕ} {t : Int} (he : e < 4 * g.K) (hi : i ≤ g.N) : OnFaceWithTag (g.N + 1) (4 * g.K) bt t (g.fn e i) ↔ bt[e]? = some t := by
  constructor
  · rintro ⟨e', i', h1, h2, h3, h4⟩
    have : g.fn e i = g.fn e' i' := by rw [h4]; unfold QGrid.fn; ring
    obtain ⟨rfl, rfl⟩ := fn_inj hi (by omega) this
    exact h3
  · intro h
    exact ⟨e, i, he, by omega, h, by unfold QGrid.fn; ring⟩

/-- Three fields with one value per node and element. -/
def FieldsFit (q : Fields) (g : QGrid) : Prop := Fits g q.h ∧ Fits g q.hu ∧ Fits g q.hv

theorem sideQ_ok (q : Fields) (hq : FieldsFit q g) (vmap : List ℕ) (T : ℕ → ℕ → ℕ × ℕ) (hlen : vmap.length = g.nf)
    (hT : ∀ e < 4 * g.K, ∀ i ≤ g.N, (T e i).1 < g.np ∧ (T e i).2 < g.K ∧ vmap[g.fn e i]? = some ((T e i).1 + g.np * (T e i).2)) :
    ∃ m, sideQ q vmap = .ok m ∧ m.length = g.nf ∧ ∀ e < 4 * g.K, ∀ i ≤ g.N, m[g.fn e i]? = some (q.at' (T e i).1 (T e i).2) := by
  have hr : ∀ a : DMat ℝ, Fits g a → ∀ c i : ℕ, vmap[c]? = some i → i < (flatF a).length := by
    intro a ha c i hc
    have hcl : c < g.nf := by rw [← hlen]; exact (List.getElem?_eq_some_iff.1 hc).1
    obtain ⟨e, j, he, hj, rfl⟩ := fn_surj hcl
    obtain ⟨t1, t2, t3⟩ := hT e he j hj
    rw [t3] at hc
    obtain rfl := Option.some.inj hc
    rw [flatF_length, ha.1, ha.2]
    have : g.np * ((T e j).2 + 1) ≤ g.np * g.K := Nat.mul_le_mul_left _ t2
    have e1 : g.np * ((T e j).2 + 1) = g.np * (T e j).2 + g.np := by ring
    omega
  have hv : ∀ (a : DMat ℝ) (l : List ℝ), Fits g a → (∀ c i : ℕ, vmap[c]? = some i → l[c]? = (flatF a)[i]?) → ∀ e < 4 * g.K, ∀ i ≤ g.N, l.getD (g.fn e i) 0 = a.at' (T e i).1 (T e i).2 := by
    intro a l ha hl e he i hi
    obtain ⟨t1, t2, t3⟩ := hT e he i hi
    have := hl _ _ t3
    have hf := flatF_get a (T e i).1 (T e i).2 (by rw [ha.1]; exact t1) (by rw [ha.2]; exact t2)
    rw [ha.1] at hf
    exact getD_some (this.trans hf)
  obtain ⟨h, a1, a2, a3⟩ := pick_ok (flatF q.h) vmap (hr _ hq.1)
  obtain ⟨hu, b1, b2, b3⟩ := pick_ok (flatF q.hu) vmap (hr _ hq.2.1)
  obtain ⟨hv', c1, c2, c3⟩ := pick_ok (flatF q.hv) vmap (hr _ hq.2.2)
  refine ⟨_, by unfold sideQ; simp only [a1, b1, c1, Out.bind_ok, Out.pure_eq]; rfl, by simp [hlen], fun e he i hi => ?_⟩
  rw [List.getElem?_map, List.getElem?_range (by rw [hlen]; exact fn_lt he hi)]
  obtain ⟨t1, t2, -⟩ := hT e he i hi
  simp only [Option.map_some, Option.some.injEq, Fields.at']
  rw [hv _ _ hq.1 a3 e he i hi, hv _ _ hq.2.1 b3 e he i hi, hv _ _ hq.2.2 c3 e he i hi]

/-- What the wall assignments leave at node `c`. -/
noncomputable def walledQ (x y : ℝ) (a b : State) : State := { b with hu := a.hu - 2 * x * (a.hu * x + a.hv * y), hv := a.hv - 2 * y * (a.hu * x + a.hv * y) }

theorem wallQ_loop (nx ny : List ℝ) (n : ℕ) (hnx : nx.length = n) (hny : ny.length = n) (m : List State) (hm : m.length = n) (W : List ℕ) (hW : ∀ w ∈ W, w < n) (p : List State) (hp : p.length = n) :
    ∃ p', loopM (wallQ nx ny m) p W = .ok p' ∧ p'.length = n ∧ ∀ c < n,
      p'.getD c dry = if c ∈ W then walledQ (nx.getD c 0) (ny.getD c 0) (m.getD c dry) (p.getD c dry) else p.getD c dry := by
  induction W generalizing p with
  | nil => exact ⟨p, rfl, hp, fun c _ => by simp⟩
  | cons w W ih =>
    have hw := hW w (by simp)
    have hstep : wallQ nx ny m p w = .ok (p.set w (walledQ (nx.getD w 0) (ny.getD w 0) (m.getD w dry) (p.getD w dry))) := by
      unfold wallQ
      rw [List.getElem?_eq_getElem (show w < m.length by omega), List.getElem?_eq_getElem (show w < p.length by omega), List.getElem?_eq_getElem (show w < nx.length by omega),
        List.getElem?_eq_getElem (show w < ny.length by omega), List.getD_eq_getElem _ _ (show w < nx.length by omega), List.getD_eq_getElem _ _ (show w < ny.length by omega),
        List.getD_eq_getElem _ _ (show w < m.length by omega), List.getD_eq_getElem _ _ (show w < p.length by omega)]
      rfl
    obtain ⟨p', h1, h2, h3⟩ := ih (fun v hv => hW v (by simp [hv])) (p.set w (walledQ (nx.getD w 0) (ny.getD w 0) (m.getD w dry) (p.getD w dry))) (by simpa using hp)
    refine ⟨p', by rw [loopM_cons, hstep, Out.bind_ok, h1], h2, fun c hc => ?_⟩
    rw [h3 c hc]
    have hg : (p.set w (walledQ (nx.getD w 0) (ny.getD w 0) (m.getD w dry) (p.getD w dry))).getD c dry
        = if c = w then walledQ (nx.getD c 0) (ny.getD c 0) (m.getD c dry) (p.getD c dry) else p.getD c dry := by
      rw [List.getD_eq_getElem?_getD, List.getElem?_set]
      by_cases h : w = c
      · subst h; simp [hp, hw]
      · rw [if_neg h, if_neg (fun h' => h h'.symm), List.getD_eq_getElem?_getD]
    rw [hg]
    by_cases hcw : c = w
    · subst hcw
      by_cases hcW : c ∈ W <;> simp [hcW, walledQ]
    · simp only [List.mem_cons, hcw, false_or, if_false]

theorem pyFaceMax_isMax (s : ℕ → ℝ) (e i : ℕ) (hi : i ≤ g.N) : IsMax g.N (fun j => s (g.fn e j)) (pyFaceMax (g.N + 1) s (g.fn e i)) := by
  have hd : g.fn e i / (g.N + 1) = e := by
    unfold QGrid.fn
    rw [Nat.mul_add_div (Nat.succ_pos _), Nat.div_eq_of_lt (by omega), Nat.add_zero]
  unfold pyFaceMax
  rw [hd]
  obtain ⟨h1, h2⟩ := foldl_max_ge (fun i => s ((g.N + 1) * e + i)) (List.range (g.N + 1)) (s ((g.N + 1) * e))
  refine ⟨fun j hj => h2 j (List.mem_range.2 (by omega)), ?_⟩
  rcases foldl_max_mem (fun i => s ((g.N + 1) * e + i)) (List.range (g.N + 1)) (s ((g.N + 1) * e)) with h3 | ⟨j, hj, h3⟩
  · exact ⟨0, Nat.zero_le _, h3⟩
  · exact ⟨j, by have := List.mem_range.1 hj; omega, h3⟩


/-- The Python right-hand side written out, with the same inner and exterior states as src/sw2d-simple. -/
theorem QSpec.rhs_ok (hg : QSpec P x bt g) (grav : ℝ) (q : Fields) (hq : FieldsFit q g) (hw : ∃ e < 4 * g.K, bt[e]? = some 3) :
    ∃ (Λ : ℕ → ℕ → ℝ) (d1 d2 d3 : DMat ℝ) (r : Fields), g.rhs grav q = .ok r ∧ FieldsFit r g ∧
      (∀ i k, r.h.at' i k = g.divergence (fun j k => (fluxF grav (q.at' j k)).c1) (fun j k => (fluxG grav (q.at' j k)).c1) i k + g.surface d1 i k) ∧
      (∀ i k, r.hu.at' i k = g.divergence (fun j k => (fluxF grav (q.at' j k)).c2) (fun j k => (fluxG grav (q.at' j k)).c2) i k + g.surface d2 i k) ∧
      (∀ i k, r.hv.at' i k = g.divergence (fun j k => (fluxF grav (q.at' j k)).c3) (fun j k => (fluxG grav (q.at' j k)).c3) i k + g.surface d3 i k) ∧
      (∀ e < 4 * g.K, ∀ i ≤ g.N, IsMax g.N (fun j => max (speed grav (inner g q e j)) (speed grav (exterior P bt g q e j))) (Λ e i)) ∧
      ∀ e < 4 * g.K, ∀ i ≤ g.N,
        d1.at' (e % 4 * (g.N + 1) + i) (e / 4) = (jumpFlux grav (faceNormal g e).1 (faceNormal g e).2 (Λ e i) (inner g q e i) (exterior P bt g q e i)).c1 ∧
        d2.at' (e % 4 * (g.N + 1) + i) (e / 4) = (jumpFlux grav (faceNormal g e).1 (faceNormal g e).2 (Λ e i) (inner g q e i) (exterior P bt g q e i)).c2 ∧
        d3.at' (e % 4 * (g.N + 1) + i) (e / 4) = (jumpFlux grav (faceNormal g e).1 (faceNormal g e).2 (Λ e i) (inner g q e i) (exterior P bt g q e i)).c3 := by
  obtain ⟨ew, hew, htw⟩ := hw
  obtain ⟨W, hW⟩ := hg.bcSome 3 (by norm_num) ⟨g.fn ew 0, (tagged_iff hew (Nat.zero_le _)).2 htw⟩
  have hWm := hg.bc 3 (by norm_num) W hW
  have hWlt : ∀ w ∈ W, w < g.nf := by
    intro w hw
    obtain ⟨e, i, he, hi, -, rfl⟩ := (hWm w).1 hw
    have := fn_lt (g := g) he (show i ≤ g.N by omega)
    unfold QGrid.fn at this
    rwa [Nat.mul_comm] at this
  have hrow : ∀ e i, i ≤ g.N → e % 4 * (g.N + 1) + i < 4 * (g.N + 1) := by
    intro e i hi
    have : (e % 4 + 1) * (g.N + 1) ≤ 4 * (g.N + 1) := Nat.mul_le_mul_right _ (by omega)
    have e1 : (e % 4 + 1) * (g.N + 1) = e % 4 * (g.N + 1) + (g.N + 1) := by ring
    omega
  have hfn : ∀ e i, e % 4 * (g.N + 1) + i + 4 * (g.N + 1) * (e / 4) = g.fn e i := by
    intro e i
    unfold QGrid.fn
    conv_rhs => rw [← Nat.div_add_mod e 4]
    ring
  have hnx : ∀ e < 4 * g.K, ∀ i ≤ g.N, (flatF g.nx).getD (g.fn e i) 0 = (faceNormal g e).1 ∧ (flatF g.ny).getD (g.fn e i) 0 = (faceNormal g e).2 := by
    intro e he i hi
    have a := flatF_get g.nx _ (e / 4) (hrow e i hi) (show e / 4 < g.K by omega)
    have b := flatF_get g.ny _ (e / 4) (hrow e i hi) (show e / 4 < g.K by omega)
    have a' : (flatF g.nx)[g.fn e i]? = some (g.nx.at' (e % 4 * (g.N + 1) + i) (e / 4)) := by rw [← hfn]; exact a
    have b' : (flatF g.ny)[g.fn e i]? = some (g.ny.at' (e % 4 * (g.N + 1) + i) (e / 4)) := by rw [← hfn]; exact b
    rw [getD_some a', getD_some b']
    unfold QGrid.nx QGrid.ny faceNormal
    simp only [hg.normal_eq (e % 4) i (e / 4) (by omega) hi, and_self]
  have hvol : ∀ e i, vol g.np 4 g.n.mask e i = g.n.mask i (e % 4) + g.np * (e / 4) := by
    intro e i; unfold vol; ring
  obtain ⟨m, m1, m2, m3⟩ := sideQ_ok q hq g.maps.vmapM (fun e i => (g.n.mask i (e % 4), e / 4)) hg.lenM fun e he i hi =>
    ⟨hg.maskLt _ (by omega) i hi, by show e / 4 < g.K; omega, by rw [← hvol]; exact hg.vmapM e he i hi⟩
  obtain ⟨p, p1, p2, p3⟩ := sideQ_ok q hq g.maps.vmapP (fun e i => (g.n.mask (across P g.N e i) (P e % 4), P e / 4)) hg.lenP fun e he i hi =>
    ⟨hg.maskLt _ (by omega) _ (across_le P g.N e i hi), by have := hg.lt e he; show P e / 4 < g.K; omega, by rw [← hvol]; exact hg.vmapP e he i hi⟩
  have lx : (flatF g.nx).length = g.nf := flatF_length _
  have ly : (flatF g.ny).length = g.nf := flatF_length _
  obtain ⟨p', w1, w2, w3⟩ := wallQ_loop (flatF g.nx) (flatF g.ny) g.nf lx ly m m2 W hWlt p p2
  have gd : ∀ (l : List State) (c : ℕ) (v : State), l[c]? = some v → l.getD c dry = v := by
    intro l c v h; rw [List.getD_eq_getElem?_getD, h]; rfl
  have hin : ∀ e < 4 * g.K, ∀ i ≤ g.N, m.getD (g.fn e i) dry = inner g q e i := fun e he i hi => gd _ _ _ (m3 e he i hi)
  have hext : ∀ e < 4 * g.K, ∀ i ≤ g.N, p'.getD (g.fn e i) dry = (exterior P bt g q e i) := by
    intro e he i hi
    have hiff : g.fn e i ∈ W ↔ bt[e]? = some 3 := (hWm _).trans (tagged_iff he hi)
    rw [w3 _ (fn_lt he hi), (hnx e he i hi).1, (hnx e he i hi).2, hin e he i hi, gd _ _ _ (p3 e he i hi)]
    unfold exterior
    by_cases ht : bt[e]? = some 3
    · rw [if_pos (hiff.2 ht), if_pos ht]; rfl
    · rw [if_neg (fun h => ht (hiff.1 h)), if_neg ht]; rfl
  set lam := pyFaceMax (g.N + 1) (nodeSpeedQ grav m p') with hlam
  set dF := (List.range g.nf).map fun c => jumpFlux grav ((flatF g.nx).getD c 0) ((flatF g.ny).getD c 0) (lam c) (m.getD c dry) (p'.getD c dry) with hdF
  have hd : ∀ e < 4 * g.K, ∀ i ≤ g.N, ∀ c : V3 → ℝ, (reshapeF (4 * (g.N + 1)) g.K (dF.map c)).at' (e % 4 * (g.N + 1) + i) (e / 4)
      = c (jumpFlux grav (faceNormal g e).1 (faceNormal g e).2 (lam (g.fn e i)) (inner g q e i) (exterior P bt g q e i)) := by
    intro e he i hi c
    show (dF.map c).getD (e % 4 * (g.N + 1) + i + 4 * (g.N + 1) * (e / 4)) 0 = _
    have := fn_lt (g := g) he hi
    rw [hfn, List.getD_eq_getElem _ _ (by rw [hdF]; simpa using this)]
    simp only [hdF, List.getElem_map, List.getElem_range]
    rw [(hnx e he i hi).1, (hnx e he i hi).2, hin e he i hi, hext e he i hi]
  refine ⟨fun e i => lam (g.fn e i), reshapeF (4 * (g.N + 1)) g.K (dF.map V3.c1), reshapeF (4 * (g.N + 1)) g.K (dF.map V3.c2), reshapeF (4 * (g.N + 1)) g.K (dF.map V3.c3), ?_⟩
  have hrun : g.rhs grav q = .ok
      { h := ⟨g.np, g.K, fun i k => g.divergence (fun j k => (fluxF grav (q.at' j k)).c1) (fun j k => (fluxG grav (q.at' j k)).c1) i k + g.surface (reshapeF (4 * (g.N + 1)) g.K (dF.map V3.c1)) i k⟩
        hu := ⟨g.np, g.K, fun i k => g.divergence (fun j k => (fluxF grav (q.at' j k)).c2) (fun j k => (fluxG grav (q.at' j k)).c2) i k + g.surface (reshapeF (4 * (g.N + 1)) g.K (dF.map V3.c2)) i k⟩
        hv := ⟨g.np, g.K, fun i k => g.divergence (fun j k => (fluxF grav (q.at' j k)).c3) (fun j k => (fluxG grav (q.at' j k)).c3) i k + g.surface (reshapeF (4 * (g.N + 1)) g.K (dF.map V3.c3)) i k⟩ } := by
    unfold QGrid.rhs tagNodes
    simp only [hW, Out.bind_ok, m1, p1]
    rw [if_neg (by simp [m2, p2])]
    simp only [w1, Out.bind_ok, Out.pure_eq]
    rfl
  refine ⟨_, hrun, ⟨⟨rfl, rfl⟩, ⟨rfl, rfl⟩, ⟨rfl, rfl⟩⟩, fun i k => rfl, fun i k => rfl, fun i k => rfl, ?_, ?_⟩
  · intro e he i hi
    have hs : ∀ j ≤ g.N, nodeSpeedQ grav m p' (g.fn e j) = max (speed grav (inner g q e j)) (speed grav (exterior P bt g q e j)) := by
      intro j hj
      unfold nodeSpeedQ
      rw [hin e he j hj, hext e he j hj]
    obtain ⟨a, j, hj, b⟩ := pyFaceMax_isMax (g := g) (nodeSpeedQ grav m p') e i hi
    exact ⟨fun j hj => by have := a j hj; beta_reduce at this; rwa [hs j hj] at this, j, hj, b.trans (hs j hj)⟩
  · intro e he i hi
    exact ⟨hd e he i hi _, hd e he i hi _, hd e he i hi _⟩

/-- Without a wall face the right-hand side raises `KeyError`. -/
theorem QSpec.rhs_throws (hg : QSpec P x bt g) (hw : ¬ ∃ e < 4 * g.K, bt[e]? = some 3) (grav : ℝ) (q : Fields) : g.rhs grav q = .throws := by
  have : g.bc 3 = none := by
    apply hg.bcNone 3 (by norm_num)
    rintro ⟨c, e, i, he, -, h, -⟩
    exact hw ⟨e, he, h⟩
  unfold QGrid.rhs tagNodes
  rw [this]
  rfl

theorem surface_congr (g : QGrid) (d d' : DMat ℝ) {i k : ℕ} (hk : k < g.K) (h : ∀ e < 4 * g.K, ∀ i ≤ g.N, d.at' (e % 4 * (g.N + 1) + i) (e / 4) = d'.at' (e % 4 * (g.N + 1) + i) (e / 4)) :
    g.surface d i k = g.surface d' i k := by
  unfold QGrid.surface
  rw [sum_four, sum_four]
  apply Finset.sum_congr rfl
  intro f hf
  have hf := Finset.mem_range.1 hf
  apply Finset.sum_congr rfl
  intro j hj
  have hj := Finset.mem_range.1 hj
  have := h (4 * k + f) (by omega) j (by omega)
  rw [show (4 * k + f) % 4 = f by omega, show (4 * k + f) / 4 = k by omega] at this
  rw [this]


/-- Every boundary face is a wall and walls are boundary faces. -/
def Walled (P : ℕ → ℕ) (bt : List Int) (g : QGrid) : Prop := ∀ e < 4 * g.K, bt[e]? = some 3 ↔ P e = e

/-- No interior face carries a wall tag. -/
def WallsOutside (P : ℕ → ℕ) (bt : List Int) (g : QGrid) : Prop := ∀ e < 4 * g.K, bt[e]? = some 3 → P e = e

theorem normal_unit (hg : QSpec P x bt g) {e : ℕ} (he : e < 4 * g.K) :
    (faceNormal g e).1 * (faceNormal g e).1 + (faceNormal g e).2 * (faceNormal g e).2 = 1 := unit_len (nrm_pos (hg.convex (e / 4) (by omega)) _ (by omega))

theorem normal_opp (hg : QSpec P x bt g) {e : ℕ} (he : e < 4 * g.K) (hne : P e ≠ e) : faceNormal g (P e) = (-(faceNormal g e).1, -(faceNormal g e).2) := by
  unfold faceNormal
  rw [nrm_swap (hg.meet e he hne)]
  unfold unit
  rw [len_neg2]
  simp only [Prod.mk.injEq]
  constructor <;> ring

theorem inner_across (q : Fields) (e i : ℕ) : inner g q (P e) (across P g.N e i) = outer P g q e i := rfl

theorem outer_across (hg : QSpec P x bt g) (q : Fields) {e i : ℕ} (he : e < 4 * g.K) (hi : i ≤ g.N) : outer P g q (P e) (across P g.N e i) = inner g q e i := by
  unfold outer inner
  rw [across_across P g.N e i hi (hg.inv e he), hg.inv e he]

/-- The flux out of a face node is the numerical flux. -/
theorem outFlux_num (g : QGrid) (grav lam : ℝ) (q : Fields) (d : DMat ℝ) (c : V3 → ℝ) (e i : ℕ) (ext : State)
    (hc : c = V3.c1 ∨ c = V3.c2 ∨ c = V3.c3)
    (hd : d.at' (e % 4 * (g.N + 1) + i) (e / 4) = c (jumpFlux grav (faceNormal g e).1 (faceNormal g e).2 lam (inner g q e i) ext)) :
    outFlux g (fun j k => c (fluxF grav (q.at' j k))) (fun j k => c (fluxG grav (q.at' j k))) d e i
      = c (numFlux grav (faceNormal g e).1 (faceNormal g e).2 lam (inner g q e i) ext) := by
  unfold outFlux
  rw [hd]
  rcases hc with rfl | rfl | rfl <;> simp only [numFlux, inner, faceNormal] <;> ring

/-- The face speed is the same seen from both sides. -/
theorem speeds_agree (hg : QSpec P x bt g) (hw : WallsOutside P bt g) (grav : ℝ) (q : Fields) (Λ : ℕ → ℕ → ℝ)
    (hΛ : ∀ e < 4 * g.K, ∀ i ≤ g.N, IsMax g.N (fun j => max (speed grav (inner g q e j)) (speed grav (exterior P bt g q e j))) (Λ e i))
    {e : ℕ} (he : e < 4 * g.K) (hne : P e ≠ e) {i : ℕ} (hi : i ≤ g.N) : Λ (P e) (across P g.N e i) = Λ e i := by
  have hPe := hg.lt e he
  have hnP : P (P e) ≠ P e := by rw [hg.inv e he]; exact fun h => hne h.symm
  have key : ∀ j ≤ g.N, max (speed grav (inner g q (P e) (across P g.N e j))) (speed grav (exterior P bt g q (P e) (across P g.N e j)))
      = max (speed grav (inner g q e j)) (speed grav (exterior P bt g q e j)) := by
    intro j hj
    unfold exterior
    rw [if_neg (fun h => hnP (hw _ hPe h)), if_neg (fun h => hne (hw e he h)), inner_across, outer_across hg q he hj, max_comm]
  apply isMax_unique (hΛ _ hPe _ (across_le P g.N e i hi)) (hΛ e he i hi)
  · intro j hj
    refine ⟨across P g.N (P e) j, across_le P g.N (P e) j hj, ?_⟩
    have := key (across P g.N (P e) j) (across_le P g.N (P e) j hj)
    have h2 : across P g.N e (across P g.N (P e) j) = j := by
      have := across_across P g.N (P e) j hj (by rw [hg.inv e he])
      rwa [hg.inv e he] at this
    rw [h2] at this
    exact this
  · intro j hj
    exact ⟨across P g.N e j, across_le P g.N e j hj, (key j hj).symm⟩

/-- Balance of all three equations on every grid: interior fluxes cancel, so the totals of the right-hand sides are minus the integrals of the numerical fluxes over the boundary. -/
theorem QSpec.rhs_balance (hg : QSpec P x bt g) (hpar : ∀ k < g.K, Parallelogram (g.quad k)) (hw : WallsOutside P bt g) (hw1 : ∃ e < 4 * g.K, bt[e]? = some 3) (grav : ℝ) (q : Fields) (hq : FieldsFit q g) :
    ∃ (r : Fields) (Λ : ℕ → ℕ → ℝ), g.rhs grav q = .ok r ∧ FieldsFit r g ∧
      (∀ e < 4 * g.K, ∀ i ≤ g.N, IsMax g.N (fun j => max (speed grav (inner g q e j)) (speed grav (exterior P bt g q e j))) (Λ e i)) ∧
      ∀ c u, ((c, u) = (V3.c1, r.h.at') ∨ (c, u) = (V3.c2, r.hu.at') ∨ (c, u) = (V3.c3, r.hv.at')) →
        IsTotal g u (-∑ e ∈ (Finset.range (4 * g.K)).filter (fun e => P e = e), faceLen g e / 2 * faceInt g.N x
          (fun i => c (numFlux grav (faceNormal g e).1 (faceNormal g e).2 (Λ e i) (inner g q e i) (exterior P bt g q e i)))) := by
  obtain ⟨Λ, d1, d2, d3, r, h1, f1, e1, e2, e3, hΛ, hd⟩ := hg.rhs_ok grav q hq hw1
  refine ⟨r, Λ, h1, f1, hΛ, ?_⟩
  have main : ∀ (c : V3 → ℝ) (d : DMat ℝ) (u : ℕ → ℕ → ℝ), (c = V3.c1 ∨ c = V3.c2 ∨ c = V3.c3) →
      (∀ e < 4 * g.K, ∀ i ≤ g.N, d.at' (e % 4 * (g.N + 1) + i) (e / 4) = c (jumpFlux grav (faceNormal g e).1 (faceNormal g e).2 (Λ e i) (inner g q e i) (exterior P bt g q e i))) →
      (∀ i k, u i k = g.divergence (fun j k => c (fluxF grav (q.at' j k))) (fun j k => c (fluxG grav (q.at' j k))) i k + g.surface d i k) →
      IsTotal g u (-∑ e ∈ (Finset.range (4 * g.K)).filter (fun e => P e = e), faceLen g e / 2 * faceInt g.N x
          (fun i => c (numFlux grav (faceNormal g e).1 (faceNormal g e).2 (Λ e i) (inner g q e i) (exterior P bt g q e i)))) := by
    intro c d u hc hd hu
    have ho := fun e (he : e < 4 * g.K) i (hi : i ≤ g.N) => outFlux_num g grav (Λ e i) q d c e i _ hc (hd e he i hi)
    have hb := hg.balance hpar (fun j k => c (fluxF grav (q.at' j k))) (fun j k => c (fluxG grav (q.at' j k))) d (by
      intro e he hne i hi
      have hPe := hg.lt e he
      have hnP : P (P e) ≠ P e := by rw [hg.inv e he]; exact fun h => hne h.symm
      rw [ho _ hPe _ (across_le P g.N e i hi), ho e he i hi, speeds_agree hg hw grav q Λ hΛ he hne hi, normal_opp hg he hne]
      have x1 : exterior P bt g q (P e) (across P g.N e i) = inner g q e i := by
        unfold exterior
        rw [if_neg (fun h => hnP (hw _ hPe h)), outer_across hg q he hi]
      have x2 : exterior P bt g q e i = outer P g q e i := by
        unfold exterior
        rw [if_neg (fun h => hne (hw e he h))]
      rw [x1, x2, inner_across]
      exact num_anti grav _ _ _ _ _ c hc)
    have hfun : u = fun i k => g.divergence (fun j k => c (fluxF grav (q.at' j k))) (fun j k => c (fluxG grav (q.at' j k))) i k + g.surface d i k := by
      funext i k; exact hu i k
    rw [hfun]
    have hsum : ∀ e ∈ (Finset.range (4 * g.K)).filter (fun e => P e = e), faceLen g e / 2 * faceInt g.N x
          (fun i => c (numFlux grav (faceNormal g e).1 (faceNormal g e).2 (Λ e i) (inner g q e i) (exterior P bt g q e i)))
        = faceLen g e / 2 * faceInt g.N x (outFlux g (fun j k => c (fluxF grav (q.at' j k))) (fun j k => c (fluxG grav (q.at' j k))) d e) := by
      intro e he
      have he := Finset.mem_range.1 (Finset.mem_filter.1 he).1
      congr 1
      exact faceInt_congr hg.inc _ _ fun i hi => (ho e he i hi).symm
    rw [Finset.sum_congr rfl hsum]
    exact hb
  rintro c u (h | h | h) <;> obtain ⟨rfl, rfl⟩ := Prod.mk.inj h
  · exact main V3.c1 d1 _ (by simp) (fun e he i hi => (hd e he i hi).1) e1
  · exact main V3.c2 d2 _ (by simp) (fun e he i hi => (hd e he i hi).2.1) e2
  · exact main V3.c3 d3 _ (by simp) (fun e he i hi => (hd e he i hi).2.2) e3

/-- At a boundary wall the exterior state is the mirror image. -/
theorem exterior_wall (q : Fields) {e i : ℕ} (he : P e = e) (ht : bt[e]? = some 3) :
    exterior P bt g q e i = wallState (faceNormal g e).1 (faceNormal g e).2 (inner g q e i) := by
  unfold exterior
  rw [if_pos ht]
  have : outer P g q e i = inner g q e i := by
    unfold outer inner across
    rw [if_pos he, he]
  rw [this]
  rfl

/-- Conservation of mass, once the grid is known to satisfy its specification. -/
theorem QSpec.mass (hg : QSpec P x bt g) (hpar : ∀ k < g.K, Parallelogram (g.quad k)) (hw : Walled P bt g) (hw1 : ∃ e < 4 * g.K, bt[e]? = some 3) (grav : ℝ) (q : Fields) (hq : FieldsFit q g) :
    ∃ r, g.rhs grav q = .ok r ∧ FieldsFit r g ∧ IsTotal g r.h.at' 0 := by
  obtain ⟨r, Λ, h1, h2, hΛ, h3⟩ := hg.rhs_balance hpar (fun e he h => (hw e he).1 h) hw1 grav q hq
  refine ⟨r, h1, h2, ?_⟩
  have := h3 V3.c1 r.h.at' (Or.inl rfl)
  rw [Finset.sum_eq_zero, neg_zero] at this
  · exact this
  · intro e he
    obtain ⟨he, hPe⟩ := Finset.mem_filter.1 he
    have he := Finset.mem_range.1 he
    have hz : ∀ i ≤ g.N, (numFlux grav (faceNormal g e).1 (faceNormal g e).2 (Λ e i) (inner g q e i) (exterior P bt g q e i)).c1 = 0 := by
      intro i hi
      rw [exterior_wall q hPe ((hw e he).2 hPe)]
      exact (C50_wall grav _ _ _ (normal_unit hg he) _).2.2.2.2.2.1
    rw [faceInt_congr hg.inc (fun i => 0 * 0) _ (fun i hi => by rw [hz i hi]; ring), faceInt_smul]
    ring

/-- Derivatives of a constant vanish. -/
theorem QSpec.diff_const (hg : QSpec P x bt g) {i : ℕ} (hi : i < g.np) :
    ∑ j ∈ Finset.range g.np, g.o.d.Dr.at' i j = 0 ∧ ∑ j ∈ Finset.range g.np, g.o.d.Ds.at' i j = 0 := by
  have hi' : i < g.n.r.length := by rw [hg.nodes]; exact hi
  have h1 := hg.elem.diff.dr 1 (quad_low g.N hg.posN).1 i hi'
  have h2 := hg.elem.diff.ds 1 (quad_low g.N hg.posN).1 i hi'
  rw [hg.nodes] at h1 h2
  constructor
  · simpa [nodal] using h1
  · simpa [nodal] using h2

theorem QSpec.divergence_const (hg : QSpec P x bt g) (F G : ℕ → ℕ → ℝ) (a b : ℝ) {i k : ℕ} (hi : i < g.np) (hF : ∀ j < g.np, F j k = a) (hG : ∀ j < g.np, G j k = b) :
    g.divergence F G i k = 0 := by
  obtain ⟨h1, h2⟩ := hg.diff_const hi
  have s : ∀ (D : DMat ℝ) (f : ℕ → ℕ → ℝ) (c : ℝ), (∀ j < g.np, f j k = c) → ∑ j ∈ Finset.range g.np, D.at' i j = 0 → ∑ j ∈ Finset.range g.np, D.at' i j * f j k = 0 := by
    intro D f c hf h
    rw [Finset.sum_congr rfl fun j hj => by rw [hf j (Finset.mem_range.1 hj)], ← Finset.sum_mul, h, zero_mul]
  unfold QGrid.divergence
  rw [s _ F a hF h1, s _ F a hF h2, s _ G b hG h1, s _ G b hG h2]
  ring

theorem surface_zero (g : QGrid) (d : DMat ℝ) {i k : ℕ} (hk : k < g.K) (hd : ∀ e < 4 * g.K, ∀ i ≤ g.N, d.at' (e % 4 * (g.N + 1) + i) (e / 4) = 0) : g.surface d i k = 0 := by
  unfold QGrid.surface
  rw [sum_four]
  apply Finset.sum_eq_zero
  intro f hf
  have hf := Finset.mem_range.1 hf
  apply Finset.sum_eq_zero
  intro j hj
  have hj := Finset.mem_range.1 hj
  have := hd (4 * k + f) (by omega) j (by omega)
  rw [show (4 * k + f) % 4 = f by omega, show (4 * k + f) / 4 = k by omega] at this
  rw [this]
  ring

/-- A uniform state whose velocity is tangential to every wall does not change. -/
theorem QSpec.steady (hg : QSpec P x bt g) (hw1 : ∃ e < 4 * g.K, bt[e]? = some 3) (grav : ℝ) (q : Fields) (hq : FieldsFit q g) (s : State)
    (hs : ∀ i < g.np, ∀ k < g.K, q.at' i k = s) (ht : ∀ e < 4 * g.K, bt[e]? = some 3 → s.hu * (faceNormal g e).1 + s.hv * (faceNormal g e).2 = 0) :
    ∃ r, g.rhs grav q = .ok r ∧ ∀ i < g.np, ∀ k < g.K, r.at' i k = ⟨0, 0, 0⟩ := by
  obtain ⟨Λ, d1, d2, d3, r, h1, f1, e1, e2, e3, hΛ, hd⟩ := hg.rhs_ok grav q hq hw1
  have hin : ∀ e < 4 * g.K, ∀ i ≤ g.N, inner g q e i = s := fun e he i hi => hs _ (hg.maskLt (e % 4) (by omega) i hi) _ (by omega)
  have hext : ∀ e < 4 * g.K, ∀ i ≤ g.N, exterior P bt g q e i = s := by
    intro e he i hi
    have hP := hg.lt e he
    have ho : outer P g q e i = s := hs _ (hg.maskLt (P e % 4) (by omega) _ (across_le P g.N e i hi)) _ (by omega)
    unfold exterior
    split_ifs with h
    · rw [ho, hin e he i hi]
      unfold wallState
      rw [ht e he h]
      simp
    · exact ho
  have hz : ∀ (c : V3 → ℝ), (c = V3.c1 ∨ c = V3.c2 ∨ c = V3.c3) → ∀ e < 4 * g.K, ∀ i ≤ g.N,
      c (jumpFlux grav (faceNormal g e).1 (faceNormal g e).2 (Λ e i) (inner g q e i) (exterior P bt g q e i)) = 0 := by
    intro c hc e he i hi
    rw [hin e he i hi, hext e he i hi, (C51_flux grav _ _ _ s s).2.2.1]
    rcases hc with rfl | rfl | rfl <;> rfl
  refine ⟨r, h1, fun i hi k hk => ?_⟩
  have hdiv : ∀ c : V3 → ℝ, g.divergence (fun j k => c (fluxF grav (q.at' j k))) (fun j k => c (fluxG grav (q.at' j k))) i k = 0 := by
    intro c
    apply hg.divergence_const _ _ (c (fluxF grav s)) (c (fluxG grav s)) hi
    · intro j hj; rw [hs j hj k hk]
    · intro j hj; rw [hs j hj k hk]
  unfold Fields.at'
  rw [e1, e2, e3, hdiv V3.c1, hdiv V3.c2, hdiv V3.c3,
    surface_zero g d1 hk fun e he i hi => by rw [(hd e he i hi).1]; exact hz _ (by simp) e he i hi,
    surface_zero g d2 hk fun e he i hi => by rw [(hd e he i hi).2.1]; exact hz _ (by simp) e he i hi,
    surface_zero g d3 hk fun e he i hi => by rw [(hd e he i hi).2.2]; exact hz _ (by simp) e he i hi]
  simp


end Blitzdg.Quads
