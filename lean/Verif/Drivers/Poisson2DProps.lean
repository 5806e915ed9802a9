import Verif.Drivers.Poisson2D
import Verif.SW.SimpleProps
import Verif.SW.MassProps
import Verif.Poisson.Consist
import Verif.Ctx.Phys
import Mathlib.Analysis.SpecialFunctions.Trigonometric.Deriv

/-! What the operator of the two-dimensional Poisson driver computes. -/

namespace Blitzdg.Poisson2D

open MvPolynomial
open Blitzdg.Sparse (DMat)
open Blitzdg.Nodes1D (Lapack)
open Blitzdg.Blitz
open Blitzdg.DG2D
open Blitzdg.SW hiding wallStep

variable {P : ℕ → ℕ} {x : List ℝ} {bt : List Int} {g : Grid}

/-! ### The operator in terms of faces -/

/-- Values of a field on the two sides of face `e` at its node `i`; on the boundary both are the element's own. -/
def inV (g : Grid) (u : ℕ → ℕ → ℝ) (e i : ℕ) : ℝ := u (g.n.mask i (e % 3)) (e / 3)
def outV (P : ℕ → ℕ) (g : Grid) (u : ℕ → ℕ → ℝ) (e i : ℕ) : ℝ := u (g.n.mask (across P g.N e i) (P e % 3)) (P e / 3)

/-- Jump of a field: twice the value on walls, else inside minus outside. -/
def jump (P : ℕ → ℕ) (bt : List Int) (g : Grid) (u : ℕ → ℕ → ℝ) (e i : ℕ) : ℝ := if bt[e]? = some 3 then 2 * inV g u e i else inV g u e i - outV P g u e i

/-- The lift of face values. -/
noncomputable def faceLift (g : Grid) (w : ℕ → ℕ → ℝ) (i k : ℕ) : ℝ := ∑ f ∈ Finset.range 3, ∑ j ∈ Finset.range (g.N + 1), g.o.lift.at' i (f * (g.N + 1) + j) * w (3 * k + f) j

/-- Length of half the face over the Jacobian. -/
noncomputable def fs (g : Grid) (e : ℕ) : ℝ := len (nrm (g.tri (e / 3)) (e % 3)) / (cross (g.tri (e / 3)) / 4)

/-- The auxiliary gradient. -/
noncomputable def auxX (P : ℕ → ℕ) (bt : List Int) (g : Grid) (u : ℕ → ℕ → ℝ) (i k : ℕ) : ℝ :=
  gradX g u i k - faceLift g (fun e j => fs g e * ((faceNormal g e).1 * jump P bt g u e j / 2)) i k
noncomputable def auxY (P : ℕ → ℕ) (bt : List Int) (g : Grid) (u : ℕ → ℕ → ℝ) (i k : ℕ) : ℝ :=
  gradY g u i k - faceLift g (fun e j => fs g e * ((faceNormal g e).2 * jump P bt g u e j / 2)) i k

/-- Normal derivative between the two sides: zero on Neuman faces. -/
noncomputable def meanSlope (P : ℕ → ℕ) (bt : List Int) (g : Grid) (u : ℕ → ℕ → ℝ) (e i : ℕ) : ℝ :=
  if bt[e]? = some 7 then 0
  else (faceNormal g e).1 * ((inV g (gradX g u) e i + outV P g (gradX g u) e i) / 2) + (faceNormal g e).2 * ((inV g (gradY g u) e i + outV P g (gradY g u) e i) / 2)

/-- Face values which the operator lifts. -/
noncomputable def surf (P : ℕ → ℕ) (bt : List Int) (g : Grid) (u : ℕ → ℕ → ℝ) (e i : ℕ) : ℝ :=
  ((faceNormal g e).1 * inV g (auxX P bt g u) e i + (faceNormal g e).2 * inV g (auxY P bt g u) e i - meanSlope P bt g u e i + tau g * jump P bt g u e i) / 2

/-- The operator at node `i` of element `k`. -/
noncomputable def opAt (P : ℕ → ℕ) (bt : List Int) (g : Grid) (u : ℕ → ℕ → ℝ) (i k : ℕ) : ℝ :=
  gradX g (auxX P bt g u) i k + gradY g (auxY P bt g u) i k - faceLift g (surf P bt g u) i k

theorem lift_face (g : Grid) (w : ℕ → ℕ → ℝ) (v : ℕ → ℕ → ℝ) {i k : ℕ} (hk : k < g.K) (h : ∀ e < 3 * g.K, ∀ j ≤ g.N, w (e % 3 * (g.N + 1) + j) (e / 3) = v e j) :
    lift g w i k = faceLift g v i k := by
  unfold lift faceLift
  rw [sum_three]
  refine Finset.sum_congr rfl fun f hf => Finset.sum_congr rfl fun j hj => ?_
  have hf := Finset.mem_range.1 hf
  have hj := Finset.mem_range.1 hj
  have := h (3 * k + f) (by omega) j (by omega)
  rw [show (3 * k + f) % 3 = f by omega, show (3 * k + f) / 3 = k by omega] at this
  rw [this]

theorem wall_loop (uM : List ℝ) (n : ℕ) (hM : uM.length = n) (W : List ℕ) (hW : ∀ w ∈ W, w < n) (uP : List ℝ) (hP : uP.length = n) :
    ∃ o, loopM (wallStep uM) uP W = .ok o ∧ o.length = n ∧ ∀ c, o.getD c 0 = if c ∈ W then -uM.getD c 0 else uP.getD c 0 := by
  induction W generalizing uP with
  | nil => exact ⟨uP, rfl, hP, fun c => by simp⟩
  | cons w W ih =>
    have hw := hW w (by simp)
    have hs : wallStep uM uP w = .ok (uP.set w (-uM.getD w 0)) := by
      unfold wallStep
      rw [rd_of_lt (by omega), Out.bind_ok, wr_of_lt (by omega), List.getD_eq_getElem _ _ (by omega)]
    obtain ⟨o, h1, h2, h3⟩ := ih (fun w' h' => hW w' (by simp [h'])) (uP.set w (-uM.getD w 0)) (by simpa using hP)
    refine ⟨o, by rw [loopM_cons, hs, Out.bind_ok, h1], h2, fun c => ?_⟩
    rw [h3, getD_set _ _ _ _ (by omega)]
    by_cases hc : c = w
    · subst hc; simp
    · simp [hc]

theorem neumann_loop (nx ny uxM uyM : List ℝ) (n : ℕ) (l1 : nx.length = n) (l2 : ny.length = n) (l3 : uxM.length = n) (l4 : uyM.length = n) (W : List ℕ) (hW : ∀ w ∈ W, w < n)
    (p : List ℝ × List ℝ) (hp : p.1.length = n ∧ p.2.length = n) :
    ∃ o, loopM (neumannStep nx ny uxM uyM) p W = .ok o ∧ o.1.length = n ∧ o.2.length = n ∧
      (∀ c, o.1.getD c 0 = if c ∈ W then uxM.getD c 0 - 2 * nx.getD c 0 * (uxM.getD c 0 * nx.getD c 0 + uyM.getD c 0 * ny.getD c 0) else p.1.getD c 0) ∧
      ∀ c, o.2.getD c 0 = if c ∈ W then uyM.getD c 0 - 2 * ny.getD c 0 * (uxM.getD c 0 * nx.getD c 0 + uyM.getD c 0 * ny.getD c 0) else p.2.getD c 0 := by
  induction W generalizing p with
  | nil => exact ⟨p, rfl, hp.1, hp.2, fun c => by simp, fun c => by simp⟩
  | cons w W ih =>
    have hw := hW w (by simp)
    have r : ∀ l : List ℝ, l.length = n → rd l w = .ok (l.getD w 0) := fun l hl => by rw [rd_of_lt (by omega), List.getD_eq_getElem _ _ (by omega)]
    set a := uxM.getD w 0 - 2 * nx.getD w 0 * (uxM.getD w 0 * nx.getD w 0 + uyM.getD w 0 * ny.getD w 0) with ha
    set b := uyM.getD w 0 - 2 * ny.getD w 0 * (uxM.getD w 0 * nx.getD w 0 + uyM.getD w 0 * ny.getD w 0) with hb
    have hs : neumannStep nx ny uxM uyM p w = .ok (p.1.set w a, p.2.set w b) := by
      unfold neumannStep
      rw [r nx l1, r ny l2, r uxM l3, r uyM l4]
      simp only [Out.bind_ok]
      rw [wr_of_lt (by omega), Out.bind_ok, wr_of_lt (by omega)]
      rfl
    obtain ⟨o, h1, h2, h3, h4, h5⟩ := ih (fun w' h' => hW w' (by simp [h'])) (p.1.set w a, p.2.set w b) ⟨by simpa using hp.1, by simpa using hp.2⟩
    refine ⟨o, by rw [loopM_cons, hs, Out.bind_ok, h1], h2, h3, fun c => ?_, fun c => ?_⟩
    · rw [h4]
      simp only
      rw [getD_set _ _ _ _ (by omega)]
      by_cases hc : c = w
      · subst hc; simp [ha]
      · simp [hc]
    · rw [h5]
      simp only
      rw [getD_set _ _ _ _ (by omega)]
      by_cases hc : c = w
      · subst hc; simp [hb]
      · simp [hc]

theorem map_getD (n c : ℕ) (f : ℕ → ℝ) (h : c < n) : ((List.range n).map f).getD c 0 = f c := by
  rw [List.getD_eq_getElem _ _ (by simpa using h)]
  simp

/-! ### Dependence on the nodal values only -/

theorem diff_congr (g : Grid) (D : DMat ℝ) {u v : ℕ → ℕ → ℝ} {k : ℕ} (h : ∀ i < g.np, u i k = v i k) (i : ℕ) :
    ∑ j ∈ Finset.range g.np, D.at' i j * u j k = ∑ j ∈ Finset.range g.np, D.at' i j * v j k :=
  Finset.sum_congr rfl fun j hj => by rw [h j (Finset.mem_range.1 hj)]

theorem gradX_congr (g : Grid) {u v : ℕ → ℕ → ℝ} {k : ℕ} (h : ∀ i < g.np, u i k = v i k) (i : ℕ) : gradX g u i k = gradX g v i k := by
  unfold gradX dr ds
  rw [diff_congr g _ h, diff_congr g _ h]

theorem gradY_congr (g : Grid) {u v : ℕ → ℕ → ℝ} {k : ℕ} (h : ∀ i < g.np, u i k = v i k) (i : ℕ) : gradY g u i k = gradY g v i k := by
  unfold gradY dr ds
  rw [diff_congr g _ h, diff_congr g _ h]

theorem faceLift_congr (g : Grid) {w v : ℕ → ℕ → ℝ} {k : ℕ} (hk : k < g.K) (h : ∀ e < 3 * g.K, ∀ j ≤ g.N, w e j = v e j) (i : ℕ) : faceLift g w i k = faceLift g v i k := by
  unfold faceLift
  refine Finset.sum_congr rfl fun f hf => Finset.sum_congr rfl fun j hj => ?_
  have hf := Finset.mem_range.1 hf
  have hj := Finset.mem_range.1 hj
  rw [h (3 * k + f) (by omega) j (by omega)]

theorem inV_congr (hg : GridSpec P x bt g) {u v : ℕ → ℕ → ℝ} (h : ∀ i < g.np, ∀ k < g.K, u i k = v i k) {e j : ℕ} (he : e < 3 * g.K) (hj : j ≤ g.N) : inV g u e j = inV g v e j :=
  h _ (hg.maskLt (e % 3) (by omega) j hj) _ (by omega)

theorem outV_congr (hg : GridSpec P x bt g) {u v : ℕ → ℕ → ℝ} (h : ∀ i < g.np, ∀ k < g.K, u i k = v i k) {e j : ℕ} (he : e < 3 * g.K) (hj : j ≤ g.N) : outV P g u e j = outV P g v e j := by
  have := hg.lt e he
  exact h _ (hg.maskLt (P e % 3) (by omega) _ (across_le P g.N e j hj)) _ (by omega)

theorem jump_congr (hg : GridSpec P x bt g) {u v : ℕ → ℕ → ℝ} (h : ∀ i < g.np, ∀ k < g.K, u i k = v i k) {e j : ℕ} (he : e < 3 * g.K) (hj : j ≤ g.N) :
    jump P bt g u e j = jump P bt g v e j := by
  unfold jump
  rw [inV_congr hg h he hj, outV_congr hg h he hj]

theorem opAt_congr (hg : GridSpec P x bt g) {u v : ℕ → ℕ → ℝ} (h : ∀ i < g.np, ∀ k < g.K, u i k = v i k) {i k : ℕ} (hk : k < g.K) : opAt P bt g u i k = opAt P bt g v i k := by
  have gx : ∀ i < g.np, ∀ k < g.K, gradX g u i k = gradX g v i k := fun i _ k hk => gradX_congr g (fun j hj => h j hj k hk) i
  have gy : ∀ i < g.np, ∀ k < g.K, gradY g u i k = gradY g v i k := fun i _ k hk => gradY_congr g (fun j hj => h j hj k hk) i
  have ax : ∀ i < g.np, ∀ k < g.K, auxX P bt g u i k = auxX P bt g v i k := fun i hi k hk => by
    unfold auxX
    rw [gx i hi k hk, faceLift_congr g hk fun e he j hj => by rw [jump_congr hg h he hj]]
  have ay : ∀ i < g.np, ∀ k < g.K, auxY P bt g u i k = auxY P bt g v i k := fun i hi k hk => by
    unfold auxY
    rw [gy i hi k hk, faceLift_congr g hk fun e he j hj => by rw [jump_congr hg h he hj]]
  unfold opAt
  rw [gradX_congr g (fun j hj => ax j hj k hk), gradY_congr g (fun j hj => ay j hj k hk), faceLift_congr g hk fun e he j hj => ?_]
  unfold surf meanSlope
  rw [inV_congr hg ax he hj, inV_congr hg ay he hj, inV_congr hg gx he hj, inV_congr hg gy he hj, outV_congr hg gx he hj, outV_congr hg gy he hj, jump_congr hg h he hj]

theorem pos_eq (i k m n : ℕ) : pos false m n i k = i + m * k := by
  simp only [pos, Bool.false_eq_true, if_false]
  ring

/-- With a wall the operator succeeds on every vector of the right length; the result is `opAt`. -/
theorem op_ok (hg : GridSpec P x bt g) (hw : ∃ e < 3 * g.K, bt[e]? = some 3) (inn out0 : List ℝ) (hi : g.np * g.K ≤ inn.length) (ho : g.np * g.K ≤ out0.length) :
    ∃ out, op g inn out0 = .ok out ∧ out.length = out0.length ∧ (∀ k < g.K, ∀ i < g.np, out[i + g.np * k]? = some (opAt P bt g (fun i k => inn.getD (i + g.np * k) 0) i k)) ∧
      ∀ c, g.np * g.K ≤ c → out[c]? = out0[c]? := by
  obtain ⟨ew, hew, htw⟩ := hw
  obtain ⟨W, hW⟩ := hg.bcSome 3 (by norm_num) ⟨g.fn ew 0, (tagged_iff hew (Nat.zero_le _)).2 htw⟩
  have hWm := hg.bc 3 (by norm_num) W hW
  have tagLt : ∀ (t : Int) (w : ℕ), OnFaceWithTag (g.N + 1) (3 * g.K) bt t w → w < g.nf := by
    rintro t w ⟨e, i, he, hi, -, rfl⟩
    have := fn_lt (g := g) he (show i ≤ g.N by omega)
    unfold Grid.fn at this
    rwa [Nat.mul_comm] at this
  obtain ⟨u, u1, u2, u3, u4⟩ := C10_unflatten inn (zeroMat g.np g.K) false hi
  obtain ⟨nx, x1, x2, x3⟩ := flat_ok (g := g) g.nx ⟨rfl, rfl⟩
  obtain ⟨ny, y1, y2, y3⟩ := flat_ok (g := g) g.ny ⟨rfl, rfl⟩
  obtain ⟨uM, uP, a1, a2, a3, a4⟩ := hg.traces_ok u ⟨u2, u3⟩
  obtain ⟨uW, p1, p2, p3⟩ := wall_loop uM g.nf a2 W (fun w hw => tagLt 3 w ((hWm w).1 hw)) uP a3
  obtain ⟨duM, d1, d2⟩ := unflat_ok (g := g) ((List.range g.nf).map fun c => uM.getD c 0 - uW.getD c 0) (by simp)
  have hnx : ∀ e < 3 * g.K, ∀ i ≤ g.N, nx.getD (g.fn e i) 0 = (faceNormal g e).1 ∧ ny.getD (g.fn e i) 0 = (faceNormal g e).2 ∧
      g.nx.at' (e % 3 * (g.N + 1) + i) (e / 3) = (faceNormal g e).1 ∧ g.ny.at' (e % 3 * (g.N + 1) + i) (e / 3) = (faceNormal g e).2 := by
    intro e he i hi
    rw [getD_some (x3 e he i hi), getD_some (y3 e he i hi)]
    unfold Grid.nx Grid.ny faceNormal
    simp only [hg.normal_eq (e % 3) i (e / 3) (by omega) hi, and_self]
  have hdu : ∀ e < 3 * g.K, ∀ i ≤ g.N, duM.at' (e % 3 * (g.N + 1) + i) (e / 3) = jump P bt g u.at' e i := by
    intro e he i hi
    rw [d2 e he i hi, map_getD _ _ _ (fn_lt he hi), p3, getD_some (a4 e he i hi).1, getD_some (a4 e he i hi).2]
    have hiff : g.fn e i ∈ W ↔ bt[e]? = some 3 := (hWm _).trans (tagged_iff he hi)
    unfold jump inV outV
    by_cases ht : bt[e]? = some 3
    · rw [if_pos (hiff.2 ht), if_pos ht]; ring
    · rw [if_neg (fun h => ht (hiff.1 h)), if_neg ht]
  have hfs : ∀ e < 3 * g.K, ∀ i ≤ g.N, g.fscale (e % 3 * (g.N + 1) + i) (e / 3) = fs g e := fun e he i hi => hg.fscale_eq (e % 3) i (e / 3) (by omega) hi
  set qx : ℕ → ℕ → ℝ := fun i k => gradX g u.at' i k - lift g (fun c k => g.fscale c k * (g.nx.at' c k * duM.at' c k / 2)) i k with hqx
  set qy : ℕ → ℕ → ℝ := fun i k => gradY g u.at' i k - lift g (fun c k => g.fscale c k * (g.ny.at' c k * duM.at' c k / 2)) i k with hqy
  have hqx' : ∀ i, ∀ k < g.K, qx i k = auxX P bt g u.at' i k := by
    intro i k hk
    rw [hqx]
    unfold auxX
    simp only
    rw [lift_face g _ _ hk fun e he j hj => ?_]
    rw [hfs e he j hj, (hnx e he j hj).2.2.1, hdu e he j hj]
  have hqy' : ∀ i, ∀ k < g.K, qy i k = auxY P bt g u.at' i k := by
    intro i k hk
    rw [hqy]
    unfold auxY
    simp only
    rw [lift_face g _ _ hk fun e he j hj => ?_]
    rw [hfs e he j hj, (hnx e he j hj).2.2.2, hdu e he j hj]
  obtain ⟨qxM, qxP, b1, b2, -, b4⟩ := hg.traces_ok (field g qx) ⟨rfl, rfl⟩
  obtain ⟨qyM, qyP, c1, c2, -, c4⟩ := hg.traces_ok (field g qy) ⟨rfl, rfl⟩
  obtain ⟨uxM, uxP, e1, e2, e3, e4⟩ := hg.traces_ok (field g (gradX g u.at')) ⟨rfl, rfl⟩
  obtain ⟨uyM, uyP, f1, f2, f3, f4⟩ := hg.traces_ok (field g (gradY g u.at')) ⟨rfl, rfl⟩
  have hNm : ∀ c, c ∈ neumannNodes g.bc ↔ OnFaceWithTag (g.N + 1) (3 * g.K) bt 7 c := by
    intro c
    unfold neumannNodes
    cases hb : g.bc 7 with
    | some l => exact hg.bc 7 (by norm_num) l hb c
    | none =>
      simp only [List.not_mem_nil, false_iff]
      intro hc
      obtain ⟨l, hl⟩ := hg.bcSome 7 (by norm_num) ⟨c, hc⟩
      rw [hl] at hb; cases hb
  obtain ⟨o, o1, o2, o3, o4, o5⟩ := neumann_loop nx ny uxM uyM g.nf x2 y2 e2 f2 (neumannNodes g.bc) (fun w hw => tagLt 7 w ((hNm w).1 hw)) (uxP, uyP) ⟨e3, f3⟩
  obtain ⟨dqx, g1, g2⟩ := unflat_ok (g := g) ((List.range g.nf).map fun c => qxM.getD c 0 - 0.5 * (uxM.getD c 0 + o.1.getD c 0)) (by simp)
  obtain ⟨dqy, h1, h2⟩ := unflat_ok (g := g) ((List.range g.nf).map fun c => qyM.getD c 0 - 0.5 * (uyM.getD c 0 + o.2.getD c 0)) (by simp)
  obtain ⟨out, k1, k2, k3, k4⟩ := C10_flatten (field g fun i k => gradX g qx i k + gradY g qy i k -
    lift g (fun c k => (g.nx.at' c k * dqx.at' c k + g.ny.at' c k * dqy.at' c k + tau g * duM.at' c k) / 2) i k) out0 false ho
  refine ⟨out, ?_, k2, fun k hk i hi => ?_, k4⟩
  · unfold op tagNodes
    simp only [u1, x1, y1, a1, hW, p1, d1, Out.bind_ok]
    rw [← hqx, ← hqy]
    simp only [b1, c1, e1, f1, o1, g1, h1, Out.bind_ok]
    exact k1
  · have := k3 i k hi hk
    rw [pos_eq] at this
    rw [show (field g _).rows = g.np from rfl] at this
    rw [this]
    congr 1
    have hu : ∀ i < g.np, ∀ k < g.K, u.at' i k = inn.getD (i + g.np * k) 0 := by
      intro i hi k hk
      have := u4 i k hi hk
      rw [pos_eq] at this
      exact (getD_some this.symm).symm
    rw [← opAt_congr hg hu hk]
    show _ - _ = _
    unfold opAt
    rw [gradX_congr g (fun j _ => hqx' j k hk), gradY_congr g (fun j _ => hqy' j k hk), lift_face g _ (surf P bt g u.at') hk]
    intro e he j hj
    have hun := normal_unit hg he
    have hfn := fn_lt (g := g) he hj
    rw [hdu e he j hj, (hnx e he j hj).2.2.1, (hnx e he j hj).2.2.2, g2 e he j hj, h2 e he j hj, map_getD _ _ _ hfn, map_getD _ _ _ hfn, o4, o5,
      getD_some (b4 e he j hj).1, getD_some (c4 e he j hj).1, getD_some (e4 e he j hj).1, getD_some (f4 e he j hj).1, (hnx e he j hj).1, (hnx e he j hj).2.1]
    have hpX : uxP.getD (g.fn e j) 0 = outV P g (gradX g u.at') e j := getD_some (e4 e he j hj).2
    have hpY : uyP.getD (g.fn e j) 0 = outV P g (gradY g u.at') e j := getD_some (f4 e he j hj).2
    rw [hpX, hpY]
    have hiff : g.fn e j ∈ neumannNodes g.bc ↔ bt[e]? = some 7 := (hNm _).trans (tagged_iff he hj)
    have q1 : (field g qx).at' (g.n.mask j (e % 3)) (e / 3) = inV g (auxX P bt g u.at') e j := hqx' _ _ (by omega)
    have q2 : (field g qy).at' (g.n.mask j (e % 3)) (e / 3) = inV g (auxY P bt g u.at') e j := hqy' _ _ (by omega)
    have q3 : (field g (gradX g u.at')).at' (g.n.mask j (e % 3)) (e / 3) = inV g (gradX g u.at') e j := rfl
    have q4 : (field g (gradY g u.at')).at' (g.n.mask j (e % 3)) (e / 3) = inV g (gradY g u.at') e j := rfl
    rw [q1, q2, q3, q4]
    unfold surf meanSlope
    by_cases ht : bt[e]? = some 7
    · simp only [if_pos (hiff.2 ht), if_pos ht]
      have hun' : (faceNormal g e).1 ^ 2 + (faceNormal g e).2 ^ 2 = 1 := by rw [← hun]; ring
      linear_combination (-(1 / 2) * 0 + (1 / 2) * ((faceNormal g e).1 * inV g (gradX g u.at') e j + (faceNormal g e).2 * inV g (gradY g u.at') e j)) * hun'
    · simp only [if_neg (fun h => ht (hiff.1 h)), if_neg ht]
      ring

/-- Without a wall it throws. -/
theorem op_throws (hg : GridSpec P x bt g) (hw : ¬ ∃ e < 3 * g.K, bt[e]? = some 3) (inn out0 : List ℝ) (hi : g.np * g.K ≤ inn.length) : op g inn out0 = .throws := by
  have hb : g.bc 3 = none := by
    apply hg.bcNone 3 (by norm_num)
    rintro ⟨c, e, i, he, -, h, -⟩
    exact hw ⟨e, he, h⟩
  obtain ⟨u, u1, u2, u3, u4⟩ := C10_unflatten inn (zeroMat g.np g.K) false hi
  obtain ⟨nx, x1, -, -⟩ := flat_ok (g := g) g.nx ⟨rfl, rfl⟩
  obtain ⟨ny, y1, -, -⟩ := flat_ok (g := g) g.ny ⟨rfl, rfl⟩
  obtain ⟨uM, uP, a1, -, -, -⟩ := hg.traces_ok u ⟨u2, u3⟩
  unfold op tagNodes
  simp only [u1, x1, y1, a1, hb, Out.bind_ok]
  rfl

/-! ### Polynomials -/

open Blitzdg.Poisson (val dn lap pull nodal_pull pull_deg seg outward node_on node_across unit_nrm posn val_dn squareTags squareTags_grid tagOf)

/-- Nodal values of a polynomial in `x`, `y`. -/
noncomputable def vals (g : Grid) (U : P2) (i k : ℕ) : ℝ := val U (gridX (g.tri k) g.n i, gridY (g.tri k) g.n i)

theorem grad_vals (hg : GridSpec P x bt g) {U : P2} (hU : U.totalDegree ≤ g.N) {i k : ℕ} (hi : i < g.np) (hk : k < g.K) :
    gradX g (vals g U) i k = vals g (pderiv 0 U) i k ∧ gradY g (vals g U) i k = vals g (pderiv 1 U) i k := by
  have hT := hg.ccw k hk
  have hl : g.n.r.length = g.np := hg.nodes
  have hp : TriSpace g.N (Ctx.pull (g.tri k) U) := (Ctx.pull_degree _ _).trans hU
  have hv : ∀ (V : P2) j, DG2D.nodal g.n.r g.n.s (Ctx.pull (g.tri k) V) j = vals g V j k := fun V j => by
    unfold DG2D.nodal vals val gridX gridY
    rw [Ctx.ev_pull]
  have h1 := hg.elem.diff.dr _ hp i (by rw [hl]; exact hi)
  have h2 := hg.elem.diff.ds _ hp i (by rw [hl]; exact hi)
  rw [hl] at h1 h2
  simp only [hv] at h1 h2
  have e1 : dr g (vals g U) i k = _ := h1
  have e2 : ds g (vals g U) i k = _ := h2
  have := Ctx.grad_pull (g.tri k) hT.ne' U (g.n.r.getD i 0) (g.n.s.getD i 0)
  unfold gradX gradY
  rw [hg.deriv_eq i k hi, e1, e2]
  exact this

theorem faceNormal_eq (hg : GridSpec P x bt g) {e : ℕ} (he : e < 3 * g.K) : faceNormal g e = outward g e := by
  unfold faceNormal outward seg
  exact unit_nrm _ (by omega) (hg.ccw _ (by omega))

theorem faceLift_zero (g : Grid) {w : ℕ → ℕ → ℝ} {k : ℕ} (hk : k < g.K) (h : ∀ e < 3 * g.K, ∀ j ≤ g.N, w e j = 0) (i : ℕ) : faceLift g w i k = 0 := by
  rw [faceLift_congr g hk h]
  simp [faceLift]

theorem inV_vals (hg : GridSpec P x bt g) (U : P2) {e j : ℕ} (_ : e < 3 * g.K) (hj : j ≤ g.N) : inV g (vals g U) e j = val U (lerp (seg g e) (posn x (e % 3) j)) := by
  unfold inV vals seg
  rw [node_on hg (e / 3) (by omega) hj]

theorem outV_vals (hg : GridSpec P x bt g) (U : P2) {e j : ℕ} (he : e < 3 * g.K) (hj : j ≤ g.N) : outV P g (vals g U) e j = val U (lerp (seg g e) (posn x (e % 3) j)) := by
  unfold outV vals seg
  rw [node_across hg he hj]

/-- A polynomial of degree at most `N` which vanishes on the walls and whose normal derivative vanishes on the Neuman faces. -/
theorem opAt_vals (hg : GridSpec P x bt g) {U : P2} (hU : U.totalDegree ≤ g.N) (hw : ∀ e < 3 * g.K, bt[e]? = some 3 → ∀ t, val U (lerp (seg g e) t) = 0)
    (hn : ∀ e < 3 * g.K, bt[e]? = some 7 → ∀ t, val (dn (outward g e) U) (lerp (seg g e) t) = 0) {i k : ℕ} (hi : i < g.np) (hk : k < g.K) :
    opAt P bt g (vals g U) i k = vals g (lap U) i k := by
  have hj0 : ∀ e < 3 * g.K, ∀ j ≤ g.N, jump P bt g (vals g U) e j = 0 := by
    intro e he j hj
    unfold jump
    split_ifs with ht
    · rw [inV_vals hg U he hj, hw e he ht, mul_zero]
    · rw [inV_vals hg U he hj, outV_vals hg U he hj, sub_self]
  have gx : ∀ i < g.np, ∀ k < g.K, gradX g (vals g U) i k = vals g (pderiv 0 U) i k := fun i hi k hk => (grad_vals hg hU hi hk).1
  have gy : ∀ i < g.np, ∀ k < g.K, gradY g (vals g U) i k = vals g (pderiv 1 U) i k := fun i hi k hk => (grad_vals hg hU hi hk).2
  have ax : ∀ i < g.np, ∀ k < g.K, auxX P bt g (vals g U) i k = vals g (pderiv 0 U) i k := by
    intro i hi k hk
    unfold auxX
    rw [gx i hi k hk, faceLift_zero g hk fun e he j hj => by rw [hj0 e he j hj]; ring, sub_zero]
  have ay : ∀ i < g.np, ∀ k < g.K, auxY P bt g (vals g U) i k = vals g (pderiv 1 U) i k := by
    intro i hi k hk
    unfold auxY
    rw [gy i hi k hk, faceLift_zero g hk fun e he j hj => by rw [hj0 e he j hj]; ring, sub_zero]
  have hs : ∀ e < 3 * g.K, ∀ j ≤ g.N, surf P bt g (vals g U) e j = 0 := by
    intro e he j hj
    unfold surf meanSlope
    rw [inV_congr hg ax he hj, inV_congr hg ay he hj, inV_congr hg gx he hj, inV_congr hg gy he hj, outV_congr hg gx he hj, outV_congr hg gy he hj, hj0 e he j hj,
      inV_vals hg _ he hj, inV_vals hg _ he hj, outV_vals hg _ he hj, outV_vals hg _ he hj, faceNormal_eq hg he]
    split_ifs with ht
    · have := hn e he ht (posn x (e % 3) j)
      rw [val_dn] at this
      rw [this]; ring
    · ring
  unfold opAt
  have d0 : (pderiv 0 U).totalDegree ≤ g.N := tri_closed g.N 0 U hU
  have d1 : (pderiv 1 U).totalDegree ≤ g.N := tri_closed g.N 1 U hU
  rw [gradX_congr g (fun j hj => ax j hj k hk), gradY_congr g (fun j hj => ay j hj k hk), faceLift_zero g hk hs, (grad_vals hg d0 hi hk).1, (grad_vals hg d1 hi hk).2, sub_zero]
  unfold vals val lap
  rw [map_add]

/-! ### Change of unit of length -/

/-- The same mesh in another unit of length. -/
noncomputable def scaleMesh (s : ℝ) (m : Mesh) : Mesh := { m with vert := m.vert.map (s * ·) }

noncomputable def scaleTri (s : ℝ) (T : Tri) : Tri := ⟨s * T.xa, s * T.ya, s * T.xb, s * T.yb, s * T.xc, s * T.yc⟩

theorem getD_scale (s : ℝ) (l : List ℝ) (i : ℕ) : (l.map (s * ·)).getD i 0 = s * l.getD i 0 := by
  rw [List.getD_eq_getElem?_getD, List.getD_eq_getElem?_getD, List.getElem?_map]
  cases l[i]? <;> simp

theorem tri_scale (s : ℝ) (m : Mesh) (k : ℕ) : (scaleMesh s m).tri k = scaleTri s (m.tri k) := by
  unfold Mesh.tri Mesh.corner scaleMesh scaleTri
  simp only [getD_scale]

theorem cross_scale (s : ℝ) (T : Tri) : cross (scaleTri s T) = s ^ 2 * cross T := by
  unfold cross scaleTri; ring

theorem faceEnds_scale (s : ℝ) (T : Tri) (f : ℕ) :
    faceEnds (scaleTri s T) f = ((s * (faceEnds T f).1.1, s * (faceEnds T f).1.2), (s * (faceEnds T f).2.1, s * (faceEnds T f).2.2)) := by
  unfold faceEnds scaleTri
  split_ifs <;> rfl

theorem scaleMesh_ok {s : ℝ} (hs : 0 < s) {m : Mesh} (h : m.Ok P) : (scaleMesh s m).Ok P where
  conn := h.conn
  lenEv := h.lenEv
  ltEv := h.ltEv
  lenVert := by
    have := h.lenVert
    unfold scaleMesh
    simpa using this
  lenBc := h.lenBc
  ccw := by
    intro k hk
    rw [tri_scale, cross_scale]
    have := h.ccw k hk
    positivity
  meet := by
    intro e he hne
    rw [tri_scale, tri_scale, faceEnds_scale, faceEnds_scale, h.meet e he hne]
    rfl

variable {la : Lapack} {eps ztol tol : ℝ} {N : ℕ} {m : Mesh}

theorem elem_of (h : Provisioned la eps ztol tol N m P g) : triElement la eps ztol tol N = .ok (g.n, g.o) := by
  have hb := h.built
  unfold buildGrid at hb
  cases hel : triElement la eps ztol tol N with
  | ok no =>
    obtain ⟨n, o⟩ := no
    rw [hel] at hb
    simp only [Out.bind_ok] at hb
    cases h1 : gather 3 m.ev m.vert m.nv m.K with
    | ok cs =>
      rw [h1] at hb
      simp only [Out.bind_ok] at hb
      cases h2 : buildMaps ((N + 1) * (N + 2) / 2) (N + 1) 3 m.K n.mask m.E m.F (nearTest (fun k => toTri (cs.getD k [])) n ((N + 1) * (N + 2) / 2) tol) with
      | ok mp =>
        rw [h2] at hb
        simp only [Out.bind_ok] at hb
        cases h3 : buildBCHash (N + 1) (3 * m.K) m.bcType TagMap.empty with
        | ok bc =>
          rw [h3] at hb
          simp only [Out.bind_ok, Out.pure_eq, Out.ok.injEq] at hb
          rw [← hb]
        | throws => rw [h3] at hb; cases hb
        | ub => rw [h3] at hb; cases hb
      | throws => rw [h2] at hb; cases hb
      | ub => rw [h2] at hb; cases hb
    | throws => rw [h1] at hb; cases hb
    | ub => rw [h1] at hb; cases hb
  | throws => rw [hel] at hb; cases hb
  | ub => rw [hel] at hb; cases hb

/-- The provisioner also accepts the mesh in another unit. -/
theorem scaled_exists (h : Provisioned la eps ztol tol N m P g) {s : ℝ} (hs : 0 < s) : ∃ g', Provisioned la eps ztol tol N (scaleMesh s m) P g' := by
  obtain ⟨g', -, hb, -, -, hn, -⟩ := buildGrid_spec la h.lapack eps h.eps_pos h.eps_le ztol tol h.ztol_pos h.tol_pos N h.order h.ztol_lt (scaleMesh s m) P (scaleMesh_ok hs h.mesh) g.n g.o (elem_of h)
    h.gap
  exact ⟨g', h.lapack, h.eps_pos, h.eps_le, h.ztol_pos, h.tol_pos, h.order, h.ztol_lt, scaleMesh_ok hs h.mesh, hb, h.gap⟩

/-- Two grids with the same reference element and elements in proportion `s`. -/
structure Scaled (s : ℝ) (g g' : Grid) : Prop where
  pos : 0 < s
  N : g'.N = g.N
  K : g'.K = g.K
  n : g'.n = g.n
  o : g'.o = g.o
  tri : ∀ k < g.K, g'.tri k = scaleTri s (g.tri k)

theorem scaled_of {s : ℝ} (hs : 0 < s) {g' : Grid} (h : Provisioned la eps ztol tol N m P g) (h' : Provisioned la eps ztol tol N (scaleMesh s m) P g') : Scaled s g g' := by
  have e := elem_of h
  rw [elem_of h'] at e
  simp only [Out.ok.injEq, Prod.mk.injEq] at e
  obtain ⟨-, -, a1, a2, a3⟩ := h.spec
  obtain ⟨-, -, b1, b2, b3⟩ := h'.spec
  refine ⟨hs, by omega, by rw [a2, b2]; rfl, e.1, e.2, fun k hk => ?_⟩
  rw [a2] at hk
  rw [a3 k hk, b3 k hk, tri_scale]

section
variable {s : ℝ} {g' : Grid}

theorem Scaled.np (h : Scaled s g g') : g'.np = g.np := by
  unfold Grid.np; rw [h.N]

theorem derivOf_scale (s : ℝ) (T : Tri) : triDerivOf (scaleTri s T) = ⟨s * (triDerivOf T).xr, s * (triDerivOf T).xs, s * (triDerivOf T).yr, s * (triDerivOf T).ys⟩ := by
  unfold triDerivOf scaleTri
  simp only [Deriv.mk.injEq]
  refine ⟨?_, ?_, ?_, ?_⟩ <;> ring

theorem nrm_scale (s : ℝ) (T : Tri) {f : ℕ} (hf : f < 3) : nrm (scaleTri s T) f = (s * (nrm T f).1, s * (nrm T f).2) := by
  rw [nrm_ends _ _ hf, nrm_ends _ _ hf, faceEnds_scale]
  simp only [Prod.mk.injEq]
  constructor <;> ring

theorem len_scale {s : ℝ} (hs : 0 < s) (v : ℝ × ℝ) : len (s * v.1, s * v.2) = s * len v := by
  unfold len
  rw [show s * v.1 * (s * v.1) + s * v.2 * (s * v.2) = s ^ 2 * (v.1 * v.1 + v.2 * v.2) by ring, Real.sqrt_mul (sq_nonneg _), Real.sqrt_sq hs.le]

theorem Scaled.normal (h : Scaled s g g') {e : ℕ} (he : e < 3 * g.K) : faceNormal g' e = faceNormal g e := by
  unfold faceNormal
  rw [h.tri _ (by omega), nrm_scale s _ (by omega)]
  unfold unit
  rw [len_scale h.pos]
  have := h.pos.ne'
  simp only [Prod.mk.injEq]
  constructor <;> rw [mul_div_mul_left _ _ this]

theorem Scaled.fs (h : Scaled s g g') {e : ℕ} (he : e < 3 * g.K) : fs g' e = s⁻¹ * fs g e := by
  unfold Poisson2D.fs
  have := h.pos.ne'
  rw [h.tri _ (by omega), nrm_scale s _ (by omega), len_scale h.pos, cross_scale]
  field_simp

theorem Scaled.metric (h : Scaled s g g') (hg : GridSpec P x bt g) (hg' : GridSpec P x' bt g') {i k : ℕ} (hi : i < g.np) (hk : k < g.K) (a b : Fin 2) :
    metric (g'.deriv i k) a b = s⁻¹ * metric (g.deriv i k) a b := by
  have hs := h.pos.ne'
  rw [hg.deriv_eq i k hi, hg'.deriv_eq i k (by rw [h.np]; exact hi), h.tri k hk, derivOf_scale]
  have hj : ∀ d : Deriv, jac ⟨s * d.xr, s * d.xs, s * d.yr, s * d.ys⟩ = s ^ 2 * jac d := fun d => by unfold jac; ring
  unfold DG2D.metric
  rw [hj]
  fin_cases a <;> fin_cases b <;> simp [Matrix.of_apply] <;> field_simp

theorem Scaled.gradX (h : Scaled s g g') (hg : GridSpec P x bt g) (hg' : GridSpec P x' bt g') (u : ℕ → ℕ → ℝ) {i k : ℕ} (hi : i < g.np) (hk : k < g.K) :
    gradX g' u i k = s⁻¹ * gradX g u i k := by
  unfold Poisson2D.gradX dr ds
  rw [h.metric hg hg' hi hk, h.metric hg hg' hi hk, h.np, h.o]
  ring

theorem Scaled.gradY (h : Scaled s g g') (hg : GridSpec P x bt g) (hg' : GridSpec P x' bt g') (u : ℕ → ℕ → ℝ) {i k : ℕ} (hi : i < g.np) (hk : k < g.K) :
    gradY g' u i k = s⁻¹ * gradY g u i k := by
  unfold Poisson2D.gradY dr ds
  rw [h.metric hg hg' hi hk, h.metric hg hg' hi hk, h.np, h.o]
  ring

theorem gradX_smul (g : Grid) (c : ℝ) (u : ℕ → ℕ → ℝ) (i k : ℕ) : gradX g (fun i k => c * u i k) i k = c * gradX g u i k := by
  unfold gradX dr ds
  simp only [mul_left_comm _ c, ← Finset.mul_sum]
  ring

theorem gradY_smul (g : Grid) (c : ℝ) (u : ℕ → ℕ → ℝ) (i k : ℕ) : gradY g (fun i k => c * u i k) i k = c * gradY g u i k := by
  unfold gradY dr ds
  simp only [mul_left_comm _ c, ← Finset.mul_sum]
  ring

theorem faceLift_smul (g : Grid) (c : ℝ) (w : ℕ → ℕ → ℝ) (i k : ℕ) : faceLift g (fun e j => c * w e j) i k = c * faceLift g w i k := by
  unfold faceLift
  simp only [mul_left_comm _ c, ← Finset.mul_sum]

theorem faceLift_add (g : Grid) (w v : ℕ → ℕ → ℝ) (i k : ℕ) : faceLift g (fun e j => w e j + v e j) i k = faceLift g w i k + faceLift g v i k := by
  unfold faceLift
  simp only [mul_add, Finset.sum_add_distrib]

theorem Scaled.faceLift (h : Scaled s g g') (w : ℕ → ℕ → ℝ) (i k : ℕ) : faceLift g' w i k = faceLift g w i k := by
  unfold Poisson2D.faceLift
  rw [h.N, h.o]

theorem Scaled.inV (h : Scaled s g g') (u : ℕ → ℕ → ℝ) (e j : ℕ) : inV g' u e j = inV g u e j := by
  unfold Poisson2D.inV; rw [h.n]

theorem Scaled.outV (h : Scaled s g g') (u : ℕ → ℕ → ℝ) (e j : ℕ) : outV P g' u e j = outV P g u e j := by
  unfold Poisson2D.outV; rw [h.n, h.N]

theorem Scaled.jump (h : Scaled s g g') (u : ℕ → ℕ → ℝ) (e j : ℕ) : jump P bt g' u e j = jump P bt g u e j := by
  unfold Poisson2D.jump; rw [h.inV, h.outV]

/-- The largest Jacobian. -/
theorem normMax_spec (a : DMat ℝ) (hr : 0 < a.rows) (hc : 0 < a.cols) :
    (∀ i < a.rows, ∀ k < a.cols, |a.at' i k| ≤ normMax a) ∧ ∃ i < a.rows, ∃ k < a.cols, normMax a = |a.at' i k| := by
  unfold normMax
  constructor
  · intro i hi k hk
    have := (foldl_max_ge (fun c => |a.at' (c / a.cols) (c % a.cols)|) (List.range (a.rows * a.cols)) |a.at' 0 0|).2 (i * a.cols + k) (by
      rw [List.mem_range]
      calc i * a.cols + k < i * a.cols + a.cols := by omega
        _ = (i + 1) * a.cols := by ring
        _ ≤ a.rows * a.cols := Nat.mul_le_mul_right _ hi)
    rwa [Nat.mul_comm i, Nat.mul_add_div hc, Nat.div_eq_of_lt hk, Nat.mul_add_mod, Nat.mod_eq_of_lt hk, Nat.add_zero] at this
  · rcases foldl_max_mem (fun c => |a.at' (c / a.cols) (c % a.cols)|) (List.range (a.rows * a.cols)) |a.at' 0 0| with h | ⟨c, hc1, h⟩
    · exact ⟨0, hr, 0, hc, h⟩
    · rw [List.mem_range] at hc1
      exact ⟨c / a.cols, Nat.div_lt_of_lt_mul (by rwa [Nat.mul_comm]), c % a.cols, Nat.mod_lt _ hc, h⟩

theorem np_pos (g : Grid) : 0 < g.np := by
  unfold Grid.np
  have : 2 ≤ (g.N + 1) * (g.N + 2) := by nlinarith
  omega

theorem tau_pos (hg : GridSpec P x bt g) (hK : 0 < g.K) : 0 < tau g := by
  have hj : 0 < normMax (jacobian g) := by
    have := (normMax_spec (jacobian g) (np_pos g) hK).1 0 (np_pos g) 0 hK
    refine lt_of_lt_of_le ?_ this
    unfold jacobian
    simp only
    rw [hg.deriv_eq 0 0 (np_pos g), jac_triDerivOf]
    have := hg.ccw 0 hK
    positivity
  have := np_pos g
  unfold tau
  positivity

theorem Scaled.tau (h : Scaled s g g') (hg : GridSpec P x bt g) (hg' : GridSpec P x' bt g') (hK : 0 < g.K) : tau g' = s ^ 2 * tau g := by
  have hp := np_pos g
  have hs := h.pos
  have hJ : ∀ i < g.np, ∀ k < g.K, (jacobian g').at' i k = s ^ 2 * (jacobian g).at' i k := by
    intro i hi k hk
    unfold jacobian
    simp only
    rw [hg.deriv_eq i k hi, hg'.deriv_eq i k (by rw [h.np]; exact hi), h.tri k hk, jac_triDerivOf, jac_triDerivOf, cross_scale]
    ring
  have hn : normMax (jacobian g') = s ^ 2 * normMax (jacobian g) := by
    obtain ⟨a1, i, hi, k, hk, a2⟩ := normMax_spec (jacobian g) hp hK
    obtain ⟨b1, i', hi', k', hk', b2⟩ := normMax_spec (jacobian g') (np_pos g') (show 0 < g'.K by rw [h.K]; exact hK)
    have hr' : (jacobian g').rows = g.np := h.np
    have hc' : (jacobian g').cols = g.K := h.K
    rw [hr', hc'] at b1
    rw [hr'] at hi'
    rw [hc'] at hk'
    apply le_antisymm
    · rw [b2, hJ i' hi' k' hk', abs_mul, abs_of_pos (by positivity)]
      exact mul_le_mul_of_nonneg_left (a1 i' hi' k' hk') (by positivity)
    · rw [a2, ← abs_of_pos (show 0 < s ^ 2 by positivity), ← abs_mul, ← hJ i hi k hk]
      exact b1 i hi k hk
  unfold Poisson2D.tau
  rw [hn, h.np]
  rw [div_div_eq_mul_div, div_div_eq_mul_div]
  ring

/-- The three parts of the operator: second derivatives, the face term with slopes, the penalty. -/
noncomputable def volPart (P : ℕ → ℕ) (bt : List Int) (g : Grid) (u : ℕ → ℕ → ℝ) (i k : ℕ) : ℝ := gradX g (auxX P bt g u) i k + gradY g (auxY P bt g u) i k
noncomputable def slopePart (P : ℕ → ℕ) (bt : List Int) (g : Grid) (u : ℕ → ℕ → ℝ) (i k : ℕ) : ℝ :=
  faceLift g (fun e j => ((faceNormal g e).1 * inV g (auxX P bt g u) e j + (faceNormal g e).2 * inV g (auxY P bt g u) e j - meanSlope P bt g u e j) / 2) i k
noncomputable def penaltyPart (P : ℕ → ℕ) (bt : List Int) (g : Grid) (u : ℕ → ℕ → ℝ) (i k : ℕ) : ℝ := faceLift g (fun e j => tau g * jump P bt g u e j / 2) i k

theorem opAt_parts (P : ℕ → ℕ) (bt : List Int) (g : Grid) (u : ℕ → ℕ → ℝ) (i k : ℕ) :
    opAt P bt g u i k = volPart P bt g u i k - slopePart P bt g u i k - penaltyPart P bt g u i k := by
  unfold opAt volPart slopePart penaltyPart
  rw [sub_sub, ← faceLift_add]
  congr 2
  funext e j
  unfold surf
  ring

/-- How the parts change with the unit of length. -/
theorem Scaled.opAt (h : Scaled s g g') (hg : GridSpec P x bt g) (hg' : GridSpec P x' bt g') (u : ℕ → ℕ → ℝ) {i k : ℕ} (hi : i < g.np) (hk : k < g.K) :
    opAt P bt g' u i k = (s ^ 2)⁻¹ * volPart P bt g u i k - s⁻¹ * slopePart P bt g u i k - s ^ 2 * penaltyPart P bt g u i k := by
  have hs := h.pos.ne'
  have hk' : k < g'.K := by rw [h.K]; exact hk
  have h3 : ∀ e, e < 3 * g'.K → e < 3 * g.K := fun e he => by rw [h.K] at he; exact he
  have ax : ∀ i < g.np, ∀ k < g.K, auxX P bt g' u i k = s⁻¹ * auxX P bt g u i k := by
    intro i hi k hk
    unfold auxX
    rw [h.gradX hg hg' u hi hk, h.faceLift, mul_sub, ← faceLift_smul]
    congr 1
    apply faceLift_congr g hk
    intro e he j hj
    rw [h.fs he, h.normal he, h.jump]
    ring
  have ay : ∀ i < g.np, ∀ k < g.K, auxY P bt g' u i k = s⁻¹ * auxY P bt g u i k := by
    intro i hi k hk
    unfold auxY
    rw [h.gradY hg hg' u hi hk, h.faceLift, mul_sub, ← faceLift_smul]
    congr 1
    apply faceLift_congr g hk
    intro e he j hj
    rw [h.fs he, h.normal he, h.jump]
    ring
  have gx : ∀ i < g.np, ∀ k < g.K, Poisson2D.gradX g' u i k = s⁻¹ * Poisson2D.gradX g u i k := fun i hi k hk => h.gradX hg hg' u hi hk
  have gy : ∀ i < g.np, ∀ k < g.K, Poisson2D.gradY g' u i k = s⁻¹ * Poisson2D.gradY g u i k := fun i hi k hk => h.gradY hg hg' u hi hk
  rw [opAt_parts]
  have e1 : volPart P bt g' u i k = (s ^ 2)⁻¹ * volPart P bt g u i k := by
    unfold volPart
    rw [h.gradX hg hg' _ hi hk, h.gradY hg hg' _ hi hk, gradX_congr g (v := fun i k => s⁻¹ * auxX P bt g u i k) (fun j hj => ax j hj k hk),
      gradY_congr g (v := fun i k => s⁻¹ * auxY P bt g u i k) (fun j hj => ay j hj k hk), gradX_smul, gradY_smul]
    field_simp
  have e2 : slopePart P bt g' u i k = s⁻¹ * slopePart P bt g u i k := by
    unfold slopePart
    rw [h.faceLift, ← faceLift_smul]
    apply faceLift_congr g hk
    intro e he j hj
    unfold meanSlope
    rw [h.normal he, h.inV, h.inV, h.inV, h.inV, h.outV, h.outV, inV_congr hg ax he hj, inV_congr hg ay he hj, inV_congr hg gx he hj, inV_congr hg gy he hj,
      outV_congr hg gx he hj, outV_congr hg gy he hj]
    unfold Poisson2D.inV Poisson2D.outV
    split_ifs <;> ring
  have e3 : penaltyPart P bt g' u i k = s ^ 2 * penaltyPart P bt g u i k := by
    unfold penaltyPart
    rw [h.faceLift, ← faceLift_smul]
    apply faceLift_congr g hk
    intro e he j hj
    rw [h.tau hg hg' (by omega), h.jump]
    ring
  rw [e1, e2, e3]

end

theorem sum3 (f : ℕ → ℝ) : ∑ k ∈ Finset.range 3, f k = f 0 + f 1 + f 2 := by
  simp [Finset.sum_range_succ]

/-- The penalty acts on the constant field next to a wall. -/
theorem penalty_ne (hg : GridSpec P x bt g) {e : ℕ} (he : e < 3 * g.K) (ht : bt[e]? = some 3) : ∃ i < g.np, penaltyPart P bt g (fun _ _ => 1) i (e / 3) ≠ 0 := by
  by_contra hc
  push Not at hc
  have hK : 0 < g.K := by omega
  have hl := fun f (hf : f < 3) => hg.elem.lift f hf (Polynomial.C 1) (by rw [Polynomial.natDegree_C]; omega)
  choose! w hw1 hw2 hw3 using hl
  have hlen := hg.nodes
  have hone : TriSpace g.N (1 : P2) := (tri_low g.N hg.posN).1
  set c : ℕ → ℝ := fun f => if bt[3 * (e / 3) + f]? = some 3 then tau g else 0 with hcd
  have hinterp : IsInterp g (fun i => penaltyPart P bt g (fun _ _ => 1) i (e / 3)) (C (c 0) * w 0 + C (c 1) * w 1 + C (c 2) * w 2) := by
    refine ⟨triSpace_add (triSpace_add (triSpace_smul _ (hw1 0 (by omega))) (triSpace_smul _ (hw1 1 (by omega)))) (triSpace_smul _ (hw1 2 (by omega))), fun i hi => ?_⟩
    rw [SW.nodal_add, SW.nodal_add, SW.nodal_smul, SW.nodal_smul, SW.nodal_smul]
    have hi' : i < g.n.r.length := by rw [hlen]; exact hi
    rw [← hw2 0 (by omega) i hi', ← hw2 1 (by omega) i hi', ← hw2 2 (by omega) i hi']
    have hterm : ∀ f, c f * ∑ j ∈ Finset.range (g.N + 1), g.o.lift.at' i (f * (g.N + 1) + j) * Polynomial.eval ((if triOnS f then g.n.s else g.n.r).getD (g.n.mask j f) 0) (Polynomial.C 1)
        = ∑ j ∈ Finset.range (g.N + 1), g.o.lift.at' i (f * (g.N + 1) + j) * (tau g * jump P bt g (fun _ _ => 1) (3 * (e / 3) + f) j / 2) := by
      intro f
      rw [Finset.mul_sum]
      refine Finset.sum_congr rfl fun j _ => ?_
      rw [Polynomial.eval_C, hcd]
      unfold jump inV outV
      simp only
      split_ifs <;> ring
    have h0 := hterm 0
    have h1 := hterm 1
    have h2 := hterm 2
    refine (congrArg₂ (· + ·) (congrArg₂ (· + ·) h0 h1) h2).trans ?_
    unfold penaltyPart faceLift
    beta_reduce
    rw [sum3]
  have hzero : IsInterp g (fun i => penaltyPart P bt g (fun _ _ => 1) i (e / 3)) 0 := by
    refine ⟨by unfold TriSpace; rw [totalDegree_zero]; omega, fun i hi => ?_⟩
    beta_reduce
    rw [hc i hi]
    unfold DG2D.nodal
    exact map_zero _
  have heq := hg.interp_unique hinterp hzero
  have hint := congrArg (integ triInt) (congrArg (· * (1 : P2)) heq)
  simp only [zero_mul, add_mul, mul_assoc] at hint
  have hface : ∀ f < 3, integ triInt (w f * 1) = 2 := by
    intro f hf
    rw [hw3 f hf 1 hone]
    simp
    norm_num
  rw [(triModal 1).add, (triModal 1).add, (triModal 1).smul, (triModal 1).smul, (triModal 1).smul, hface 0 (by omega), hface 1 (by omega), hface 2 (by omega),
    show integ triInt (0 : P2) = 0 by unfold integ triInt; simp] at hint
  have hp := tau_pos hg hK
  have hc0 : ∀ f, 0 ≤ c f := fun f => by rw [hcd]; simp only; split_ifs <;> linarith
  have hce : 0 < c (e % 3) := by
    rw [hcd]
    simp only
    rw [if_pos (by rw [Nat.div_add_mod]; exact ht)]
    exact hp
  have h0 := hc0 0
  have h1 := hc0 1
  have h2 := hc0 2
  rcases (by omega : e % 3 = 0 ∨ e % 3 = 1 ∨ e % 3 = 2) with h | h | h <;> rw [h] at hce <;> linarith

/-! ### C106 -/

/-- **C106, memory safety and outcome.** On every provisioned mesh and every input the operator stays within its arrays; it throws exactly when the mesh has no wall face. -/
theorem C106_total (h : Provisioned la eps ztol tol N m P g) (inn out0 : List ℝ) (hi : inn.length = g.np * g.K) (ho : out0.length = g.np * g.K) :
    ((∃ e < 3 * m.K, m.bcType[e]? = some 3) → ∃ out, op g inn out0 = .ok out ∧ out.length = g.np * g.K) ∧
    ((¬ ∃ e < 3 * m.K, m.bcType[e]? = some 3) → op g inn out0 = .throws) := by
  obtain ⟨x, hg, -, hK, -⟩ := h.spec
  rw [← hK]
  refine ⟨fun hw => ?_, fun hw => op_throws hg hw inn out0 (by omega)⟩
  obtain ⟨out, h1, h2, -⟩ := op_ok hg hw inn out0 (by omega) (by omega)
  exact ⟨out, h1, by omega⟩

/-- **C106, consistency.** Take a polynomial `U` of degree at most `N` in `x`, `y` which vanishes on the walls and whose normal derivative vanishes on the Neuman faces.  Applied to its nodal values the
operator gives the nodal values of its Laplacian, on every mesh and for every order. -/
theorem C106_consistent (h : Provisioned la eps ztol tol N m P g) (hw1 : ∃ e < 3 * m.K, m.bcType[e]? = some 3) {U : P2} (hU : U.totalDegree ≤ N)
    (hw : ∀ e < 3 * m.K, m.bcType[e]? = some 3 → ∀ t, val U (lerp (seg g e) t) = 0)
    (hn : ∀ e < 3 * m.K, m.bcType[e]? = some 7 → ∀ t, val (dn (outward g e) U) (lerp (seg g e) t) = 0)
    (inn out0 : List ℝ) (hi : inn.length = g.np * g.K) (ho : out0.length = g.np * g.K)
    (hv : ∀ k < g.K, ∀ i < g.np, inn[i + g.np * k]? = some (val U (gridX (g.tri k) g.n i, gridY (g.tri k) g.n i))) :
    ∃ out, op g inn out0 = .ok out ∧ out.length = g.np * g.K ∧
      ∀ k < g.K, ∀ i < g.np, out[i + g.np * k]? = some (val (pderiv 0 (pderiv 0 U) + pderiv 1 (pderiv 1 U)) (gridX (g.tri k) g.n i, gridY (g.tri k) g.n i)) := by
  obtain ⟨x, hg, hN, hK, -⟩ := h.spec
  rw [← hK] at hw1 hw hn
  obtain ⟨out, h1, h2, h3, -⟩ := op_ok hg hw1 inn out0 (by omega) (by omega)
  refine ⟨out, h1, by omega, fun k hk i hi => ?_⟩
  rw [h3 k hk i hi, opAt_congr hg (v := vals g U) (fun i hi k hk => getD_some (hv k hk i hi)) hk, opAt_vals hg (by rw [hN]; exact hU) hw hn hi hk]
  rfl

theorem cube_inj {s t : ℝ} (hs : 0 < s) (ht : 0 < t) (h : (s + 1) * (s ^ 2 + 1) = (t + 1) * (t ^ 2 + 1)) : s = t := by
  have : (s - t) * (s ^ 2 + s * t + t ^ 2 + s + t + 1) = 0 := by linear_combination h
  rcases mul_eq_zero.1 this with h | h
  · linarith
  · have : 0 < s ^ 2 + s * t + t ^ 2 + s + t + 1 := by positivity
    linarith

/-- **C106, refuted: the equation depends on the unit of length.** Measure the same mesh in another unit, so that all coordinates are multiplied by `s`: a discrete Laplacian would be divided by `s²`.
For every mesh with a wall, every order, and all `s` but at most one besides `s = 1`, this fails already for the constant field: the face terms lack the factor `Fscale` and the penalty is
proportional to an area instead of the inverse of a length. -/
theorem C106_units (h : Provisioned la eps ztol tol N m P g) (hw : ∃ e < 3 * m.K, m.bcType[e]? = some 3) :
    ∃ s₀ : ℝ, ∀ s : ℝ, 0 < s → s ≠ 1 → s ≠ s₀ → ∃ g', Provisioned la eps ztol tol N (scaleMesh s m) P g' ∧ g'.np = g.np ∧ g'.K = g.K ∧
      ∃ out out', op g (List.replicate (g.np * g.K) 1) (List.replicate (g.np * g.K) 0) = .ok out ∧
        op g' (List.replicate (g.np * g.K) 1) (List.replicate (g.np * g.K) 0) = .ok out' ∧
        ∃ c < g.np * g.K, out'.getD c 0 ≠ out.getD c 0 / s ^ 2 := by
  obtain ⟨x, hg, hN, hK, -⟩ := h.spec
  rw [← hK] at hw
  obtain ⟨e, he, ht⟩ := hw
  obtain ⟨i, hi, hB⟩ := penalty_ne hg he ht
  set B := penaltyPart P m.bcType g (fun _ _ => 1) i (e / 3) with hBd
  set A := slopePart P m.bcType g (fun _ _ => 1) i (e / 3) with hAd
  have hroot : ∃ s₀ : ℝ, ∀ s : ℝ, 0 < s → s ≠ s₀ → A + (s + 1) * (s ^ 2 + 1) * B ≠ 0 := by
    by_cases hr : ∃ s : ℝ, 0 < s ∧ A + (s + 1) * (s ^ 2 + 1) * B = 0
    · obtain ⟨s₀, hs0, hr⟩ := hr
      refine ⟨s₀, fun s hs hne hz => hne (cube_inj hs hs0 ?_)⟩
      have : ((s + 1) * (s ^ 2 + 1) - (s₀ + 1) * (s₀ ^ 2 + 1)) * B = 0 := by linear_combination hz - hr
      rcases mul_eq_zero.1 this with h | h
      · linarith
      · exact absurd h hB
    · exact ⟨0, fun s hs _ hz => hr ⟨s, hs, hz⟩⟩
  obtain ⟨s₀, hs0⟩ := hroot
  refine ⟨s₀, fun s hs h1 hne => ?_⟩
  obtain ⟨g', hP'⟩ := scaled_exists h hs
  have hS := scaled_of hs h hP'
  obtain ⟨x', hg', -, -, -⟩ := hP'.spec
  have hg' : GridSpec P x' m.bcType g' := hg'
  have hk : e / 3 < g.K := by omega
  obtain ⟨out, a1, a2, a3, -⟩ := op_ok hg ⟨e, he, ht⟩ (List.replicate (g.np * g.K) 1) (List.replicate (g.np * g.K) 0) (by simp) (by simp)
  obtain ⟨out', b1, b2, b3, -⟩ := op_ok hg' ⟨e, by rw [hS.K]; exact he, ht⟩ (List.replicate (g.np * g.K) 1) (List.replicate (g.np * g.K) 0) (by rw [hS.np, hS.K]; simp) (by rw [hS.np, hS.K]; simp)
  have hlt : ∀ i < g.np, ∀ k < g.K, i + g.np * k < g.np * g.K := by
    intro i hi k hk
    calc i + g.np * k < g.np + g.np * k := by omega
      _ = g.np * (k + 1) := by ring
      _ ≤ g.np * g.K := Nat.mul_le_mul_left _ hk
  have hone : ∀ i < g.np, ∀ k < g.K, (List.replicate (g.np * g.K) (1 : ℝ)).getD (i + g.np * k) 0 = 1 := by
    intro i hi k hk
    rw [List.getD_eq_getElem _ _ (by simpa using hlt i hi k hk)]
    simp
  refine ⟨g', hP', hS.np, hS.K, out, out', a1, b1, i + g.np * (e / 3), hlt i hi _ hk, fun heq => ?_⟩
  rw [getD_some (a3 _ hk i hi), ← hS.np, getD_some (b3 _ (by rw [hS.K]; exact hk) i (by rw [hS.np]; exact hi)), hS.np,
    opAt_congr hg' (v := fun _ _ => 1) (fun i hi k hk => hone i (by rwa [hS.np] at hi) k (by rwa [hS.K] at hk)) (by rw [hS.K]; exact hk),
    opAt_congr hg (v := fun _ _ => 1) hone hk, hS.opAt hg hg' _ hi hk, opAt_parts, ← hBd, ← hAd] at heq
  have hs' := hs.ne'
  have : (s - 1) * (A + (s + 1) * (s ^ 2 + 1) * B) = 0 := by
    field_simp at heq
    linear_combination -heq
  rcases mul_eq_zero.1 this with h | h
  · exact h1 (by linarith)
  · exact hs0 s hs hne h

/-- **C106, refuted: the driver's exact solution.** The function which the driver writes out as `uexact` and starts the solver from does not satisfy the equation whose right-hand side the driver sets up:
its Laplacian is twice the right-hand side, so half of it is the solution of the boundary value problem on the square. -/
theorem C106_exact_solution (x y : ℝ) :
    deriv (fun a => deriv (fun b => uexact b y) a) x + deriv (fun a => deriv (fun b => uexact x b) a) y = 2 * rhs x y ∧
    deriv (fun a => deriv (fun b => uexact b y / 2) a) x + deriv (fun a => deriv (fun b => uexact x b / 2) a) y = rhs x y ∧
    (uexact 0 y = 0 ∧ uexact 1 y = 0 ∧ uexact (-1) y = 0 ∧ uexact x 0 = 0 ∧ uexact x 1 = 0 ∧ uexact x (-1) = 0) := by
  have d1 : ∀ c a : ℝ, deriv (fun b => Real.sin (Real.pi * b) * c) a = Real.pi * Real.cos (Real.pi * a) * c := by
    intro c a
    have h : HasDerivAt (fun b : ℝ => Real.pi * b) Real.pi a := by simpa using (hasDerivAt_id a).const_mul Real.pi
    have := (h.sin.mul_const c).deriv
    rw [this]; ring
  have d2 : ∀ c a : ℝ, deriv (fun b => Real.pi * Real.cos (Real.pi * b) * c) a = -Real.pi * Real.pi * Real.sin (Real.pi * a) * c := by
    intro c a
    have h : HasDerivAt (fun b : ℝ => Real.pi * b) Real.pi a := by simpa using (hasDerivAt_id a).const_mul Real.pi
    have := ((h.cos.const_mul Real.pi).mul_const c).deriv
    rw [this]; ring
  have e1 : ∀ c a : ℝ, deriv (fun a => deriv (fun b => Real.sin (Real.pi * b) * c) a) a = -Real.pi * Real.pi * Real.sin (Real.pi * a) * c := by
    intro c a
    simp only [d1]
    exact d2 c a
  refine ⟨?_, ?_, ?_⟩
  · have f1 : (fun b => uexact b y) = fun b => Real.sin (Real.pi * b) * Real.sin (Real.pi * y) := rfl
    have f2 : (fun b => uexact x b) = fun b => Real.sin (Real.pi * b) * Real.sin (Real.pi * x) := by funext b; unfold uexact; ring
    rw [f1, f2, e1, e1]
    unfold rhs uexact
    ring
  · have f1 : (fun b => uexact b y / 2) = fun b => Real.sin (Real.pi * b) * (Real.sin (Real.pi * y) / 2) := by funext b; unfold uexact; ring
    have f2 : (fun b => uexact x b / 2) = fun b => Real.sin (Real.pi * b) * (Real.sin (Real.pi * x) / 2) := by funext b; unfold uexact; ring
    rw [f1, f2, e1, e1]
    unfold rhs uexact
    ring
  · unfold uexact
    simp

/-- The square with a wall below, Neuman sides and an untreated top, `U = y`: the hypotheses of C106 are met. -/
example : ∃ g out, Provisioned Nodes1D.exactLapack (1 / 2 ^ 52) 1e-10 1e-5 1 (squareTags [3, 0, 7, 7, 2, 0]) twoTri g ∧
    op g ((List.range (g.np * g.K)).map fun c => gridY (g.tri (c / g.np)) g.n (c % g.np)) (List.replicate (g.np * g.K) 5) = .ok out ∧ ∀ k < g.K, ∀ i < g.np, out[i + g.np * k]? = some 0 := by
  obtain ⟨g, hg, h1, h2, htri, -⟩ := squareTags_grid [3, 0, 7, 7, 2, 0] (by decide)
  have hU : (X 1 : P2).totalDegree ≤ 1 := by rw [totalDegree_X]
  have hd : ∀ n : ℝ × ℝ, ∀ z, val (dn n (X 1)) z = n.2 := by
    intro n z
    unfold val dn
    simp [pderiv_X]
  obtain ⟨out, e1, -, e3⟩ := C106_consistent hg ⟨0, by decide, rfl⟩ hU
    (by
      intro e he ht t
      have he : e < 6 := he
      have h0 : e = 0 := by interval_cases e <;> simp [squareTags] at ht ⊢
      subst h0
      unfold seg val lerp faceEnds
      rw [htri _ (by norm_num)]
      simp [Mesh.tri, Mesh.corner, square])
    (by
      intro e he ht t
      have he : e < 6 := he
      rw [hd]
      have h0 : e = 2 ∨ e = 3 := by interval_cases e <;> simp [squareTags] at ht ⊢
      unfold outward Poisson.segNormal seg faceEnds
      rcases h0 with rfl | rfl
      · rw [htri _ (by norm_num)]
        simp [Mesh.tri, Mesh.corner, square]
      · rw [htri _ (by norm_num)]
        simp [Mesh.tri, Mesh.corner, square])
    ((List.range (g.np * g.K)).map fun c => gridY (g.tri (c / g.np)) g.n (c % g.np)) (List.replicate (g.np * g.K) 5) (by simp) (by simp)
    (by
      intro k hk i hi
      have hlt : i + g.np * k < g.np * g.K := by
        calc i + g.np * k < g.np + g.np * k := by omega
          _ = g.np * (k + 1) := by ring
          _ ≤ g.np * g.K := Nat.mul_le_mul_left _ hk
      rw [List.getElem?_map, List.getElem?_range hlt, Option.map_some, Nat.add_mul_div_left _ _ (by omega), Nat.div_eq_of_lt hi, Nat.add_mul_mod_self_left, Nat.mod_eq_of_lt hi]
      unfold val
      simp)
  refine ⟨g, out, hg, e1, fun k hk i hi => ?_⟩
  rw [e3 k hk i hi]
  unfold val
  simp [pderiv_X]

/-- C106 in other units applies to it. -/
example : ∃ g, Provisioned Nodes1D.exactLapack (1 / 2 ^ 52) 1e-10 1e-5 1 (squareTags [3, 0, 7, 7, 2, 0]) twoTri g ∧ ∃ s g', Provisioned Nodes1D.exactLapack (1 / 2 ^ 52) 1e-10 1e-5 1 (scaleMesh s (squareTags [3, 0, 7, 7, 2, 0])) twoTri g' ∧
    ∃ out out', op g (List.replicate (g.np * g.K) 1) (List.replicate (g.np * g.K) 0) = .ok out ∧
        op g' (List.replicate (g.np * g.K) 1) (List.replicate (g.np * g.K) 0) = .ok out' ∧
        ∃ c < g.np * g.K, out'.getD c 0 ≠ out.getD c 0 / s ^ 2 := by
  obtain ⟨g, hg, -⟩ := squareTags_grid [3, 0, 7, 7, 2, 0] (by decide)
  obtain ⟨s₀, h⟩ := C106_units hg ⟨0, by decide, rfl⟩
  by_cases h2 : s₀ = 2
  · obtain ⟨g', a, -, -, b⟩ := h 3 (by norm_num) (by norm_num) (by rw [h2]; norm_num)
    exact ⟨g, hg, 3, g', a, b⟩
  · obtain ⟨g', a, -, -, b⟩ := h 2 (by norm_num) (by norm_num) (fun e => h2 e.symm)
    exact ⟨g, hg, 2, g', a, b⟩

end Blitzdg.Poisson2D
