import Verif.Drivers.PyAdvec
import Verif.Drivers.AdvecRunProps
import Verif.SW.PyRhsProps
import Verif.Py.ExportProps

/-! Property C123: the script advec1d.py computes what the program advec1d computes. -/

namespace Blitzdg.Drivers

open Set
open Blitzdg.Sparse (DMat)
open Blitzdg.Nodes1D
open Blitzdg.SW (flatF reshapeF pick)
open Blitzdg.Py (NdArray SameMat SameVec)

variable {xmin xmax : ℝ} {p : Prov}

/-- **C123, indices.** `a[i]` for an array of length `n`: position `j` is meant exactly if `i = j` or `i = j - n`; the other numbers raise. -/
theorem C123_index (n : ℕ) (i : ℤ) : (∀ j, npIdx n i = .ok j ↔ j < n ∧ (i = j ∨ i = j - n)) ∧ (npIdx n i = .throws ↔ ¬ ∃ j < n, i = (j : ℤ) ∨ i = (j : ℤ) - n) := by
  unfold npIdx
  constructor
  · intro j
    split_ifs with h1 h2
    · rw [Out.ok.injEq]; omega
    · rw [Out.ok.injEq]; omega
    · refine ⟨(fun e => nomatch e), fun h => ?_⟩
      omega
  · split_ifs with h1 h2
    · exact ⟨(fun e => nomatch e), fun h => absurd ⟨i.toNat, by omega, by omega⟩ h⟩
    · exact ⟨(fun e => nomatch e), fun h => absurd ⟨(i + n).toNat, by omega, by omega⟩ h⟩
    · refine ⟨fun _ => ?_, fun _ => rfl⟩
      rintro ⟨j, h3, h4⟩
      omega

example : npIdx 4 (-1) = .ok 3 ∧ npIdx 4 4 = .throws := ⟨rfl, rfl⟩

theorem npIdx_nat {n i : ℕ} (h : i < n) : npIdx n (i : ℤ) = .ok i := by
  simp [npIdx, h]

/-- **C123, array properties.** The arrays the script reads from the provisioner have the shape and entries of the C++ arrays. -/
theorem C123_arrays (hx : xmin < xmax) (hb : Built xmin xmax p) :
    (∃ a, p.xGridNumpy = .ok a ∧ SameMat a p.t.x) ∧ (∃ a, p.rxNumpy = .ok a ∧ SameMat a p.rxMat) ∧ (∃ a, p.fscaleNumpy = .ok a ∧ SameMat a p.fscaleMat) ∧
    (∃ a, p.nxNumpy = .ok a ∧ SameMat a p.nx) ∧ (∃ a, p.vmapMNumpy = .ok a ∧ SameVec a p.t.vmapM) ∧ ∃ a, p.vmapPNumpy = .ok a ∧ SameVec a p.t.vmapP := by
  have hp := hb.spec hx
  have hr := hp.ops.nodes.1
  refine ⟨?_, Py.export_mat p.rxMat, Py.export_mat p.fscaleMat, Py.export_mat p.nx, Py.export_vec _ _ (by rw [hp.lenM, mul_comm]), Py.export_vec _ _ (by rw [hp.lenP, mul_comm])⟩
  have h : p.t.x.rows = p.N + 1 ∧ p.t.x.cols = p.K := by
    rw [hp.x]
    simp [grid, hr]
  have := Py.export_mat p.t.x
  rw [h.1, h.2] at this
  exact this

/-- The script's right-hand side without arrays. -/
theorem pyAdvec_closed (hp : ProvSpec xmin xmax p) (c : ℝ) (u : DMat ℝ) (hu : u.rows = p.N + 1 ∧ u.cols = p.K) :
    ∃ R, pyAdvecRHS p c u = .ok R ∧ R.rows = p.N + 1 ∧ R.cols = p.K ∧ ∀ i ≤ p.N, ∀ k < p.K,
      R.at' i k = -c * p.rx i k * p.diff u i k + p.lift (fun f k => p.fscale f k * advecJump p c u f k) i k := by
  have hK := hp.posK
  have hlen : (flatF u).length = (p.N + 1) * p.K := by rw [SW.flatF_length, hu.1, hu.2]
  have hget : ∀ i ≤ p.N, ∀ k < p.K, (flatF u)[k * (p.N + 1) + i]? = some (u.at' i k) := fun i hi k hk => by
    have := SW.flatF_get u i k (by omega) (by omega)
    rwa [hu.1, show i + (p.N + 1) * k = k * (p.N + 1) + i by ring] at this
  have hnx : ∀ k < p.K, (flatF p.nx)[2 * k]? = some (-1) ∧ (flatF p.nx)[2 * k + 1]? = some 1 := fun k hk => by
    have h0 := SW.flatF_get p.nx 0 k (by simp [Prov.nx]) hk
    have h1 := SW.flatF_get p.nx 1 k (by simp [Prov.nx]) hk
    simp only [Prov.nx, zero_add, Nat.zero_mul, Nat.one_mul, List.getD_eq_getElem?_getD, (hp.nx k hk).1, (hp.nx k hk).2, Option.getD_some] at h0 h1
    exact ⟨h0, by rw [Nat.add_comm]; exact h1⟩
  have hnl : (flatF p.nx).length = 2 * p.K := by rw [SW.flatF_length]; rfl
  obtain ⟨uM, m1, m2, m3⟩ := SW.pick_ok (flatF u) p.t.vmapM fun g i hg => by
    have hgl : g < 2 * p.K := by rw [← hp.lenM]; exact (List.getElem?_eq_some_iff.1 hg).1
    obtain ⟨a, b, h1, h2, h3, h4⟩ := hp.bound g hgl
    rw [hg] at h1
    injection h1 with h1
    rw [hlen, h1]
    exact h3
  obtain ⟨uP, q1, q2, q3⟩ := SW.pick_ok (flatF u) p.t.vmapP fun g i hg => by
    have hgl : g < 2 * p.K := by rw [← hp.lenP]; exact (List.getElem?_eq_some_iff.1 hg).1
    obtain ⟨a, b, h1, h2, h3, h4⟩ := hp.bound g hgl
    rw [hg] at h2
    injection h2 with h2
    rw [hlen, h2]
    exact h4
  rw [hp.lenM] at m2
  rw [hp.lenP] at q2
  have t6 : ∀ k < p.K, uM[2 * k]? = some (u.at' 0 k) ∧ uM[2 * k + 1]? = some (u.at' p.N k) := fun k hk => by
    have e0 := hget 0 (Nat.zero_le _) k hk
    rw [Nat.add_zero] at e0
    exact ⟨by rw [m3 _ _ (hp.vmapM k hk).1, e0], by rw [m3 _ _ (hp.vmapM k hk).2, hget p.N (le_refl _) k hk]⟩
  have t7 : ∀ k, k + 1 < p.K → uP[2 * k + 1]? = some (u.at' 0 (k + 1)) ∧ uP[2 * (k + 1)]? = some (u.at' p.N k) := fun k hk => by
    have e0 := hget 0 (Nat.zero_le _) (k + 1) hk
    rw [Nat.add_zero] at e0
    exact ⟨by rw [q3 _ _ (hp.vmapP k hk).1, e0], by rw [q3 _ _ (hp.vmapP k hk).2, hget p.N (le_refl _) k (by omega)]⟩
  have hlast := (t6 (p.K - 1) (by omega)).2
  obtain ⟨uQ, hQ⟩ : ∃ uQ, uQ = (uP.set (2 * (p.K - 1) + 1) (u.at' p.N (p.K - 1))).set 0 0 := ⟨_, rfl⟩
  obtain ⟨du, hdu⟩ : ∃ du, du = (List.range (2 * p.K)).map fun g => (uM.getD g 0 - uQ.getD g 0) * 0.5 * (c * (flatF p.nx).getD g 0 - (1 - 0) * |c * (flatF p.nx).getD g 0|) := ⟨_, rfl⟩
  have hj : ∀ k < p.K, du.getD (2 * k) 0 = advecJump p c u 0 k ∧ du.getD (2 * k + 1) 0 = advecJump p c u 1 k := by
    intro k hk
    have h0 : 2 * k < 2 * p.K := by omega
    have h1 : 2 * k + 1 < 2 * p.K := by omega
    rw [hdu, List.getD_eq_getElem?_getD, List.getD_eq_getElem?_getD, List.getElem?_map, List.getElem?_map, List.getElem?_range h0, List.getElem?_range h1]
    simp only [Option.map_some, List.getD_eq_getElem?_getD, (t6 k hk).1, (t6 k hk).2, (hnx k hk).1, (hnx k hk).2, Option.getD_some, advecJump, if_true, Nat.one_ne_zero, if_false, hQ]
    constructor
    · congr 3
      by_cases h : k = 0
      · subst h
        rw [Nat.mul_zero, List.getElem?_set_self (by simp [q2]; omega)]
        simp
      · rw [List.getElem?_set_ne (by omega), List.getElem?_set_ne (by omega)]
        have := (t7 (k - 1) (by omega)).2
        rw [Nat.sub_add_cancel (by omega)] at this
        rw [this]
        simp [h]
    · congr 3
      by_cases h : k + 1 = p.K
      · have e : p.K - 1 = k := by omega
        rw [List.getElem?_set_ne (by omega), e, List.getElem?_set_self (by omega)]
        simp [h]
      · rw [List.getElem?_set_ne (by omega), List.getElem?_set_ne (by omega), (t7 k (by omega)).1]
        simp [h]
  refine ⟨⟨p.N + 1, p.K, fun i k => (-c * p.rx i k * ∑ j ∈ Finset.range (p.N + 1), p.o.Dr.at' i j * u.at' j k) + ∑ f ∈ Finset.range 2, p.o.lift.at' i f * (p.fscale f k * du.getD (f + 2 * k) 0)⟩, ?_, rfl, rfl, ?_⟩
  · have hset : (uM.getD (2 * (p.K - 1) + 1) 0) = u.at' p.N (p.K - 1) := by rw [List.getD_eq_getElem?_getD, hlast]; rfl
    have e1 : npIdx uM.length (mapIO p.N p.K).2.1 = .ok (2 * (p.K - 1) + 1) := by rw [mapIO_eq p hK]; exact npIdx_nat (by omega)
    have e2 : npIdx uP.length (mapIO p.N p.K).2.1 = .ok (2 * (p.K - 1) + 1) := by rw [mapIO_eq p hK]; exact npIdx_nat (by omega)
    have e3 : npIdx (uP.set (2 * (p.K - 1) + 1) (u.at' p.N (p.K - 1))).length (mapIO p.N p.K).1 = .ok 0 := by rw [mapIO_eq p hK]; exact npIdx_nat (by simp [q2]; omega)
    have hQl : uQ.length = 2 * p.K := by rw [hQ]; simp [q2]
    have e4 : ¬ (uM.length ≠ uQ.length ∨ uM.length ≠ (flatF p.nx).length) := by rw [hQl, hnl, m2]; simp
    have e5 : ¬ du.length ≠ p.nx.rows * p.nx.cols := by rw [hdu]; simp [Prov.nx]
    simp only [pyAdvecRHS, m1, q1, Out.bind_ok, e1, e2, hset, e3, ← hQ, e4, if_false]
    rw [m2, ← hdu, if_neg e5]
    simp only [npDot, npZip, hu.1, hu.2, if_true, Out.bind_ok, Prov.rxMat, Prov.fscaleMat, reshapeF, Prov.nx, and_self]
  · intro i _ k hk
    have h1 : du.getD (0 + 2 * k) 0 = advecJump p c u 0 k := by rw [zero_add]; exact (hj k hk).1
    have h2 : du.getD (1 + 2 * k) 0 = advecJump p c u 1 k := by rw [add_comm]; exact (hj k hk).2
    simp only [Prov.diff, Prov.lift, Finset.sum_range_succ _ 1, Finset.sum_range_succ _ 0, Finset.sum_range_zero, zero_add] at h1 h2 ⊢
    rw [h1, h2]

/-- **C123, right-hand side.** On every grid the script and the program compute the same rates. -/
theorem C123_rhs (hx : xmin < xmax) (hb : Built xmin xmax p) (c : ℝ) (u : DMat ℝ) (hu : u.rows = p.N + 1 ∧ u.cols = p.K) :
    ∃ R R', advecRHS p c u = .ok R ∧ pyAdvecRHS p c u = .ok R' ∧ R'.rows = R.rows ∧ R'.cols = R.cols ∧ ∀ i < R.rows, ∀ k < R.cols, R'.at' i k = R.at' i k := by
  obtain ⟨R, h1, h2, h3, h4⟩ := advec_closed (hb.spec hx) c u hu
  obtain ⟨R', h1', h2', h3', h4'⟩ := pyAdvec_closed (hb.spec hx) c u hu
  exact ⟨R, R', h1, h1', by rw [h2, h2'], by rw [h3, h3'], fun i hi k hk => by rw [h4 i (by omega) k (by omega), h4' i (by omega) k (by omega)]⟩

/-- A grid of the script's order and number of elements. -/
example : ∃ p, Built (-1) 4 p ∧ p.N = 1 ∧ p.K = 60 := built_exists (by norm_num) 1 60 (by norm_num) (by norm_num) (by norm_num [intMax])

theorem pyAdvec_computes (hx : xmin < xmax) (hp : ProvSpec xmin xmax p) {c : ℝ} (hc : 0 ≤ c) : Computes p (pyAdvecRHS p c) (advOp p.N p.K (c / ((xmax - xmin) / p.K / 2))) := by
  intro u v h
  obtain ⟨R, h1, h2⟩ := h.rhs hx hp hc
  obtain ⟨R0, a1, a2, a3, a4⟩ := advec_closed hp c u ⟨h.rows, h.cols⟩
  obtain ⟨R', b1, b2, b3, b4⟩ := pyAdvec_closed hp c u ⟨h.rows, h.cols⟩
  rw [h1] at a1
  injection a1 with a1
  subst a1
  exact ⟨R', b1, b2, b3, fun i hi k => by rw [b4 i hi k k.2, ← a4 i hi k k.2, h2.val i hi k]⟩

/-- The script's time loop from pass `k` on. -/
theorem pyAdvecLoop_from (hx : xmin < xmax) (hp : ProvSpec xmin xmax p) {c dt : ℝ} (hc : 0 ≤ c) (hdt : 0 < dt) (T : ℝ) (v : Pieces p.N p.K) (m : ℕ) :
    ∀ k : ℕ, k + m = ⌈T / dt⌉₊ → ∀ (fuel : ℕ) (s : PyAdvecState), m < fuel → Rep p s.u (wave p xmin xmax c dt v k) → (∃ w, Rep p s.res w) → s.t = k * dt →
    (∃ j u, k ≤ j ∧ j < ⌈T / dt⌉₊ ∧ Rep p u (wave p xmin xmax c dt v (j + 1)) ∧ 1e8 < maxAbs u ∧ pyAdvecLoop p c dt T fuel s = .throws) ∨
    ∃ (s' : PyAdvecState) (us : ℕ → DMat ℝ), pyAdvecLoop p c dt T fuel s = .ok (some s') ∧ Rep p s'.u (wave p xmin xmax c dt v ⌈T / dt⌉₊) ∧ s'.t = ⌈T / dt⌉₊ * dt ∧
      (∀ j, k < j → j ≤ k + m → Rep p (us j) (wave p xmin xmax c dt v j)) ∧ s'.plots = s.plots ++ (List.range' (k + 1) m).map us := by
  induction m with
  | zero =>
    intro k hk fuel s hf hu _ ht
    obtain ⟨n, rfl⟩ : ∃ n, fuel = n + 1 := ⟨fuel - 1, by omega⟩
    rw [add_zero] at hk
    have h : ¬ s.t < T := by
      rw [ht, not_lt, ← div_le_iff₀ hdt, hk]
      exact Nat.le_ceil _
    right
    exact ⟨s, fun _ => s.u, by simp [pyAdvecLoop, h], by rw [← hk]; exact hu, by rw [← hk]; exact ht, fun j hj hj' => by omega, by simp⟩
  | succ m ih =>
    intro k hk fuel s hf hu hres ht
    obtain ⟨n, rfl⟩ : ∃ n, fuel = n + 1 := ⟨fuel - 1, by omega⟩
    obtain ⟨w, hw⟩ := hres
    have h : s.t < T := by
      rw [ht, ← lt_div_iff₀ hdt]
      exact Nat.lt_ceil.1 (by omega)
    obtain ⟨u', res', e1, e2, e3⟩ := Rep.step (pyAdvec_computes hx hp hc) dt hu hw
    have e2' : Rep p u' (wave p xmin xmax c dt v (k + 1)) := by
      rw [wave, Time.C49_stale _ _ _ 0 w]
      exact e2
    by_cases hb : 1e8 < maxAbs u'
    · left
      refine ⟨k, u', le_refl _, by omega, e2', hb, ?_⟩
      simp only [pyAdvecLoop, h, if_true, pyAdvecBody, e1, Out.bind_ok, gt_iff_lt, hb]
      rfl
    · have hl : pyAdvecLoop p c dt T (n + 1) s = pyAdvecLoop p c dt T n ⟨u', res', s.t + dt, s.plots ++ [u']⟩ := by
        simp only [pyAdvecLoop, h, if_true, pyAdvecBody, e1, Out.bind_ok, gt_iff_lt, hb, if_false, Out.pure_eq]
      rw [hl]
      rcases ih (k + 1) (by omega) n ⟨u', res', s.t + dt, s.plots ++ [u']⟩ (by omega) e2' e3 (by simp only [ht]; push_cast; ring) with ⟨j, u, h1, h2, h3, h4, h5⟩ | ⟨s', us, h1, h2, h3, h4, h5⟩
      · left; exact ⟨j, u, by omega, h2, h3, h4, h5⟩
      · right
        refine ⟨s', fun j => if j = k + 1 then u' else us j, h1, h2, h3, fun j hj hj' => ?_, ?_⟩
        · simp only
          split
          · rename_i hj; rw [hj]; exact e2'
          · exact h4 j (by omega) (by omega)
        · rw [h5, List.range'_succ, List.map_cons, if_pos rfl, List.append_assoc]
          congr 1
          rw [List.singleton_append]
          congr 1
          refine List.map_congr_left fun j hj => ?_
          rw [if_neg (by have := (List.mem_range'_1.1 hj).1; omega)]

/-- **C123. The script advec1d.py converges to the travelling wave.** As C122: `n = ⌈T / dt⌉` steps, after each of which the field is plotted; every plotted field, and the last one, differs from the wave `F(x - c t)` at the nodes by at most
`advecBound`; the script ends with an exception only if that bound is of the order of 10⁸. -/
theorem C123_error (la : Lapack) (hla : la.Ok) (eps : ℝ) (h0 : 0 < eps) (h1 : eps ≤ 0.1) (N : ℕ) (hN : 1 ≤ N) (r0 : List ℝ) (hr0 : r0.length = N + 1) (Vinv0 : DMat ℝ)
    (hVi : Vinv0.rows = N + 1 ∧ Vinv0.cols = N + 1) (o : Ops) (ho : buildOps la eps N r0 Vinv0 = .ok o) :
    ∃ C γ : ℝ, 0 < C ∧ 0 < γ ∧ γ ≤ 1 ∧ ∀ (wrap : Bool) (tol xmin xmax : ℝ) (K : ℕ) (t0 : Tables ℝ), 0 < tol → xmin < xmax → 0 < K → (K + 1) * (2 * K) ≤ intMax → Sized t0 K →
    ∀ (c T CFL M B g h dt : ℝ) (F : ℝ → ℝ) (n fuel : ℕ), 0 < c → 0 ≤ T → 0 < CFL → CFL ≤ 1 → C * CFL ≤ 1 → h = (xmax - xmin) / K → dt = CFL * (γ * h) / c →
    ContDiff ℝ (N + 1) F → (∀ x ∈ Icc (xmin - c * T - h) xmax, |iteratedDeriv (N + 1) F x| ≤ M ∧ |F x| ≤ B) → (∀ x ∈ Icc (xmin - c * T - h) xmin, |F x| ≤ g) →
    n = ⌈T / dt⌉₊ → n < fuel →
    (pyAdvecMain la wrap eps tol xmin xmax N K r0 Vinv0 t0 c T CFL F fuel = .throws ∧ 1e8 < advecBound C N K n h c T CFL M B g + B) ∨
    ∃ (s : PyAdvecState) (us : ℕ → DMat ℝ), pyAdvecMain la wrap eps tol xmin xmax N K r0 Vinv0 t0 c T CFL F fuel = .ok (some s) ∧ s.t = n * dt ∧ s.plots = (List.range n).map (fun j => us (j + 1)) ∧
      (∀ i ≤ N, ∀ k < K, |s.u.at' i k - F ((grid xmin xmax K o.r).at' i k - c * s.t)| ≤ advecBound C N K n h c T CFL M B g) ∧
      ∀ j, 1 ≤ j → j ≤ n → ∀ i ≤ N, ∀ k < K, |(us j).at' i k - F ((grid xmin xmax K o.r).at' i k - c * (j * dt))| ≤ advecBound C N K n h c T CFL M B g := by
  have hs : OpsSpec N o := by
    rcases C47_operators la hla eps h0 h1 N hN r0 hr0 Vinv0 hVi with ⟨-, h⟩ | ⟨o', h, hs⟩
    · rw [ho] at h; cases h
    · rw [ho] at h
      injection h with h
      rw [h]; exact hs
  obtain ⟨C, γ, hC, hγ, hγ1, H⟩ := wave_nodes hN hs
  refine ⟨C, γ, hC, hγ, hγ1, fun wrap tol xmin xmax K t0 htol hx hK hov ht0 c T CFL M B g h dt F n fuel hc hT hF0 hF1 hCF hh hdt hF hb hg hn hfuel => ?_⟩
  obtain ⟨p, hp, hpN, hpK, hpo, hps⟩ := buildProv_of (wrap := wrap) hla h0 h1 htol hx hN hK hov hr0 hVi ht0 ho
  have hm : pyAdvecMain la wrap eps tol xmin xmax N K r0 Vinv0 t0 c T CFL F fuel = pyAdvecProgram p c T CFL F fuel := by
    simp only [pyAdvecMain, hp, Out.bind_ok]
  have hgrid := hps.x
  rw [hpK, hpo] at hgrid
  rw [hm, ← hgrid]
  subst hpN hpK hpo
  obtain ⟨hdt0, hdx, hE0, v, hv, herr⟩ := H xmin xmax p hx hps rfl rfl c T CFL M B g F n h dt hc hT hF0 hF1 hCF hh hdt hF hb hg hn
  have hzero : Rep p (zeroMat (p.N + 1) p.K) 0 := ⟨rfl, rfl, fun i hi k => by simp [zeroMat]⟩
  have hNK : ¬ (p.N = 0 ∨ p.K = 0) := by omega
  have hrun := pyAdvecLoop_from hx hps hc.le hdt0 T v n 0 (by rw [zero_add, hn]) fuel ⟨p.sample F, zeroMat (p.N + 1) p.K, 0, []⟩ hfuel hv ⟨0, hzero⟩ (by simp)
  have hprog : pyAdvecProgram p c T CFL F fuel = pyAdvecLoop p c dt T fuel ⟨p.sample F, zeroMat (p.N + 1) p.K, 0, []⟩ := by
    simp only [pyAdvecProgram, hNK, if_false, hdx]
  rw [← hn] at hrun
  rw [hprog]
  rcases hrun with ⟨j, u, -, hj, hu, hbig, hthrow⟩ | ⟨s', us, a1, a2, a3, a4, a5⟩
  · left
    refine ⟨hthrow, ?_⟩
    by_contra hcon
    rw [not_lt] at hcon
    refine absurd hbig (not_lt.2 ((maxAbs_le_iff u _ (by norm_num)).2 fun i hi k hk => ?_))
    rw [hu.rows] at hi
    rw [hu.cols] at hk
    obtain ⟨e, hBx⟩ := herr (j + 1) (by omega) u hu i (by omega) k hk
    have := abs_sub_abs_le_abs_sub (u.at' i k) (F (p.t.x.at' i k - c * (((j + 1 : ℕ) : ℝ) * dt)))
    linarith
  · right
    refine ⟨s', us, a1, a3, ?_, fun i hi k hk => ?_, fun j hj hj' i hi k hk => (herr j hj' _ (a4 j (by omega) (by omega)) i hi k hk).1⟩
    · rw [a5, List.nil_append, List.range_eq_range', List.range'_eq_map_range, List.range'_eq_map_range, List.map_map, List.map_map]
      refine List.map_congr_left fun j _ => ?_
      simp only [Function.comp, zero_add]
      rw [add_comm]
    · rw [a3]
      exact (herr n (le_refl _) _ a2 i hi k hk).1

/-- The hypotheses can be met: order, elements, interval, speed and time of the script, with a smooth profile that is zero up to the left end; for a small amplitude and Courant number the script comes to its end. -/
example : ∃ (t0 : Tables ℝ) (a κ : ℝ) (n : ℕ) (s : PyAdvecState), 0 < a ∧ 0 < κ ∧
    pyAdvecMain exactLapack false 0.01 1e-5 (-1) 4 1 60 (zeros 2) (zeroMat 2 2) t0 0.1 40 κ (fun x => a * Real.smoothTransition (x + 1)) n = .ok (some s) := by
  obtain ⟨o, ho, -⟩ := buildOps_returns 0.01 (by norm_num) (by norm_num) 1 (by norm_num) (zeros 2) (by simp [zeros]) (zeroMat 2 2) ⟨rfl, rfl⟩
  obtain ⟨C, γ, hC, hγ, -, H⟩ := C123_error exactLapack exactLapack_ok 0.01 (by norm_num) (by norm_num) 1 (by norm_num) (zeros 2) (by simp [zeros]) (zeroMat 2 2) ⟨rfl, rfl⟩ o ho
  set t0 : Tables ℝ := ⟨zeroMat 0 0, List.replicate (2 * 60) 0, List.replicate (2 * 60) 0, List.replicate (2 * 60) 0, zeros (2 * 60), [], [], zeros (2 * 60)⟩
  have ht0 : Sized t0 60 := by constructor <;> simp [t0, zeros]
  have hsm : ContDiff ℝ (1 + 1) fun x => Real.smoothTransition (x + 1) := Real.smoothTransition.contDiff.comp (contDiff_id.add contDiff_const)
  obtain ⟨M, hM⟩ := (isCompact_Icc (a := (-1 : ℝ) - 0.1 * 40 - (4 - -1) / 60) (b := 4)).exists_bound_of_continuousOn (hsm.continuous_iteratedDeriv (1 + 1) (by norm_num)).continuousOn
  have hM0 : 0 ≤ M := le_trans (norm_nonneg _) (hM 0 ⟨by norm_num, by norm_num⟩)
  obtain ⟨κ, hκ⟩ : ∃ κ, κ = 1 / (C + 1) := ⟨_, rfl⟩
  have hκ0 : 0 < κ := by rw [hκ]; positivity
  have hκ1 : κ ≤ 1 := by rw [hκ, div_le_one (by positivity)]; linarith
  have hCκ : C * κ ≤ 1 := by rw [hκ, mul_one_div, div_le_one (by positivity)]; linarith
  obtain ⟨n, hn⟩ : ∃ n, n = ⌈40 / (κ * (γ * ((4 - -1) / (60 : ℕ))) / 0.1)⌉₊ := ⟨_, rfl⟩
  have hlin : ∀ a : ℝ, advecBound C 1 60 n ((4 - -1) / (60 : ℕ)) 0.1 40 κ (a * M) a 0 = a * advecBound C 1 60 n ((4 - -1) / (60 : ℕ)) 0.1 40 κ M 1 0 := fun a => by unfold advecBound; ring
  obtain ⟨E, hE⟩ : ∃ E, E = advecBound C 1 60 n ((4 - -1) / (60 : ℕ)) 0.1 40 κ M 1 0 := ⟨_, rfl⟩
  have hE0 : 0 ≤ E := by rw [hE]; exact advecBound_nonneg hC.le (by norm_num) (by norm_num) (by norm_num) hκ0.le hM0 (by norm_num) (le_refl _)
  obtain ⟨a, ha⟩ : ∃ a, a = 1 / (E + 1) := ⟨_, rfl⟩
  have ha0 : 0 < a := by rw [ha]; positivity
  rcases H false 1e-5 (-1) 4 60 t0 (by norm_num) (by norm_num) (by norm_num) (by norm_num [intMax]) ht0 0.1 40 κ (a * M) a 0 _ _ (fun x => a * Real.smoothTransition (x + 1)) n (n + 1) (by norm_num) (by norm_num) hκ0 hκ1 hCκ rfl rfl
    (contDiff_const.mul hsm)
    (fun x hx => ⟨by
      rw [iteratedDeriv_const_mul_field, abs_mul, abs_of_pos ha0]
      exact mul_le_mul_of_nonneg_left (hM x ⟨by have := hx.1; norm_num at this ⊢; linarith, hx.2⟩) ha0.le, by
      rw [abs_mul, abs_of_pos ha0, abs_of_nonneg (Real.smoothTransition.nonneg _)]
      exact mul_le_of_le_one_right ha0.le (Real.smoothTransition.le_one _)⟩)
    (fun x hx => by rw [Real.smoothTransition.zero_of_nonpos (by linarith [hx.2]), mul_zero, abs_zero]) hn (by omega) with ⟨-, hb⟩ | ⟨s, us, h, -⟩
  · exfalso
    rw [hlin, ← hE, ha] at hb
    have : 1 / (E + 1) * E + 1 / (E + 1) = 1 := by field_simp
    norm_num at this hb
    linarith
  · exact ⟨t0, a, κ, n + 1, s, ha0, hκ0, h⟩

end Blitzdg.Drivers
