import Verif.Nodes1D.Life
import Verif.Nodes1D.OpsProps
import Verif.Py.ExportProps

/-! C160: what Python reads from a one-dimensional provisioner does not depend on the history of calls. -/

namespace Blitzdg.Nodes1D

open Polynomial
open Blitzdg.Sparse (DMat)
open Blitzdg.Py (NdArray exportTo storage exportTo_eq export_mat export_vec export_rows)

/-! ### Specification -/

/-- The getter returns an array of this shape with these entries. -/
def ReadsMat (get : Out (NdArray ℝ)) (m n : ℕ) (v : ℕ → ℕ → ℝ) : Prop := ∃ a, get = .ok a ∧ a.shape = [m, n] ∧ ∀ i < m, ∀ j < n, a.at2 i j = some (v i j)

/-- The getter returns a vector of this length with these entries. -/
def ReadsVec (get : Out (NdArray ℕ)) (n : ℕ) (v : ℕ → ℕ) : Prop := ∃ a, get = .ok a ∧ a.shape = [n] ∧ ∀ i < n, a.at1 i = some (v i)

/-- What Python has to see once the nodes are built: `K` elements of equal width on the interval, each with the nodes `r` scaled to it; the derivative and the lift for polynomials of degree `N` on these
nodes; normals -1 to the left and 1 to the right; surface maps to the end nodes, the neighbour's node on interior faces and the own node at the ends. -/
structure ShowsNodes (N K : ℕ) (xmin xmax : ℝ) (p : Prov) : Prop where
  grid : ∃ r : ℕ → ℝ, r 0 = -1 ∧ r N = 1 ∧ (∀ i j : ℕ, i < j → j ≤ N → r i < r j) ∧
    ReadsMat p.xGrid (N + 1) K (fun i k => xmin + (xmax - xmin) / K * (k + (r i + 1) / 2)) ∧
    (∃ D, ReadsMat p.getDr (N + 1) (N + 1) D ∧ ∀ q : ℝ[X], q.natDegree ≤ N → ∀ i ≤ N, ∑ j ∈ Finset.range (N + 1), D i j * q.eval (r j) = (derivative q).eval (r i)) ∧
    ∃ L, ReadsMat p.getLift (N + 1) 2 L ∧ ∀ f < 2, ∃ q : ℝ[X], q.natDegree ≤ N ∧ (∀ i ≤ N, L i f = q.eval (r i)) ∧
      ∀ s : ℝ[X], s.natDegree ≤ N → ∫ x in (-1 : ℝ)..1, q.eval x * s.eval x = s.eval (if f = 0 then -1 else 1)
  normals : ReadsMat p.getNx 2 K (fun f _ => if f = 0 then -1 else 1)
  inner : ReadsVec p.getVmapM (2 * K) (fun g => g / 2 * (N + 1) + if g % 2 = 0 then 0 else N)
  outer : ReadsVec p.getVmapP (2 * K) (fun g => if g = 0 then 0 else if g = 2 * K - 1 then (K - 1) * (N + 1) + N
    else if g % 2 = 0 then (g / 2 - 1) * (N + 1) + N else (g / 2 + 1) * (N + 1))

/-- Metric terms for elements of equal width. -/
def ShowsMetric (N K : ℕ) (xmin xmax : ℝ) (p : Prov) : Prop :=
  ReadsMat p.getRx (N + 1) K (fun _ _ => 2 * K / (xmax - xmin)) ∧ ReadsMat p.getFscale 2 K (fun _ _ => 2 * K / (xmax - xmin))

/-- Some call of `buildNodes` returned normally. -/
def Built : List Call → List Bool → Prop
  | .build _ :: cs, b :: bs => b = true ∨ Built cs bs
  | .jacobian :: cs, _ :: bs => Built cs bs
  | _, _ => False

/-- There was a call of `computeJacobian`. -/
def Measured : List Call → Prop
  | .jacobian :: _ => True
  | .build _ :: cs => Measured cs
  | [] => False

/-! ### Invariant -/

structure Inv (N K : ℕ) (xmin xmax : ℝ) (built measured : Prop) (p : Prov) : Prop where
  order : p.N = N
  elems : p.K = K
  lo : p.xmin = xmin
  hi : p.xmax = xmax
  len : p.r.length = N + 1
  sized : Sized p.tab K
  mask : (¬ built → p.fmask = none) ∧ (built → p.fmask = some [0, N])
  ops : built → OpsSpec N ⟨p.r, ⟨N + 1, N + 1, p.V⟩, ⟨N + 1, N + 1, p.Vinv⟩, ⟨N + 1, N + 1, p.Dr⟩, ⟨N + 1, 2, p.lift⟩⟩
  tab : built → ∃ o, Sized o K ∧ buildNodes false 1e-5 xmin xmax K p.r o = .ok p.tab
  rx : measured → ∀ i ≤ N, ∀ k < K, p.rx i k = 2 * K / (xmax - xmin)
  fsc : measured → ∀ f < 2, ∀ k < K, p.fsc f k = 2 * K / (xmax - xmin)

variable {N K : ℕ} {xmin xmax eps : ℝ}

theorem spec_ends {o : Ops} (h : OpsSpec N o) : o.r[0]? = some (-1 : ℝ) ∧ o.r[N]? = some (1 : ℝ) := by
  obtain ⟨h1, h2, h3, -⟩ := h.nodes
  have l0 : 0 < o.r.length := by omega
  have lN : N < o.r.length := by omega
  rw [List.getD_eq_getElem _ _ l0] at h2
  rw [List.getD_eq_getElem _ _ lN] at h3
  exact ⟨by rw [List.getElem?_eq_getElem l0, h2], by rw [List.getElem?_eq_getElem lN, h3]⟩

theorem tables_sized (hK : 0 < K) (hov : (K + 1) * (2 * K) ≤ intMax) {r : List ℝ} (hl : r.length = N + 1) (h0 : r[0]? = some (-1 : ℝ)) (hn : r[N]? = some (1 : ℝ)) {o : Tables ℝ} (ho : Sized o K) :
    ∃ t, buildNodes false 1e-5 xmin xmax K r o = .ok t ∧ Sized t K := by
  obtain ⟨e2v, a1, a2, a3⟩ := e2v_ok K o.e2v ho.e2v
  obtain ⟨E, F, b1, b2, b3, b4⟩ := conn_ok (wrap := false) hK a3 ho.e2e ho.e2f (Or.inl hov)
  obtain ⟨fx, c1, c2, c3⟩ := fx_ok N K (Nodes1D.grid xmin xmax K r) o.fx ho.fx
  obtain ⟨vm, vp, d1, d2, d3, d4⟩ := maps_ok (1e-5 : ℝ) (by norm_num) xmin xmax N K r hl h0 hn b4
  obtain ⟨nx, f1, f2, f3⟩ := normals_ok K o.nx ho.nx
  refine ⟨⟨Nodes1D.grid xmin xmax K r, e2v, E, F, fx, vm, vp, nx⟩, ?_, a2, b2, b3, c2, f2⟩
  simp only [buildNodes, a1, Out.bind_ok, b1, hl, c1, d1, f1, Out.pure_eq]

theorem inv_new (mem : ℕ → ℕ → ℕ → ℝ) (imem : ℕ → ℕ → ℕ) : Inv N K xmin xmax False False (Prov.new N K xmin xmax mem imem) :=
  ⟨rfl, rfl, rfl, rfl, by simp [Prov.new], ⟨by simp [Prov.new], by simp [Prov.new], by simp [Prov.new], by simp [Prov.new], by simp [Prov.new]⟩, ⟨fun _ => rfl, fun h => h.elim⟩, fun h => h.elim, fun h => h.elim,
    fun h => h.elim, fun h => h.elim⟩

theorem inv_build (h0 : 0 < eps) (h1 : eps ≤ 0.1) (hN : 1 ≤ N) (hK : 0 < K) (hov : (K + 1) * (2 * K) ≤ intMax) {b c : Prop} {p : Prov} (h : Inv N K xmin xmax b c p) {la : Lapack} (hla : la.Ok) :
    ∃ q ret, p.build eps la = .ok (q, ret) ∧ Inv N K xmin xmax (ret = true ∨ b) c q := by
  unfold Prov.build
  rw [h.order, h.lo, h.hi, h.elems]
  rcases C47_operators la hla eps h0 h1 N hN p.r h.len ⟨N + 1, N + 1, p.Vinv⟩ ⟨rfl, rfl⟩ with ⟨-, e⟩ | ⟨o, e, ho⟩
  · rw [e]
    refine ⟨_, _, rfl, ?_⟩
    have hf : (false = true ∨ b) ↔ b := by simp
    rw [show (false = true ∨ b) = b from propext hf]
    have keep : b → (p.r.set 0 (-1)).set N 1 = p.r := by
      intro hb
      obtain ⟨e1, e2⟩ := spec_ends (h.ops hb)
      have e1 : p.r[0]? = some (-1 : ℝ) := e1
      have e2 : p.r[N]? = some (1 : ℝ) := e2
      apply List.ext_getElem?
      intro i
      rw [List.getElem?_set, List.getElem?_set]
      simp only [List.length_set, h.len]
      split_ifs with a1 a2 a3
      · rw [← a1, e2]
      · omega
      · rw [← a3, e1]
      · omega
      · rfl
    refine ⟨rfl, rfl, rfl, rfl, by simp [h.len], h.sized, h.mask, fun hb => ?_, fun hb => ?_, h.rx, h.fsc⟩
    · simp only [keep hb]; exact h.ops hb
    · simp only [keep hb]; exact h.tab hb
  · rw [e]
    obtain ⟨e1, e2⟩ := spec_ends ho
    obtain ⟨t, ht, hs⟩ := tables_sized (xmin := xmin) (xmax := xmax) hK hov ho.nodes.1 e1 e2 h.sized
    simp only [ht, Out.bind_ok, Out.pure_eq]
    refine ⟨_, _, rfl, ⟨rfl, rfl, rfl, rfl, ho.nodes.1, hs, ⟨fun hb => absurd (Or.inl rfl) hb, fun _ => rfl⟩, fun _ => ?_, fun _ => ⟨_, h.sized, ht⟩, h.rx, h.fsc⟩⟩
    exact ⟨ho.nodes, ho.diff, ho.modal, ho.lift⟩

theorem tab_x {r : List ℝ} (hK : 0 < K) (hov : (K + 1) * (2 * K) ≤ intMax) (hl : r.length = N + 1) (h0 : r[0]? = some (-1 : ℝ)) (hn : r[N]? = some (1 : ℝ)) {o t : Tables ℝ} (ho : Sized o K)
    (ht : buildNodes false 1e-5 xmin xmax K r o = .ok t) : t.x = Nodes1D.grid xmin xmax K r := by
  obtain ⟨t', e, hx, -⟩ := C28_maps_partial false (1e-5 : ℝ) xmin xmax (by norm_num) N K hK r hl h0 hn o ho (Or.inl hov)
  rw [e] at ht
  injection ht with ht
  rw [← ht, hx]

theorem inv_jacobian (hN : 1 ≤ N) (hK : 0 < K) (hx : xmin ≠ xmax) (hov : (K + 1) * (2 * K) ≤ intMax) {b c : Prop} {p : Prov} (h : Inv N K xmin xmax b c p) :
    (¬ b ∧ p.jacobian = .ub) ∨ (b ∧ ∃ q, p.jacobian = .ok q ∧ Inv N K xmin xmax b True q) := by
  by_cases hb : b
  swap
  · left
    refine ⟨hb, ?_⟩
    unfold Prov.jacobian
    rw [h.mask.1 hb]
  right
  refine ⟨hb, ?_⟩
  unfold Prov.jacobian
  rw [h.mask.2 hb]
  have ho := h.ops hb
  obtain ⟨e1, e2⟩ := spec_ends ho
  obtain ⟨o, hs, ht⟩ := h.tab hb
  have hX := tab_x hK hov h.len e1 e2 hs ht
  have hJ : ∀ i ≤ N, ∀ k, 1 / ∑ q ∈ Finset.range (p.N + 1), p.Dr i q * p.tab.x.at' q k = 2 * K / (xmax - xmin) := by
    intro i hi k
    have hd := h.len
    have := (C63_metric xmin xmax hx K hK p.r ⟨N + 1, N + 1, p.Dr⟩ (fun i hi => by rw [h.len]; exact (C47_constants N hN _ ho i (by omega)).1)
      (fun i hi => by rw [h.len]; exact (C47_constants N hN _ ho i (by omega)).2) i k (by omega)).1
    rw [h.order, hX]
    have e3 : ∑ q ∈ Finset.range (N + 1), p.Dr i q * (Nodes1D.grid xmin xmax K p.r).at' q k = (xmax - xmin) / K / 2 := by
      rw [← this]; unfold jac; rw [show (Nodes1D.grid xmin xmax K p.r).rows = N + 1 from h.len]
    rw [e3]
    have hK' : (K : ℝ) ≠ 0 := by positivity
    have hd' : xmax - xmin ≠ 0 := sub_ne_zero.2 (Ne.symm hx)
    field_simp
  refine ⟨_, rfl, ⟨h.order, h.elems, h.lo, h.hi, h.len, h.sized, ⟨fun hn => absurd hb hn, fun _ => rfl⟩, fun _ => ho, fun _ => ⟨o, hs, ht⟩, fun _ i hi k _ => hJ i hi k, fun _ f hf k _ => ?_⟩⟩
  rcases (by omega : f = 0 ∨ f = 1) with rfl | rfl
  · exact hJ 0 (by omega) k
  · exact hJ N le_rfl k

theorem inv_shows (hK : 0 < K) (hov : (K + 1) * (2 * K) ≤ intMax) {b c : Prop} {p : Prov} (h : Inv N K xmin xmax b c p) (hb : b) : ShowsNodes N K xmin xmax p := by
  have ho := h.ops hb
  obtain ⟨e1, e2⟩ := spec_ends ho
  obtain ⟨o, hs, ht⟩ := h.tab hb
  have hX := tab_x hK hov h.len e1 e2 hs ht
  obtain ⟨t', e, -, -, -, -, m1, m2, m3, m4, ⟨i', o', vi, vo, he, hi0, ho0, m5, m6, m7, m8⟩, -, -, n1, n2⟩ := C28_maps_partial false (1e-5 : ℝ) xmin xmax (by norm_num) N K hK p.r h.len e1 e2 o hs (Or.inl hov)
  rw [e] at ht
  injection ht with ht
  subst ht
  have rm : ∀ {m n : ℕ} (v w : ℕ → ℕ → ℝ), (∀ i < m, ∀ j < n, v i j = w i j) → ReadsMat (exportTo [m, n] (storage ⟨m, n, v⟩)) m n w := by
    intro m n v w hvw
    obtain ⟨a, ha, hs, hv⟩ := export_mat (⟨m, n, v⟩ : DMat ℝ)
    exact ⟨a, ha, hs, fun i hi j hj => by rw [hv i hi j hj]; exact congrArg some (hvw i hi j hj)⟩
  have rv : ∀ (l : List ℕ) (v : ℕ → ℕ), l.length = 2 * K → (∀ g < 2 * K, l[g]? = some (v g)) → ReadsVec (exportTo [K * 1 * 2] l) (2 * K) v := by
    intro l v hl hv
    obtain ⟨a, ha, hs, hv'⟩ := export_vec l (K * 1 * 2) (by omega)
    refine ⟨a, ha, by rw [hs, hl], fun i hi => ?_⟩
    rw [hv' i (by omega)]
    have := hv i hi
    rw [List.getElem?_eq_getElem (by omega)] at this
    exact this
  refine ⟨⟨fun i => p.r.getD i 0, ho.nodes.2.1, ho.nodes.2.2.1, ho.nodes.2.2.2, ?_, ⟨p.Dr, ?_, ho.diff⟩, ⟨p.lift, ?_, ho.lift⟩⟩, ?_, ?_, ?_⟩
  · unfold Prov.xGrid
    rw [h.order, h.elems, hX, show Nodes1D.grid xmin xmax K p.r = ⟨N + 1, K, (Nodes1D.grid xmin xmax K p.r).at'⟩ by unfold Nodes1D.grid; rw [h.len]]
    exact rm _ _ fun i _ j _ => by simp only [Nodes1D.grid]; ring
  · unfold Prov.getDr
    rw [h.order]
    exact rm _ _ fun _ _ _ _ => rfl
  · unfold Prov.getLift
    rw [h.order]
    exact rm _ _ fun _ _ _ _ => rfl
  · unfold Prov.getNx
    rw [h.elems]
    obtain ⟨a, ha, hs, hv⟩ := export_rows p.tab.nx 2 K n1
    refine ⟨a, ha, hs, fun f hf k hk => ?_⟩
    obtain ⟨x, hx1, hx2⟩ := hv f hf k hk
    rw [hx2]
    rcases (by omega : f = 0 ∨ f = 1) with rfl | rfl
    · rw [Nat.zero_mul, Nat.zero_add, (n2 k hk).1] at hx1
      exact hx1.symm
    · rw [Nat.one_mul, (n2 k hk).2] at hx1
      exact hx1.symm
  · unfold Prov.getVmapM
    rw [h.elems]
    refine rv _ _ m1 fun g hg => ?_
    have := m3 (g / 2) (by omega)
    rcases Nat.mod_two_eq_zero_or_one g with h2 | h2
    · rw [if_pos h2, Nat.add_zero, ← this.1]; congr 1; omega
    · rw [if_neg (by omega), ← this.2]; congr 1; omega
  · unfold Prov.getVmapP
    rw [h.elems]
    refine rv _ _ m2 fun g hg => ?_
    obtain ⟨K, rfl⟩ : ∃ k, K = k + 1 := ⟨K - 1, by omega⟩
    simp only [mapIO, Prod.mk.injEq] at he
    have hvi : vi = 0 := by omega
    have hvo : vo = K * (N + 1) + N := by
      have h4 := he.2.2.2
      zify
      rw [← h4]; push_cast; ring
    split_ifs with g1 g2 g3
    · rw [g1, ← hi0, m6, hvi, hi0]
    · rw [show g = o' by omega, m8, hvo, Nat.add_sub_cancel]
    · rw [← (m4 (g / 2 - 1) (by omega)).2]; congr 1; omega
    · rw [← (m4 (g / 2) (by omega)).1]; congr 1; omega

theorem inv_metric {b c : Prop} {p : Prov} (h : Inv N K xmin xmax b c p) (hc : c) : ShowsMetric N K xmin xmax p := by
  constructor
  · unfold Prov.getRx
    rw [h.order, h.elems]
    obtain ⟨a, ha, hs, hv⟩ := export_mat (⟨N + 1, K, p.rx⟩ : DMat ℝ)
    exact ⟨a, ha, hs, fun i hi j hj => by rw [hv i hi j hj]; exact congrArg some (h.rx hc i (Nat.lt_succ_iff.1 hi) j hj)⟩
  · unfold Prov.getFscale
    rw [h.elems]
    obtain ⟨a, ha, hs, hv⟩ := export_mat (⟨2, K, p.fsc⟩ : DMat ℝ)
    exact ⟨a, ha, hs, fun i hi j hj => by rw [hv i hi j hj]; exact congrArg some (h.fsc hc i hi j hj)⟩

/-! ### C160 -/

theorem run_inv (h0 : 0 < eps) (h1 : eps ≤ 0.1) (hN : 1 ≤ N) (hK : 0 < K) (hx : xmin ≠ xmax) (hov : (K + 1) * (2 * K) ≤ intMax) (cs : List Call) (hcs : ∀ la, Call.build la ∈ cs → la.Ok) :
    ∀ {b c : Prop} {p : Prov}, Inv N K xmin xmax b c p →
      (p.run eps cs = .ub ∧ ¬ b ∧ ∃ pre suf q bs, cs = pre ++ .jacobian :: suf ∧ p.run eps pre = .ok (q, bs) ∧ ¬ Built pre bs) ∨
      ∃ q bs, p.run eps cs = .ok (q, bs) ∧ bs.length = cs.length ∧ Inv N K xmin xmax (b ∨ Built cs bs) (c ∨ Measured cs) q ∧
        ∀ pre suf, cs = pre ++ .jacobian :: suf → b ∨ Built pre (bs.take pre.length) := by
  induction cs with
  | nil =>
    intro b c p h
    refine Or.inr ⟨p, [], rfl, rfl, ?_, fun pre suf e => by simp at e⟩
    simpa [Built, Measured] using h
  | cons call cs ih =>
    intro b c p h
    have hcs' : ∀ la, Call.build la ∈ cs → la.Ok := fun la hl => hcs la (List.mem_cons_of_mem _ hl)
    cases call with
    | build la =>
      obtain ⟨q, ret, e, hq⟩ := inv_build h0 h1 hN hK hov h (hcs la (by simp))
      rcases ih hcs' hq with ⟨e2, hb, pre, suf, q2, bs, ec, er, hnb⟩ | ⟨q2, bs, e2, hl, hi, hpre⟩
      · refine Or.inl ⟨by simp only [Prov.run, Prov.call, e, Out.bind_ok, e2]; rfl, fun h => hb (Or.inr h), .build la :: pre, suf, q2, ret :: bs, by rw [ec]; rfl, ?_, ?_⟩
        · simp only [Prov.run, Prov.call, e, Out.bind_ok, er]; rfl
        · simp only [Built]; rintro (h | h)
          · exact hb (Or.inl h)
          · exact hnb h
      · refine Or.inr ⟨q2, ret :: bs, by simp only [Prov.run, Prov.call, e, Out.bind_ok, e2]; rfl, by simp [hl], ?_, ?_⟩
        · rw [show (b ∨ Built (.build la :: cs) (ret :: bs)) = ((ret = true ∨ b) ∨ Built cs bs) by simp only [Built]; apply propext; tauto]
          exact hi
        · intro pre suf ec
          cases pre with
          | nil => simp at ec
          | cons d pre =>
            simp only [List.cons_append, List.cons.injEq] at ec
            obtain ⟨rfl, ec⟩ := ec
            have := hpre pre suf ec
            simp only [List.length_cons, List.take_succ_cons, Built]
            tauto
    | jacobian =>
      rcases inv_jacobian hN hK hx hov h with ⟨hb, e⟩ | ⟨hb, q, e, hq⟩
      · refine Or.inl ⟨by simp only [Prov.run, Prov.call, e]; rfl, hb, [], cs, p, [], rfl, rfl, by simp [Built]⟩
      · rcases ih hcs' hq with ⟨e2, hb2, -⟩ | ⟨q2, bs, e2, hl, hi, hpre⟩
        · exact absurd hb hb2
        · refine Or.inr ⟨q2, true :: bs, by simp only [Prov.run, Prov.call, e, Out.bind_ok, e2]; rfl, by simp [hl], ?_, fun _ _ _ => Or.inl hb⟩
          rw [show (b ∨ Built (.jacobian :: cs) (true :: bs)) = (b ∨ Built cs bs) from rfl, show (c ∨ Measured (.jacobian :: cs)) = (True ∨ Measured cs) by simp [Measured]]
          exact hi

/-- **C160.** For every order, interval and number of elements, whatever memory held when the object was made, and every sequence of calls of `buildNodes` and `computeJacobian` in which the LAPACK
routines may succeed or fail as they like: either some `computeJacobian` came before any `buildNodes` had returned normally, and the behaviour is undefined; or all calls are defined, and Python sees
the right nodes, operators, maps and normals if and as soon as some `buildNodes` has returned normally - a later failed or repeated call does no harm - and the right metric terms once `computeJacobian`
has been called. -/
theorem C160_history_partial (h0 : 0 < eps) (h1 : eps ≤ 0.1) (hN : 1 ≤ N) (hK : 0 < K) (hx : xmin ≠ xmax) (hov : (K + 1) * (2 * K) ≤ intMax) (mem : ℕ → ℕ → ℕ → ℝ) (imem : ℕ → ℕ → ℕ)
    (cs : List Call) (hcs : ∀ la, Call.build la ∈ cs → la.Ok) :
    ((Prov.new N K xmin xmax mem imem).run eps cs = .ub ∧
      ∃ pre suf q bs, cs = pre ++ .jacobian :: suf ∧ (Prov.new N K xmin xmax mem imem).run eps pre = .ok (q, bs) ∧ ¬ Built pre bs) ∨
    ∃ p bs, (Prov.new N K xmin xmax mem imem).run eps cs = .ok (p, bs) ∧ bs.length = cs.length ∧
      (Built cs bs → ShowsNodes N K xmin xmax p) ∧ (Measured cs → ShowsMetric N K xmin xmax p) ∧ ∀ pre suf, cs = pre ++ .jacobian :: suf → Built pre (bs.take pre.length) := by
  rcases run_inv h0 h1 hN hK hx hov cs hcs (inv_new (N := N) (K := K) (xmin := xmin) (xmax := xmax) mem imem) with ⟨e, -, h⟩ | ⟨p, bs, e, hl, hi, hpre⟩
  · exact Or.inl ⟨e, h⟩
  · exact Or.inr ⟨p, bs, e, hl, fun hb => inv_shows hK hov hi (Or.inr hb), fun hc => inv_metric hi (Or.inr hc), fun pre suf ec => (hpre pre suf ec).resolve_left id⟩

/-- The claim fails without the order of the calls: `computeJacobian` on a new object is undefined behaviour. -/
theorem C160_early (mem : ℕ → ℕ → ℕ → ℝ) (imem : ℕ → ℕ → ℕ) (cs : List Call) : (Prov.new N K xmin xmax mem imem).run eps (.jacobian :: cs) = .ub := rfl

/-- A run as in advec1d.py, and one with a repetition: with an exact LAPACK everything returns and Python sees grid and metric terms. -/
example (cs : List Call) (h : cs = [.build exactLapack, .jacobian] ∨ cs = [.build exactLapack, .build exactLapack, .jacobian, .build exactLapack]) :
    ∃ p bs, (Prov.new 1 60 (-1) 4 (fun _ _ _ => 7) (fun _ _ => 9)).run (1 / 2 ^ 52) cs = .ok (p, bs) ∧ ShowsNodes 1 60 (-1) 4 p ∧ ShowsMetric 1 60 (-1) 4 p := by
  have hcs : ∀ la, Call.build la ∈ cs → la.Ok := by
    rcases h with rfl | rfl <;> intro la hl <;> simp at hl <;> subst hl <;> exact exactLapack_ok
  have first : ∀ cs' bs p, (Prov.new 1 60 (-1) 4 (fun _ _ _ => 7) (fun _ _ => 9)).run (1 / 2 ^ 52) (.build exactLapack :: cs') = .ok (p, bs) → ∃ bs', bs = true :: bs' := by
    intro cs' bs p e
    obtain ⟨o, ho, hs⟩ := buildOps_returns (1 / 2 ^ 52) (by norm_num) (by norm_num) 1 le_rfl ((List.range 2).map fun _ => (7 : ℝ)) (by simp) ⟨2, 2, fun _ _ => 7⟩ ⟨rfl, rfl⟩
    obtain ⟨e1, e2⟩ := spec_ends hs
    obtain ⟨t, ht, -⟩ := tables_sized (xmin := -1) (xmax := 4) (K := 60) (by norm_num) (by decide) hs.nodes.1 e1 e2 (inv_new (N := 1) (K := 60) (xmin := -1) (xmax := 4) (fun _ _ _ => 7) (fun _ _ => 9)).sized
    obtain ⟨q, hb⟩ : ∃ q, (Prov.new 1 60 (-1) 4 (fun _ _ _ => 7) (fun _ _ => 9)).build (1 / 2 ^ 52) exactLapack = .ok (q, true) := by
      unfold Prov.build
      rw [show buildOps exactLapack (1 / 2 ^ 52) (Prov.new 1 60 (-1) 4 (fun _ _ _ => 7) (fun _ _ => 9)).N (Prov.new 1 60 (-1) 4 (fun _ _ _ => 7) (fun _ _ => 9)).r
        ⟨(Prov.new 1 60 (-1) 4 (fun _ _ _ => 7) (fun _ _ => 9)).N + 1, (Prov.new 1 60 (-1) 4 (fun _ _ _ => 7) (fun _ _ => 9)).N + 1, (Prov.new 1 60 (-1) 4 (fun _ _ _ => 7) (fun _ _ => 9)).Vinv⟩ = .ok o from ho]
      simp only [show buildNodes false 1e-5 (Prov.new 1 60 (-1) 4 (fun _ _ _ => 7) (fun _ _ => 9)).xmin (Prov.new 1 60 (-1) 4 (fun _ _ _ => 7) (fun _ _ => 9)).xmax
        (Prov.new 1 60 (-1) 4 (fun _ _ _ => 7) (fun _ _ => 9)).K o.r (Prov.new 1 60 (-1) 4 (fun _ _ _ => 7) (fun _ _ => 9)).tab = .ok t from ht, Out.bind_ok, Out.pure_eq]
      exact ⟨_, rfl⟩
    simp only [Prov.run, Prov.call, hb, Out.bind_ok] at e
    rcases hr : Prov.run (1 / 2 ^ 52) _ cs' with ⟨q, bs'⟩ | _ | _
    · rw [hr] at e
      simp only [Out.bind_ok, Out.pure_eq] at e
      injection e with e
      injection e with _ e
      exact ⟨_, e.symm⟩
    · rw [hr] at e; cases e
    · rw [hr] at e; cases e
  rcases C160_history_partial (N := 1) (K := 60) (xmin := -1) (xmax := 4) (eps := 1 / 2 ^ 52) (by norm_num) (by norm_num) le_rfl (by norm_num) (by norm_num) (by decide) (fun _ _ _ => 7) (fun _ _ => 9) cs hcs
    with ⟨-, pre, suf, q, bs, ec, er, hn⟩ | ⟨p, bs, e, -, hb, hm, -⟩
  · exfalso
    have : ∃ pre', pre = .build exactLapack :: pre' := by
      cases pre with
      | nil => rcases h with rfl | rfl <;> simp at ec
      | cons d pre => rcases h with rfl | rfl <;> simp only [List.cons_append, List.cons.injEq] at ec <;> exact ⟨pre, by rw [← ec.1]⟩
    obtain ⟨pre', rfl⟩ := this
    obtain ⟨bs', rfl⟩ := first _ _ _ er
    exact hn (Or.inl rfl)
  · refine ⟨p, bs, e, hb ?_, hm ?_⟩
    · rcases h with rfl | rfl <;> obtain ⟨bs', rfl⟩ := first _ _ _ e <;> exact Or.inl rfl
    · rcases h with rfl | rfl <;> simp [Measured]

end Blitzdg.Nodes1D
