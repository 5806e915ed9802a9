import Verif.Drivers.OneD
import Verif.Nodes1D.OpsProps
import Verif.Blitz.ReshapeProps

/-! What the one-dimensional drivers see of the provisioner: operators, metric terms and traces. -/

namespace Blitzdg.Drivers

open Blitzdg.Sparse (DMat)
open Blitzdg.Nodes1D
open Blitzdg.Blitz

/-- What the provisioner built by `buildProv` provides (consequence of C27, C28, C47, C63, C71). -/
structure ProvSpec (xmin xmax : ℝ) (p : Prov) : Prop where
  posK : 0 < p.K
  ops : OpsSpec p.N p.o
  x : p.t.x = grid xmin xmax p.K p.o.r
  lenM : p.t.vmapM.length = 2 * p.K
  lenP : p.t.vmapP.length = 2 * p.K
  vmapM : ∀ k < p.K, p.t.vmapM[2 * k]? = some (k * (p.N + 1)) ∧ p.t.vmapM[2 * k + 1]? = some (k * (p.N + 1) + p.N)
  vmapP : ∀ k, k + 1 < p.K → p.t.vmapP[2 * k + 1]? = some ((k + 1) * (p.N + 1)) ∧ p.t.vmapP[2 * (k + 1)]? = some (k * (p.N + 1) + p.N)
  first : p.t.vmapP[0]? = some 0
  last : p.t.vmapP[2 * (p.K - 1) + 1]? = some ((p.K - 1) * (p.N + 1) + p.N)
  bound : ∀ g < 2 * p.K, ∃ a b, p.t.vmapM[g]? = some a ∧ p.t.vmapP[g]? = some b ∧ a < (p.N + 1) * p.K ∧ b < (p.N + 1) * p.K
  nx : ∀ k < p.K, p.t.nx[k]? = some (-1 : ℝ) ∧ p.t.nx[p.K + k]? = some (1 : ℝ)
  rx : ∀ i ≤ p.N, ∀ k, p.rx i k * ((xmax - xmin) / p.K / 2) = 1
  fscale : ∀ f < 2, ∀ k, p.fscale f k * ((xmax - xmin) / p.K / 2) = 1

/-- The provisioner is built with these properties, or the eigenvalue routine failed. -/
theorem buildProv_spec (la : Lapack) (hla : la.Ok) (wrap : Bool) (eps tol xmin xmax : ℝ) (h0 : 0 < eps) (h1 : eps ≤ 0.1) (htol : 0 < tol) (hx : xmin < xmax)
    (N K : ℕ) (hN : 1 ≤ N) (hK : 0 < K) (hov : (K + 1) * (2 * K) ≤ intMax) (r0 : List ℝ) (hr0 : r0.length = N + 1)
    (Vinv0 : DMat ℝ) (hVi : Vinv0.rows = N + 1 ∧ Vinv0.cols = N + 1) (t0 : Tables ℝ) (ht0 : Sized t0 K) :
    (buildOps la eps N r0 Vinv0 = .throws ∧ buildProv la wrap eps tol xmin xmax N K r0 Vinv0 t0 = .throws) ∨
    ∃ p, buildProv la wrap eps tol xmin xmax N K r0 Vinv0 t0 = .ok p ∧ p.N = N ∧ p.K = K ∧ ProvSpec xmin xmax p := by
  rcases C47_operators la hla eps h0 h1 N hN r0 hr0 Vinv0 hVi with ⟨-, h⟩ | ⟨o, h, hs⟩
  · left; exact ⟨h, by simp [buildProv, h]⟩
  right
  have hl := hs.nodes.1
  have e0 : o.r[0]? = some (-1 : ℝ) := by
    have := hs.nodes.2.1
    rw [List.getD_eq_getElem _ _ (by omega)] at this
    rw [List.getElem?_eq_getElem (by omega), this]
  have en : o.r[N]? = some (1 : ℝ) := by
    have := hs.nodes.2.2.1
    rw [List.getD_eq_getElem _ _ (by omega)] at this
    rw [List.getElem?_eq_getElem (by omega), this]
  obtain ⟨t, t1, t2, -, -, -, t6, t7, t8, t9, ⟨i, oo, vi, vo, m1, m2, m3, m4, m5, m6, m7⟩, t11, -, t13⟩ :=
    C28_maps_partial wrap tol xmin xmax htol N K hK o.r hl e0 en t0 ht0 (Or.inl hov)
  have hm : ∀ i ≤ N, ∀ k, _ := fun i hi k => C63_built la hla eps h0 h1 N hN r0 hr0 Vinv0 hVi o h xmin xmax hx.ne K hK i k hi
  refine ⟨⟨N, K, o, t⟩, by simp [buildProv, h, t1], rfl, rfl, ⟨hK, hs, t2, t6, t7, t8, t9, ?_, ?_, ?_, t13.2, ?_, ?_⟩⟩
  · rw [m2] at m4 m5
    have := (t8 0 hK).1
    simp only [Nat.mul_zero, Nat.zero_mul] at this
    rw [m4] at this
    show t.vmapP[0]? = some 0
    rw [m5, this]
  · rw [m3] at m6 m7
    have := (t8 (K - 1) (by omega)).2
    rw [m6] at this
    show t.vmapP[2 * (K - 1) + 1]? = _
    rw [m7, this]
  · intro g hg
    obtain ⟨a, b, h1, h2, h3, h4, -⟩ := t11 g hg
    exact ⟨a, b, h1, h2, h3, h4⟩
  · intro i hi k
    show Nodes1D.rx o.Dr t.x i k * _ = 1
    rw [t2]; exact (hm i hi k).2.1
  · intro f hf k
    show Nodes1D.fscale o.Dr t.x f k * _ = 1
    rw [t2]
    have : f = 0 ∨ f = 1 := by omega
    rcases this with rfl | rfl
    · rw [(hm 0 (by omega) k).2.2.1]; exact (hm 0 (by omega) k).2.1
    · rw [(hm 0 (by omega) k).2.2.2]; exact (hm N (by omega) k).2.1

variable {xmin xmax : ℝ} {p : Prov}

/-- The traces of a field. -/
theorem traces_ok (hp : ProvSpec xmin xmax p) (u : DMat ℝ) (hu : u.rows = p.N + 1 ∧ u.cols = p.K) :
    ∃ uVec uM uP, p.traces u = .ok (uVec, uM, uP) ∧ uVec.length = (p.N + 1) * p.K ∧ uM.length = 2 * p.K ∧ uP.length = 2 * p.K ∧
      (∀ i k : ℕ, i ≤ p.N → k < p.K → uVec[k * (p.N + 1) + i]? = some (u.at' i k)) ∧
      (∀ k < p.K, uM[2 * k]? = some (u.at' 0 k) ∧ uM[2 * k + 1]? = some (u.at' p.N k)) ∧
      (∀ k < p.K, uP[2 * k]? = some (if k = 0 then u.at' 0 0 else u.at' p.N (k - 1)) ∧
        uP[2 * k + 1]? = some (if k + 1 = p.K then u.at' p.N k else u.at' 0 (k + 1))) := by
  obtain ⟨vec, h1, h2, h3, -⟩ := C10_flatten u (zeros ((p.N + 1) * p.K)) false (by simp [zeros, hu.1, hu.2])
  have hvl : vec.length = (p.N + 1) * p.K := by rw [h2]; simp [zeros]
  have hv : ∀ i k : ℕ, i ≤ p.N → k < p.K → vec[k * (p.N + 1) + i]? = some (u.at' i k) := by
    intro i k hi hk
    have := h3 i k (by omega) (by omega)
    simpa [pos, hu.1] using this
  have hmem : ∀ (m : List ℕ), m.length = 2 * p.K → (∀ g < 2 * p.K, ∃ a, m[g]? = some a ∧ a < (p.N + 1) * p.K) →
      ∃ o, applyIndexMap vec (m.map Int.ofNat) (zeros (2 * p.K)) = .ok o ∧ o.length = 2 * p.K ∧ ∀ g a : ℕ, m[g]? = some a → o[g]? = vec[a]? := by
    intro m hm hb
    obtain ⟨o, g1, g2, g3, -⟩ := mapLoop vec (m.map Int.ofNat) (zeros (2 * p.K)) (by
      intro i hi
      rw [List.mem_map] at hi
      obtain ⟨a, ha, rfl⟩ := hi
      obtain ⟨g, hg⟩ := List.mem_iff_getElem?.1 ha
      have hgl : g < 2 * p.K := by
        rw [← hm]; exact (List.getElem?_eq_some_iff.1 hg).1
      obtain ⟨a', h, h'⟩ := hb g hgl
      rw [hg] at h
      obtain rfl : a = a' := by simpa using h
      constructor
      · exact Int.natCast_nonneg _
      · rw [hvl]; exact Int.ofNat_lt.2 h') (by simp [zeros, hm]) (m.map Int.ofNat).length (le_refl _)
    refine ⟨o, g1, by rw [g2]; simp [zeros], fun g a ha => ?_⟩
    have hgl : g < m.length := (List.getElem?_eq_some_iff.1 ha).1
    rw [g3 g (by simpa using hgl)]
    have : m[g] = a := by
      rw [List.getElem?_eq_getElem hgl] at ha
      simpa using ha
    simp [this]
  obtain ⟨uM, a1, a2, a3⟩ := hmem p.t.vmapM hp.lenM fun g hg => by obtain ⟨a, b, h1, -, h3, -⟩ := hp.bound g hg; exact ⟨a, h1, h3⟩
  obtain ⟨uP, b1, b2, b3⟩ := hmem p.t.vmapP hp.lenP fun g hg => by obtain ⟨a, b, -, h2, -, h4⟩ := hp.bound g hg; exact ⟨b, h2, h4⟩
  refine ⟨vec, uM, uP, ?_, hvl, a2, b2, hv, ?_, ?_⟩
  · simp only [Prov.traces, h1, Out.bind_ok, a1, b1, Out.pure_eq]
  · intro k hk
    rw [a3 _ _ (hp.vmapM k hk).1, a3 _ _ (hp.vmapM k hk).2]
    exact ⟨by simpa using hv 0 k (Nat.zero_le _) hk, hv p.N k (le_refl _) hk⟩
  · intro k hk
    constructor
    · by_cases h : k = 0
      · subst h
        rw [if_pos rfl, Nat.mul_zero, b3 _ _ hp.first]
        simpa using hv 0 0 (Nat.zero_le _) hk
      · rw [if_neg h]
        obtain ⟨k, rfl⟩ : ∃ j, k = j + 1 := ⟨k - 1, by omega⟩
        rw [b3 _ _ (hp.vmapP k hk).2]
        exact hv p.N k (le_refl _) (by omega)
    · by_cases h : k + 1 = p.K
      · rw [if_pos h]
        have e : k = p.K - 1 := by omega
        rw [e, b3 _ _ hp.last]
        exact hv p.N _ (le_refl _) (by omega)
      · rw [if_neg h, b3 _ _ (hp.vmapP k (by omega)).1]
        simpa using hv 0 (k + 1) (Nat.zero_le _) (by omega)

/-- The normals, flattened. -/
theorem normals_vec (hp : ProvSpec xmin xmax p) :
    ∃ nv, reshapeMatTo1D p.nx (zeros (2 * p.K)) false = .ok nv ∧ nv.length = 2 * p.K ∧ ∀ k < p.K, nv[2 * k]? = some (-1) ∧ nv[2 * k + 1]? = some 1 := by
  obtain ⟨vec, h1, h2, h3, -⟩ := C10_flatten p.nx (zeros (2 * p.K)) false (by simp [zeros, Prov.nx])
  refine ⟨vec, h1, by rw [h2]; simp [zeros], fun k hk => ⟨?_, ?_⟩⟩
  · have := h3 0 k (by simp [Prov.nx]) hk
    simp only [pos, Prov.nx, Bool.false_eq_true, if_false, Nat.zero_mul, Nat.zero_add, Nat.add_zero] at this
    rw [Nat.mul_comm, this, List.getD_eq_getElem?_getD, (hp.nx k hk).1]; rfl
  · have := h3 1 k (by simp [Prov.nx]) hk
    simp only [pos, Prov.nx, Bool.false_eq_true, if_false, Nat.one_mul] at this
    rw [Nat.mul_comm 2, this, List.getD_eq_getElem?_getD, (hp.nx k hk).2]; rfl

/-- A flat array of face values as a (2, K) matrix. -/
theorem faces_mat (K : ℕ) (l : List ℝ) (hl : l.length = 2 * K) (a b : ℕ → ℝ) (h : ∀ k < K, l[2 * k]? = some (a k) ∧ l[2 * k + 1]? = some (b k)) :
    ∃ m, reshape1DToMat l (zeroMat 2 K) false = .ok m ∧ ∀ k < K, m.at' 0 k = a k ∧ m.at' 1 k = b k := by
  obtain ⟨m, h1, -, -, h4⟩ := C10_unflatten l (zeroMat 2 K) false (by simp [zeroMat, hl])
  refine ⟨m, h1, fun k hk => ⟨?_, ?_⟩⟩
  · have := h4 0 k (by simp [zeroMat]) hk
    simp only [pos, zeroMat, Bool.false_eq_true, if_false, Nat.add_zero] at this
    rw [Nat.mul_comm, (h k hk).1] at this
    exact Option.some.inj this
  · have := h4 1 k (by simp [zeroMat]) hk
    simp only [pos, zeroMat, Bool.false_eq_true, if_false] at this
    rw [Nat.mul_comm, (h k hk).2] at this
    exact Option.some.inj this

theorem mapIO_eq (p : Prov) (hK : 0 < p.K) : mapIO p.N p.K = (((0 : ℕ) : Int), ((2 * (p.K - 1) + 1 : ℕ) : Int), ((0 : ℕ) : Int), (((p.K - 1) * (p.N + 1) + p.N : ℕ) : Int)) := by
  obtain ⟨K, hK⟩ : ∃ j, p.K = j + 1 := ⟨p.K - 1, by omega⟩
  simp only [mapIO, hK, Prod.mk.injEq]
  refine ⟨rfl, by push_cast; ring, rfl, ?_⟩
  simp only [Nat.add_sub_cancel]
  push_cast
  ring

theorem rdI_nat {α : Type} (l : List α) (n : ℕ) (x : α) (h : l[n]? = some x) : rdI l (n : Int) = .ok x := by
  have hn : n < l.length := (List.getElem?_eq_some_iff.1 h).1
  have : ¬ ((n : Int) < 0) := by omega
  simp only [rdI, if_neg this, Int.toNat_natCast]
  rw [rd_of_lt hn]
  rw [List.getElem?_eq_getElem hn] at h
  rw [Option.some.inj h]

theorem wrI_nat {α : Type} (l : List α) (n : ℕ) (x : α) (h : n < l.length) : wrI l (n : Int) x = .ok (l.set n x) := by
  have : ¬ ((n : Int) < 0) := by omega
  simp only [wrI, if_neg this, Int.toNat_natCast]
  exact wr_of_lt h x

end Blitzdg.Drivers
