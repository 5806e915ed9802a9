import Verif.Quads.Rounded
import Verif.Quads.Demo
import Verif.SW.RoundedProps

/-! C150: rounding does not change the face masks and trace maps of a quadrilateral provisioner. -/

namespace Blitzdg.Quads

open Blitzdg.DG2D
open Blitzdg.Nodes1D (Lapack exactLapack exactLapack_ok)
open Blitzdg.SW (Mesh Arith Stored hypot hypot_nonneg hypot_move lerp lerp_swap lerp_dist faceMask_congr buildMaps_congr double double_within)

/-- All corner coordinates are at most `M` in size, all faces at least `ℓ` long. -/
structure QExtent (m : Mesh) (M ℓ : ℝ) : Prop where
  size : ∀ k < m.K, ∀ j < 4, |(corner4 m k j).1| ≤ M ∧ |(corner4 m k j).2| ≤ M
  length : ∀ k < m.K, ∀ j < 4, ℓ ≤ √(((corner4 m k ((j + 1) % 4)).1 - (corner4 m k j).1) ^ 2 + ((corner4 m k ((j + 1) % 4)).2 - (corner4 m k j).2) ^ 2)

/-! ### Rounding errors -/

section

variable {A : Arith} {u : ℝ}

/-- Error of one of the four products. -/
theorem term_err (h : A.Within u) (hu : u ≤ 1 / 100) {ρ : ℝ} (hρ : ρ ≤ 1 / 8) {p p' q q' a M : ℝ} (hp : |p' - p| ≤ ρ) (hq : |q' - q| ≤ ρ) (p2 : |p| ≤ 2) (q2 : |q| ≤ 2) (ha : |a| ≤ M) :
    |term A p' q' a - 0.25 * (p * q) * a| ≤ (1.1 * ρ + 7 * u) * M := by
  have hu0 := h.nonneg
  have hr0 : 0 ≤ ρ := (abs_nonneg _).trans hp
  have hM : 0 ≤ M := (abs_nonneg _).trans ha
  have hur : u * ρ ≤ 1 / 8 * u := by nlinarith
  have huu : u * u ≤ 1 / 100 * u := by nlinarith
  have a1 : |A.rnd p' - p| ≤ ρ + 3 * u := by
    have := h.step hp p2
    nlinarith
  have a2 : |A.rnd q' - q| ≤ ρ + 3 * u := by
    have := h.step hq q2
    nlinarith
  unfold term
  generalize A.rnd p' = P at *
  generalize A.rnd q' = Q at *
  have b : |P * Q - p * q| ≤ 4.2 * (ρ + 3 * u) := by
    have e : P * Q - p * q = (P - p) * (Q - q) + (P - p) * q + p * (Q - q) := by ring
    rw [e]
    have t1 := abs_add_three ((P - p) * (Q - q)) ((P - p) * q) (p * (Q - q))
    rw [abs_mul, abs_mul, abs_mul] at t1
    have hd : 0 ≤ ρ + 3 * u := by linarith
    have s1 := mul_le_mul a1 a2 (abs_nonneg _) hd
    have s2 := mul_le_mul a1 q2 (abs_nonneg _) hd
    have s3 := mul_le_mul p2 a2 (abs_nonneg _) (by norm_num)
    have s4 : (ρ + 3 * u) * (ρ + 3 * u) ≤ (ρ + 3 * u) * 0.2 := mul_le_mul_of_nonneg_left (by linarith) hd
    linarith
  have pq : |p * q| ≤ 4 := by
    rw [abs_mul]
    have := mul_le_mul p2 q2 (abs_nonneg _) (by norm_num)
    linarith
  have c : |A.rnd (P * Q) - p * q| ≤ 4.2 * ρ + 17.4 * u := by
    have := h.step b pq
    nlinarith
  generalize A.rnd (P * Q) = R at *
  have d : |0.25 * R - 0.25 * (p * q)| ≤ 1.05 * ρ + 4.35 * u := by
    rw [← mul_sub, abs_mul]
    norm_num
    linarith
  have d' : |0.25 * (p * q)| ≤ 1 := by
    rw [abs_mul, abs_of_pos (by norm_num : (0 : ℝ) < 0.25)]
    linarith
  have e : |A.rnd (0.25 * R) - 0.25 * (p * q)| ≤ 1.05 * ρ + 5.6 * u := by
    have := h.step d d'
    nlinarith
  generalize A.rnd (0.25 * R) = S at *
  generalize 0.25 * (p * q) = T at *
  have f : |S * a - T * a| ≤ (1.05 * ρ + 5.6 * u) * M := by
    rw [← sub_mul, abs_mul]
    exact mul_le_mul e ha (abs_nonneg _) (by linarith)
  have f' : |T * a| ≤ M := by
    rw [abs_mul]
    have := mul_le_mul d' ha (abs_nonneg _) (by norm_num)
    linarith
  have g := h.step f f'
  have : u * (M + (1.05 * ρ + 5.6 * u) * M) ≤ u * (1.25 * M) := by
    apply mul_le_mul_of_nonneg_left _ hu0
    nlinarith
  have huM : 0 ≤ u * M := mul_nonneg hu0 hM
  have hρM : 0 ≤ ρ * M := mul_nonneg hr0 hM
  linarith

/-- Error of a stored coordinate on the reference square. -/
theorem coordR_err (h : A.Within u) (hu : u ≤ 1 / 100) {ρ : ℝ} (hρ : ρ ≤ 1 / 8) {r s r' s' a b c d M : ℝ} (hr : |r' - r| ≤ ρ) (hs : |s' - s| ≤ ρ) (r1 : |r| ≤ 1) (s1 : |s| ≤ 1)
    (ha : |a| ≤ M) (hb : |b| ≤ M) (hc : |c| ≤ M) (hd : |d| ≤ M) : |coordR A a b c d r' s' - quadCoord a b c d r s| ≤ (5 * ρ + 40 * u) * M := by
  have hu0 := h.nonneg
  have hr0 : 0 ≤ ρ := (abs_nonneg _).trans hr
  have hM : 0 ≤ M := (abs_nonneg _).trans ha
  have r1' := abs_le.1 r1
  have s1' := abs_le.1 s1
  have mr : |1 - r' - (1 - r)| ≤ ρ := by rw [show 1 - r' - (1 - r) = -(r' - r) by ring, abs_neg]; exact hr
  have ms : |1 - s' - (1 - s)| ≤ ρ := by rw [show 1 - s' - (1 - s) = -(s' - s) by ring, abs_neg]; exact hs
  have pr : |1 + r' - (1 + r)| ≤ ρ := by rw [show 1 + r' - (1 + r) = r' - r by ring]; exact hr
  have ps : |1 + s' - (1 + s)| ≤ ρ := by rw [show 1 + s' - (1 + s) = s' - s by ring]; exact hs
  have mr2 : |1 - r| ≤ 2 := by rw [abs_le]; constructor <;> linarith
  have ms2 : |1 - s| ≤ 2 := by rw [abs_le]; constructor <;> linarith
  have pr2 : |1 + r| ≤ 2 := by rw [abs_le]; constructor <;> linarith
  have ps2 : |1 + s| ≤ 2 := by rw [abs_le]; constructor <;> linarith
  have size : ∀ p q a : ℝ, |p| ≤ 2 → |q| ≤ 2 → |a| ≤ M → |0.25 * (p * q) * a| ≤ M := fun p q a hp hq ha => by
    rw [abs_mul, abs_mul, abs_mul]
    norm_num
    have : |p| * |q| ≤ 4 := by
      have := mul_le_mul hp hq (abs_nonneg _) (by norm_num)
      linarith
    have := mul_le_mul this ha (abs_nonneg _) (by norm_num)
    linarith
  have p1 := abs_le.1 (term_err h hu hρ mr ms mr2 ms2 ha)
  have p2 := abs_le.1 (term_err h hu hρ pr ms pr2 ms2 hb)
  have p3 := abs_le.1 (term_err h hu hρ pr ps pr2 ps2 hc)
  have p4 := abs_le.1 (term_err h hu hρ mr ps mr2 ps2 hd)
  have z1 := abs_le.1 (size _ _ _ mr2 ms2 ha)
  have z2 := abs_le.1 (size _ _ _ pr2 ms2 hb)
  have z3 := abs_le.1 (size _ _ _ pr2 ps2 hc)
  have z4 := abs_le.1 (size _ _ _ mr2 ps2 hd)
  unfold coordR quadCoord
  generalize term A (1 - r') (1 - s') a = P1 at *
  generalize term A (1 + r') (1 - s') b = P2 at *
  generalize term A (1 + r') (1 + s') c = P3 at *
  generalize term A (1 - r') (1 + s') d = P4 at *
  generalize 0.25 * ((1 - r) * (1 - s)) * a = Q1 at *
  generalize 0.25 * ((1 + r) * (1 - s)) * b = Q2 at *
  generalize 0.25 * ((1 + r) * (1 + s)) * c = Q3 at *
  generalize 0.25 * ((1 - r) * (1 + s)) * d = Q4 at *
  have huM : 0 ≤ u * M := mul_nonneg hu0 hM
  have hρM : 0 ≤ ρ * M := mul_nonneg hr0 hM
  have hρM' : ρ * M ≤ 1 / 8 * M := mul_le_mul_of_nonneg_right hρ hM
  have huM' : u * M ≤ 1 / 100 * M := mul_le_mul_of_nonneg_right hu hM
  have t1 := h.step (x := P1 + P2) (y := Q1 + Q2) (d := (2.2 * ρ + 14 * u) * M) (S := 2 * M) (by rw [abs_le]; constructor <;> linarith) (by rw [abs_le]; constructor <;> linarith)
  have t1' : |A.rnd (P1 + P2) - (Q1 + Q2)| ≤ (2.2 * ρ + 16.5 * u) * M := by
    have : u * (2 * M + (2.2 * ρ + 14 * u) * M) ≤ u * (2.5 * M) := mul_le_mul_of_nonneg_left (by linarith) hu0
    linarith
  have v1 := abs_le.1 t1'
  generalize A.rnd (P1 + P2) = S1 at *
  have t2 := h.step (x := S1 + P3) (y := Q1 + Q2 + Q3) (d := (3.3 * ρ + 23.5 * u) * M) (S := 3 * M) (by rw [abs_le]; constructor <;> linarith) (by rw [abs_le]; constructor <;> linarith)
  have t2' : |A.rnd (S1 + P3) - (Q1 + Q2 + Q3)| ≤ (3.3 * ρ + 27.2 * u) * M := by
    have : u * (3 * M + (3.3 * ρ + 23.5 * u) * M) ≤ u * (3.7 * M) := mul_le_mul_of_nonneg_left (by linarith) hu0
    linarith
  have v2 := abs_le.1 t2'
  generalize A.rnd (S1 + P3) = S2 at *
  have t3 := h.step (x := S2 + P4) (y := Q1 + Q2 + Q3 + Q4) (d := (4.4 * ρ + 34.2 * u) * M) (S := 4 * M) (by rw [abs_le]; constructor <;> linarith) (by rw [abs_le]; constructor <;> linarith)
  have : u * (4 * M + (4.4 * ρ + 34.2 * u) * M) ≤ u * (4.9 * M) := mul_le_mul_of_nonneg_left (by linarith) hu0
  linarith

end

/-! ### The provisioner in parts -/

section

variable {la : Lapack} {eps tol : ℝ} {N : ℕ} {m : Mesh} {P : ℕ → ℕ} {g : QGrid} {A : Arith} {u ρ M ℓ : ℝ} {r s : List ℝ}

theorem QProvisioned.parts (h : QProvisioned la eps tol N m P g) : quadRefNodes la eps tol N = .ok g.n ∧
    (∃ cs, gather 4 m.ev m.vert m.nv m.K = .ok cs ∧ g.quad = (fun k => toQuad (cs.getD k [])) ∧
      buildMaps ((N + 1) * (N + 1)) (N + 1) 4 m.K g.n.mask m.E m.F (nearQ g.quad g.n ((N + 1) * (N + 1)) tol) = .ok g.maps) ∧
    ∃ x, IsGLL la eps N x ∧ QSpec P x m.bcType g ∧ g.N = N ∧ g.K = m.K ∧ (∀ k < m.K, g.quad k = quadOf m k) ∧
      ∀ i < (N + 1) * (N + 1), (∃ j ≤ N, g.n.r.getD i 0 = x.getD j 0) ∧ ∃ j ≤ N, g.n.s.getD i 0 = x.getD j 0 := by
  have hb := h.built
  unfold buildQGrid at hb
  obtain ⟨⟨n, o⟩, hel, hb⟩ := Out.bind_eq_ok.1 hb
  obtain ⟨cs, hcs, hb⟩ := Out.bind_eq_ok.1 hb
  obtain ⟨mp, hmp, hb⟩ := Out.bind_eq_ok.1 hb
  obtain ⟨bc, hbc, hb⟩ := Out.bind_eq_ok.1 hb
  simp only [Out.pure_eq, Out.ok.injEq] at hb
  have hn : quadRefNodes la eps tol N = .ok n := by
    unfold quadElement at hel
    obtain ⟨n', hn', h2⟩ := Out.bind_eq_ok.1 hel
    obtain ⟨o', ho', h3⟩ := Out.bind_eq_ok.1 h2
    simp only [Out.pure_eq, Out.ok.injEq, Prod.mk.injEq] at h3
    rw [hn', h3.1]
  have hgn : g.n = n := by rw [← hb]
  rcases C74_quadrilateral la h.lapack eps h.eps_pos h.eps_le tol h.tol_pos N h.order with h' | ⟨x, hx, -, -, hok⟩
  · rw [h'] at hn; cases hn
  obtain ⟨g', x', q1, q2, q3, -, q4, q5, q6⟩ := buildQGrid_spec la h.lapack eps h.eps_pos h.eps_le tol h.tol_pos N h.order m P h.mesh ⟨x, hx⟩ h.gap
  obtain rfl : x' = x := by
    have h1 := hx
    have h2 := q5
    unfold IsGLL at h1 h2
    rw [h1] at h2
    simpa using h2.symm
  rw [h.built, Out.ok.injEq] at q1
  subst q1
  obtain ⟨hm1, -⟩ := gll_facts la h.lapack eps h.eps_pos h.eps_le N h.order x' hx
  have hfirst : tol ≤ x'.getD 1 0 + 1 := by
    have := h.gap x' hx 0 1 (by norm_num) h.order
    rw [hm1] at this
    have := h.tol_pos
    linarith
  obtain ⟨n', hn', -, -, hrs, -⟩ := hok hfirst
  obtain rfl : n' = n := by rw [hn'] at hn; simpa using hn
  refine ⟨by rw [hgn, hn], ⟨cs, hcs, by rw [← hb], by rw [← hb]; exact hmp⟩, x', hx, q6, q2, q3, q4, fun i hi => ?_⟩
  have hj : i / (N + 1) ≤ N := by have := (Nat.div_lt_iff_lt_mul (by omega : 0 < N + 1)).2 hi; omega
  have hk : i % (N + 1) ≤ N := by have := Nat.mod_lt i (by omega : 0 < N + 1); omega
  have := hrs _ hj _ hk
  rw [Nat.div_add_mod'] at this
  rw [hgn]
  exact ⟨⟨_, hj, this.1⟩, _, hk, this.2⟩

theorem quad_nodes_parts {n : RefNodes} (h : quadRefNodes la eps tol N = .ok n) : n.s.length = n.r.length ∧ ∃ f1 f2 f3 f4, faceMask tol (N + 1) (n.s.map (· + 1)) = .ok f1 ∧
    faceMask tol (N + 1) (n.r.map (· - 1)) = .ok f2 ∧ faceMask tol (N + 1) (n.s.map (· - 1)) = .ok f3 ∧ faceMask tol (N + 1) (n.r.map (· + 1)) = .ok f4 ∧ n.fm = [f1, f2, f3, f4] := by
  unfold quadRefNodes at h
  obtain ⟨r1, -, h⟩ := Out.bind_eq_ok.1 h
  obtain ⟨s1, -, h⟩ := Out.bind_eq_ok.1 h
  obtain ⟨f1, h1, h⟩ := Out.bind_eq_ok.1 h
  obtain ⟨f2, h2, h⟩ := Out.bind_eq_ok.1 h
  obtain ⟨f3, h3, h⟩ := Out.bind_eq_ok.1 h
  obtain ⟨f4, h4, h⟩ := Out.bind_eq_ok.1 h
  simp only [Out.pure_eq, Out.ok.injEq] at h
  subst h
  exact ⟨by simp [List.length_flatMap], f1, f2, f3, f4, h1, h2, h3, h4, rfl⟩

theorem ends_corner4 (m : Mesh) (k f : ℕ) (hf : f < 4) : ends (quadOf m k) f = (corner4 m k f, corner4 m k ((f + 1) % 4)) := by
  rcases (by omega : f = 0 ∨ f = 1 ∨ f = 2 ∨ f = 3) with rfl | rfl | rfl | rfl <;> simp [ends, quadOf]

/-- **C150: the face masks do not feel rounding**, if the face points are `4 tol` apart. -/
theorem C150_masks (h : QProvisioned la eps tol N m P g) (hgap : ∀ x, IsGLL la eps N x → ∀ i j : ℕ, i < j → j ≤ N → 4 * tol ≤ x.getD j 0 - x.getD i 0)
    (hA : A.Within u) (hu : u ≤ 1 / 100) (hρ : 8 * ρ ≤ tol) (hr : Stored ρ g.n.r r) (hs : Stored ρ g.n.s s) : masksR A tol N r s = .ok g.n.fm := by
  obtain ⟨hn, -, x, hx, hg, hN, hK, -, hon⟩ := h.parts
  obtain ⟨hsl, f1, f2, f3, f4, m1, m2, m3, m4, hfm⟩ := quad_nodes_parts hn
  obtain ⟨hm1, hp1, -⟩ := gll_facts la h.lapack eps h.eps_pos h.eps_le N h.order x hx
  have hgap := hgap x hx
  have hnp : g.np = (N + 1) * (N + 1) := by unfold QGrid.np; rw [hN]
  have hrl : g.n.r.length = (N + 1) * (N + 1) := hg.nodes.trans hnp
  have ht := h.tol_pos
  have er : ∀ i < (N + 1) * (N + 1), |r.getD i 0 - g.n.r.getD i 0| ≤ ρ := fun i hi => hr.err i (by omega)
  have es : ∀ i < (N + 1) * (N + 1), |s.getD i 0 - g.n.s.getD i 0| ≤ ρ := fun i hi => hs.err i (by omega)
  have l1 := hr.len
  have l2 := hs.len
  have hlow : ∀ j ≤ N, |x.getD j 0 + 1| ≤ tol / 2 ∨ 2 * tol ≤ |x.getD j 0 + 1| := by
    intro j hj
    rcases Nat.eq_zero_or_pos j with rfl | h0
    · left; rw [hm1]; norm_num; linarith
    · right
      have := hgap 0 j h0 hj
      rw [hm1] at this
      exact le_trans (by linarith) (le_abs_self _)
  have hhigh : ∀ j ≤ N, |x.getD j 0 - 1| ≤ tol / 2 ∨ 2 * tol ≤ |x.getD j 0 - 1| := by
    intro j hj
    rcases Nat.lt_or_eq_of_le hj with h0 | rfl
    · right
      have := hgap j N h0 (le_refl _)
      rw [hp1] at this
      rw [abs_sub_comm]
      exact le_trans (by linarith) (le_abs_self _)
    · left; rw [hp1]; norm_num; linarith
  have hmap : ∀ (l : List ℝ) (f : ℝ → ℝ) (i : ℕ), i < l.length → (l.map f).getD i 0 = f (l.getD i 0) := by
    intro l f i hi
    simp [List.getD_eq_getElem?_getD, List.getElem?_eq_getElem hi]
  have key : ∀ (l l' : List ℝ) (c : ℝ), l'.length = l.length → (∀ i < l.length, |l'.getD i 0 - l.getD i 0| ≤ ρ) → (∀ i < l.length, |l.getD i 0 + c| ≤ tol / 2 ∨ 2 * tol ≤ |l.getD i 0 + c|) →
      faceMask tol (N + 1) (l'.map fun t => A.rnd (t + c)) = faceMask tol (N + 1) (l.map fun t => t + c) := by
    intro l l' c hl he hc
    apply faceMask_congr (by simp [hl])
    intro i hi
    rw [List.length_map] at hi
    rw [hmap _ _ _ (by omega), hmap _ _ _ hi]
    refine hA.test hu hρ ht ?_ (hc i hi)
    have := he i hi
    have h0 := (abs_nonneg _).trans this
    rw [show l'.getD i 0 + c - (l.getD i 0 + c) = l'.getD i 0 - l.getD i 0 by ring]
    linarith
  have c1 : faceMask tol (N + 1) (s.map fun t => A.rnd (t + 1)) = .ok f1 := by
    rw [← m1]
    exact key _ _ 1 l2 hs.err fun i hi => by obtain ⟨j, hj, e⟩ := (hon i (by omega)).2; rw [e]; exact hlow j hj
  have c2 : faceMask tol (N + 1) (r.map fun t => A.rnd (t - 1)) = .ok f2 := by
    rw [← m2]
    simp only [sub_eq_add_neg]
    exact key _ _ (-1) l1 hr.err fun i hi => by obtain ⟨j, hj, e⟩ := (hon i (by omega)).1; rw [e, ← sub_eq_add_neg]; exact hhigh j hj
  have c3 : faceMask tol (N + 1) (s.map fun t => A.rnd (t - 1)) = .ok f3 := by
    rw [← m3]
    simp only [sub_eq_add_neg]
    exact key _ _ (-1) l2 hs.err fun i hi => by obtain ⟨j, hj, e⟩ := (hon i (by omega)).2; rw [e, ← sub_eq_add_neg]; exact hhigh j hj
  have c4 : faceMask tol (N + 1) (r.map fun t => A.rnd (t + 1)) = .ok f4 := by
    rw [← m4]
    exact key _ _ 1 l1 hr.err fun i hi => by obtain ⟨j, hj, e⟩ := (hon i (by omega)).1; rw [e]; exact hlow j hj
  unfold masksR
  simp only [c1, c2, c3, c4, Out.bind_ok, hfm, Out.pure_eq]

/-- The nearness test in rounding arithmetic gives the answer of exact arithmetic. -/
theorem nearR_iff (h : QProvisioned la eps tol N m P g) (hgap : ∀ x, IsGLL la eps N x → ∀ i j : ℕ, i < j → j ≤ N → 4 * tol ≤ x.getD j 0 - x.getD i 0)
    (hA : A.Within u) (hu : u ≤ 1 / 100) (hρ : ρ ≤ 1 / 8) (hr : Stored ρ g.n.r r) (hs : Stored ρ g.n.s s) (hm : QExtent m M ℓ) (hE : 5 * ((5 * ρ + 40 * u) * M) < tol * ℓ)
    {e i j : ℕ} (he : e < 4 * m.K) (hi : i ≤ N) (hj : j ≤ N) :
    nearR A g.quad r s ((N + 1) * (N + 1)) tol e (vol ((N + 1) * (N + 1)) 4 g.n.mask e i) (vol ((N + 1) * (N + 1)) 4 g.n.mask (P e) j) = true ↔ j = across P N e i := by
  obtain ⟨hn, -, x, hx, hg, hN, hK, hquad, -⟩ := h.parts
  obtain ⟨hm1, hp1, hinc, hsym, -⟩ := gll_facts la h.lapack eps h.eps_pos h.eps_le N h.order x hx
  have hgap := hgap x hx
  have ht := h.tol_pos
  have hnp : g.np = (N + 1) * (N + 1) := by unfold QGrid.np; rw [hN]
  rw [← hnp]
  have hlt : ∀ f < 4, ∀ i ≤ N, g.n.mask i f < g.np := fun f hf i hi => hg.maskLt f hf i (by omega)
  have hpt : ∀ f < 4, ∀ i ≤ N, (g.n.r.getD (g.n.mask i f) 0, g.n.s.getD (g.n.mask i f) 0) = quadEdge f (x.getD i 0) := fun f hf i hi => hg.maskPt f hf i (by omega)
  have hPe : P e < 4 * m.K := h.mesh.conn.lt e he
  have e3 : e % 4 < 4 := Nat.mod_lt _ (by norm_num)
  have p3 : P e % 4 < 4 := Nat.mod_lt _ (by norm_num)
  have hrl : g.n.r.length = g.np := hg.nodes
  have hsl : g.n.s.length = g.np := (quad_nodes_parts hn).1.trans hrl
  have hcoord : ∀ k < m.K, ∀ f < 4, ∀ i ≤ N,
      |coordR A (g.quad k).xa (g.quad k).xb (g.quad k).xc (g.quad k).xd (r.getD (g.n.mask i f) 0) (s.getD (g.n.mask i f) 0) - nodeX (g.quad k) g.n (g.n.mask i f)| ≤ (5 * ρ + 40 * u) * M ∧
      |coordR A (g.quad k).ya (g.quad k).yb (g.quad k).yc (g.quad k).yd (r.getD (g.n.mask i f) 0) (s.getD (g.n.mask i f) 0) - nodeY (g.quad k) g.n (g.n.mask i f)| ≤ (5 * ρ + 40 * u) * M := by
    intro k hk f hf i hi
    have hl := hlt f hf i hi
    have er := hr.err _ (by rw [hrl]; exact hl)
    have es := hs.err _ (by rw [hsl]; exact hl)
    obtain ⟨b1, b2⟩ := hg.inSquare _ hl
    have c := fun j hj => hm.size k hk j hj
    rw [hquad k hk]
    exact ⟨coordR_err hA hu hρ er es b1 b2 (c 0 (by omega)).1 (c 1 (by omega)).1 (c 2 (by omega)).1 (c 3 (by omega)).1,
      coordR_err hA hu hρ er es b1 b2 (c 0 (by omega)).2 (c 1 (by omega)).2 (c 2 (by omega)).2 (c 3 (by omega)).2⟩
  obtain ⟨d1, d2⟩ := vol_div4 (hlt _ e3 i hi)
  obtain ⟨d3, d4⟩ := vol_div4 (hlt _ p3 j hj)
  have q1 := quad_point (g.quad (e / 4)) g.n _ _ e3 _ (hpt _ e3 i hi)
  have q2 := quad_point (g.quad (P e / 4)) g.n _ _ p3 _ (hpt _ p3 j hj)
  have hq2 : (nodeX (g.quad (P e / 4)) g.n (g.n.mask j (P e % 4)), nodeY (g.quad (P e / 4)) g.n (g.n.mask j (P e % 4)))
      = lerp (ends (g.quad (e / 4)) (e % 4)) (if P e = e then ori (e % 4) (x.getD j 0) else -ori (P e % 4) (x.getD j 0)) := by
    by_cases h : P e = e
    · rw [if_pos h, q2, h]
    · rw [if_neg h, q2, hg.meet e (by omega) h, lerp_swap]
  obtain ⟨w1, w2⟩ := hcoord (e / 4) (by omega) (e % 4) e3 i hi
  obtain ⟨w3, w4⟩ := hcoord (P e / 4) (by omega) (P e % 4) p3 j hj
  have hdist := lerp_dist (ends (g.quad (e / 4)) (e % 4)) (ori (e % 4) (x.getD i 0)) (if P e = e then ori (e % 4) (x.getD j 0) else -ori (P e % 4) (x.getD j 0))
  rw [← hq2, ← q1] at hdist
  simp only at hdist
  have hlen : ℓ ≤ hypot ((ends (g.quad (e / 4)) (e % 4)).1.1 - (ends (g.quad (e / 4)) (e % 4)).2.1) ((ends (g.quad (e / 4)) (e % 4)).1.2 - (ends (g.quad (e / 4)) (e % 4)).2.2) := by
    rw [hquad (e / 4) (by omega), ends_corner4 m _ _ e3]
    refine (hm.length (e / 4) (by omega) (e % 4) e3).trans (le_of_eq ?_)
    unfold hypot
    congr 1
    ring
  have hpar : |(if P e = e then ori (e % 4) (x.getD j 0) else -ori (P e % 4) (x.getD j 0)) - ori (e % 4) (x.getD i 0)| = |x.getD j 0 - x.getD (across P N e i) 0| := by
    by_cases h : P e = e
    · rw [if_pos h]
      unfold across
      rw [if_pos h]
      unfold ori
      split_ifs
      · rw [show -x.getD j 0 - -x.getD i 0 = -(x.getD j 0 - x.getD i 0) by ring, abs_neg]
      · rfl
    · rw [if_neg h]
      have := across_pos hsym e i hi h
      have e1 : -ori (P e % 4) (x.getD j 0) - ori (e % 4) (x.getD i 0) = -(ori (P e % 4) (x.getD j 0) - ori (P e % 4) (x.getD (across P N e i) 0)) := by
        rw [this]; ring
      rw [e1, abs_neg]
      unfold ori
      split_ifs
      · rw [show -x.getD j 0 - -x.getD (across P N e i) 0 = -(x.getD j 0 - x.getD (across P N e i) 0) by ring, abs_neg]
      · rfl
  rw [hpar] at hdist
  have hmove : ∀ {a b a' b' E : ℝ}, |a' - a| ≤ E → |b' - b| ≤ E → |(b' - a') - (b - a)| ≤ 2 * E := by
    intro a b a' b' E h1 h2
    rw [abs_le] at *
    constructor <;> linarith
  have mx := hmove w1 w3
  have my := hmove w2 w4
  have up := hypot_move mx my
  have dn := hypot_move ((abs_sub_comm _ _).le.trans mx) ((abs_sub_comm _ _).le.trans my)
  have hthr := hA.thr hu ht ((ends (g.quad (e / 4)) (e % 4)).1.1 - (ends (g.quad (e / 4)) (e % 4)).2.1) ((ends (g.quad (e / 4)) (e % 4)).1.2 - (ends (g.quad (e / 4)) (e % 4)).2.2)
  unfold nearR
  simp only [decide_eq_true_eq, d1, d2, d3, d4]
  rw [hdist] at up dn
  generalize hypot ((ends (g.quad (e / 4)) (e % 4)).1.1 - (ends (g.quad (e / 4)) (e % 4)).2.1) ((ends (g.quad (e / 4)) (e % 4)).1.2 - (ends (g.quad (e / 4)) (e % 4)).2.2) = L at *
  generalize A.rnd (A.hyp (A.rnd ((ends (g.quad (e / 4)) (e % 4)).1.1 - (ends (g.quad (e / 4)) (e % 4)).2.1)) (A.rnd ((ends (g.quad (e / 4)) (e % 4)).1.2 - (ends (g.quad (e / 4)) (e % 4)).2.2)) * tol) = T at *
  generalize coordR A (g.quad (P e / 4)).xa (g.quad (P e / 4)).xb (g.quad (P e / 4)).xc (g.quad (P e / 4)).xd (r.getD (g.n.mask j (P e % 4)) 0) (s.getD (g.n.mask j (P e % 4)) 0)
      - coordR A (g.quad (e / 4)).xa (g.quad (e / 4)).xb (g.quad (e / 4)).xc (g.quad (e / 4)).xd (r.getD (g.n.mask i (e % 4)) 0) (s.getD (g.n.mask i (e % 4)) 0) = X at *
  generalize coordR A (g.quad (P e / 4)).ya (g.quad (P e / 4)).yb (g.quad (P e / 4)).yc (g.quad (P e / 4)).yd (r.getD (g.n.mask j (P e % 4)) 0) (s.getD (g.n.mask j (P e % 4)) 0)
      - coordR A (g.quad (e / 4)).ya (g.quad (e / 4)).yb (g.quad (e / 4)).yc (g.quad (e / 4)).yd (r.getD (g.n.mask i (e % 4)) 0) (s.getD (g.n.mask i (e % 4)) 0) = Y at *
  have hl := hA.len (by linarith) X Y
  generalize A.hyp (A.rnd X) (A.rnd Y) = W at *
  have hH := hypot_nonneg X Y
  generalize hypot X Y = H at *
  generalize (5 * ρ + 40 * u) * M = E at *
  have hu0 := hA.nonneg
  have hLt : tol * ℓ ≤ L * tol := by rw [mul_comm L]; exact mul_le_mul_of_nonneg_left hlen ht.le
  have u1 : W ≤ 1.0201 * H := hl.2.trans (mul_le_mul_of_nonneg_right (by nlinarith) hH)
  have u2 : 0.98 * H ≤ W := le_trans (mul_le_mul_of_nonneg_right (by nlinarith) hH) hl.1
  constructor
  · intro hlt
    by_contra hne
    have hgap' : 4 * tol ≤ |x.getD j 0 - x.getD (across P N e i) 0| := by
      have ha := across_le P N e i hi
      rcases lt_or_gt_of_ne hne with h1 | h1
      · have := hgap _ _ h1 ha
        rw [abs_sub_comm]
        exact this.trans (le_abs_self _)
      · have := hgap _ _ h1 hj
        exact this.trans (le_abs_self _)
    have hL0 : 0 < L * tol := lt_of_le_of_lt (by
      have : 0 ≤ E := by linarith [(abs_nonneg _).trans w1]
      linarith) (hE.trans_le hLt)
    have hL : 0 < L := by
      by_contra hc
      nlinarith
    have : 2 * (L * tol) ≤ |x.getD j 0 - x.getD (across P N e i) 0| / 2 * L := by nlinarith
    linarith [hthr.2]
  · rintro rfl
    rw [sub_self, abs_zero, zero_div, zero_mul] at up
    linarith [hthr.1]

/-- **C150: masks and trace maps of quadrilaterals do not feel rounding.**  Suppose the provisioner is built in exact arithmetic, for any conforming mesh of convex quadrilaterals and any order.  Let the reference nodes be
stored with errors up to `ρ`, and let every operation be exact up to the fraction `u`.  If the face points are `4 tol` apart and the errors are small against `tol` times the shortest face, then the face masks and
trace maps computed in rounding arithmetic are those of exact arithmetic. -/
theorem C150_maps (h : QProvisioned la eps tol N m P g) (hgap : ∀ x, IsGLL la eps N x → ∀ i j : ℕ, i < j → j ≤ N → 4 * tol ≤ x.getD j 0 - x.getD i 0)
    (hA : A.Within u) (hu : u ≤ 1 / 100) (hρ : 8 * ρ ≤ tol) (hr : Stored ρ g.n.r r) (hs : Stored ρ g.n.s s) (hm : QExtent m M ℓ) (hE : 5 * ((5 * ρ + 40 * u) * M) < tol * ℓ) :
    gridR A tol N m r s = .ok (g.n.fm, g.maps) := by
  obtain ⟨hn, ⟨cs, hcs, hquad, hmaps⟩, x, hx, hg, hN, hK, -⟩ := h.parts
  have ht := h.tol_pos
  obtain ⟨hm1, hp1, -, hsym, -⟩ := gll_facts la h.lapack eps h.eps_pos h.eps_le N h.order x hx
  have h2 : 4 * tol ≤ 2 := by
    have := hgap x hx 0 N h.order (le_refl _)
    rw [hm1, hp1] at this
    linarith
  have hmask := C150_masks h hgap hA hu hρ hr hs
  have hn' : (⟨r, s, g.n.fm⟩ : RefNodes).mask = g.n.mask := rfl
  have hc := buildMaps_congr (np := (N + 1) * (N + 1)) (nfp := N + 1) (mask := g.n.mask) (near := nearQ g.quad g.n ((N + 1) * (N + 1)) tol)
    (near' := nearR A g.quad r s ((N + 1) * (N + 1)) tol) h.mesh.conn (by
      intro e he i hi j hj
      have a := nearR_iff h hgap hA hu (by linarith) hr hs hm hE he (i := i) (j := j) (by omega) (by omega)
      have hnp : g.np = (N + 1) * (N + 1) := by unfold QGrid.np; rw [hN]
      have b := nearQ_iff (quad := g.quad) (n := g.n) (np := (N + 1) * (N + 1)) (N := N) (K := m.K) (x := x) (P := P) ht (h.gap x hx) hsym
        (fun f hf i hi => by rw [← hnp]; exact hg.maskLt f hf i (by omega)) (fun f hf i hi => hg.maskPt f hf i (by omega))
        (fun k hk => hg.convex k (by omega)) e he (fun hne => hg.meet e (by omega) hne) i j (by omega) (by omega)
      exact Bool.eq_iff_iff.2 (a.trans b.symm))
  unfold gridR
  simp only [hmask, hcs, Out.bind_ok, hn', ← hquad, hc, hmaps]
  rfl

/-- **C150 for the orders one to five**, without conditions on the nodes. -/
theorem C150_low (h : QProvisioned la eps tol N m P g) (htol : tol ≤ 1 / 20) (h5 : N ≤ 5) (hA : A.Within u) (hu : u ≤ 1 / 100) (hρ : 8 * ρ ≤ tol)
    (hr : Stored ρ g.n.r r) (hs : Stored ρ g.n.s s) (hm : QExtent m M ℓ) (hE : 5 * ((5 * ρ + 40 * u) * M) < tol * ℓ) : gridR A tol N m r s = .ok (g.n.fm, g.maps) :=
  C150_maps h (fun x hx i j hij hj => by linarith [gll_sep la h.lapack eps h.eps_pos h.eps_le N h.order h5 x hx i j hij hj]) hA hu hρ hr hs hm hE

end

/-! ### Double precision -/

open Blitzdg.Time (fl fl_eval fl_eval_even fl_int C128_rounding two_zpow_pos)

/-- With an exact LAPACK the provisioner is built on every mesh at the orders one to five. -/
theorem quad_grid_low (m : Mesh) (P : ℕ → ℕ) (hm : QMeshOk m P) (N : ℕ) (hN : 1 ≤ N) (h5 : N ≤ 5) : ∃ g, QProvisioned exactLapack (1 / 2 ^ 52) 1e-5 N m P g := by
  have hgap : ∀ x, IsGLL exactLapack (1 / 2 ^ 52) N x → ∀ i j : ℕ, i < j → j ≤ N → 2 * (1e-5 : ℝ) ≤ x.getD j 0 - x.getD i 0 := fun x hx i j hij hj => by
    have := gll_sep exactLapack exactLapack_ok (1 / 2 ^ 52) (by norm_num) (by norm_num) N hN h5 x hx i j hij hj
    linarith
  obtain ⟨g, x, hb, -⟩ := buildQGrid_spec exactLapack exactLapack_ok (1 / 2 ^ 52) (by norm_num) (by norm_num) 1e-5 (by norm_num) N hN m P hm (exact_gll (1 / 2 ^ 52) (by norm_num) (by norm_num) N hN) hgap
  exact ⟨g, exactLapack_ok, by norm_num, by norm_num, by norm_num, hN, hm, hb, hgap⟩

/-- C150 at order four on two parallelograms with the tolerance of the code, the nodes being stored as doubles. -/
example : ∃ g r s, QProvisioned exactLapack (1 / 2 ^ 52) 1e-5 4 sheared twoQuad g ∧ r = g.n.r.map (fl 53) ∧ s = g.n.s.map (fl 53) ∧ gridR double 1e-5 4 sheared r s = .ok (g.n.fm, g.maps) := by
  obtain ⟨g, hg⟩ := quad_grid_low sheared twoQuad sheared_ok 4 (by omega) (by omega)
  refine ⟨g, _, _, hg, rfl, rfl, ?_⟩
  obtain ⟨hn, -, x, -, hs, -⟩ := hg.parts
  have hsl := (quad_nodes_parts hn).1
  have hst : ∀ l : List ℝ, (∀ i < l.length, |l.getD i 0| ≤ 1) → Stored (2 ^ (-53 : ℤ)) l (l.map (fl 53)) := by
    intro l hl
    refine ⟨by simp, fun i hi => ?_⟩
    have : (l.map (fl 53)).getD i 0 = fl 53 (l.getD i 0) := by simp [List.getD_eq_getElem?_getD, List.getElem?_eq_getElem hi]
    rw [this]
    refine (C128_rounding 53 _).trans ?_
    have := mul_le_mul_of_nonneg_left (hl i hi) (two_zpow_pos (R := ℝ) (-53)).le
    rw [mul_one] at this
    exact_mod_cast this
  refine C150_low hg (by norm_num) (by omega) double_within (by norm_num) (ρ := 2 ^ (-53 : ℤ)) (by norm_num) (hst _ fun i hi => (hs.inSquare i (hs.nodes ▸ hi)).1)
    (hst _ fun i hi => (hs.inSquare i (hs.nodes ▸ hsl ▸ hi)).2) (M := 10) (ℓ := 1 / 10) ⟨?_, ?_⟩ (by norm_num)
  · intro k hk j hj
    have hk : k < 2 := hk
    interval_cases k <;> interval_cases j <;> norm_num [corner4, sheared]
  · intro k hk j hj
    have hk : k < 2 := hk
    rw [Real.le_sqrt (by norm_num) (by positivity)]
    interval_cases k <;> interval_cases j <;> norm_num [corner4, sheared]

/-! ### Far from the origin -/

/-- A unit square far from the origin. -/
noncomputable def farQuad : Mesh where
  K := 1
  nv := 4
  ev := [0, 1, 2, 3]
  vert := [2 ^ 52, 0, 0, 2 ^ 52 + 1, 0, 0, 2 ^ 52 + 1, 1, 0, 2 ^ 52, 1, 0]
  E := [0, 0, 0, 0]
  F := [0, 1, 2, 3]
  bcType := [3, 3, 3, 3]

theorem farQuad_ok : QMeshOk farQuad id where
  conn := {
    lenE := rfl
    lenF := rfl
    lt := fun _ h => h
    inv := fun _ _ => rfl
    e := by intro g hg; have hg : g < 4 := hg; interval_cases g <;> rfl
    f := by intro g hg; have hg : g < 4 := hg; interval_cases g <;> rfl
    own := fun _ _ _ => rfl }
  lenEv := rfl
  ltEv := by intro v hv; simp only [farQuad, List.mem_cons, List.not_mem_nil, or_false] at hv ⊢; omega
  lenVert := rfl
  lenBc := le_refl _
  convex := by
    intro k hk
    have hk : k < 1 := hk
    obtain rfl : k = 0 := by omega
    unfold ConvexCcw
    norm_num [corner, quadOf, corner4, farQuad]
  meet := fun e _ h => absurd rfl h

/-- **C150, refuted far from the origin.**  In double precision, with the tolerance of the code and exactly stored nodes of order two: on a single unit square, whose corners are doubles, a node of a wall is paired
with another node and is missing from the list of boundary nodes. -/
theorem C150_far_false : ∃ g fm maps, QProvisioned exactLapack (1 / 2 ^ 52) 1e-5 2 farQuad id g ∧ gridR double 1e-5 2 farQuad g.n.r g.n.s = .ok (fm, maps) ∧
    maps.vmapP[0]? ≠ maps.vmapM[0]? ∧ 0 ∉ maps.mapB ∧ maps ≠ g.maps := by
  obtain ⟨g, h⟩ := quad_grid_low farQuad id farQuad_ok 2 (by omega) (by omega)
  obtain ⟨-, ⟨cs, hcs, hquad, -⟩, x, hx, hg, hN, hK, hquad', -⟩ := h.parts
  obtain ⟨hm1, hp1, -, hsym, -⟩ := gll_facts _ h.lapack _ h.eps_pos h.eps_le 2 h.order x hx
  have hst : ∀ l : List ℝ, Stored 0 l l := fun l => ⟨rfl, fun i _ => by simp⟩
  have hmask := C150_masks h (fun x hx i j hij hj => by linarith [gll_sep _ h.lapack _ h.eps_pos h.eps_le 2 h.order (by omega) x hx i j hij hj]) double_within (by norm_num) (by norm_num) (hst _) (hst _)
  obtain ⟨T, hT, -, -, -, hent, hB, -⟩ := buildMaps_ok 9 3 4 1 g.n.mask farQuad.E farQuad.F (nearR double g.quad g.n.r g.n.s 9 1e-5) id farQuad_ok.conn
  have hmid : x.getD 1 0 = 0 := by
    have := hsym 1 (by omega)
    simp only [show 2 - 1 = 1 from rfl] at this
    linarith
  have hnp : g.np = 9 := by unfold QGrid.np; rw [hN]
  have hlt : ∀ i ≤ 2, g.n.mask i 0 < 9 := fun i hi => by rw [← hnp]; exact hg.maskLt 0 (by omega) i (by omega)
  have hv : ∀ i ≤ 2, vol 9 4 g.n.mask 0 i = g.n.mask i 0 := fun i _ => by simp [vol]
  have hr : ∀ i ≤ 2, g.n.r.getD (g.n.mask i 0) 0 = x.getD i 0 := fun i hi => congrArg Prod.fst (hg.maskPt 0 (by omega) i (by omega))
  have hs : ∀ i ≤ 2, g.n.s.getD (g.n.mask i 0) 0 = -1 := fun i hi => congrArg Prod.snd (hg.maskPt 0 (by omega) i (by omega))
  have ht0 : g.quad 0 = ⟨2 ^ 52, 0, 2 ^ 52 + 1, 0, 2 ^ 52 + 1, 1, 2 ^ 52, 1⟩ := by
    rw [hquad' 0 (by show 0 < 1; omega)]
    rfl
  have i0 : fl 53 (0 : ℝ) = 0 := by simp [fl]
  have i1 : fl 53 (1 : ℝ) = 1 := by exact_mod_cast fl_int (R := ℝ) 1 (by norm_num)
  have i2 : fl 53 (2 : ℝ) = 2 := by exact_mod_cast fl_int (R := ℝ) 2 (by norm_num)
  have i4 : fl 53 (4 : ℝ) = 4 := by exact_mod_cast fl_int (R := ℝ) 4 (by norm_num)
  have im1 : fl 53 (-1 : ℝ) = -1 := by exact_mod_cast fl_int (R := ℝ) (-1) (by norm_num)
  have ih : fl 53 (1 / 2 : ℝ) = 1 / 2 := by
    rw [fl_eval 53 (-1) (2 ^ 52) (by norm_num) (by norm_num) (by norm_num) (by norm_num) (by norm_num)]
    norm_num
  have iA : fl 53 ((1 / 2 : ℝ) * 2 ^ 52) = 2 ^ 51 := by
    rw [fl_eval 53 51 (2 ^ 52) (by norm_num) (by norm_num) (by norm_num) (by norm_num) (by norm_num)]
    norm_num
  have iC : fl 53 ((1 / 2 : ℝ) * (2 ^ 52 + 1)) = 2 ^ 51 + 1 / 2 := by
    rw [fl_eval 53 51 (2 ^ 52 + 1) (by norm_num) (by norm_num) (by norm_num) (by norm_num) (by norm_num)]
    norm_num
  have iB : fl 53 ((2 : ℝ) ^ 52) = 2 ^ 52 := by have := fl_int (R := ℝ) (4503599627370496 : ℤ) (by norm_num); push_cast at this; rwa [show (4503599627370496 : ℝ) = 2 ^ 52 by norm_num] at this
  have iB1 : fl 53 ((2 : ℝ) ^ 52 + 1) = 2 ^ 52 + 1 := by have := fl_int (R := ℝ) (4503599627370497 : ℤ) (by norm_num); push_cast at this; rwa [show (4503599627370497 : ℝ) = 2 ^ 52 + 1 by norm_num] at this
  have tie : fl 53 ((2 : ℝ) ^ 52 + 1 / 2) = 2 ^ 52 := by
    rw [fl_eval_even 53 52 (2 ^ 52) (by norm_num) (by norm_num) (by norm_num) (by norm_num) (by norm_num) (by norm_num)]
    norm_num
  have r0 : double.rnd 0 = 0 := i0
  have tz : ∀ p a : ℝ, term double p 0 a = 0 := by
    intro p a
    unfold term
    simp only [r0, mul_zero, zero_mul]
  have tz' : ∀ p a : ℝ, term double 0 p a = 0 := by
    intro p a
    unfold term
    simp only [r0, mul_zero, zero_mul]
  have t4 : ∀ a : ℝ, term double 2 2 a = fl 53 a := by
    intro a
    unfold term double
    simp only [i2, show (2 : ℝ) * 2 = 4 by norm_num, i4, show (0.25 : ℝ) * 4 = 1 by norm_num, i1, one_mul]
  have t2 : ∀ a : ℝ, term double 1 2 a = fl 53 (1 / 2 * a) := by
    intro a
    unfold term double
    simp only [i2, i1, one_mul, show (0.25 : ℝ) * 2 = 1 / 2 by norm_num, ih]
  have X0 : coordR double (2 ^ 52) (2 ^ 52 + 1) (2 ^ 52 + 1) (2 ^ 52) (-1) (-1) = 2 ^ 52 := by
    unfold coordR
    simp only [show (1 : ℝ) - -1 = 2 by norm_num, show (1 : ℝ) + -1 = 0 by norm_num, tz, tz', t4, add_zero]
    unfold double
    simp only [iB]
  have X1 : coordR double (2 ^ 52) (2 ^ 52 + 1) (2 ^ 52 + 1) (2 ^ 52) 0 (-1) = 2 ^ 52 := by
    unfold coordR
    simp only [show (1 : ℝ) - -1 = 2 by norm_num, show (1 : ℝ) + -1 = 0 by norm_num, sub_zero, add_zero, tz, t2, iA, iC]
    unfold double
    simp only [show (2 : ℝ) ^ 51 + (2 ^ 51 + 1 / 2) = 2 ^ 52 + 1 / 2 by norm_num, tie, iB]
  have X2 : coordR double (2 ^ 52) (2 ^ 52 + 1) (2 ^ 52 + 1) (2 ^ 52) 1 (-1) = 2 ^ 52 + 1 := by
    unfold coordR
    simp only [show (1 : ℝ) - -1 = 2 by norm_num, show (1 : ℝ) + -1 = 0 by norm_num, sub_self, show (1 : ℝ) + 1 = 2 by norm_num, tz, tz', t4, add_zero, zero_add]
    unfold double
    simp only [iB1]
  have Y : ∀ t : ℝ, coordR double 0 0 1 1 t (-1) = 0 := by
    intro t
    have z : ∀ p q : ℝ, term double p q 0 = 0 := by
      intro p q
      unfold term
      simp only [mul_zero, r0]
    unfold coordR
    simp only [show (1 : ℝ) + -1 = 0 by norm_num, tz, z, add_zero, r0]
  have thr : 0 < fl 53 ((1e-5 : ℝ)) ∧ fl 53 ((1e-5 : ℝ)) < 1 := by
    have := abs_le.1 (C128_rounding 53 (1e-5 : ℝ))
    norm_num at this
    constructor <;> linarith
  have near : ∀ j ≤ 2, nearR double g.quad g.n.r g.n.s 9 1e-5 0 (g.n.mask 0 0) (g.n.mask j 0) = decide (j ≠ 2) := by
    intro j hj
    unfold nearR
    simp only [Nat.zero_div, Nat.zero_mod, Nat.div_eq_of_lt (hlt 0 (by omega)), Nat.div_eq_of_lt (hlt j hj), Nat.mod_eq_of_lt (hlt 0 (by omega)), Nat.mod_eq_of_lt (hlt j hj), ht0, hr 0 (by omega), hr j hj, hs 0 (by omega),
      hs j hj, hm1, Y, X0, ends, if_true, sub_self]
    have hD : double.hyp (double.rnd ((2 : ℝ) ^ 52 - (2 ^ 52 + 1))) (double.rnd 0) = 1 := by
      unfold double
      simp only [show (2 : ℝ) ^ 52 - (2 ^ 52 + 1) = -1 by norm_num, im1, i0]
      norm_num [i1]
    have hT : double.rnd (1 * 1e-5) = fl 53 1e-5 := by rw [one_mul]; rfl
    rw [hD, hT]
    have z0 : double.hyp (double.rnd 0) (double.rnd 0) = 0 := by
      unfold double
      simp only [i0]
      norm_num [i0]
    have z1 : double.hyp (double.rnd ((2 : ℝ) ^ 52 + 1 - 2 ^ 52)) (double.rnd 0) = 1 := by
      unfold double
      simp only [show (2 : ℝ) ^ 52 + 1 - 2 ^ 52 = 1 by norm_num, i1, i0]
      norm_num [i1]
    interval_cases j
    · simp only [hm1, X0, sub_self, z0, thr.1]; rfl
    · simp only [hmid, X1, sub_self, z0, thr.1]; rfl
    · simp only [hp1, X2, z1, not_lt.2 thr.2.le]; rfl
  have hne : g.n.mask 1 0 ≠ g.n.mask 0 0 := by
    intro he
    have a := hr 1 (by omega)
    rw [he, hr 0 (by omega), hm1, hmid] at a
    norm_num at a
  have hentry : T.vmapM[0]? = some (g.n.mask 0 0) ∧ T.vmapP[0]? = some (g.n.mask 1 0) := by
    obtain ⟨a, b, -⟩ := hent 0 0 (by omega) (by omega)
    rw [hv 0 (by omega)] at a b
    refine ⟨a, ?_⟩
    simp only [mul_zero, add_zero] at b
    rw [b]
    unfold searchNode
    simp only [id, Nat.zero_mod, Nat.zero_div, vmapM3, mul_zero, add_zero, show List.range 3 = [0, 1, 2] from rfl, List.foldl_cons, List.foldl_nil, near 0 (by omega), near 1 (by omega), near 2 (by omega)]
    simp
  refine ⟨g, g.n.fm, T, h, ?_, ?_, ?_, ?_⟩
  · unfold gridR
    have hn' : (⟨g.n.r, g.n.s, g.n.fm⟩ : RefNodes) = g.n := rfl
    simp only [hmask, hcs, Out.bind_ok, hn', ← hquad]
    have : buildMaps ((2 + 1) * (2 + 1)) (2 + 1) 4 farQuad.K g.n.mask farQuad.E farQuad.F (nearR double g.quad g.n.r g.n.s ((2 + 1) * (2 + 1)) 1e-5) = .ok T := hT
    rw [this]
    rfl
  · rw [hentry.1, hentry.2]
    simpa using hne
  · rw [hB]
    unfold boundaryOf
    simp only [List.mem_filter, List.getD_eq_getElem?_getD, hentry.1, hentry.2, Option.getD_some, decide_eq_true_eq]
    exact fun hc => hne hc.2
  · intro he
    have a := hg.vmapP 0 (by rw [hK]; show 0 < 4; omega) 0 (by omega)
    rw [← he] at a
    simp only [mul_zero, add_zero, hentry.2, id, across, if_true, hnp, hv 0 (by omega), Option.some.injEq] at a
    exact hne a

end Blitzdg.Quads
