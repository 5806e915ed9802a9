import Verif.SW.Rounded
import Verif.SW.GridLow
import Verif.Time.FloatExact

/-! C142: rounding does not change the face masks and trace maps of a triangle provisioner. -/

namespace Blitzdg.SW

open Blitzdg.DG2D
open Blitzdg.Nodes1D (Lapack exactLapack exactLapack_ok)

/-- Every operation returns the exact result up to the fraction `u` of it. -/
structure Arith.Within (A : Arith) (u : ℝ) : Prop where
  rnd : ∀ x, |A.rnd x - x| ≤ u * |x|
  hyp : ∀ x y, |A.hyp x y - √(x ^ 2 + y ^ 2)| ≤ u * √(x ^ 2 + y ^ 2)

/-- The numbers `r'` are stored for the numbers `r`, with errors up to `ρ`. -/
structure Stored (ρ : ℝ) (r r' : List ℝ) : Prop where
  len : r'.length = r.length
  err : ∀ i < r.length, |r'.getD i 0 - r.getD i 0| ≤ ρ

/-- All corner coordinates are at most `M` in size, all faces at least `ℓ` long. -/
structure Extent (m : Mesh) (M ℓ : ℝ) : Prop where
  size : ∀ k < m.K, ∀ j < 3, |(m.corner k j).1| ≤ M ∧ |(m.corner k j).2| ≤ M
  length : ∀ k < m.K, ∀ j < 3, ℓ ≤ √(((m.corner k ((j + 1) % 3)).1 - (m.corner k j).1) ^ 2 + ((m.corner k ((j + 1) % 3)).2 - (m.corner k j).2) ^ 2)

/-! ### Rounding errors -/

section

variable {A : Arith} {u : ℝ}

theorem Arith.Within.nonneg (h : A.Within u) : 0 ≤ u := by
  have := (abs_nonneg _).trans (h.rnd 1)
  simpa using this

/-- A rounded number near a given one. -/
theorem Arith.Within.step (h : A.Within u) {x y d S : ℝ} (h1 : |x - y| ≤ d) (h2 : |y| ≤ S) : |A.rnd x - y| ≤ d + u * (S + d) := by
  have a := h.rnd x
  have b : |x| ≤ S + d := by
    have := abs_add_le (x - y) y
    rw [sub_add_cancel] at this
    linarith
  have c := abs_add_le (A.rnd x - x) (x - y)
  rw [sub_add_sub_cancel] at c
  have := mul_le_mul_of_nonneg_left b h.nonneg
  linarith

/-- One product of the coordinate expression. -/
theorem Arith.Within.prod (h : A.Within u) (hu : u ≤ 1 / 100) {ρ : ℝ} (hr0 : 0 ≤ ρ) (hρ : ρ ≤ 1 / 8) {p p' a M : ℝ} (h1 : |p' - p| ≤ 2 * ρ) (h2 : |p| ≤ 2) (ha : |a| ≤ M) :
    |A.rnd (A.rnd p' * a) - p * a| ≤ (2 * ρ + 6 * u) * M := by
  have hu0 := h.nonneg
  have hM : 0 ≤ M := (abs_nonneg _).trans ha
  have s1 := h.step h1 h2
  have s1' : |A.rnd p' - p| ≤ 2 * ρ + 3 * u := by nlinarith
  have s2 : |A.rnd p' * a - p * a| ≤ (2 * ρ + 3 * u) * M := by
    rw [← sub_mul, abs_mul]
    exact mul_le_mul s1' ha (abs_nonneg _) (by linarith)
  have s3 : |p * a| ≤ 2 * M := by
    rw [abs_mul]
    exact mul_le_mul h2 ha (abs_nonneg _) (by norm_num)
  have s4 := h.step s2 s3
  have : u * (2 * M + (2 * ρ + 3 * u) * M) ≤ u * (3 * M) := by
    apply mul_le_mul_of_nonneg_left _ hu0
    nlinarith
  linarith

/-- Error of a stored coordinate on the reference square. -/
theorem Arith.Within.coord (h : A.Within u) (hu : u ≤ 1 / 100) {ρ : ℝ} (hρ : ρ ≤ 1 / 8) {r s r' s' a b c M : ℝ} (hr : |r' - r| ≤ ρ) (hs : |s' - s| ≤ ρ) (r1 : |r| ≤ 1) (s1 : |s| ≤ 1)
    (ha : |a| ≤ M) (hb : |b| ≤ M) (hc : |c| ≤ M) : |A.coord a b c r' s' - triCoord a b c r s| ≤ (3 * ρ + 20 * u) * M := by
  have hu0 := h.nonneg
  have hr0 : 0 ≤ ρ := (abs_nonneg _).trans hr
  have hM : 0 ≤ M := (abs_nonneg _).trans ha
  have r1' := abs_le.1 r1
  have s1' := abs_le.1 s1
  have hr' := abs_le.1 hr
  have hs' := abs_le.1 hs
  have p1 : |A.rnd (-A.rnd (r' + s') * a) - -(r + s) * a| ≤ (2 * ρ + 6 * u) * M := by
    have := h.prod hu hr0 hρ (p := r + s) (p' := r' + s') (a := -a) (M := M) (by rw [abs_le]; constructor <;> linarith) (by rw [abs_le]; constructor <;> linarith) (by rwa [abs_neg])
    rwa [show A.rnd (r' + s') * -a = -A.rnd (r' + s') * a by ring, show (r + s) * -a = -(r + s) * a by ring] at this
  have p2 := h.prod hu hr0 hρ (p := 1 + r) (p' := 1 + r') (a := b) (M := M) (by rw [abs_le]; constructor <;> linarith) (by rw [abs_le]; constructor <;> linarith) hb
  have p3 := h.prod hu hr0 hρ (p := 1 + s) (p' := 1 + s') (a := c) (M := M) (by rw [abs_le]; constructor <;> linarith) (by rw [abs_le]; constructor <;> linarith) hc
  have size : ∀ p a : ℝ, |p| ≤ 2 → |a| ≤ M → |p * a| ≤ 2 * M := fun p a hp ha => by
    rw [abs_mul]
    exact mul_le_mul hp ha (abs_nonneg _) (by norm_num)
  have z1 := size (-(r + s)) a (by rw [abs_le]; constructor <;> linarith) ha
  have z2 := size (1 + r) b (by rw [abs_le]; constructor <;> linarith) hb
  have z3 := size (1 + s) c (by rw [abs_le]; constructor <;> linarith) hc
  unfold Arith.coord triCoord
  generalize A.rnd (-A.rnd (r' + s') * a) = P1 at *
  generalize A.rnd (A.rnd (1 + r') * b) = P2 at *
  generalize A.rnd (A.rnd (1 + s') * c) = P3 at *
  generalize -(r + s) * a = Q1 at *
  generalize (1 + r) * b = Q2 at *
  generalize (1 + s) * c = Q3 at *
  have q1 := abs_le.1 p1
  have q2 := abs_le.1 p2
  have q3 := abs_le.1 p3
  have y1 := abs_le.1 z1
  have y2 := abs_le.1 z2
  have y3 := abs_le.1 z3
  have huM : 0 ≤ u * M := mul_nonneg hu0 hM
  have hρM : 0 ≤ ρ * M := mul_nonneg hr0 hM
  have hρM' : ρ * M ≤ 1 / 8 * M := mul_le_mul_of_nonneg_right hρ hM
  have huM' : u * M ≤ 1 / 100 * M := mul_le_mul_of_nonneg_right hu hM
  have t1 := h.step (x := P1 + P2) (y := Q1 + Q2) (d := (4 * ρ + 12 * u) * M) (S := 4 * M) (by rw [abs_le]; constructor <;> linarith) (by rw [abs_le]; constructor <;> linarith)
  have t1' : |A.rnd (P1 + P2) - (Q1 + Q2)| ≤ (4 * ρ + 17 * u) * M := by
    have : u * (4 * M + (4 * ρ + 12 * u) * M) ≤ u * (5 * M) := mul_le_mul_of_nonneg_left (by linarith) hu0
    linarith
  have v1 := abs_le.1 t1'
  have t2 := h.step (x := A.rnd (P1 + P2) + P3) (y := Q1 + Q2 + Q3) (d := (6 * ρ + 23 * u) * M) (S := 6 * M) (by rw [abs_le]; constructor <;> linarith) (by rw [abs_le]; constructor <;> linarith)
  have t2' : |A.rnd (A.rnd (P1 + P2) + P3) - (Q1 + Q2 + Q3)| ≤ (6 * ρ + 30 * u) * M := by
    have : u * (6 * M + (6 * ρ + 23 * u) * M) ≤ u * (7 * M) := mul_le_mul_of_nonneg_left (by linarith) hu0
    linarith
  have v2 := abs_le.1 t2'
  have t3 := h.step (x := 0.5 * A.rnd (A.rnd (P1 + P2) + P3)) (y := 0.5 * (Q1 + Q2 + Q3)) (d := (3 * ρ + 15 * u) * M) (S := 3 * M) (by rw [abs_le]; constructor <;> linarith)
    (by rw [abs_le]; constructor <;> linarith)
  have : u * (3 * M + (3 * ρ + 15 * u) * M) ≤ u * (4 * M) := mul_le_mul_of_nonneg_left (by linarith) hu0
  linarith

/-! ### `hypot` -/

theorem hypot_nonneg (a b : ℝ) : 0 ≤ hypot a b := Real.sqrt_nonneg _

theorem hypot_mono {a b c d : ℝ} (h1 : |a| ≤ |c|) (h2 : |b| ≤ |d|) : hypot a b ≤ hypot c d := by
  unfold hypot
  apply Real.sqrt_le_sqrt
  rw [← abs_mul_abs_self a, ← abs_mul_abs_self b, ← abs_mul_abs_self c, ← abs_mul_abs_self d]
  exact add_le_add (mul_self_le_mul_self (abs_nonneg _) h1) (mul_self_le_mul_self (abs_nonneg _) h2)

theorem hypot_scale {k : ℝ} (hk : 0 ≤ k) (a b : ℝ) : hypot (k * a) (k * b) = k * hypot a b := by
  unfold hypot
  rw [show k * a * (k * a) + k * b * (k * b) = k ^ 2 * (a * a + b * b) by ring, Real.sqrt_mul (sq_nonneg _), Real.sqrt_sq hk]

/-- Moving both components by at most `d` changes `hypot` by at most `2 d`. -/
theorem hypot_move {a b c e d : ℝ} (h1 : |a - c| ≤ d) (h2 : |b - e| ≤ d) : hypot a b ≤ hypot c e + 2 * d := by
  have hd : 0 ≤ d := (abs_nonneg _).trans h1
  have hH := hypot_nonneg c e
  have hsq : hypot c e * hypot c e = c * c + e * e := Real.mul_self_sqrt (by nlinarith [mul_self_nonneg c, mul_self_nonneg e])
  have hc : |c| ≤ hypot c e := abs_le_of_sq_le_sq (by nlinarith [mul_self_nonneg e]) hH
  have he : |e| ≤ hypot c e := abs_le_of_sq_le_sq (by nlinarith [mul_self_nonneg c]) hH
  have ha : |a| ≤ |c| + d := by have := abs_add_le (a - c) c; rw [sub_add_cancel] at this; linarith
  have hb : |b| ≤ |e| + d := by have := abs_add_le (b - e) e; rw [sub_add_cancel] at this; linarith
  show √_ ≤ _
  rw [Real.sqrt_le_left (by linarith), ← abs_mul_abs_self a, ← abs_mul_abs_self b]
  have q1 := mul_self_le_mul_self (abs_nonneg a) ha
  have q2 := mul_self_le_mul_self (abs_nonneg b) hb
  have q3 := abs_mul_abs_self c
  have q4 := abs_mul_abs_self e
  have q5 := mul_le_mul_of_nonneg_right hc hd
  have q6 := mul_le_mul_of_nonneg_right he hd
  nlinarith

theorem Arith.Within.hyp' (h : A.Within u) (x y : ℝ) : (1 - u) * hypot x y ≤ A.hyp x y ∧ A.hyp x y ≤ (1 + u) * hypot x y := by
  have := abs_le.1 (h.hyp x y)
  have e : √(x ^ 2 + y ^ 2) = hypot x y := by unfold hypot; congr 1; ring
  rw [e] at this
  constructor <;> linarith

/-- Length of a vector whose components are rounded. -/
theorem Arith.Within.len (h : A.Within u) (hu : u ≤ 1) (x y : ℝ) :
    (1 - u) ^ 2 * hypot x y ≤ A.hyp (A.rnd x) (A.rnd y) ∧ A.hyp (A.rnd x) (A.rnd y) ≤ (1 + u) ^ 2 * hypot x y := by
  have hu0 := h.nonneg
  obtain ⟨a, b⟩ := h.hyp' (A.rnd x) (A.rnd y)
  have up : ∀ x, |A.rnd x| ≤ |(1 + u) * x| := fun x => by
    rw [abs_mul, abs_of_nonneg (by linarith : 0 ≤ 1 + u)]
    have h1 := h.rnd x
    have := abs_add_le (A.rnd x - x) x
    rw [sub_add_cancel] at this
    linarith
  have dn : ∀ x, |(1 - u) * x| ≤ |A.rnd x| := fun x => by
    rw [abs_mul, abs_of_nonneg (by linarith : 0 ≤ 1 - u)]
    have h1 := h.rnd x
    have := abs_add_le (x - A.rnd x) (A.rnd x)
    rw [sub_add_cancel, abs_sub_comm] at this
    linarith
  have c1 := hypot_mono (up x) (up y)
  have c2 := hypot_mono (dn x) (dn y)
  rw [hypot_scale (by linarith)] at c1 c2
  have d1 := mul_le_mul_of_nonneg_left c1 (by linarith : 0 ≤ 1 + u)
  have d2 := mul_le_mul_of_nonneg_left c2 (by linarith : 0 ≤ 1 - u)
  constructor <;> nlinarith

/-- The threshold of the nearness test. -/
theorem Arith.Within.thr (h : A.Within u) (hu : u ≤ 1 / 100) {tol : ℝ} (ht : 0 < tol) (x y : ℝ) :
    0.97 * (hypot x y * tol) ≤ A.rnd (A.hyp (A.rnd x) (A.rnd y) * tol) ∧ A.rnd (A.hyp (A.rnd x) (A.rnd y) * tol) ≤ 1.031 * (hypot x y * tol) := by
  have hu0 := h.nonneg
  obtain ⟨a, b⟩ := h.len (by linarith) x y
  have hH := hypot_nonneg x y
  generalize A.hyp (A.rnd x) (A.rnd y) = w at *
  have hw : 0 ≤ w := (mul_nonneg (sq_nonneg _) hH).trans a
  have hwt : 0 ≤ w * tol := mul_nonneg hw ht.le
  have c := h.rnd (w * tol)
  rw [abs_of_nonneg hwt] at c
  have c' := abs_le.1 c
  have hHt : 0 ≤ hypot x y * tol := mul_nonneg hH ht.le
  have a' : 0.98 * (hypot x y * tol) ≤ w * tol := by
    have : 0.98 * hypot x y ≤ w := le_trans (mul_le_mul_of_nonneg_right (by nlinarith) hH) a
    nlinarith
  have b' : w * tol ≤ 1.0201 * (hypot x y * tol) := by
    have : w ≤ 1.0201 * hypot x y := le_trans b (mul_le_mul_of_nonneg_right (by nlinarith) hH)
    nlinarith
  have d : u * (w * tol) ≤ 1 / 100 * (w * tol) := mul_le_mul_of_nonneg_right hu hwt
  constructor <;> linarith

end

/-! ### Masks -/

theorem faceMask_congr {tol : ℝ} {nfp : ℕ} {t t' : List ℝ} (hl : t'.length = t.length) (h : ∀ i < t.length, |t'.getD i 0| < tol ↔ |t.getD i 0| < tol) : faceMask tol nfp t' = faceMask tol nfp t := by
  unfold faceMask
  rw [hl]
  have key : ∀ (l : List ℕ) (st : ℕ × List ℕ), (∀ i ∈ l, i < t.length) →
      loopM (fun st i => if |t'.getD i 0| < tol then do let l ← wr st.2 st.1 i; pure (st.1 + 1, l) else pure st) st l
        = loopM (fun st i => if |t.getD i 0| < tol then do let l ← wr st.2 st.1 i; pure (st.1 + 1, l) else pure st) st l := by
    intro l
    induction l with
    | nil => intro st _; rfl
    | cons i l ih =>
      intro st hi
      simp only [loopM_cons]
      have := h i (hi i (by simp))
      simp only [this]
      congr 1
      funext st'
      exact ih st' fun j hj => hi j (by simp [hj])
  rw [key _ _ (fun i hi => by simpa using hi)]

/-- A rounded test field. -/
theorem Arith.Within.test {A : Arith} {u ρ tol t t' : ℝ} (h : A.Within u) (hu : u ≤ 1 / 100) (hρ : 8 * ρ ≤ tol) (ht : 0 < tol) (h1 : |t' - t| ≤ 2 * ρ) (h2 : |t| ≤ tol / 2 ∨ 2 * tol ≤ |t|) :
    |A.rnd t'| < tol ↔ |t| < tol := by
  have a := h.rnd t'
  have b := abs_add_le (A.rnd t' - t') t'
  rw [sub_add_cancel] at b
  have c := abs_add_le (t' - A.rnd t') (A.rnd t')
  rw [sub_add_cancel, abs_sub_comm] at c
  have d := abs_add_le (t' - t) t
  rw [sub_add_cancel] at d
  have e := abs_add_le (t - t') t'
  rw [sub_add_cancel, abs_sub_comm] at e
  have f := mul_le_mul_of_nonneg_right hu (abs_nonneg t')
  constructor
  · intro h3
    rcases h2 with h2 | h2
    · linarith
    · linarith
  · intro h3
    rcases h2 with h2 | h2
    · linarith
    · linarith

/-- The trace maps depend on the nearness test only through nodes of partner faces. -/
theorem buildMaps_congr {np nfp nf k : ℕ} {mask : ℕ → ℕ → ℕ} {E F : List ℕ} {near near' : ℕ → ℕ → ℕ → Bool} {P : ℕ → ℕ} (hc : Conn nf k E F P)
    (h : ∀ e < nf * k, ∀ i < nfp, ∀ j < nfp, near' e (vol np nf mask e i) (vol np nf mask (P e) j) = near e (vol np nf mask e i) (vol np nf mask (P e) j)) :
    buildMaps np nfp nf k mask E F near' = buildMaps np nfp nf k mask E F near := by
  have hp : ∀ x ∈ faceNodes nfp nf k, pairNode np nfp nf k mask E F near' x = pairNode np nfp nf k mask E F near x := by
    intro x hx
    obtain ⟨h1, h2, h3⟩ := mem_faceNodes hx
    have hg := face_lt h2 h3
    have d1 := face_div (e := x.2.2) h2
    have d2 : (nf * x.2.2 + x.2.1) % nf = x.2.1 := by rw [Nat.mul_add_mod, Nat.mod_eq_of_lt h2]
    unfold pairNode
    simp only [rd, hc.e _ hg, hc.f _ hg, Out.bind_ok]
    split_ifs with hb
    · congr 1
      unfold searchNode
      have key : ∀ (l : List ℕ) (s : ℕ × ℕ), (∀ j ∈ l, j < nfp) →
          l.foldl (fun s nP => if near' (nf * x.2.2 + x.2.1) (vmapM3 np mask x.1 x.2.1 x.2.2) (vmapM3 np mask nP (P (nf * x.2.2 + x.2.1) % nf) (P (nf * x.2.2 + x.2.1) / nf)) then
            (vmapM3 np mask nP (P (nf * x.2.2 + x.2.1) % nf) (P (nf * x.2.2 + x.2.1) / nf), nP + P (nf * x.2.2 + x.2.1) % nf * nfp + P (nf * x.2.2 + x.2.1) / nf * nf * nfp) else s) s
          = l.foldl (fun s nP => if near (nf * x.2.2 + x.2.1) (vmapM3 np mask x.1 x.2.1 x.2.2) (vmapM3 np mask nP (P (nf * x.2.2 + x.2.1) % nf) (P (nf * x.2.2 + x.2.1) / nf)) then
            (vmapM3 np mask nP (P (nf * x.2.2 + x.2.1) % nf) (P (nf * x.2.2 + x.2.1) / nf), nP + P (nf * x.2.2 + x.2.1) % nf * nfp + P (nf * x.2.2 + x.2.1) / nf * nf * nfp) else s) s := by
        intro l
        induction l with
        | nil => intro s _; rfl
        | cons j l ih =>
          intro s hl
          have hj := h _ hg x.1 h1 j (hl j (by simp))
          simp only [vol, d1, d2] at hj
          simp only [List.foldl_cons, vmapM3, hj] at ih ⊢
          exact ih _ fun i hi => hl i (by simp [hi])
      exact key _ _ fun j hj => by simpa using hj
    · rfl
  unfold buildMaps
  have key : ∀ (l : List (ℕ × ℕ × ℕ)) (acc : List (ℕ × ℕ)), (∀ x ∈ l, pairNode np nfp nf k mask E F near' x = pairNode np nfp nf k mask E F near x) →
      loopM (fun acc x => do let r ← pairNode np nfp nf k mask E F near' x; pure (acc ++ [r])) acc l
        = loopM (fun acc x => do let r ← pairNode np nfp nf k mask E F near x; pure (acc ++ [r])) acc l := by
    intro l
    induction l with
    | nil => intro acc _; rfl
    | cons x l ih =>
      intro acc hl
      simp only [loopM_cons]
      rw [hl x (by simp)]
      congr 1
      funext a
      exact ih a fun y hy => hl y (by simp [hy])
  rw [key _ _ hp]

/-! ### Trace maps -/

section

variable {la : Lapack} {eps ztol tol : ℝ} {N : ℕ} {m : Mesh} {P : ℕ → ℕ} {g : Grid} {A : Arith} {u ρ M ℓ : ℝ} {r s : List ℝ}

theorem Provisioned.parts (h : Provisioned la eps ztol tol N m P g) : triRefNodes la eps ztol tol N = .ok g.n ∧
    (∃ cs, gather 3 m.ev m.vert m.nv m.K = .ok cs ∧ g.tri = (fun k => toTri (cs.getD k [])) ∧
      buildMaps ((N + 1) * (N + 2) / 2) (N + 1) 3 m.K g.n.mask m.E m.F (nearTest g.tri g.n ((N + 1) * (N + 2) / 2) tol) = .ok g.maps) ∧
    ∃ x, IsGLL la eps N x ∧ GridSpec P x m.bcType g ∧ g.N = N ∧ g.K = m.K ∧ ∀ k < m.K, g.tri k = m.tri k := by
  have hb := h.built
  unfold buildGrid at hb
  cases hel : triElement la eps ztol tol N with
  | ok no =>
    obtain ⟨n, o⟩ := no
    rw [hel] at hb
    simp only [Out.bind_ok] at hb
    cases h1 : gather 3 m.ev m.vert m.nv m.K with
    | ok cs =>
      rw [h1] at hb
      simp only [Out.bind_ok] at hb
      cases h2 : buildMaps ((N + 1) * (N + 2) / 2) (N + 1) 3 m.K n.mask m.E m.F (nearTest (fun k => toTri (cs.getD k [])) n ((N + 1) * (N + 2) / 2) tol) with
      | ok mp =>
        rw [h2] at hb
        simp only [Out.bind_ok] at hb
        cases h3 : buildBCHash (N + 1) (3 * m.K) m.bcType TagMap.empty with
        | ok bc =>
          rw [h3] at hb
          simp only [Out.bind_ok, Out.pure_eq, Out.ok.injEq] at hb
          obtain ⟨g', x, q1, q2, q3, -, -, q4, q6, q5⟩ := buildGrid_spec la h.lapack eps h.eps_pos h.eps_le ztol tol h.ztol_pos h.tol_pos N h.order h.ztol_lt m P h.mesh n o hel h.gap
          rw [h.built] at q1
          obtain rfl : g = g' := by simpa using q1
          refine ⟨?_, ⟨cs, rfl, ?_, ?_⟩, x, q6, q5, q2, q3, q4⟩
          · rw [← hb]; exact triElement_nodes hel
          · rw [← hb]
          · rw [← hb]; exact h2
        | throws => rw [h3] at hb; cases hb
        | ub => rw [h3] at hb; cases hb
      | throws => rw [h2] at hb; cases hb
      | ub => rw [h2] at hb; cases hb
    | throws => rw [h1] at hb; cases hb
    | ub => rw [h1] at hb; cases hb
  | throws => rw [hel] at hb; cases hb
  | ub => rw [hel] at hb; cases hb

theorem nodes_parts {n : RefNodes} (h : triRefNodes la eps ztol tol N = .ok n) : n.s.length = n.r.length ∧ ∃ f1 f2 f3, faceMask tol (N + 1) (n.s.map (· + 1)) = .ok f1 ∧
    faceMask tol (N + 1) ((List.range n.r.length).map fun i => n.r.getD i 0 + n.s.getD i 0) = .ok f2 ∧ faceMask tol (N + 1) (n.r.map (· + 1)) = .ok f3 ∧ n.fm = [f1, f2, f3] := by
  unfold triRefNodes at h
  obtain ⟨xy, -, h⟩ := Out.bind_eq_ok.1 h
  obtain ⟨f1, h1, h⟩ := Out.bind_eq_ok.1 h
  obtain ⟨f2, h2, h⟩ := Out.bind_eq_ok.1 h
  obtain ⟨f3, h3, h⟩ := Out.bind_eq_ok.1 h
  simp only [Out.pure_eq, Out.ok.injEq] at h
  subst h
  exact ⟨by simp, f1, f2, f3, h1, h2, h3, rfl⟩

theorem ends_corner' (m : Mesh) (k f : ℕ) (hf : f < 3) : faceEnds (m.tri k) f = (m.corner k f, m.corner k ((f + 1) % 3)) := by
  rcases (by omega : f = 0 ∨ f = 1 ∨ f = 2) with rfl | rfl | rfl <;> simp [faceEnds, Mesh.tri]

/-- The nearness test in rounding arithmetic gives the answer of exact arithmetic. -/
theorem near_rounded (h : Provisioned la eps ztol tol N m P g) (hgap : ∀ x, IsGLL la eps N x → ∀ i j : ℕ, i < j → j ≤ N → 4 * tol ≤ x.getD j 0 - x.getD i 0)
    (hA : A.Within u) (hu : u ≤ 1 / 100) (hρ : ρ ≤ 1 / 8) (hr : Stored ρ g.n.r r) (hs : Stored ρ g.n.s s) (hm : Extent m M ℓ) (hE : 5 * ((3 * ρ + 20 * u) * M) < tol * ℓ)
    {e i j : ℕ} (he : e < 3 * m.K) (hi : i ≤ N) (hj : j ≤ N) :
    A.near g.tri r s ((N + 1) * (N + 2) / 2) tol e (vol ((N + 1) * (N + 2) / 2) 3 g.n.mask e i) (vol ((N + 1) * (N + 2) / 2) 3 g.n.mask (P e) j) = true ↔ j = across P N e i := by
  obtain ⟨hn, -, x, hx, hg, hN, hK, htri⟩ := h.parts
  obtain ⟨hm1, hp1, hinc, hsym, -⟩ := gll_facts la h.lapack eps h.eps_pos h.eps_le N h.order x hx
  have hgap := hgap x hx
  have ht := h.tol_pos
  have hnp : g.np = (N + 1) * (N + 2) / 2 := by unfold Grid.np; rw [hN]
  rw [← hnp]
  have hlt : ∀ f < 3, ∀ i ≤ N, g.n.mask i f < g.np := fun f hf i hi => hg.maskLt f hf i (by omega)
  have hpt : ∀ f < 3, ∀ i ≤ N, (g.n.r.getD (g.n.mask i f) 0, g.n.s.getD (g.n.mask i f) 0) = triFacePt f (x.getD i 0) := fun f hf i hi => hg.maskPt f hf i (by omega)
  have hPe : P e < 3 * m.K := h.mesh.conn.lt e he
  have e3 : e % 3 < 3 := Nat.mod_lt _ (by norm_num)
  have p3 : P e % 3 < 3 := Nat.mod_lt _ (by norm_num)
  have hrl : g.n.r.length = g.np := hg.nodes
  have hsl : g.n.s.length = g.np := (nodes_parts hn).1.trans hrl
  have htE := htri (e / 3) (by omega)
  have htP := htri (P e / 3) (by omega)
  have hbox : ∀ i ≤ N, |x.getD i 0| ≤ 1 := by
    intro i hi
    rw [abs_le]
    constructor
    · rcases Nat.eq_zero_or_pos i with rfl | h0
      · rw [hm1]
      · have := hinc 0 i h0 hi; linarith
    · rcases Nat.lt_or_eq_of_le hi with h0 | rfl
      · have := hinc i N h0 (le_refl _); linarith
      · rw [hp1]
  have hmesh : ∀ k < m.K, (|(m.tri k).xa| ≤ M ∧ |(m.tri k).xb| ≤ M ∧ |(m.tri k).xc| ≤ M) ∧ |(m.tri k).ya| ≤ M ∧ |(m.tri k).yb| ≤ M ∧ |(m.tri k).yc| ≤ M := fun k hk =>
    ⟨⟨(hm.size k hk 0 (by omega)).1, (hm.size k hk 1 (by omega)).1, (hm.size k hk 2 (by omega)).1⟩, (hm.size k hk 0 (by omega)).2, (hm.size k hk 1 (by omega)).2, (hm.size k hk 2 (by omega)).2⟩
  have hcoord : ∀ k < m.K, ∀ f < 3, ∀ i ≤ N,
      |A.coord (g.tri k).xa (g.tri k).xb (g.tri k).xc (r.getD (g.n.mask i f) 0) (s.getD (g.n.mask i f) 0) - gridX (g.tri k) g.n (g.n.mask i f)| ≤ (3 * ρ + 20 * u) * M ∧
      |A.coord (g.tri k).ya (g.tri k).yb (g.tri k).yc (r.getD (g.n.mask i f) 0) (s.getD (g.n.mask i f) 0) - gridY (g.tri k) g.n (g.n.mask i f)| ≤ (3 * ρ + 20 * u) * M := by
    intro k hk f hf i hi
    have hl := hlt f hf i hi
    have er := hr.err _ (by rw [hrl]; exact hl)
    have es := hs.err _ (by rw [hsl]; exact hl)
    have hb := hbox i hi
    have hp := hpt f hf i hi
    obtain ⟨b1, b2⟩ : |g.n.r.getD (g.n.mask i f) 0| ≤ 1 ∧ |g.n.s.getD (g.n.mask i f) 0| ≤ 1 := by
      have q1 : g.n.r.getD (g.n.mask i f) 0 = (triFacePt f (x.getD i 0)).1 := congrArg Prod.fst hp
      have q2 : g.n.s.getD (g.n.mask i f) 0 = (triFacePt f (x.getD i 0)).2 := congrArg Prod.snd hp
      rw [q1, q2]
      unfold triFacePt
      split_ifs
      · exact ⟨hb, by norm_num⟩
      · exact ⟨by rw [abs_neg]; exact hb, hb⟩
      · exact ⟨by norm_num, hb⟩
    obtain ⟨⟨c1, c2, c3⟩, c4, c5, c6⟩ := hmesh k hk
    rw [htri k hk]
    exact ⟨hA.coord hu hρ er es b1 b2 c1 c2 c3, hA.coord hu hρ er es b1 b2 c4 c5 c6⟩
  obtain ⟨d1, d2⟩ := vol_div (hlt _ e3 i hi)
  obtain ⟨d3, d4⟩ := vol_div (hlt _ p3 j hj)
  have q1 := face_point (g.tri (e / 3)) g.n _ _ e3 _ (hpt _ e3 i hi)
  have q2 := face_point (g.tri (P e / 3)) g.n _ _ p3 _ (hpt _ p3 j hj)
  have hq2 : (gridX (g.tri (P e / 3)) g.n (g.n.mask j (P e % 3)), gridY (g.tri (P e / 3)) g.n (g.n.mask j (P e % 3)))
      = lerp (faceEnds (g.tri (e / 3)) (e % 3)) (if P e = e then ori (e % 3) (x.getD j 0) else -ori (P e % 3) (x.getD j 0)) := by
    by_cases h : P e = e
    · rw [if_pos h, q2, h]
    · rw [if_neg h, q2, hg.meet e (by omega) h, lerp_swap]
  obtain ⟨w1, w2⟩ := hcoord (e / 3) (by omega) (e % 3) e3 i hi
  obtain ⟨w3, w4⟩ := hcoord (P e / 3) (by omega) (P e % 3) p3 j hj
  have hdist := lerp_dist (faceEnds (g.tri (e / 3)) (e % 3)) (ori (e % 3) (x.getD i 0)) (if P e = e then ori (e % 3) (x.getD j 0) else -ori (P e % 3) (x.getD j 0))
  rw [← hq2, ← q1] at hdist
  simp only at hdist
  have hlen : ℓ ≤ hypot ((faceEnds (g.tri (e / 3)) (e % 3)).1.1 - (faceEnds (g.tri (e / 3)) (e % 3)).2.1) ((faceEnds (g.tri (e / 3)) (e % 3)).1.2 - (faceEnds (g.tri (e / 3)) (e % 3)).2.2) := by
    rw [htE, ends_corner' m _ _ e3]
    refine (hm.length (e / 3) (by omega) (e % 3) e3).trans (le_of_eq ?_)
    unfold hypot
    congr 1
    ring
  have hpar : |(if P e = e then ori (e % 3) (x.getD j 0) else -ori (P e % 3) (x.getD j 0)) - ori (e % 3) (x.getD i 0)| = |x.getD j 0 - x.getD (across P N e i) 0| := by
    by_cases h : P e = e
    · rw [if_pos h]
      unfold across
      rw [if_pos h]
      unfold ori
      split_ifs
      · rw [show -x.getD j 0 - -x.getD i 0 = -(x.getD j 0 - x.getD i 0) by ring, abs_neg]
      · rfl
    · rw [if_neg h]
      have := across_pos hsym e i hi h
      have e1 : -ori (P e % 3) (x.getD j 0) - ori (e % 3) (x.getD i 0) = -(ori (P e % 3) (x.getD j 0) - ori (P e % 3) (x.getD (across P N e i) 0)) := by
        rw [this]; ring
      rw [e1, abs_neg]
      unfold ori
      split_ifs
      · rw [show -x.getD j 0 - -x.getD (across P N e i) 0 = -(x.getD j 0 - x.getD (across P N e i) 0) by ring, abs_neg]
      · rfl
  rw [hpar] at hdist
  have hmove : ∀ {a b a' b' E : ℝ}, |a' - a| ≤ E → |b' - b| ≤ E → |(b' - a') - (b - a)| ≤ 2 * E := by
    intro a b a' b' E h1 h2
    rw [abs_le] at *
    constructor <;> linarith
  have mx := hmove w1 w3
  have my := hmove w2 w4
  have up := hypot_move mx my
  have dn := hypot_move ((abs_sub_comm _ _).le.trans mx) ((abs_sub_comm _ _).le.trans my)
  have hl := hA.len (by linarith)
    (A.coord (g.tri (P e / 3)).xa (g.tri (P e / 3)).xb (g.tri (P e / 3)).xc (r.getD (g.n.mask j (P e % 3)) 0) (s.getD (g.n.mask j (P e % 3)) 0)
      - A.coord (g.tri (e / 3)).xa (g.tri (e / 3)).xb (g.tri (e / 3)).xc (r.getD (g.n.mask i (e % 3)) 0) (s.getD (g.n.mask i (e % 3)) 0))
    (A.coord (g.tri (P e / 3)).ya (g.tri (P e / 3)).yb (g.tri (P e / 3)).yc (r.getD (g.n.mask j (P e % 3)) 0) (s.getD (g.n.mask j (P e % 3)) 0)
      - A.coord (g.tri (e / 3)).ya (g.tri (e / 3)).yb (g.tri (e / 3)).yc (r.getD (g.n.mask i (e % 3)) 0) (s.getD (g.n.mask i (e % 3)) 0))
  have hthr := hA.thr hu ht ((faceEnds (g.tri (e / 3)) (e % 3)).1.1 - (faceEnds (g.tri (e / 3)) (e % 3)).2.1) ((faceEnds (g.tri (e / 3)) (e % 3)).1.2 - (faceEnds (g.tri (e / 3)) (e % 3)).2.2)
  unfold Arith.near
  simp only [decide_eq_true_eq, d1, d2, d3, d4]
  rw [hdist] at up dn
  generalize hypot ((faceEnds (g.tri (e / 3)) (e % 3)).1.1 - (faceEnds (g.tri (e / 3)) (e % 3)).2.1) ((faceEnds (g.tri (e / 3)) (e % 3)).1.2 - (faceEnds (g.tri (e / 3)) (e % 3)).2.2) = L at *
  generalize A.rnd (A.hyp (A.rnd ((faceEnds (g.tri (e / 3)) (e % 3)).1.1 - (faceEnds (g.tri (e / 3)) (e % 3)).2.1)) (A.rnd ((faceEnds (g.tri (e / 3)) (e % 3)).1.2 - (faceEnds (g.tri (e / 3)) (e % 3)).2.2)) * tol) = T at *
  generalize A.coord (g.tri (P e / 3)).xa (g.tri (P e / 3)).xb (g.tri (P e / 3)).xc (r.getD (g.n.mask j (P e % 3)) 0) (s.getD (g.n.mask j (P e % 3)) 0)
      - A.coord (g.tri (e / 3)).xa (g.tri (e / 3)).xb (g.tri (e / 3)).xc (r.getD (g.n.mask i (e % 3)) 0) (s.getD (g.n.mask i (e % 3)) 0) = X at *
  generalize A.coord (g.tri (P e / 3)).ya (g.tri (P e / 3)).yb (g.tri (P e / 3)).yc (r.getD (g.n.mask j (P e % 3)) 0) (s.getD (g.n.mask j (P e % 3)) 0)
      - A.coord (g.tri (e / 3)).ya (g.tri (e / 3)).yb (g.tri (e / 3)).yc (r.getD (g.n.mask i (e % 3)) 0) (s.getD (g.n.mask i (e % 3)) 0) = Y at *
  generalize A.hyp (A.rnd X) (A.rnd Y) = W at *
  have hH := hypot_nonneg X Y
  generalize hypot X Y = H at *
  generalize (3 * ρ + 20 * u) * M = E at *
  have hu0 := hA.nonneg
  have hLt : tol * ℓ ≤ L * tol := by rw [mul_comm L]; exact mul_le_mul_of_nonneg_left hlen ht.le
  have u1 : W ≤ 1.0201 * H := hl.2.trans (mul_le_mul_of_nonneg_right (by nlinarith) hH)
  have u2 : 0.98 * H ≤ W := le_trans (mul_le_mul_of_nonneg_right (by nlinarith) hH) hl.1
  constructor
  · intro hlt
    by_contra hne
    have hgap' : 4 * tol ≤ |x.getD j 0 - x.getD (across P N e i) 0| := by
      have ha := across_le P N e i hi
      rcases lt_or_gt_of_ne hne with h1 | h1
      · have := hgap _ _ h1 ha
        rw [abs_sub_comm]
        exact this.trans (le_abs_self _)
      · have := hgap _ _ h1 hj
        exact this.trans (le_abs_self _)
    have hL0 : 0 < L * tol := lt_of_le_of_lt (by
      have : 0 ≤ E := by linarith [(abs_nonneg _).trans w1]
      linarith) (hE.trans_le hLt)
    have hL : 0 < L := by
      by_contra hc
      nlinarith
    have : 2 * (L * tol) ≤ |x.getD j 0 - x.getD (across P N e i) 0| / 2 * L := by nlinarith
    linarith [hthr.2]
  · rintro rfl
    rw [sub_self, abs_zero, zero_div, zero_mul] at up
    linarith [hthr.1]

/-- **C142: the face masks do not feel rounding**, if no node is between `tol / 2` and `2 tol` from a side of the reference triangle. -/
theorem C142_masks (h : Provisioned la eps ztol tol N m P g)
    (hside : ∀ i < g.np, ∀ d ∈ [|g.n.s.getD i 0 + 1|, |g.n.r.getD i 0 + g.n.s.getD i 0|, |g.n.r.getD i 0 + 1|], d ≤ tol / 2 ∨ 2 * tol ≤ d)
    (hA : A.Within u) (hu : u ≤ 1 / 100) (hρ : 8 * ρ ≤ tol) (hr : Stored ρ g.n.r r) (hs : Stored ρ g.n.s s) : A.masks tol N r s = .ok g.n.fm := by
  obtain ⟨hn, -, x, hx, hg, hN, hK, -⟩ := h.parts
  obtain ⟨hsl, f1, f2, f3, m1, m2, m3, hfm⟩ := nodes_parts hn
  have hrl : g.n.r.length = g.np := hg.nodes
  have ht := h.tol_pos
  have er : ∀ i < g.np, |r.getD i 0 - g.n.r.getD i 0| ≤ ρ := fun i hi => hr.err i (by omega)
  have es : ∀ i < g.np, |s.getD i 0 - g.n.s.getD i 0| ≤ ρ := fun i hi => hs.err i (by omega)
  have l1 := hr.len
  have l2 := hs.len
  have hmap : ∀ (l : List ℝ) (f : ℝ → ℝ) (i : ℕ), i < l.length → (l.map f).getD i 0 = f (l.getD i 0) := by
    intro l f i hi
    simp [List.getD_eq_getElem?_getD, List.getElem?_eq_getElem hi]
  have c1 : faceMask tol (N + 1) (s.map fun t => A.rnd (t + 1)) = .ok f1 := by
    rw [← m1]
    apply faceMask_congr (by simp [l2])
    intro i hi
    rw [List.length_map] at hi
    have hi' : i < g.np := by omega
    rw [hmap _ _ _ (by omega), hmap _ _ _ hi]
    refine hA.test hu hρ ht ?_ (hside i hi' _ (by simp))
    have := es i hi'
    have h0 := (abs_nonneg _).trans this
    rw [show s.getD i 0 + 1 - (g.n.s.getD i 0 + 1) = s.getD i 0 - g.n.s.getD i 0 by ring]
    linarith
  have c3 : faceMask tol (N + 1) (r.map fun t => A.rnd (t + 1)) = .ok f3 := by
    rw [← m3]
    apply faceMask_congr (by simp [l1])
    intro i hi
    rw [List.length_map] at hi
    have hi' : i < g.np := by omega
    rw [hmap _ _ _ (by omega), hmap _ _ _ hi]
    refine hA.test hu hρ ht ?_ (hside i hi' _ (by simp))
    have := er i hi'
    have h0 := (abs_nonneg _).trans this
    rw [show r.getD i 0 + 1 - (g.n.r.getD i 0 + 1) = r.getD i 0 - g.n.r.getD i 0 by ring]
    linarith
  have c2 : faceMask tol (N + 1) ((List.range r.length).map fun i => A.rnd (r.getD i 0 + s.getD i 0)) = .ok f2 := by
    rw [← m2, l1]
    apply faceMask_congr (by simp)
    intro i hi
    rw [List.length_map, List.length_range] at hi
    have hi' : i < g.np := by omega
    have hmap' : ∀ f : ℕ → ℝ, ((List.range g.n.r.length).map f).getD i 0 = f i := by
      intro f
      simp [List.getD_eq_getElem?_getD, List.getElem?_range hi]
    rw [hmap', hmap']
    refine hA.test hu hρ ht ?_ (hside i hi' _ (by simp))
    have a := abs_le.1 (er i hi')
    have b := abs_le.1 (es i hi')
    rw [abs_le]
    constructor <;> linarith
  unfold Arith.masks
  simp only [c1, c2, c3, Out.bind_ok, hfm, Out.pure_eq]

/-- **C142: masks and trace maps do not feel rounding.**  Suppose the provisioner is built in exact arithmetic, for any conforming mesh and any order.  Let the reference nodes be stored with errors up to `ρ`, and let every
operation be exact up to the fraction `u`.  If the face points are `4 tol` apart, no node is between `tol / 2` and `2 tol` from a side of the reference triangle, and the errors are small against `tol` times the
shortest face, then the face masks and trace maps computed in rounding arithmetic are those of exact arithmetic. -/
theorem C142_maps (h : Provisioned la eps ztol tol N m P g) (hgap : ∀ x, IsGLL la eps N x → ∀ i j : ℕ, i < j → j ≤ N → 4 * tol ≤ x.getD j 0 - x.getD i 0)
    (hside : ∀ i < g.np, ∀ d ∈ [|g.n.s.getD i 0 + 1|, |g.n.r.getD i 0 + g.n.s.getD i 0|, |g.n.r.getD i 0 + 1|], d ≤ tol / 2 ∨ 2 * tol ≤ d)
    (hA : A.Within u) (hu : u ≤ 1 / 100) (hρ : 8 * ρ ≤ tol) (hr : Stored ρ g.n.r r) (hs : Stored ρ g.n.s s) (hm : Extent m M ℓ) (hE : 5 * ((3 * ρ + 20 * u) * M) < tol * ℓ) :
    A.grid tol N m r s = .ok (g.n.fm, g.maps) := by
  obtain ⟨hn, ⟨cs, hcs, htri, hmaps⟩, x, hx, hg, hN, hK, -⟩ := h.parts
  have ht := h.tol_pos
  obtain ⟨hm1, hp1, -⟩ := gll_facts la h.lapack eps h.eps_pos h.eps_le N h.order x hx
  have h2 : 4 * tol ≤ 2 := by
    have := hgap x hx 0 N h.order (le_refl _)
    rw [hm1, hp1] at this
    linarith
  have hmask := C142_masks h hside hA hu hρ hr hs
  have hn' : (⟨r, s, g.n.fm⟩ : RefNodes).mask = g.n.mask := rfl
  have hc := buildMaps_congr (np := (N + 1) * (N + 2) / 2) (nfp := N + 1) (mask := g.n.mask) (near := nearTest g.tri g.n ((N + 1) * (N + 2) / 2) tol)
    (near' := A.near g.tri r s ((N + 1) * (N + 2) / 2) tol) h.mesh.conn (by
      intro e he i hi j hj
      have a := near_rounded h hgap hA hu (by linarith) hr hs hm hE he (i := i) (j := j) (by omega) (by omega)
      have hnp : g.np = (N + 1) * (N + 2) / 2 := by unfold Grid.np; rw [hN]
      have b := near_iff (tri := g.tri) (n := g.n) (np := (N + 1) * (N + 2) / 2) (N := N) (K := m.K) (x := x) (P := P) ht (h.gap x hx)
        (gll_facts la h.lapack eps h.eps_pos h.eps_le N h.order x hx).2.2.2.1 (fun f hf i hi => by rw [← hnp]; exact hg.maskLt f hf i (by omega)) (fun f hf i hi => hg.maskPt f hf i (by omega))
        (fun k hk => hg.ccw k (by omega)) e he (fun hne => hg.meet e (by omega) hne) i j (by omega) (by omega)
      exact Bool.eq_iff_iff.2 (a.trans b.symm))
  unfold Arith.grid
  simp only [hmask, hcs, Out.bind_ok, hn', ← htri, hc, hmaps]
  rfl

/-- At orders one to five the nodes are in the reference triangle, and no node is close to a side without being on it. -/
theorem nodes_low (h : Provisioned la eps ztol tol N m P g) (hz : ztol < 1 / 5) (h5 : N ≤ 5) : ∃ x n, n.r = g.n.r ∧ n.s = g.n.s ∧ MaskSpec N 3 triFacePt triFaceDist (1 / 5) x n ∧
    ∀ k < n.r.length, -1 ≤ n.r.getD k 0 ∧ -1 ≤ n.s.getD k 0 ∧ n.r.getD k 0 + n.s.getD k 0 ≤ 0 := by
  obtain ⟨hn, -⟩ := h.parts
  rcases tri_nodes_low la h.lapack eps h.eps_pos h.eps_le ztol (1 / 5) h.ztol_pos hz (by norm_num) (le_refl _) N h.order h5 with ht | ⟨x, n, hx, hn', hmask, hbox, -⟩
  · exfalso
    unfold triRefNodes at hn ht
    cases hq : equilateralNodes la eps ztol N with
    | ok xy =>
      rw [hq] at ht
      simp only [Out.bind_ok, faceMask_eq] at ht
      split_ifs at ht <;> simp at ht
    | throws => rw [hq] at hn; cases hn
    | ub => rw [hq] at hn; cases hn
  · obtain ⟨e1, e2⟩ : n.r = g.n.r ∧ n.s = g.n.s := by
      unfold triRefNodes at hn hn'
      obtain ⟨xy, h1, hn⟩ := Out.bind_eq_ok.1 hn
      obtain ⟨xy', h1', hn'⟩ := Out.bind_eq_ok.1 hn'
      rw [h1] at h1'
      obtain rfl : xy = xy' := by simpa using h1'
      obtain ⟨f1, -, hn⟩ := Out.bind_eq_ok.1 hn
      obtain ⟨f2, -, hn⟩ := Out.bind_eq_ok.1 hn
      obtain ⟨f3, -, hn⟩ := Out.bind_eq_ok.1 hn
      obtain ⟨f1', -, hn'⟩ := Out.bind_eq_ok.1 hn'
      obtain ⟨f2', -, hn'⟩ := Out.bind_eq_ok.1 hn'
      obtain ⟨f3', -, hn'⟩ := Out.bind_eq_ok.1 hn'
      simp only [Out.pure_eq, Out.ok.injEq] at hn hn'
      rw [← hn, ← hn']
      exact ⟨rfl, rfl⟩
    exact ⟨x, n, e1, e2, hmask, hbox⟩

theorem side_low (h : Provisioned la eps ztol tol N m P g) (hz : ztol < 1 / 5) (htol : tol ≤ 1 / 20) (h5 : N ≤ 5) :
    ∀ i < g.np, ∀ d ∈ [|g.n.s.getD i 0 + 1|, |g.n.r.getD i 0 + g.n.s.getD i 0|, |g.n.r.getD i 0 + 1|], d ≤ tol / 2 ∨ 2 * tol ≤ d := by
  obtain ⟨x, n, e1, e2, hmask, -⟩ := nodes_low h hz h5
  obtain ⟨-, -, x0, -, hg, -⟩ := h.parts
  have ht0 := h.tol_pos
  intro i hi d hd
  rw [← e1, ← e2] at hd
  have hil : i < n.r.length := by rw [e1, hg.nodes]; exact hi
  have key : ∀ f < 3, triFaceDist f (n.r.getD i 0) (n.s.getD i 0) ≤ tol / 2 ∨ 2 * tol ≤ triFaceDist f (n.r.getD i 0) (n.s.getD i 0) := by
    intro f hf
    by_cases hd : triFaceDist f (n.r.getD i 0) (n.s.getD i 0) < 1 / 5
    · left
      obtain ⟨k, hk, rfl⟩ := hmask.all f hf i hil hd
      have hp := hmask.pt f hf k hk
      rw [show n.r.getD (n.mask k f) 0 = (triFacePt f (x.getD k 0)).1 from congrArg Prod.fst hp, show n.s.getD (n.mask k f) 0 = (triFacePt f (x.getD k 0)).2 from congrArg Prod.snd hp]
      have : triFaceDist f (triFacePt f (x.getD k 0)).1 (triFacePt f (x.getD k 0)).2 = 0 := by
        rcases (by omega : f = 0 ∨ f = 1 ∨ f = 2) with rfl | rfl | rfl <;> simp [triFaceDist, triFacePt]
      rw [this]
      linarith
    · right
      push Not at hd
      linarith
  simp only [List.mem_cons, List.not_mem_nil, or_false] at hd
  rcases hd with rfl | rfl | rfl
  · exact key 0 (by omega)
  · exact key 1 (by omega)
  · exact key 2 (by omega)

/-- **C142 for the orders one to five**, without conditions on the nodes. -/
theorem C142_low (h : Provisioned la eps ztol tol N m P g) (hz : ztol < 1 / 5) (htol : tol ≤ 1 / 20) (h5 : N ≤ 5) (hA : A.Within u) (hu : u ≤ 1 / 100) (hρ : 8 * ρ ≤ tol)
    (hr : Stored ρ g.n.r r) (hs : Stored ρ g.n.s s) (hm : Extent m M ℓ) (hE : 5 * ((3 * ρ + 20 * u) * M) < tol * ℓ) : A.grid tol N m r s = .ok (g.n.fm, g.maps) :=
  C142_maps h (fun x hx i j hij hj => by linarith [gll_sep la h.lapack eps h.eps_pos h.eps_le N h.order h5 x hx i j hij hj]) (side_low h hz htol h5) hA hu hρ hr hs hm hE

end

/-! ### Double precision -/

open Blitzdg.Time (fl fl_def fl_exact fl_int C128_rounding roundEven two_zpow_pos)

/-- Double precision with correctly rounded operations, exponent range not limited. -/
noncomputable def double : Arith := ⟨fl 53, fun x y => fl 53 √(x ^ 2 + y ^ 2)⟩

theorem double_within : double.Within (2 ^ (-53 : ℤ)) where
  rnd x := by exact_mod_cast C128_rounding 53 x
  hyp x y := by
    have := C128_rounding 53 √(x ^ 2 + y ^ 2)
    rw [abs_of_nonneg (Real.sqrt_nonneg _)] at this
    exact_mod_cast this

/-- C142 at order three on the unit square with the tolerance of the code, the nodes being stored as doubles. -/
example : ∃ g r s, Provisioned exactLapack (1 / 2 ^ 52) 1e-10 1e-5 3 square twoTri g ∧ r = g.n.r.map (fl 53) ∧ s = g.n.s.map (fl 53) ∧ double.grid 1e-5 3 square r s = .ok (g.n.fm, g.maps) := by
  obtain ⟨g, hg⟩ := square_grid_low 3 (by omega) (by omega)
  refine ⟨g, _, _, hg, rfl, rfl, ?_⟩
  obtain ⟨x, n, e1, e2, -, hbox⟩ := nodes_low hg (by norm_num) (by omega)
  have hsl := (nodes_parts hg.parts.1).1
  have hst : ∀ l : List ℝ, (∀ i < l.length, |l.getD i 0| ≤ 1) → Stored (2 ^ (-53 : ℤ)) l (l.map (fl 53)) := by
    intro l hl
    refine ⟨by simp, fun i hi => ?_⟩
    have : (l.map (fl 53)).getD i 0 = fl 53 (l.getD i 0) := by simp [List.getD_eq_getElem?_getD, List.getElem?_eq_getElem hi]
    rw [this]
    refine (C128_rounding 53 _).trans ?_
    have := mul_le_mul_of_nonneg_left (hl i hi) (two_zpow_pos (R := ℝ) (-53)).le
    rw [mul_one] at this
    exact_mod_cast this
  rw [e1, e2] at hbox
  refine C142_low hg (by norm_num) (by norm_num) (by omega) double_within (by norm_num) (ρ := 2 ^ (-53 : ℤ)) (by norm_num) (hst _ fun i hi => ?_) (hst _ fun i hi => ?_) (M := 1) (ℓ := 1) ⟨?_, ?_⟩ (by norm_num)
  · obtain ⟨a, b, c⟩ := hbox i hi
    rw [abs_le]
    constructor <;> linarith
  · obtain ⟨a, b, c⟩ := hbox i (by omega)
    rw [abs_le]
    constructor <;> linarith
  · intro k hk j hj
    have hk : k < 2 := hk
    interval_cases k <;> interval_cases j <;> norm_num [Mesh.corner, square]
  · intro k hk j hj
    have hk : k < 2 := hk
    rw [Real.le_sqrt (by norm_num) (by positivity)]
    interval_cases k <;> interval_cases j <;> norm_num [Mesh.corner, square]

/-! ### Far from the origin -/

/-- Half a unit in the last place is lost next to a power of two. -/
theorem fl_tie : fl 53 ((2 : ℝ) ^ 53 + 1) = 2 ^ 53 := by
  have hlog : Int.log 2 |(2 : ℝ) ^ 53 + 1| = 53 := by
    rw [abs_of_pos (by positivity)]
    have a : 53 ≤ Int.log 2 ((2 : ℝ) ^ 53 + 1) := by
      rw [← Int.zpow_le_iff_le_log (by norm_num) (by positivity)]
      norm_num
    have b : Int.log 2 ((2 : ℝ) ^ 53 + 1) < 54 := by
      rw [← Int.lt_zpow_iff_log_lt (by norm_num) (by positivity)]
      norm_num
    omega
  rw [fl_def 53 (by positivity), hlog]
  have hr : roundEven (((2 : ℝ) ^ 53 + 1) / 2 ^ ((53 : ℤ) - (((53 : ℕ) : ℤ) - 1))) = 2 ^ 52 := by
    have e1 : ((2 : ℝ) ^ 53 + 1) / 2 ^ ((53 : ℤ) - (((53 : ℕ) : ℤ) - 1)) = ((2 ^ 52 : ℤ) : ℝ) + 1 / 2 := by norm_num
    rw [e1]
    unfold roundEven
    have hf : Int.floor (((2 ^ 52 : ℤ) : ℝ) + 1 / 2) = 2 ^ 52 := by
      rw [Int.floor_intCast_add, Int.floor_eq_zero_iff.2 ⟨by norm_num, by norm_num⟩, add_zero]
    simp only [hf]
    norm_num
  rw [hr]
  norm_num

/-- One triangle, with sides of length one and `√2`, far from the origin. -/
noncomputable def far : Mesh where
  K := 1
  nv := 3
  ev := [0, 1, 2]
  vert := [2 ^ 52, 0, 0, 2 ^ 52 + 1, 0, 0, 2 ^ 52, 1, 0]
  E := [0, 0, 0]
  F := [0, 1, 2]
  bcType := [3, 3, 3]

theorem far_ok : far.Ok id where
  conn := {
    lenE := rfl
    lenF := rfl
    lt := fun _ h => h
    inv := fun _ _ => rfl
    e := by intro g hg; have hg : g < 3 := hg; interval_cases g <;> rfl
    f := by intro g hg; have hg : g < 3 := hg; interval_cases g <;> rfl
    own := fun _ _ _ => rfl }
  lenEv := rfl
  ltEv := by intro v hv; simp only [far, List.mem_cons, List.not_mem_nil, or_false] at hv ⊢; omega
  lenVert := rfl
  lenBc := le_refl _
  ccw := by
    intro k hk
    have hk : k < 1 := hk
    obtain rfl : k = 0 := by omega
    norm_num [cross, Mesh.tri, Mesh.corner, far]
  meet := fun e _ h => absurd rfl h

/-- **C142, refuted far from the origin.**  In double precision, with the tolerance of the code and exactly stored nodes of order two: on a single triangle with unit legs, whose corners are doubles, a node of a wall is paired
with another node and is missing from the list of boundary nodes. -/
theorem C142_far_false : ∃ g fm maps, Provisioned exactLapack (1 / 2 ^ 52) 1e-10 1e-5 2 far id g ∧ double.grid 1e-5 2 far g.n.r g.n.s = .ok (fm, maps) ∧
    maps.vmapP[0]? ≠ maps.vmapM[0]? ∧ 0 ∉ maps.mapB ∧ maps ≠ g.maps := by
  rcases C47_grid_low exactLapack exactLapack_ok (1 / 2 ^ 52) (by norm_num) (by norm_num) 1e-10 1e-5 (by norm_num) (by norm_num) (by norm_num) (by norm_num) 2 (by omega) (by omega) far id far_ok with
    ⟨h, -⟩ | ⟨g, h⟩
  · obtain ⟨x, hx⟩ := exact_gll (1 / 2 ^ 52) (by norm_num) (by norm_num) 2 (by omega)
    exact absurd hx (h x)
  obtain ⟨-, ⟨cs, hcs, htri, -⟩, x, hx, hg, hN, hK, htri'⟩ := h.parts
  obtain ⟨hm1, hp1, -, hsym, -⟩ := gll_facts _ h.lapack _ h.eps_pos h.eps_le 2 h.order x hx
  have hst : ∀ l : List ℝ, Stored 0 l l := fun l => ⟨rfl, fun i _ => by simp⟩
  have hmask := C142_masks h (side_low h (by norm_num) (by norm_num) (by omega)) double_within (by norm_num) (by norm_num) (hst _) (hst _)
  obtain ⟨T, hT, -, -, -, hent, hB, -⟩ := buildMaps_ok 6 3 3 1 g.n.mask far.E far.F (double.near g.tri g.n.r g.n.s 6 1e-5) id far_ok.conn
  have hmid : x.getD 1 0 = 0 := by
    have := hsym 1 (by omega)
    simp only [show 2 - 1 = 1 from rfl] at this
    linarith
  have hnp : g.np = 6 := by unfold Grid.np; rw [hN]
  have hlt : ∀ i ≤ 2, g.n.mask i 0 < 6 := fun i hi => by rw [← hnp]; exact hg.maskLt 0 (by omega) i (by omega)
  have hv : ∀ i ≤ 2, vol 6 3 g.n.mask 0 i = g.n.mask i 0 := fun i _ => by simp [vol]
  have hr : ∀ i ≤ 2, g.n.r.getD (g.n.mask i 0) 0 = x.getD i 0 := fun i hi => congrArg Prod.fst (hg.maskPt 0 (by omega) i (by omega))
  have hs : ∀ i ≤ 2, g.n.s.getD (g.n.mask i 0) 0 = -1 := fun i hi => congrArg Prod.snd (hg.maskPt 0 (by omega) i (by omega))
  have ht0 : g.tri 0 = ⟨2 ^ 52, 0, 2 ^ 52 + 1, 0, 2 ^ 52, 1⟩ := by
    rw [htri' 0 (by show 0 < 1; omega)]
    rfl
  have i0 : fl 53 (0 : ℝ) = 0 := by simp [fl]
  have i1 : fl 53 (1 : ℝ) = 1 := by exact_mod_cast fl_int (R := ℝ) 1 (by norm_num)
  have i2 : fl 53 (2 : ℝ) = 2 := by exact_mod_cast fl_int (R := ℝ) 2 (by norm_num)
  have im1 : fl 53 (-1 : ℝ) = -1 := by exact_mod_cast fl_int (R := ℝ) (-1) (by norm_num)
  have im2 : fl 53 (-2 : ℝ) = -2 := by exact_mod_cast fl_int (R := ℝ) (-2) (by norm_num)
  have iB : fl 53 ((2 : ℝ) ^ 52) = 2 ^ 52 := by have := fl_int (R := ℝ) (4503599627370496 : ℤ) (by norm_num); push_cast at this; rwa [show (4503599627370496 : ℝ) = 2 ^ 52 by norm_num] at this
  have iB1 : fl 53 ((2 : ℝ) ^ 52 + 1) = 2 ^ 52 + 1 := by have := fl_int (R := ℝ) (4503599627370497 : ℤ) (by norm_num); push_cast at this; rwa [show (4503599627370497 : ℝ) = 2 ^ 52 + 1 by norm_num] at this
  have i2B : fl 53 ((2 : ℝ) ^ 53) = 2 ^ 53 := by
    have := fl_exact (R := ℝ) (p := 53) 1 53 (by norm_num)
    simpa using this
  have i2B2 : fl 53 ((2 : ℝ) ^ 53 + 2) = 2 ^ 53 + 2 := by
    have := fl_exact (R := ℝ) (p := 53) (2 ^ 52 + 1) 1 (by norm_num)
    rw [show (((2 ^ 52 + 1 : ℤ) : ℝ)) * 2 ^ 1 = 2 ^ 53 + 2 by norm_num] at this
    exact this
  have X0 : double.coord (2 ^ 52) (2 ^ 52 + 1) (2 ^ 52) (-1) (-1) = 2 ^ 52 := by
    unfold Arith.coord double
    simp only [show (-1 : ℝ) + -1 = -2 by norm_num, im2, show -(-2 : ℝ) * 2 ^ 52 = 2 ^ 53 by norm_num, i2B, show (1 : ℝ) + -1 = 0 by norm_num, i0, zero_mul, add_zero, show (0.5 : ℝ) * 2 ^ 53 = 2 ^ 52 by norm_num, iB]
  have X1 : double.coord (2 ^ 52) (2 ^ 52 + 1) (2 ^ 52) 0 (-1) = 2 ^ 52 := by
    unfold Arith.coord double
    simp only [show (0 : ℝ) + -1 = -1 by norm_num, im1, show -(-1 : ℝ) * 2 ^ 52 = 2 ^ 52 by norm_num, iB, add_zero, i1, one_mul, iB1, show (2 : ℝ) ^ 52 + (2 ^ 52 + 1) = 2 ^ 53 + 1 by norm_num, fl_tie,
      show (1 : ℝ) + -1 = 0 by norm_num, i0, zero_mul, i2B, show (0.5 : ℝ) * 2 ^ 53 = 2 ^ 52 by norm_num]
  have X2 : double.coord (2 ^ 52) (2 ^ 52 + 1) (2 ^ 52) 1 (-1) = 2 ^ 52 + 1 := by
    unfold Arith.coord double
    simp only [show (1 : ℝ) + -1 = 0 by norm_num, i0, neg_zero, zero_mul, zero_add, show (1 : ℝ) + 1 = 2 by norm_num, i2, show (2 : ℝ) * (2 ^ 52 + 1) = 2 ^ 53 + 2 by norm_num, i2B2, add_zero,
      show (0.5 : ℝ) * (2 ^ 53 + 2) = 2 ^ 52 + 1 by norm_num, iB1]
  have Y : ∀ t : ℝ, double.coord 0 0 1 t (-1) = 0 := by
    intro t
    unfold Arith.coord double
    simp only [mul_zero, i0, show (1 : ℝ) + -1 = 0 by norm_num, zero_mul, add_zero]
  have thr : 0 < fl 53 ((1e-5 : ℝ)) ∧ fl 53 ((1e-5 : ℝ)) < 1 := by
    have := abs_le.1 (C128_rounding 53 (1e-5 : ℝ))
    norm_num at this
    constructor <;> linarith
  have near : ∀ j ≤ 2, double.near g.tri g.n.r g.n.s 6 1e-5 0 (g.n.mask 0 0) (g.n.mask j 0) = decide (j ≠ 2) := by
    intro j hj
    unfold Arith.near
    simp only [Nat.zero_div, Nat.zero_mod, Nat.div_eq_of_lt (hlt 0 (by omega)), Nat.div_eq_of_lt (hlt j hj), Nat.mod_eq_of_lt (hlt 0 (by omega)), Nat.mod_eq_of_lt (hlt j hj), ht0, hr 0 (by omega), hr j hj, hs 0 (by omega),
      hs j hj, hm1, Y, X0, faceEnds, if_true, sub_self]
    have hD : double.hyp (double.rnd ((2 : ℝ) ^ 52 - (2 ^ 52 + 1))) (double.rnd 0) = 1 := by
      unfold double
      simp only [show (2 : ℝ) ^ 52 - (2 ^ 52 + 1) = -1 by norm_num, im1, i0]
      norm_num [i1]
    have hT : double.rnd (1 * 1e-5) = fl 53 1e-5 := by rw [one_mul]; rfl
    rw [hD, hT]
    have z0 : double.hyp (double.rnd 0) (double.rnd 0) = 0 := by
      unfold double
      simp only [i0]
      norm_num [i0]
    have z1 : double.hyp (double.rnd ((2 : ℝ) ^ 52 + 1 - 2 ^ 52)) (double.rnd 0) = 1 := by
      unfold double
      simp only [show (2 : ℝ) ^ 52 + 1 - 2 ^ 52 = 1 by norm_num, i1, i0]
      norm_num [i1]
    interval_cases j
    · simp only [hm1, X0, sub_self, z0, thr.1]; rfl
    · simp only [hmid, X1, sub_self, z0, thr.1]; rfl
    · simp only [hp1, X2, z1, not_lt.2 thr.2.le]; rfl
  have hne : g.n.mask 1 0 ≠ g.n.mask 0 0 := by
    intro he
    have a := hr 1 (by omega)
    rw [he, hr 0 (by omega), hm1, hmid] at a
    norm_num at a
  have hentry : T.vmapM[0]? = some (g.n.mask 0 0) ∧ T.vmapP[0]? = some (g.n.mask 1 0) := by
    obtain ⟨a, b, -⟩ := hent 0 0 (by omega) (by omega)
    rw [hv 0 (by omega)] at a b
    refine ⟨a, ?_⟩
    simp only [mul_zero, add_zero] at b
    rw [b]
    unfold searchNode
    simp only [id, Nat.zero_mod, Nat.zero_div, vmapM3, mul_zero, add_zero, show List.range 3 = [0, 1, 2] from rfl, List.foldl_cons, List.foldl_nil, near 0 (by omega), near 1 (by omega), near 2 (by omega)]
    simp
  refine ⟨g, g.n.fm, T, h, ?_, ?_, ?_, ?_⟩
  · unfold Arith.grid
    have hn' : (⟨g.n.r, g.n.s, g.n.fm⟩ : RefNodes) = g.n := rfl
    simp only [hmask, hcs, Out.bind_ok, hn', ← htri]
    have : buildMaps ((2 + 1) * (2 + 2) / 2) (2 + 1) 3 far.K g.n.mask far.E far.F (double.near g.tri g.n.r g.n.s ((2 + 1) * (2 + 2) / 2) 1e-5) = .ok T := hT
    rw [this]
    rfl
  · rw [hentry.1, hentry.2]
    simpa using hne
  · rw [hB]
    unfold boundaryOf
    simp only [List.mem_filter, List.getD_eq_getElem?_getD, hentry.1, hentry.2, Option.getD_some, decide_eq_true_eq]
    exact fun hc => hne hc.2
  · intro he
    have a := hg.vmapP 0 (by rw [hK]; show 0 < 3; omega) 0 (by omega)
    rw [← he] at a
    simp only [mul_zero, add_zero, hentry.2, id, across, if_true, hnp, hv 0 (by omega), Option.some.injEq] at a
    exact hne a

end Blitzdg.SW
