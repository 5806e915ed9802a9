import Verif.Drivers.AdvecProps
import Mathlib.Analysis.SpecialFunctions.Trigonometric.DerivHyp

/-! Properties C78 and C79: src/burgers1d/main.cpp. -/

namespace Blitzdg.Drivers

open Polynomial
open Blitzdg.Sparse (DMat)
open Blitzdg.Nodes1D
open Blitzdg.Blitz

variable {xmin xmax : ℝ} {p : Prov}

/-- A flat array of face values: `a k` at the left, `b k` at the right face of element `k`. -/
def Faces (K : ℕ) (l : List ℝ) (a b : ℕ → ℝ) : Prop := l.length = 2 * K ∧ ∀ k < K, l[2 * k]? = some (a k) ∧ l[2 * k + 1]? = some (b k)

theorem Faces.getD {K : ℕ} {l : List ℝ} {a b : ℕ → ℝ} (h : Faces K l a b) {k : ℕ} (hk : k < K) : l.getD (2 * k) 0 = a k ∧ l.getD (2 * k + 1) 0 = b k := by
  rw [List.getD_eq_getElem?_getD, List.getD_eq_getElem?_getD, (h.2 k hk).1, (h.2 k hk).2]
  exact ⟨rfl, rfl⟩

theorem Faces.map (K : ℕ) (F : ℕ → ℝ) (a b : ℕ → ℝ) (h : ∀ k < K, F (2 * k) = a k ∧ F (2 * k + 1) = b k) : Faces K ((List.range (2 * K)).map F) a b := by
  refine ⟨by simp, fun k hk => ?_⟩
  have h0 : 2 * k < 2 * K := by omega
  have h1 : 2 * k + 1 < 2 * K := by omega
  rw [List.getElem?_map, List.getElem?_map, List.getElem?_range h0, List.getElem?_range h1]
  simp only [Option.map_some, (h k hk).1, (h k hk).2, and_self]

theorem Faces.first {K : ℕ} {l : List ℝ} {a b : ℕ → ℝ} (h : Faces K l a b) (x : ℝ) : Faces K (l.set 0 x) (fun k => if k = 0 then x else a k) b := by
  refine ⟨by simp [h.1], fun k hk => ⟨?_, ?_⟩⟩
  · by_cases h0 : k = 0
    · subst h0
      rw [Nat.mul_zero, List.getElem?_set_self (by have := h.1; omega)]; simp
    · rw [List.getElem?_set_ne (by omega), (h.2 k hk).1]; simp [h0]
  · rw [List.getElem?_set_ne (by omega), (h.2 k hk).2]

theorem Faces.last {K : ℕ} {l : List ℝ} {a b : ℕ → ℝ} (h : Faces K l a b) (x : ℝ) : Faces K (l.set (2 * (K - 1) + 1) x) a (fun k => if k + 1 = K then x else b k) := by
  refine ⟨by simp [h.1], fun k hk => ⟨?_, ?_⟩⟩
  · rw [List.getElem?_set_ne (by omega), (h.2 k hk).1]
  · by_cases h0 : k + 1 = K
    · have e : K - 1 = k := by omega
      rw [e, List.getElem?_set_self (by have := h.1; omega)]; simp [h0]
    · rw [List.getElem?_set_ne (by omega), (h.2 k hk).2]; simp [h0]

/-! ### The right-hand side without arrays -/

/-- Jump of the solution at the faces. -/
noncomputable def bJump (p : Prov) (uL uR : ℝ) (u : DMat ℝ) (f k : ℕ) : ℝ :=
  if f = 0 then (if k = 0 then 2 * (u.at' 0 0 - uL) else u.at' 0 k - u.at' p.N (k - 1))
  else (if k + 1 = p.K then 2 * (u.at' p.N (p.K - 1) - uR) else u.at' p.N k - u.at' 0 (k + 1))

/-- The normals. -/
noncomputable def bNx (f : ℕ) : ℝ := if f = 0 then -1 else 1

/-- The scaled gradient. -/
noncomputable def bGrad (p : Prov) (nu uL uR : ℝ) (u : DMat ℝ) : DMat ℝ where
  rows := p.N + 1
  cols := p.K
  at' := fun i k => √nu * (p.rx i k * p.diff u i k - p.lift (fun f k => 0.5 * p.fscale f k * bNx f * bJump p uL uR u f k) i k)

/-- Half the jump of the gradient, none at the ends. -/
noncomputable def bGradJump (p : Prov) (q : DMat ℝ) (f k : ℕ) : ℝ :=
  if f = 0 then (if k = 0 then 0 else 0.5 * (q.at' 0 k - q.at' p.N (k - 1))) else (if k + 1 = p.K then 0 else 0.5 * (q.at' p.N k - q.at' 0 (k + 1)))

/-- The jump of the square, doubled at the ends. -/
noncomputable def bSqJump (p : Prov) (uL uR : ℝ) (u : DMat ℝ) (f k : ℕ) : ℝ :=
  if f = 0 then (if k = 0 then u.at' 0 0 * u.at' 0 0 - uL * uL else 0.5 * (u.at' 0 k * u.at' 0 k - u.at' p.N (k - 1) * u.at' p.N (k - 1)))
  else (if k + 1 = p.K then u.at' p.N (p.K - 1) * u.at' p.N (p.K - 1) - uR * uR else 0.5 * (u.at' p.N k * u.at' p.N k - u.at' 0 (k + 1) * u.at' 0 (k + 1)))

/-- The face term. -/
noncomputable def bFlux (p : Prov) (nu uL uR : ℝ) (u q : DMat ℝ) (f k : ℕ) : ℝ :=
  bNx f * (0.5 * bSqJump p uL uR u f k - √nu * bGradJump p q f k) - 0.5 * maxAbs u * bJump p uL uR u f k

theorem lift_congr (p : Prov) (s s' : ℕ → ℕ → ℝ) (i k : ℕ) (h0 : s 0 k = s' 0 k) (h1 : s 1 k = s' 1 k) : p.lift s i k = p.lift s' i k := by
  simp only [Prov.lift, Finset.sum_range_succ, Finset.sum_range_zero, h0, h1]

theorem nx_at (hp : ProvSpec xmin xmax p) {k : ℕ} (hk : k < p.K) : p.nx.at' 0 k = -1 ∧ p.nx.at' 1 k = 1 := by
  simp only [Prov.nx, Nat.zero_mul, Nat.zero_add, Nat.one_mul, List.getD_eq_getElem?_getD, (hp.nx k hk).1, (hp.nx k hk).2]
  exact ⟨rfl, rfl⟩

theorem grid_ends (hp : ProvSpec xmin xmax p) : p.t.x.at' 0 0 = xmin ∧ p.t.x.at' p.N (p.K - 1) = xmax := by
  have h := hp.ops.nodes
  obtain ⟨K, hK⟩ : ∃ j, p.K = j + 1 := ⟨p.K - 1, by have := hp.posK; omega⟩
  rw [hp.x]
  simp only [grid, h.2.1, h.2.2.1, hK, Nat.add_sub_cancel]
  have : (K : ℝ) + 1 ≠ 0 := by positivity
  constructor
  · push_cast; ring
  · push_cast; field_simp; ring

/-- `computeRHS` of burgers1d without arrays. -/
theorem burgers_closed (hp : ProvSpec xmin xmax p) (t c alpha nu : ℝ) (u : DMat ℝ) (hu : u.rows = p.N + 1 ∧ u.cols = p.K) :
    ∃ R, burgersRHS p p.t.x t c alpha nu u = .ok R ∧ R.rows = p.N + 1 ∧ R.cols = p.K ∧ ∀ i ≤ p.N, ∀ k < p.K,
      let uL := burgers2 xmin t alpha nu c
      let uR := burgers2 xmax t alpha nu c
      R.at' i k = -p.rx i k * p.diff (p.burgersFlux nu u (bGrad p nu uL uR u)) i k +
        p.lift (fun f k => p.fscale f k * bFlux p nu uL uR u (bGrad p nu uL uR u) f k) i k := by
  have hK := hp.posK
  obtain ⟨nv, n1, n2, n3⟩ := normals_vec hp
  have fn : Faces p.K nv (fun _ => -1) (fun _ => 1) := ⟨n2, n3⟩
  obtain ⟨uVec, uM, uP, t1, t2, t3, t4, t5, t6, t7⟩ := traces_ok hp u hu
  have fM : Faces p.K uM _ _ := ⟨t3, t6⟩
  have fP : Faces p.K uP _ _ := ⟨t4, t7⟩
  have hxs : p.t.x.rows = p.N + 1 ∧ p.t.x.cols = p.K := by rw [hp.x]; exact ⟨hp.ops.nodes.1, rfl⟩
  obtain ⟨xVec, x1, x2, x3, -⟩ := C10_flatten p.t.x (zeros ((p.N + 1) * p.K)) false (by simp [zeros, hxs.1, hxs.2])
  have hx0 : xVec[0]? = some xmin := by
    have := x3 0 0 (by omega) (by omega)
    simpa [pos, (grid_ends hp).1] using this
  have hxn : xVec[(p.K - 1) * (p.N + 1) + p.N]? = some xmax := by
    have := x3 p.N (p.K - 1) (by omega) (by omega)
    rw [(grid_ends hp).2] at this
    simpa [pos, hxs.1] using this
  have hu0 : uVec[0]? = some (u.at' 0 0) := by simpa using t5 0 0 (Nat.zero_le _) hK
  have hun := t5 p.N (p.K - 1) (le_refl _) (by omega)
  set uL := burgers2 xmin t alpha nu c
  set uR := burgers2 xmax t alpha nu c
  -- the jump
  have fdu0 : Faces p.K ((List.range (2 * p.K)).map fun g => uM.getD g 0 - uP.getD g 0) _ _ :=
    Faces.map p.K (fun g => uM.getD g 0 - uP.getD g 0) _ _ fun k hk => by rw [(fM.getD hk).1, (fM.getD hk).2, (fP.getD hk).1, (fP.getD hk).2]; exact ⟨rfl, rfl⟩
  have fdu := (fdu0.first (2 * (u.at' 0 0 - uL))).last (2 * (u.at' p.N (p.K - 1) - uR))
  obtain ⟨duM, d1, d2⟩ := faces_mat p.K _ fdu.1 (bJump p uL uR u 0) (bJump p uL uR u 1) (by
    intro k hk
    rw [(fdu.2 k hk).1, (fdu.2 k hk).2]
    constructor
    · congr 1
      by_cases h : k = 0
      · simp [bJump, h]
      · simp [bJump, h]
    · congr 1
      by_cases h : k + 1 = p.K
      · simp [bJump, h]
      · simp [bJump, h])
  -- the gradient
  have hq : ∀ i k, k < p.K → (p.auxiliary nu u duM).at' i k = (bGrad p nu uL uR u).at' i k := by
    intro i k hk
    simp only [Prov.auxiliary, bGrad]
    congr 2
    apply lift_congr
    · rw [(d2 k hk).1, (nx_at hp hk).1]; rfl
    · rw [(d2 k hk).2, (nx_at hp hk).2]; rfl
  obtain ⟨qVec, qM, qP, s1, s2, s3, s4, s5, s6, s7⟩ := traces_ok hp (p.auxiliary nu u duM) ⟨rfl, rfl⟩
  have gM : Faces p.K qM _ _ := ⟨s3, s6⟩
  have gP : Faces p.K qP _ _ := ⟨s4, s7⟩
  have fdq0 : Faces p.K ((List.range (2 * p.K)).map fun g => 0.5 * (qM.getD g 0 - qP.getD g 0)) _ _ :=
    Faces.map p.K (fun g => 0.5 * (qM.getD g 0 - qP.getD g 0)) _ _ fun k hk => by rw [(gM.getD hk).1, (gM.getD hk).2, (gP.getD hk).1, (gP.getD hk).2]; exact ⟨rfl, rfl⟩
  have fdq := (fdq0.last 0).first 0
  have fs0 : Faces p.K ((List.range (2 * p.K)).map fun g => 0.5 * (uM.getD g 0 * uM.getD g 0 - uP.getD g 0 * uP.getD g 0)) _ _ :=
    Faces.map p.K (fun g => 0.5 * (uM.getD g 0 * uM.getD g 0 - uP.getD g 0 * uP.getD g 0)) _ _ fun k hk => by
      rw [(fM.getD hk).1, (fM.getD hk).2, (fP.getD hk).1, (fP.getD hk).2]; exact ⟨rfl, rfl⟩
  have fs := (fs0.first (u.at' 0 0 * u.at' 0 0 - uL * uL)).last (u.at' p.N (p.K - 1) * u.at' p.N (p.K - 1) - uR * uR)
  set du := (((List.range (2 * p.K)).map fun g => uM.getD g 0 - uP.getD g 0).set 0 (2 * (u.at' 0 0 - uL))).set (2 * (p.K - 1) + 1) (2 * (u.at' p.N (p.K - 1) - uR)) with hdu
  set dq := (((List.range (2 * p.K)).map fun g => 0.5 * (qM.getD g 0 - qP.getD g 0)).set (2 * (p.K - 1) + 1) 0).set 0 0 with hdq
  set du2 := (((List.range (2 * p.K)).map fun g => 0.5 * (uM.getD g 0 * uM.getD g 0 - uP.getD g 0 * uP.getD g 0)).set 0 (u.at' 0 0 * u.at' 0 0 - uL * uL)).set
    (2 * (p.K - 1) + 1) (u.at' p.N (p.K - 1) * u.at' p.N (p.K - 1) - uR * uR) with hdu2
  have ff : Faces p.K ((List.range (2 * p.K)).map fun g => nv.getD g 0 * (0.5 * du2.getD g 0 - √nu * dq.getD g 0) - 0.5 * maxAbs u * du.getD g 0)
      (bFlux p nu uL uR u (bGrad p nu uL uR u) 0) (bFlux p nu uL uR u (bGrad p nu uL uR u) 1) := by
    apply Faces.map
    intro k hk
    rw [(fn.getD hk).1, (fn.getD hk).2, (fs.getD hk).1, (fs.getD hk).2, (fdq.getD hk).1, (fdq.getD hk).2, (fdu.getD hk).1, (fdu.getD hk).2]
    constructor
    · by_cases h : k = 0
      · simp [bFlux, bNx, bSqJump, bGradJump, bJump, h]
      · simp [bFlux, bNx, bSqJump, bGradJump, bJump, h, hq 0 k hk, hq p.N (k - 1) (by omega)]
    · by_cases h : k + 1 = p.K
      · simp [bFlux, bNx, bSqJump, bGradJump, bJump, h]
      · simp [bFlux, bNx, bSqJump, bGradJump, bJump, h, hq p.N k hk, hq 0 (k + 1) (by omega)]
  obtain ⟨fl, f1, f2⟩ := faces_mat p.K _ ff.1 _ _ ff.2
  refine ⟨p.burgersSum nu u (p.auxiliary nu u duM) fl, ?_, rfl, rfl, ?_⟩
  · have l1 : ∀ (l : List ℝ) (x : ℝ), l.length = 2 * p.K → wrI l ((2 * (p.K - 1) + 1 : ℕ) : Int) x = .ok (l.set (2 * (p.K - 1) + 1) x) := fun l x h => wrI_nat l _ _ (by omega)
    have l0 : ∀ (l : List ℝ) (x : ℝ), l.length = 2 * p.K → wrI l ((0 : ℕ) : Int) x = .ok (l.set 0 x) := fun l x h => wrI_nat l _ _ (by omega)
    simp only [burgersRHS, n1, x1, Out.bind_ok, t1, mapIO_eq p hK, rdI_nat xVec _ _ hx0, rdI_nat xVec _ _ hxn, rdI_nat uVec _ _ hu0, rdI_nat uVec _ _ hun]
    rw [l0 _ _ (by simp), Out.bind_ok, l1 _ _ (by simp), Out.bind_ok, d1, Out.bind_ok, s1, Out.bind_ok, l1 _ _ (by simp), Out.bind_ok, l0 _ _ (by simp), Out.bind_ok,
      l0 _ _ (by simp), Out.bind_ok, l1 _ _ (by simp), Out.bind_ok, f1, Out.bind_ok]
    rfl
  · intro i hi k hk
    simp only [Prov.burgersSum]
    congr 1
    · congr 1
      simp only [Prov.diff, Prov.burgersFlux]
      exact Finset.sum_congr rfl fun j _ => by rw [hq j k hk]
    · apply lift_congr
      · rw [(f2 k hk).1]
      · rw [(f2 k hk).2]

/-! ### C78 -/

theorem hasDerivAt_tanh (x : ℝ) : HasDerivAt Real.tanh (1 - Real.tanh x ^ 2) x := by
  have h := (Real.hasDerivAt_sinh x).div (Real.hasDerivAt_cosh x) (Real.cosh_pos x).ne'
  have hf : Real.tanh = fun y => Real.sinh y / Real.cosh y := by funext y; exact Real.tanh_eq_sinh_div_cosh y
  rw [hf]
  refine h.congr_deriv ?_
  have := (Real.cosh_pos x).ne'
  field_simp

/-- **C78.** The function used for initial values, boundary values and the error is a solution of `u_t + alpha u u_x = nu u_xx`, everywhere, for all parameters that are not zero. -/
theorem C78_exact (alpha nu c : ℝ) (ha : alpha ≠ 0) (hn : nu ≠ 0) (x t : ℝ) : ∃ (ut uxx : ℝ) (ux : ℝ → ℝ),
    HasDerivAt (fun t => burgers2 x t alpha nu c) ut t ∧ (∀ y, HasDerivAt (fun y => burgers2 y t alpha nu c) (ux y) y) ∧ HasDerivAt ux uxx x ∧
    ut + alpha * burgers2 x t alpha nu c * ux x = nu * uxx := by
  have hth : ∀ y, HasDerivAt (fun y => Real.tanh (0.5 * (c / nu) * (y - c * t))) ((1 - Real.tanh (0.5 * (c / nu) * (y - c * t)) ^ 2) * (0.5 * (c / nu))) y := by
    intro y
    have h1 : HasDerivAt (fun y => 0.5 * (c / nu) * (y - c * t)) (0.5 * (c / nu)) y :=
      (((hasDerivAt_id y).sub_const (c * t)).const_mul (0.5 * (c / nu))).congr_deriv (by ring)
    exact (hasDerivAt_tanh _).comp y h1
  have htt : HasDerivAt (fun t => Real.tanh (0.5 * (c / nu) * (x - c * t))) ((1 - Real.tanh (0.5 * (c / nu) * (x - c * t)) ^ 2) * (0.5 * (c / nu) * (-c))) t := by
    have h1 : HasDerivAt (fun t => 0.5 * (c / nu) * (x - c * t)) (0.5 * (c / nu) * (-c)) t :=
      ((((hasDerivAt_id t).const_mul c).const_sub x).const_mul (0.5 * (c / nu))).congr_deriv (by simp)
    exact (hasDerivAt_tanh _).comp t h1
  refine ⟨_, _, fun y => -(c / alpha * ((1 - Real.tanh (0.5 * (c / nu) * (y - c * t)) ^ 2) * (0.5 * (c / nu)))), (htt.const_mul (c / alpha)).const_sub (c / alpha), fun y => ?_,
    (((((hth x).pow 2).const_sub 1).mul_const (0.5 * (c / nu))).const_mul (c / alpha)).neg, ?_⟩
  · exact ((hth y).const_mul (c / alpha)).const_sub (c / alpha)
  · simp only [burgers2]
    generalize Real.tanh (0.5 * (c / nu) * (x - c * t)) = w
    field_simp
    ring

/-! ### C79 -/

theorem grad_nodal (hp : ProvSpec xmin xmax p) (nu uL uR : ℝ) (u : DMat ℝ) (P : ℕ → ℝ[X]) (hP : Nodal p u P) : ∃ G, Nodal p (bGrad p nu uL uR u) G := by
  obtain ⟨Q, q1, q2, -⟩ := dg_weak hp u P hP (fun f k => 0.5 * bNx f * bJump p uL uR u f k)
  refine ⟨fun k => C (-√nu) * Q k, rfl, rfl, fun k => (natDegree_C_mul_le _ _).trans (q1 k), fun i hi k hk => ?_⟩
  rw [eval_mul, eval_C, ← q2 i hi k hk]
  simp only [bGrad, Prov.lift, Finset.sum_range_succ, Finset.sum_range_zero]
  ring

/-- **C79, conservation.** The total amount changes only through the two ends: at interior faces what leaves one element enters the other.  The flux through an end is that of the boundary
value, `u²/2`, minus the viscous flux, and a penalty on the deviation from the boundary value. -/
theorem C79_conservation (hx : xmin < xmax) (hb : Built xmin xmax p) (t c alpha nu : ℝ) (u : DMat ℝ) (P : ℕ → ℝ[X]) (hP : Nodal p u P) :
    let uL := burgers2 xmin t alpha nu c
    let uR := burgers2 xmax t alpha nu c
    ∃ R Q G, burgersRHS p p.t.x t c alpha nu u = .ok R ∧ Nodal p R Q ∧ Nodal p (bGrad p nu uL uR u) G ∧
      domainInt xmin xmax p (fun k r => (Q k).eval r) =
        (uL ^ 2 / 2 - √nu * (G 0).eval (-1) - maxAbs u * ((P 0).eval (-1) - uL)) -
        (uR ^ 2 / 2 - √nu * (G (p.K - 1)).eval 1 + maxAbs u * ((P (p.K - 1)).eval 1 - uR)) := by
  intro uL uR
  have hp := hb.spec hx
  obtain ⟨R, h1, h2, h3, h4⟩ := burgers_closed hp t c alpha nu u ⟨hP.rows, hP.cols⟩
  obtain ⟨G, hG⟩ := grad_nodal hp nu uL uR u P hP
  obtain ⟨W, hW⟩ := nodal_exists hp (p.burgersFlux nu u (bGrad p nu uL uR u)) ⟨rfl, rfl⟩
  obtain ⟨Q, q1, q2, q3⟩ := dg_weak hp _ W hW (bFlux p nu uL uR u (bGrad p nu uL uR u))
  refine ⟨R, Q, G, h1, ⟨h2, h3, q1, fun i hi k hk => by rw [h4 i hi k hk, q2 i hi k hk]⟩, hG, ?_⟩
  have hWe : ∀ k < p.K, (W k).eval (-1) = 0.5 * (P k).eval (-1) * (P k).eval (-1) - √nu * (G k).eval (-1) ∧
      (W k).eval 1 = 0.5 * (P k).eval 1 * (P k).eval 1 - √nu * (G k).eval 1 := by
    intro k hk
    rw [← (end_vals hp hW hk).1, ← (end_vals hp hW hk).2, ← (end_vals hp hP hk).1, ← (end_vals hp hP hk).2, ← (end_vals hp hG hk).1, ← (end_vals hp hG hk).2]
    exact ⟨rfl, rfl⟩
  have he : ∀ k < p.K, elemInt xmin xmax p (fun r => (Q k).eval r) = (W k).eval (-1) - (W k).eval 1 + bFlux p nu uL uR u (bGrad p nu uL uR u) 0 k +
      bFlux p nu uL uR u (bGrad p nu uL uR u) 1 k := by
    intro k hk
    have := q3 k hk 1 (by simp)
    simp only [eval_one, mul_one, int_deriv] at this
    rw [this]
    ring
  have hgen : ∀ n, n < p.K → ∑ k ∈ Finset.range n, elemInt xmin xmax p (fun r => (Q k).eval r) + (W n).eval (-1) + bFlux p nu uL uR u (bGrad p nu uL uR u) 0 n =
      uL ^ 2 / 2 - √nu * (G 0).eval (-1) - maxAbs u * ((P 0).eval (-1) - uL) := by
    intro n
    induction n with
    | zero =>
      intro hn
      rw [(hWe 0 hn).1]
      simp only [Finset.sum_range_zero, bFlux, bNx, bSqJump, bGradJump, bJump, if_true, (end_vals hp hP hn).1]
      ring
    | succ n ih =>
      intro hn
      have hn' : n < p.K := by omega
      rw [← ih hn', Finset.sum_range_succ, he n hn', (hWe _ hn).1, (hWe _ hn').1, (hWe _ hn').2]
      have hne : n + 1 ≠ p.K := by omega
      simp only [bFlux, bNx, bSqJump, bGradJump, bJump, if_true, one_ne_zero, if_false, Nat.succ_ne_zero, hne, Nat.add_sub_cancel, (end_vals hp hP hn).1, (end_vals hp hP hn').2,
        (end_vals hp hG hn).1, (end_vals hp hG hn').2]
      ring
  have hK := hp.posK
  have hl : p.K - 1 < p.K := by omega
  have := hgen (p.K - 1) hl
  unfold domainInt
  have hr : Finset.range p.K = Finset.range (p.K - 1 + 1) := by rw [Nat.sub_add_cancel hK]
  rw [hr, Finset.sum_range_succ, he _ hl, (hWe _ hl).2, ← this]
  have hll : p.K - 1 + 1 = p.K := by omega
  have e1 : bFlux p nu uL uR u (bGrad p nu uL uR u) 1 (p.K - 1) = 0.5 * ((P (p.K - 1)).eval 1 * (P (p.K - 1)).eval 1 - uR * uR) - maxAbs u * ((P (p.K - 1)).eval 1 - uR) := by
    simp only [bFlux, bNx, bSqJump, bGradJump, bJump, if_true, one_ne_zero, if_false, hll, (end_vals hp hP hl).2]
    ring
  rw [e1]
  ring

theorem burgers_degree (F : ℝ[X]) (nu : ℝ) (N : ℕ) (hF : 2 * F.natDegree ≤ N) : (C (1 / 2) * (F * F) - C nu * derivative F).natDegree ≤ N := by
  have h1 : (C (1 / 2 : ℝ) * (F * F)).natDegree ≤ N := by
    have a := natDegree_C_mul_le (1 / 2 : ℝ) (F * F)
    have b := natDegree_mul_le (p := F) (q := F)
    omega
  have h2 : (C nu * derivative F).natDegree ≤ N := by
    have a := natDegree_C_mul_le nu (derivative F)
    have b := natDegree_derivative_le F
    omega
  exact (natDegree_sub_le_of_le h1 h2).trans (max_self N).le

/-- **C79, consistency.** On the nodal values of a polynomial `F` whose square has degree at most `N` and which takes the boundary values at the ends, the right-hand side is exactly
`-F F' + nu F''` (so `alpha` only enters through the boundary values: the equation solved is the one with `alpha = 1`). -/
theorem C79_consistency (hx : xmin < xmax) (hb : Built xmin xmax p) (t c alpha nu : ℝ) (hnu : 0 ≤ nu) (u : DMat ℝ) (hu : u.rows = p.N + 1 ∧ u.cols = p.K)
    (F : ℝ[X]) (hF : 2 * F.natDegree ≤ p.N) (hL : F.eval xmin = burgers2 xmin t alpha nu c) (hR : F.eval xmax = burgers2 xmax t alpha nu c)
    (hv : ∀ i ≤ p.N, ∀ k < p.K, u.at' i k = F.eval (p.t.x.at' i k)) :
    ∃ R, burgersRHS p p.t.x t c alpha nu u = .ok R ∧ ∀ i ≤ p.N, ∀ k < p.K,
      R.at' i k = -(F.eval (p.t.x.at' i k) * (derivative F).eval (p.t.x.at' i k)) + nu * (derivative (derivative F)).eval (p.t.x.at' i k) := by
  have hp := hb.spec hx
  obtain ⟨R, h1, -, -, h4⟩ := burgers_closed hp t c alpha nu u hu
  have hP := nodal_of_poly hp u hu F (by omega) hv
  refine ⟨R, h1, fun i hi k hk => ?_⟩
  have h4' := h4 i hi k hk
  simp only at h4'
  set uL := burgers2 xmin t alpha nu c
  set uR := burgers2 xmax t alpha nu c
  have cont : ∀ k, k + 1 < p.K → u.at' 0 (k + 1) = u.at' p.N k := by
    intro k hk
    rw [(end_vals hp hP hk).1, (end_vals hp hP (by omega : k < p.K)).2, pullback_end]
  have eL : u.at' 0 0 = uL := by rw [hv 0 (Nat.zero_le _) 0 hp.posK, (grid_ends hp).1, hL]
  have eR : u.at' p.N (p.K - 1) = uR := by rw [hv p.N (le_refl _) (p.K - 1) (by have := hp.posK; omega), (grid_ends hp).2, hR]
  have jump : ∀ f < 2, ∀ k < p.K, bJump p uL uR u f k = 0 := by
    intro f hf k hk
    have : f = 0 ∨ f = 1 := by omega
    rcases this with rfl | rfl
    · simp only [bJump, if_true]
      split
      · rw [eL]; ring
      · rename_i h
        have := cont (k - 1) (by omega)
        rw [Nat.sub_add_cancel (by omega)] at this
        rw [this, sub_self]
    · simp only [bJump, one_ne_zero, if_false]
      split
      · rw [eR]; ring
      · rw [cont k (by omega), sub_self]
  have grad : ∀ i ≤ p.N, ∀ k < p.K, (bGrad p nu uL uR u).at' i k = √nu * (derivative F).eval (p.t.x.at' i k) := by
    intro i hi k hk
    simp only [bGrad, Prov.lift, Finset.sum_range_succ, Finset.sum_range_zero, jump 0 (by omega) k hk, jump 1 (by omega) k hk, mul_zero, add_zero, sub_zero]
    rw [diff_nodal hp hP hi hk, rx_pullback hp F hi hk]
  have hxc : ∀ k, k + 1 < p.K → p.t.x.at' 0 (k + 1) = p.t.x.at' p.N k := by
    intro k hk
    rw [hp.x]
    simp only [grid, hp.ops.nodes.2.1, hp.ops.nodes.2.2.1]
    push_cast; ring
  have gcont : ∀ k, k + 1 < p.K → (bGrad p nu uL uR u).at' 0 (k + 1) = (bGrad p nu uL uR u).at' p.N k := by
    intro k hk
    rw [grad 0 (Nat.zero_le _) _ hk, grad p.N (le_refl _) k (by omega), hxc k hk]
  have flux : ∀ f < 2, bFlux p nu uL uR u (bGrad p nu uL uR u) f k = 0 := by
    intro f hf
    simp only [bFlux, jump f hf k hk]
    have e1 : bSqJump p uL uR u f k = 0 := by
      have : f = 0 ∨ f = 1 := by omega
      rcases this with rfl | rfl
      · simp only [bSqJump, if_true]
        split
        · rw [eL]; ring
        · have := cont (k - 1) (by omega)
          rw [Nat.sub_add_cancel (by omega)] at this
          rw [this]; ring
      · simp only [bSqJump, one_ne_zero, if_false]
        split
        · rw [eR]; ring
        · rw [cont k (by omega)]; ring
    have e2 : bGradJump p (bGrad p nu uL uR u) f k = 0 := by
      have : f = 0 ∨ f = 1 := by omega
      rcases this with rfl | rfl
      · simp only [bGradJump, if_true]
        split
        · rfl
        · have := gcont (k - 1) (by omega)
          rw [Nat.sub_add_cancel (by omega)] at this
          rw [this]; ring
      · simp only [bGradJump, one_ne_zero, if_false]
        split
        · rfl
        · rw [gcont k (by omega)]; ring
    rw [e1, e2]; ring
  have hS : Nodal p (p.burgersFlux nu u (bGrad p nu uL uR u)) (pullback xmin xmax p (C (1 / 2) * (F * F) - C nu * derivative F)) := by
    refine nodal_of_poly hp _ ⟨rfl, rfl⟩ _ ?_ fun i hi k hk => ?_
    · exact burgers_degree F nu p.N hF
    · simp only [Prov.burgersFlux]
      rw [grad i hi k hk, hv i hi k hk]
      simp only [eval_sub, eval_mul, eval_C]
      have := Real.mul_self_sqrt hnu
      linear_combination (-(derivative F).eval (p.t.x.at' i k)) * this
  rw [h4']
  simp only [Prov.lift, Finset.sum_range_succ, Finset.sum_range_zero, flux 0 (by omega), flux 1 (by omega), mul_zero, add_zero]
  rw [diff_nodal hp hS hi hk, neg_mul, rx_pullback hp _ hi hk]
  simp only [derivative_sub, derivative_mul, derivative_C, eval_zero, eval_sub, eval_mul, eval_C, eval_add]
  ring

/-- Boundary values and polynomial fit together for the constant solution: with `c = 0` both are 0 (a case meeting the hypotheses of `C79_consistency`). -/
example : ∃ p, Built (-5) 5 p ∧ ∃ F : ℝ[X], 2 * F.natDegree ≤ p.N ∧ F.natDegree = 2 ∧ F.eval (-5) = burgers2 (-5) 0 1 0.1 0 ∧ F.eval 5 = burgers2 5 0 1 0.1 0 := by
  obtain ⟨p, h1, h2, -⟩ := built_exists (xmin := -5) (xmax := 5) (by norm_num) 6 40 (by norm_num) (by norm_num) (by norm_num [intMax])
  have hd : (X ^ 2 - C 25 : ℝ[X]).natDegree = 2 := natDegree_X_pow_sub_C
  refine ⟨p, h1, X ^ 2 - C 25, by rw [hd, h2]; norm_num, hd, ?_, ?_⟩ <;> norm_num [burgers2]

end Blitzdg.Drivers
