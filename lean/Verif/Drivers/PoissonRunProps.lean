import Verif.Drivers.PoissonRun
import Verif.Drivers.BurgersRunProps
import Verif.Drivers.Poisson1DProps
import Verif.Drivers.Poisson2DProps
import Verif.Gmres.Real
import Verif.Output.PrintProps

/-! Property C148: the programs poisson1d and poisson2d from start to end. -/

/-! ### The state of the callbacks -/

namespace Blitzdg.Gmres

variable {σ F E : Type}

section State

variable (A : Arith F E) {mv pc : Callback σ E} (hm : ∀ s v o, (mv s v o).2.2 = s) (hq : ∀ s v o, (pc s v o).2.2 = s)

/-- The callbacks' state in an outcome of an inner iteration, and of the inner loop. -/
def Step.st : Step σ F E → σ
  | .ret _ _ W => W.st
  | .brk _ c => c.W.st
  | .next c => c.W.st
def InnerRes.st : InnerRes σ F E → σ
  | .ret _ _ _ W => W.st
  | .done _ _ _ c => c.W.st

include hm hq in
theorem innerStep_st (junk : Nat → E) (tol dtol : F) (i : Nat) (c : Cyc σ F E) : (innerStep A mv pc junk tol dtol i c).st = c.W.st := by
  unfold innerStep innerTests
  simp only [callPc, callMv]
  have e1 (f : Flag) (m : String) (W : World σ E) : (Step.ret f m W : Step σ F E).st = W.st := rfl
  have e2 (f : Flag) (c : Cyc σ F E) : (Step.brk f c).st = c.W.st := rfl
  have e3 (c : Cyc σ F E) : (Step.next c).st = c.W.st := rfl
  simp only [apply_ite Step.st, e1, e2, e3, hm, hq, ite_self]

include hm hq in
theorem innerLoop_st (junk : Nat → E) (tol dtol : F) (n : Nat) : ∀ (i its : Nat) (c : Cyc σ F E), (innerLoop A mv pc junk tol dtol n i its c).st = c.W.st := by
  induction n with
  | zero => intro i its c; rfl
  | succ n ih =>
    intro i its c
    have h := innerStep_st A hm hq junk tol dtol i c
    unfold innerLoop
    cases e : innerStep A mv pc junk tol dtol i c with
    | ret f msg W => rw [e] at h; exact h
    | brk f c' => rw [e] at h; exact h
    | next c' => rw [e] at h; exact (ih (i + 1) i c').trans h

/-- The callbacks' state in an outcome of the outer loop. -/
def OuterRes.st : OuterRes σ F E → σ
  | .ret R => R.W.st
  | .brk S _ => S.W.st
  | .next S => S.W.st

include hm hq in
theorem outerStep_st (p : Params F) (b : E) (junk : Nat → E) (m : Nat) (bInv tol dtol : F) (k : Nat) (S : St σ F E) :
    (outerStep A mv pc p b junk m bInv tol dtol k S).st = S.W.st := by
  unfold outerStep
  have h := innerLoop_st A hm hq junk tol dtol m 0 S.out.innerIts
    { V := [A.vscale (A.div A.one S.rnrm) S.r], H := [], giv := [], s := S.rnrm :: List.replicate m A.zero, w := S.w, pv := S.pv, rnrm := S.rnrm, W := S.W }
  simp only at h ⊢
  cases e : innerLoop A mv pc junk tol dtol m 0 S.out.innerIts
    { V := [A.vscale (A.div A.one S.rnrm) S.r], H := [], giv := [], s := S.rnrm :: List.replicate m A.zero, w := S.w, pv := S.pv, rnrm := S.rnrm, W := S.W } with
  | ret f msg its W => rw [e] at h; exact h
  | done f iu its c =>
    rw [e] at h
    simp only [InnerRes.st] at h
    simp only
    unfold afterInner afterResidual
    simp only [callPc, callMv]
    have e1 (R : Res σ F E) : (OuterRes.ret R).st = R.W.st := rfl
    have e2 (S : St σ F E) (t : Bool) : (OuterRes.brk S t).st = S.W.st := rfl
    have e3 (S : St σ F E) : (OuterRes.next S).st = S.W.st := rfl
    simp only [apply_ite OuterRes.st, e1, e2, e3, hm, hq, h, ite_self]

include hm hq in
theorem outerLoop_st (p : Params F) (b : E) (junk : Nat → Nat → E) (m : Nat) (bInv tol dtol : F) (n : Nat) : ∀ (k : Nat) (S : St σ F E),
    (outerLoop A mv pc p b junk m bInv tol dtol n k S).st = S.W.st := by
  induction n with
  | zero => intro k S; rfl
  | succ n ih =>
    intro k S
    have h := outerStep_st A hm hq p b (junk k) m bInv tol dtol k S
    unfold outerLoop
    cases e : outerStep A mv pc p b (junk k) m bInv tol dtol k S with
    | ret R => rw [e] at h; exact h
    | brk S' t => rw [e] at h; exact h
    | next S' => rw [e] at h; exact (ih (k + 1) S').trans h

include hm hq in
/-- If the callbacks leave their state alone, so does `solve`. -/
theorem solve_st (N : Nat) (w0 pv0 : E) (junk : Nat → Nat → E) (p : Params F) (b x : E) (W : World σ E) :
    (solve A mv pc N w0 pv0 junk p b x W).W.st = W.st := by
  have hfin (bInv tol : F) (S : St σ F E) (t : Bool) : (finish A mv b bInv tol S t).W.st = S.W.st := by
    unfold finish
    simp only [callMv]
    split_ifs <;> simp only [hm]
  have hit (m : Nat) (S : St σ F E) : (iterate A mv pc p b junk m S).W.st = S.W.st := by
    unfold iterate
    simp only
    split_ifs
    · rfl
    · rfl
    · have h := outerLoop_st A hm hq p b junk m (A.div A.one (bnorm A b)) (convTol A p b) (A.mul p.divTol S.rnrm) p.maxits.toNat 0 S
      cases e : outerLoop A mv pc p b junk m (A.div A.one (bnorm A b)) (convTol A p b) (A.mul p.divTol S.rnrm) p.maxits.toNat 0 S with
      | ret R => rw [e] at h; exact h
      | brk S' t => rw [e] at h; exact (hfin _ _ _ _).trans h
      | next S' => rw [e] at h; exact (hfin _ _ _ _).trans h
  unfold solve
  simp only [callMv, apply_ite Res.W, apply_ite World.st, hit, hm, ite_self]

end State

end Blitzdg.Gmres

namespace Blitzdg.PoissonRun

open Polynomial
open Blitzdg.Sparse (DMat)
open Blitzdg.Blitz (reshapeMatTo1D reshape1DToMat C10_flatten C10_unflatten)
open Blitzdg.Gmres (Arith Params GOut Callback Exact Valid Computes)

/-! ### Specification -/

/-- The Euclidean norm of a list of numbers. -/
noncomputable def size (l : List ℝ) : ℝ := Real.sqrt ((l.map (· ^ 2)).sum)

/-- Entry by entry difference. -/
noncomputable def minus (a b : List ℝ) : List ℝ := List.zipWith (· - ·) a b

open Classical in
/-- What residuals are measured against: the norm of the right-hand side, or 1 if that is zero. -/
noncomputable def yard (b : List ℝ) : ℝ := if ∀ x ∈ b, x = 0 then 1 else size b

/-- The report `o` is true for a vector which the operator turns into `w`, for the right-hand side `b`: the residual is the one reported; success is reported exactly if it is below the
tolerance; otherwise the flag is stagnation, maximal number of iterations or breakdown; and the residual is not larger than the one at the beginning. -/
structure Tells (b w : List ℝ) (rel abs start : ℝ) (o : GOut ℝ) : Prop where
  reported : o.relres * yard b = size (minus b w)
  success : o.flag = .success ↔ size (minus b w) ≤ max (rel * yard b) abs
  flags : o.flag = .success ∨ o.flag = .stagnation ∨ o.flag = .maxits ∨ o.flag = .breakdown
  better : size (minus b w) ≤ start

/-! ### Vectors and lists -/

variable {n : ℕ}

theorem entries_length (x : Vec n) : (entries x).length = n := by simp [entries]

theorem entries_getD (x : Vec n) (i : Fin n) : (entries x).getD i 0 = x i := by simp [entries]

theorem vec_entries (x : Vec n) : vec n (entries x) = x := by
  ext i
  exact entries_getD x i

theorem entries_vec {l : List ℝ} (h : l.length = n) : entries (vec n l) = l := by
  apply List.ext_getElem (by rw [entries_length, h])
  intro i h1 h2
  simp [entries, vec, h2]

theorem size_entries (x : Vec n) : size (entries x) = ‖x‖ := by
  unfold size entries
  rw [EuclideanSpace.norm_eq, List.map_ofFn, List.sum_ofFn]
  congr 1
  refine Finset.sum_congr rfl fun i _ => ?_
  simp

theorem minus_entries (x y : Vec n) : minus (entries x) (entries y) = entries (x - y) := by
  apply List.ext_getElem (by simp [minus, entries])
  intro i h1 h2
  simp [minus, entries]

theorem yard_entries (x : Vec n) : yard (entries x) = Gmres.scaleOf x := by
  unfold yard Gmres.scaleOf
  have : (∀ a ∈ entries x, a = 0) ↔ x = 0 := by
    constructor
    · intro h
      ext i
      exact h _ (by simp [entries])
    · rintro rfl a ha
      simp [entries] at ha
      exact ha.2
  by_cases hx : x = 0
  · rw [if_pos (this.2 hx), if_pos hx]
  · rw [if_neg (fun h => hx (this.1 h)), if_neg hx, size_entries]

/-! ### The call of the solver -/

/-- An operator which succeeds on all vectors and respects sums and multiples is a linear map. -/
theorem linear_of (op : List ℝ → List ℝ → Out (List ℝ)) (htot : ∀ v o, v.length = n → o.length = n → ∃ w, op v o = .ok w ∧ w.length = n)
    (hlin : ∀ v v1 v2 o o1 o2 w w1 w2 : List ℝ, ∀ c : ℝ, v.length = n → v1.length = n → v2.length = n → o.length = n → o1.length = n → o2.length = n →
      (∀ i < n, v.getD i 0 = v1.getD i 0 + c * v2.getD i 0) → op v o = .ok w → op v1 o1 = .ok w1 → op v2 o2 = .ok w2 → ∀ i < n, w.getD i 0 = w1.getD i 0 + c * w2.getD i 0) :
    ∃ L : Vec n →ₗ[ℝ] Vec n, ∀ v o, v.length = n → o.length = n → op v o = .ok (entries (L (vec n v))) := by
  choose! T hT hTl using fun x : Vec n => htot (entries x) (List.replicate n 0) (entries_length x) (by simp)
  have hcomb (x y : Vec n) (c : ℝ) : vec n (T (x + c • y)) = vec n (T x) + c • vec n (T y) := by
    ext i
    refine hlin (entries (x + c • y)) (entries x) (entries y) _ _ _ _ _ _ c (entries_length _) (entries_length _) (entries_length _) (by simp) (by simp) (by simp) ?_ (hT _) (hT _) (hT _) i i.2
    intro j hj
    rw [entries_getD _ ⟨j, hj⟩, entries_getD _ ⟨j, hj⟩, entries_getD _ ⟨j, hj⟩]
    rfl
  have h0 : vec n (T 0) = 0 := by
    have := hcomb 0 0 1
    rw [one_smul, one_smul, add_zero] at this
    exact (left_eq_add.1 this)
  refine ⟨{ toFun := fun x => vec n (T x), map_add' := fun x y => by simpa using hcomb x y 1, map_smul' := fun c x => by simpa [h0] using hcomb 0 x c }, ?_⟩
  intro v o hv ho
  obtain ⟨w, hw, hwl⟩ := htot v o hv ho
  rw [hw]
  congr 1
  show w = entries (vec n (T (vec n v)))
  rw [entries_vec (hTl _)]
  apply List.ext_getElem (by rw [hwl, hTl])
  intro i h1 h2
  have hi : i < n := hwl ▸ h1
  have := hlin v (entries (vec n v)) (entries (vec n v)) o _ _ w _ _ 0 hv (entries_length _) (entries_length _) ho (by simp) (by simp)
    (by intro j hj; rw [entries_vec hv]; ring) hw (hT (vec n v)) (hT (vec n v)) i hi
  rw [zero_mul, add_zero] at this
  simpa [h1, h2] using this

/-- The call of the solver in exact arithmetic, for a linear operator. -/
theorem gmres_tells (S : Solver n) (hA : Exact S.A) (op : List ℝ → List ℝ → Out (List ℝ)) (L : Vec n →ₗ[ℝ] Vec n)
    (hop : ∀ v o, v.length = n → o.length = n → op v o = .ok (entries (L (vec n v)))) (params : Params ℝ) (hp : Valid params) (hd : 1 < params.divTol) (b x : List ℝ) (hb : b.length = n) :
    ∃ o v, gmres S op params b x = .ok (o, v) ∧ v.length = n ∧
      Tells b (entries (L (vec n v))) params.relTol params.absTol (size (minus b (entries (L (vec n x))))) o ∧
      ((n : Int) ≤ params.kspaceSz → (∀ v v' out : List ℝ, v.length = n → v'.length = n → out.length = n → op v out = op v' out → v = v') → o.flag = .success) := by
  have hprod : ∀ (s : Out Unit) (v o : Vec n), product op s v o = (true, L v, s) := by
    intro s v o
    unfold product
    rw [hop (entries v) (entries o) (entries_length v) (entries_length o)]
    simp only [vec_entries]
  have hmv : Computes (product (n := n) op) L := fun s v o => by rw [hprod]; exact ⟨rfl, rfl⟩
  have hpc : Computes (copy (n := n)) LinearMap.id := fun s v o => ⟨rfl, rfl⟩
  obtain ⟨R, hR⟩ : ∃ R, R = Gmres.solve S.A (product op) copy n S.w0 S.pv0 S.junk params (vec n b) (vec n x) ⟨.ok (), []⟩ := ⟨_, rfl⟩
  obtain ⟨o, h1, h2, h3, h4, -⟩ := Gmres.C33_reported_residual hA hmv hpc n S.w0 S.pv0 S.junk params (vec n b) (vec n x) (.ok ()) hp R hR
  obtain ⟨g1, g2⟩ := Gmres.C34_never_worse hA hmv hpc n S.w0 S.pv0 S.junk params (vec n b) (vec n x) (.ok ()) hp R hR
  have hst : R.W.st = .ok () := by
    rw [hR]
    exact Gmres.solve_st S.A (fun s v o => by rw [hprod]) (fun s v o => rfl) n S.w0 S.pv0 S.junk params _ _ _
  have hbe := entries_vec hb
  have hres (y : Vec n) : size (minus b (entries (L y))) = ‖vec n b - L y‖ := by
    rw [← size_entries, ← minus_entries, hbe]
  have hy : yard b = Gmres.scaleOf (vec n b) := by rw [← yard_entries, hbe]
  refine ⟨o, entries R.x, ?_, entries_length _, ?_⟩
  · unfold gmres
    simp only [← hR, h1, hst]
    rfl
  · rw [vec_entries]
    refine ⟨⟨by rw [hres, hy, h2], by rw [hres, hy, h3], ?_, by rw [hres, hres]; exact g1⟩, fun hk hi => ?_⟩
    · have := g2 hd o h1
      tauto
    · have hinj : Function.Injective (L ∘ₗ LinearMap.id) := by
        intro y z hyz
        have hyz : L y = L z := hyz
        have := hi (entries y) (entries z) (entries y) (entries_length _) (entries_length _) (entries_length _)
          (by rw [hop _ _ (entries_length _) (entries_length _), hop _ _ (entries_length _) (entries_length _), vec_entries, vec_entries, hyz])
        rw [← vec_entries y, this, vec_entries]
      obtain ⟨o', k1, k2, -⟩ := Gmres.C64_full_gmres_succeeds hA hmv hpc n S.w0 S.pv0 S.junk params (vec n b) (vec n x) (.ok ()) hp (by simp) hk hd hinj R hR
      rw [h1] at k1
      cases k1
      exact k2

/-! ### The operators are linear -/

section Lin1

open Blitzdg.Drivers

variable {xmin xmax : ℝ} {p : Prov} {u a b : DMat ℝ} {c : ℝ}

theorem lap_lin (h : ∀ i ≤ p.N, ∀ k < p.K, u.at' i k = a.at' i k + c * b.at' i k) {i k : ℕ} (hk : k < p.K) : (p.massMul (pLap p u)).at' i k = (p.massMul (pLap p a)).at' i k + c * (p.massMul (pLap p b)).at' i k := by
  have hdiff {u a b : DMat ℝ} (h : ∀ i ≤ p.N, ∀ k < p.K, u.at' i k = a.at' i k + c * b.at' i k) (i k : ℕ) (hk : k < p.K) : p.diff u i k = p.diff a i k + c * p.diff b i k := by
    unfold Prov.diff
    rw [Finset.mul_sum, ← Finset.sum_add_distrib]
    refine Finset.sum_congr rfl fun j hj => ?_
    rw [h j (by have := Finset.mem_range.1 hj; omega) k hk]
    ring
  have hlift {s t r : ℕ → ℕ → ℝ} {k : ℕ} (h : ∀ f < 2, s f k = t f k + c * r f k) (i : ℕ) : p.lift s i k = p.lift t i k + c * p.lift r i k := by
    unfold Prov.lift
    rw [Finset.mul_sum, ← Finset.sum_add_distrib]
    refine Finset.sum_congr rfl fun f hf => ?_
    rw [h f (Finset.mem_range.1 hf)]
    ring
  have hjump (f k : ℕ) (hk : k < p.K) : pJump p u f k = pJump p a f k + c * pJump p b f k := by
    unfold pJump
    have h1 := h 0 (by omega) k hk
    have h2 := h p.N (by omega) k hk
    have h3 := h 0 (by omega) 0 (by omega)
    have h4 := h p.N (by omega) (k - 1) (by omega)
    by_cases hl : k + 1 = p.K
    · split_ifs <;> simp only [h1, h2, h3, h4] <;> ring
    · have h5 := h 0 (by omega) (k + 1) (by omega)
      split_ifs <;> simp only [h1, h2, h3, h4, h5] <;> ring
  have haux (i k : ℕ) (hk : k < p.K) : (pAux p u).at' i k = (pAux p a).at' i k + c * (pAux p b).at' i k := by
    simp only [pAux]
    rw [hdiff h i k hk, hlift (t := fun f k => p.fscale f k * (bNx f * pJump p a f k / 2)) (r := fun f k => p.fscale f k * (bNx f * pJump p b f k / 2))
      (fun f _ => by simp only [hjump f k hk]; ring)]
    ring
  have hslope (i k : ℕ) (hk : k < p.K) : (p.slope u).at' i k = (p.slope a).at' i k + c * (p.slope b).at' i k := by
    simp only [Prov.slope]
    rw [hdiff h i k hk]
    ring
  have hsj (f k : ℕ) (hk : k < p.K) : pSlopeJump p u f k = pSlopeJump p a f k + c * pSlopeJump p b f k := by
    unfold pSlopeJump
    have h0 := haux 0 k hk
    have h0' := haux p.N k hk
    have h1 := hslope 0 k hk
    have h2 := hslope p.N k hk
    have h3 := hslope 0 0 (by omega)
    have h4 := hslope p.N (k - 1) (by omega)
    by_cases hl : k + 1 = p.K
    · split_ifs <;> simp only [h0, h0', h1, h2, h3, h4] <;> ring
    · have h5 := hslope 0 (k + 1) (by omega)
      split_ifs <;> simp only [h0, h0', h1, h2, h3, h4, h5] <;> ring
  have hlap (i k : ℕ) (hk : k < p.K) : (pLap p u).at' i k = (pLap p a).at' i k + c * (pLap p b).at' i k := by
    simp only [pLap]
    rw [hdiff (fun i _ k hk => haux i k hk) i k hk, hlift (t := fun f k => bNx f * (pSlopeJump p a f k + p.tau * bNx f * pJump p a f k))
      (r := fun f k => bNx f * (pSlopeJump p b f k + p.tau * bNx f * pJump p b f k)) (fun f _ => by simp only [hjump f k hk, hsj f k hk]; ring)]
    ring
  simp only [Prov.massMul]
  rw [show ∑ j ∈ Finset.range (p.N + 1), p.mass i j * (pLap p u).at' j k = ∑ j ∈ Finset.range (p.N + 1), p.mass i j * (pLap p a).at' j k +
    c * ∑ j ∈ Finset.range (p.N + 1), p.mass i j * (pLap p b).at' j k by
      rw [Finset.mul_sum, ← Finset.sum_add_distrib]
      exact Finset.sum_congr rfl fun j _ => by rw [hlap j k hk]; ring]
  ring

theorem getD_of {l : List ℝ} {i : ℕ} {x : ℝ} (h : l[i]? = some x) : l.getD i 0 = x := by simp [h]

theorem linear1 (hp : ProvSpec xmin xmax p) :
    ∃ L : Vec ((p.N + 1) * p.K) →ₗ[ℝ] Vec ((p.N + 1) * p.K), ∀ v o, v.length = (p.N + 1) * p.K → o.length = (p.N + 1) * p.K → poisson1dOp p v o = .ok (entries (L (vec _ v))) := by
  apply linear_of
  · intro v o hv ho
    obtain ⟨u, w, -, -, h1, h2, -⟩ := op_closed hp v o hv ho
    exact ⟨w, h1, h2⟩
  · intro v v1 v2 o o1 o2 w w1 w2 c hv hv1 hv2 ho ho1 ho2 hc hw hw1 hw2 j hj
    obtain ⟨u, w', f, -, h1, h2, h3⟩ := op_closed hp v o hv ho
    obtain ⟨u1, w1', f1, -, h11, h12, h13⟩ := op_closed hp v1 o1 hv1 ho1
    obtain ⟨u2, w2', f2, -, h21, h22, h23⟩ := op_closed hp v2 o2 hv2 ho2
    rw [hw] at h1; rw [hw1] at h11; rw [hw2] at h21
    cases h1; cases h11; cases h21
    have hi : j % (p.N + 1) ≤ p.N := by exact Nat.le_of_lt_succ (Nat.mod_lt j (Nat.succ_pos p.N))
    have hk : j / (p.N + 1) < p.K := Nat.div_lt_of_lt_mul hj
    have e : j / (p.N + 1) * (p.N + 1) + j % (p.N + 1) = j := Nat.div_add_mod' j (p.N + 1)
    have r := h3 _ _ hi hk
    have r1 := h13 _ _ hi hk
    have r2 := h23 _ _ hi hk
    rw [e] at r r1 r2
    rw [getD_of r, getD_of r1, getD_of r2]
    refine lap_lin (fun i hi k hk => ?_) hk
    have hlt : k * (p.N + 1) + i < (p.N + 1) * p.K := by
      have : (k + 1) * (p.N + 1) ≤ p.K * (p.N + 1) := Nat.mul_le_mul_right _ hk
      rw [Nat.add_mul, Nat.one_mul] at this
      rw [Nat.mul_comm (p.N + 1)]
      omega
    have := hc _ hlt
    rwa [getD_of (f.2 i k hi hk), getD_of (f1.2 i k hi hk), getD_of (f2.2 i k hi hk)] at this

end Lin1

section Lin2

open Blitzdg.SW hiding wallStep
open Blitzdg.Poisson2D

variable {P : ℕ → ℕ} {x : List ℝ} {bt : List Int} {g : Grid}

theorem gradX_lin (g : Grid) (a b : ℕ → ℕ → ℝ) (c : ℝ) : gradX g (fun i k => a i k + c * b i k) = fun i k => gradX g a i k + c * gradX g b i k := by
  funext i k
  simp only [gradX, dr, ds]
  have e (D : DMat ℝ) : ∑ j ∈ Finset.range g.np, D.at' i j * (a j k + c * b j k) = ∑ j ∈ Finset.range g.np, D.at' i j * a j k + c * ∑ j ∈ Finset.range g.np, D.at' i j * b j k := by
    rw [Finset.mul_sum, ← Finset.sum_add_distrib]
    exact Finset.sum_congr rfl fun j _ => by ring
  rw [e, e]
  ring

theorem gradY_lin (g : Grid) (a b : ℕ → ℕ → ℝ) (c : ℝ) : gradY g (fun i k => a i k + c * b i k) = fun i k => gradY g a i k + c * gradY g b i k := by
  funext i k
  simp only [gradY, dr, ds]
  have e (D : DMat ℝ) : ∑ j ∈ Finset.range g.np, D.at' i j * (a j k + c * b j k) = ∑ j ∈ Finset.range g.np, D.at' i j * a j k + c * ∑ j ∈ Finset.range g.np, D.at' i j * b j k := by
    rw [Finset.mul_sum, ← Finset.sum_add_distrib]
    exact Finset.sum_congr rfl fun j _ => by ring
  rw [e, e]
  ring

theorem faceLift_lin (g : Grid) {w v r : ℕ → ℕ → ℝ} (c : ℝ) (h : ∀ e j, w e j = v e j + c * r e j) (i k : ℕ) : faceLift g w i k = faceLift g v i k + c * faceLift g r i k := by
  have : w = fun e j => v e j + c * r e j := by funext e j; exact h e j
  rw [this, faceLift_add, faceLift_smul]

theorem opAt_lin (P : ℕ → ℕ) (bt : List Int) (g : Grid) (a b : ℕ → ℕ → ℝ) (c : ℝ) (i k : ℕ) : opAt P bt g (fun i k => a i k + c * b i k) i k = opAt P bt g a i k + c * opAt P bt g b i k := by
  have hj (e i : ℕ) : jump P bt g (fun i k => a i k + c * b i k) e i = jump P bt g a e i + c * jump P bt g b e i := by
    unfold jump inV outV
    split_ifs <;> ring
  have hX : auxX P bt g (fun i k => a i k + c * b i k) = fun i k => auxX P bt g a i k + c * auxX P bt g b i k := by
    funext i k
    unfold auxX
    rw [gradX_lin, faceLift_lin g c (v := fun e j => fs g e * ((faceNormal g e).1 * jump P bt g a e j / 2)) (r := fun e j => fs g e * ((faceNormal g e).1 * jump P bt g b e j / 2))
      (fun e j => by rw [hj]; ring)]
    ring
  have hY : auxY P bt g (fun i k => a i k + c * b i k) = fun i k => auxY P bt g a i k + c * auxY P bt g b i k := by
    funext i k
    unfold auxY
    rw [gradY_lin, faceLift_lin g c (v := fun e j => fs g e * ((faceNormal g e).2 * jump P bt g a e j / 2)) (r := fun e j => fs g e * ((faceNormal g e).2 * jump P bt g b e j / 2))
      (fun e j => by rw [hj]; ring)]
    ring
  have hm (e i : ℕ) : meanSlope P bt g (fun i k => a i k + c * b i k) e i = meanSlope P bt g a e i + c * meanSlope P bt g b e i := by
    unfold meanSlope
    rw [gradX_lin, gradY_lin]
    unfold inV outV
    split_ifs <;> ring
  unfold opAt
  rw [hX, hY, gradX_lin, gradY_lin, faceLift_lin g c (v := surf P bt g a) (r := surf P bt g b) (fun e j => by
    unfold surf
    rw [hX, hY, hm, hj]
    unfold inV
    ring)]
  ring

theorem linear2 (hg : GridSpec P x bt g) (hw : ∃ e < 3 * g.K, bt[e]? = some 3) :
    ∃ L : Vec (g.np * g.K) →ₗ[ℝ] Vec (g.np * g.K), ∀ v o, v.length = g.np * g.K → o.length = g.np * g.K → op g v o = .ok (entries (L (vec _ v))) := by
  apply linear_of
  · intro v o hv ho
    obtain ⟨w, h1, h2, -⟩ := op_ok hg hw v o (by omega) (by omega)
    exact ⟨w, h1, by omega⟩
  · intro v v1 v2 o o1 o2 w w1 w2 c hv hv1 hv2 ho ho1 ho2 hc e e1 e2 j hj
    obtain ⟨w', h1, -, h3, -⟩ := op_ok hg hw v o (by omega) (by omega)
    obtain ⟨w1', h11, -, h13, -⟩ := op_ok hg hw v1 o1 (by omega) (by omega)
    obtain ⟨w2', h21, -, h23, -⟩ := op_ok hg hw v2 o2 (by omega) (by omega)
    rw [e] at h1; rw [e1] at h11; rw [e2] at h21
    cases h1; cases h11; cases h21
    have hi : j % g.np < g.np := Nat.mod_lt j (np_pos g)
    have hk : j / g.np < g.K := Nat.div_lt_of_lt_mul hj
    have r := h3 _ hk _ hi
    have r1 := h13 _ hk _ hi
    have r2 := h23 _ hk _ hi
    rw [Nat.mod_add_div] at r r1 r2
    rw [getD_of r, getD_of r1, getD_of r2, ← opAt_lin]
    refine opAt_congr hg (fun i hi k hk => hc _ ?_) hk
    have : g.np * (k + 1) ≤ g.np * g.K := Nat.mul_le_mul_left _ hk
    rw [Nat.mul_add, Nat.mul_one] at this
    omega

end Lin2

/-! ### The one-dimensional program -/

section Run1

open Blitzdg.Drivers

variable {xmin xmax : ℝ} {p : Prov}

/-- The field `m` holds the values of `f` at the nodes. -/
def At (p : Prov) (f : ℝ → ℝ) (m : DMat ℝ) : Prop := (m.rows = p.N + 1 ∧ m.cols = p.K) ∧ ∀ i ≤ p.N, ∀ k < p.K, m.at' i k = f (p.t.x.at' i k)

theorem defaults_valid : Valid defaults := by
  refine ⟨?_, ?_, ?_, ?_, ?_, ?_⟩ <;> norm_num [defaults]

theorem unflat (v : List ℝ) (hv : v.length = (p.N + 1) * p.K) (u0 : DMat ℝ) (hu : u0.rows = p.N + 1 ∧ u0.cols = p.K) :
    ∃ u, reshape1DToMat v u0 false = .ok u ∧ (u.rows = p.N + 1 ∧ u.cols = p.K) ∧ Flat p v u := by
  obtain ⟨m, h1, h2, h3, h4⟩ := C10_unflatten v u0 false (by rw [hv, hu.1, hu.2])
  refine ⟨m, h1, ⟨h2.trans hu.1, h3.trans hu.2⟩, hv, fun i k hi hk => ?_⟩
  have := h4 i k (by omega) (by omega)
  rw [this]
  simp [Blitz.pos, hu.1]

/-- **C148, one dimension.** On every line of elements, with exact arithmetic and whatever the arrays contain at first, the program finishes and writes four files: the nodes, the field `u`, the exact
solution `sin(pi x)` and the right-hand side `-pi^2 sin(pi x)`.  The solver's report is true for the field in u.dat - so the residual in it is that of the written field and the success flag
means what it says - and the residual is at most that of the zero field; if there are at most 30 unknowns and the operator is one to one, it is a success.  The right-hand side of the system tests against piecewise polynomials as the
interpolant of the exact right-hand side does.  The error printed is the largest distance of `u` from `sin(pi x)` at a node. -/
theorem C148_run1 (hx : xmin < xmax) (hb : Built xmin xmax p) (S : Solver ((p.N + 1) * p.K)) (hS : Exact S.A) (vec0 : List ℝ) (h0 : vec0.length = (p.N + 1) * p.K) (u0 : DMat ℝ)
    (hu : u0.rows = p.N + 1 ∧ u0.cols = p.K) :
    ∃ (r : Report1) (u e f : DMat ℝ) (b v w : List ℝ), program1 p S vec0 u0 = .ok r ∧
      r.files = [("x.dat".toList, p.t.x), ("u.dat".toList, u), ("uexact.dat".toList, e), ("RHS.dat".toList, f)] ∧
      (u.rows = p.N + 1 ∧ u.cols = p.K) ∧ At p (fun x => Real.sin (Real.pi * x)) e ∧ At p (fun x => -Real.pi ^ 2 * Real.sin (Real.pi * x)) f ∧
      (b.length = (p.N + 1) * p.K ∧ ∀ (z : List ℝ) (m : DMat ℝ) (F T : ℕ → ℝ[X]), Nodal p f F → Nodal p m T → Flat p z m →
        dotVec z b = domainInt xmin xmax p fun k r => (F k).eval r * (T k).eval r) ∧
      Flat p v u ∧ (∀ out0 : List ℝ, out0.length = (p.N + 1) * p.K → poisson1dOp p v out0 = .ok w) ∧ Tells b w 1e-6 1e-6 (size b) r.result ∧
      ((p.N + 1) * p.K ≤ 30 → (∀ v v' out : List ℝ, v.length = (p.N + 1) * p.K → v'.length = (p.N + 1) * p.K → out.length = (p.N + 1) * p.K → poisson1dOp p v out = poisson1dOp p v' out → v = v') →
        r.result.flag = .success) ∧
      (∀ i ≤ p.N, ∀ k < p.K, |u.at' i k - Real.sin (Real.pi * p.t.x.at' i k)| ≤ r.err) ∧ ∃ i ≤ p.N, ∃ k < p.K, |u.at' i k - Real.sin (Real.pi * p.t.x.at' i k)| = r.err := by
  have hp := hb.spec hx
  obtain ⟨L, hL⟩ := linear1 hp
  obtain ⟨b, b1, b2⟩ := flatten_flat (p := p) (p.massMul (p.sample fun x => -Real.pi * Real.pi * Real.sin (Real.pi * x))) ⟨rfl, rfl⟩ vec0 h0
  obtain ⟨o, v, g1, g2, g3, g4⟩ := gmres_tells S hS (poisson1dOp p) L hL defaults defaults_valid (by norm_num [defaults]) b (List.replicate ((p.N + 1) * p.K) 0) b2.1
  obtain ⟨u, u1, u2, u3⟩ := unflat v g2 u0 hu
  have hzero : minus b (entries (L (vec _ (List.replicate ((p.N + 1) * p.K) 0)))) = b := by
    have e : vec ((p.N + 1) * p.K) (List.replicate ((p.N + 1) * p.K) 0) = 0 := by
      ext i
      simp [vec]
    rw [e, map_zero]
    apply List.ext_getElem (by simp [minus, entries, b2.1])
    intro i h1 h2
    simp [minus, entries]
  rw [hzero] at g3
  have hmax := maxAbs_is (p := p) (lin 1 u (-1) (p.sample fun x => Real.sin (Real.pi * x))) u2 hp.posK
  have hl (i k : ℕ) : (lin 1 u (-1) (p.sample fun x => Real.sin (Real.pi * x))).at' i k = u.at' i k - Real.sin (Real.pi * p.t.x.at' i k) := by
    simp only [lin, Prov.sample]
    ring
  simp only [hl] at hmax
  refine ⟨⟨o, [("x.dat".toList, p.t.x), ("u.dat".toList, u), ("uexact.dat".toList, p.sample fun x => Real.sin (Real.pi * x)),
      ("RHS.dat".toList, p.sample fun x => -Real.pi * Real.pi * Real.sin (Real.pi * x))], maxAbs (lin 1 u (-1) (p.sample fun x => Real.sin (Real.pi * x)))⟩,
    u, _, _, b, v, entries (L (vec _ v)), ?_, rfl, u2, ⟨⟨rfl, rfl⟩, fun i _ k _ => rfl⟩, ⟨⟨rfl, rfl⟩, fun i _ k _ => ?_⟩, ⟨b2.1, ?_⟩, u3, fun out0 h => hL v out0 g2 h, ?_, fun hn hi => g4 (by simp only [defaults]; exact_mod_cast hn) hi, hmax.1, hmax.2⟩
  · unfold program1 poisson1dRhs
    simp only
    rw [b1]
    show (gmres S (poisson1dOp p) defaults b (List.replicate ((p.N + 1) * p.K) 0) >>= _) = _
    rw [g1]
    show (reshape1DToMat v u0 false >>= _) = _
    rw [u1]
    rfl
  · simp only [Prov.sample]
    ring
  · intro z m F T hF hT hz
    exact dot_mass hp hT hF hz b2.2
  · exact g3

/-- **C148, the program as it is shipped**: order 4 and 15 elements on [-1, 1].  It throws if the nodes cannot be found, because the eigenvalue solver fails; otherwise it ends as described above. -/
theorem C148_main1 (la : Nodes1D.Lapack) (wrap : Bool) (eps tol : ℝ) (r0 : List ℝ) (V0 : DMat ℝ) (t0 : Nodes1D.Tables ℝ) (hM : Machine la eps tol 4 15 r0 V0 t0) (S : (n : ℕ) → Solver n)
    (hS : ∀ n, Exact (S n).A) (vec0 : List ℝ) (h0 : vec0.length = 75) (u0 : DMat ℝ) (hu : u0.rows = 5 ∧ u0.cols = 15) :
    (Nodes1D.buildOps la eps 4 r0 V0 = .throws ∧ main1 la wrap eps tol r0 V0 t0 S vec0 u0 = .throws) ∨
    ∃ p r, Built (-1) 1 p ∧ p.N = 4 ∧ p.K = 15 ∧ program1 p (S _) vec0 u0 = .ok r ∧ main1 la wrap eps tol r0 V0 t0 S vec0 u0 = .ok r := by
  rcases buildProv_spec la hM.lapack wrap eps tol (-1) 1 hM.eps_pos hM.eps_le hM.tol_pos (by norm_num) 4 15 (by norm_num) (by norm_num) (by norm_num [intMax]) r0 hM.r0 V0 hM.Vinv0 t0 hM.t0 with
    ⟨h1, h2⟩ | ⟨p, h1, h2, h3, -⟩
  · left
    exact ⟨h1, by unfold main1; rw [h2]; rfl⟩
  · right
    have hb : Built (-1) 1 p := ⟨la, wrap, eps, tol, 4, 15, r0, V0, t0, hM.lapack, hM.eps_pos, hM.eps_le, hM.tol_pos, by norm_num, by norm_num, by norm_num [intMax], hM.r0, hM.Vinv0, hM.t0, h1⟩
    obtain ⟨r, u, e, f, b, v, w, hr, -⟩ := C148_run1 (by norm_num) hb (S _) (hS _) vec0 (by rw [h2, h3, h0]) u0 (by rw [h2, h3]; exact hu)
    refine ⟨p, r, hb, h2, h3, hr, ?_⟩
    unfold main1
    rw [h1]
    exact hr

end Run1

/-! ### The two-dimensional program -/

section Run2

open Blitzdg.SW hiding wallStep
open Blitzdg.Poisson2D

variable {la : Nodes1D.Lapack} {eps ztol tol : ℝ} {N : ℕ} {m : SW.Mesh} {P : ℕ → ℕ} {g : Grid}

/-- The field `f` holds the values of `F` at the nodes. -/
def At2 (g : Grid) (F : ℝ → ℝ → ℝ) (f : DMat ℝ) : Prop :=
  (f.rows = g.np ∧ f.cols = g.K) ∧ ∀ i < g.np, ∀ k < g.K, f.at' i k = F (gridX (g.tri k) g.n i) (gridY (g.tri k) g.n i)

/-- `v` holds the entries of `u` element by element. -/
def Flat2 (g : Grid) (v : List ℝ) (u : DMat ℝ) : Prop := v.length = g.np * g.K ∧ ∀ i < g.np, ∀ k < g.K, v[i + g.np * k]? = some (u.at' i k)

theorem flat2 (u : DMat ℝ) (hu : u.rows = g.np ∧ u.cols = g.K) (v0 : List ℝ) (h0 : v0.length = g.np * g.K) : ∃ v, reshapeMatTo1D u v0 false = .ok v ∧ Flat2 g v u := by
  obtain ⟨v, h1, h2, h3, -⟩ := C10_flatten u v0 false (by rw [hu.1, hu.2, h0])
  refine ⟨v, h1, h2.trans h0, fun i hi k hk => ?_⟩
  have := h3 i k (by omega) (by omega)
  rwa [pos_eq, hu.1] at this

theorem unflat2 (v : List ℝ) (hv : v.length = g.np * g.K) (u0 : DMat ℝ) (hu : u0.rows = g.np ∧ u0.cols = g.K) :
    ∃ u, reshape1DToMat v u0 false = .ok u ∧ (u.rows = g.np ∧ u.cols = g.K) ∧ Flat2 g v u := by
  obtain ⟨u, h1, h2, h3, h4⟩ := C10_unflatten v u0 false (by rw [hv, hu.1, hu.2])
  refine ⟨u, h1, ⟨h2.trans hu.1, h3.trans hu.2⟩, hv, fun i hi k hk => ?_⟩
  have := h4 i k (by omega) (by omega)
  rw [this, pos_eq, hu.1]

/-- The text on the console: `num` writes numbers in the format of the stream. -/
noncomputable def consoleOf (num : Print.Fmt → ℝ → Output.Str) (K : ℕ) (o : GOut ℝ) (largest : ℝ) : Output.Str :=
  "K: ".toList ++ Output.intText K ++ "\n".toList ++
  "result is ".toList ++ "outcome: ".toList ++ Print.flagText o.flag ++ "\n".toList ++
  (if o.msg = "" then [] else "info: 0\n".toList) ++
  "outer iter: ".toList ++ Output.intText o.outerIts ++ "\n".toList ++
  "inner iter: ".toList ++ Output.intText o.innerIts ++ "\n".toList ++
  "relative residual: ".toList ++ num ⟨true, 2⟩ o.relres ++ "\n".toList ++ "\n".toList ++
  "normMax u is: ".toList ++ num ⟨true, 2⟩ largest ++ "\n".toList

theorem console_eq (num : Print.Fmt → ℝ → Output.Str) (K : ℕ) (o : GOut ℝ) (largest : ℝ) : (Print.poissonLines num ⟨.initial, []⟩ K o largest).text = consoleOf num K o largest := by
  unfold consoleOf Print.poissonLines Print.printReport
  by_cases hm : o.msg = ""
  · have : o.msg.isEmpty = true := by rw [hm]; rfl
    rw [if_pos hm]
    simp only [Print.Strm.put, this, Bool.not_true, Bool.false_eq_true, if_false, List.append_assoc, List.nil_append]
  · have : o.msg.isEmpty = false := by
      rw [← Bool.not_eq_true, String.isEmpty_iff]
      exact hm
    have e : "info: 0\n".toList = "info: ".toList ++ ("0".toList ++ "\n".toList) := by decide
    simp only [Print.Strm.put, Print.boolText, hm, this, e, Bool.not_false, Bool.false_eq_true, if_false, if_true, List.append_assoc, List.nil_append]

theorem params2_valid : Valid { defaults with maxits := 1500, relTol := 1e-4, kspaceSz := 300 } := by
  refine ⟨?_, ?_, ?_, ?_, ?_, ?_⟩ <;> norm_num [defaults]

/-- **C148, two dimensions.** On every mesh with a wall and for every order, with exact arithmetic and whatever the arrays contain at first, the program finishes and hands three fields to the outputter
under number 0: the right-hand side `-pi^2 sin(pi x) sin(pi y)`, the field `u`, and `sin(pi x) sin(pi y)`.  The solver's report is true for the field `u`, for the system whose right-hand side has the values of the first field as its entries; the residual is at
most that of the nodal values of `sin(pi x) sin(pi y)`, from which it starts; if there are at most 300 unknowns and the operator is one to one, it is a success.  The console shows the report and, as "normMax u", the largest absolute value of `u` at a node. -/
theorem C148_run2 (h : Provisioned la eps ztol tol N m P g) (hw : ∃ e < 3 * m.K, m.bcType[e]? = some 3) (num : Print.Fmt → ℝ → Output.Str) (S : Solver (g.np * g.K)) (hS : Exact S.A)
    (vec0 out0 : List ℝ) (h0 : vec0.length = g.np * g.K) (h1 : out0.length = g.np * g.K) (u0 : DMat ℝ) (hu : u0.rows = g.np ∧ u0.cols = g.K) :
    ∃ (r : Report2) (f u e : DMat ℝ) (b v w x y : List ℝ) (largest : ℝ), program2 num g S vec0 out0 u0 = .ok r ∧
      r.fields = [("rhs".toList, f), ("u".toList, u), ("uexact".toList, e)] ∧ r.number = 0 ∧ (u.rows = g.np ∧ u.cols = g.K) ∧
      At2 g (fun x y => Real.sin (Real.pi * x) * Real.sin (Real.pi * y)) e ∧ At2 g (fun x y => -Real.pi ^ 2 * (Real.sin (Real.pi * x) * Real.sin (Real.pi * y))) f ∧
      Flat2 g b f ∧ Flat2 g v u ∧ Flat2 g x e ∧ (∀ o : List ℝ, o.length = g.np * g.K → op g v o = .ok w ∧ op g x o = .ok y) ∧ Tells b w 1e-4 1e-6 (size (minus b y)) r.result ∧
      (g.np * g.K ≤ 300 → (∀ v v' out : List ℝ, v.length = g.np * g.K → v'.length = g.np * g.K → out.length = g.np * g.K → op g v out = op g v' out → v = v') → r.result.flag = .success) ∧
      r.console = consoleOf num g.K r.result largest ∧ (∀ i < g.np, ∀ k < g.K, |u.at' i k| ≤ largest) ∧ ∃ i < g.np, ∃ k < g.K, |u.at' i k| = largest := by
  obtain ⟨xx, hg, hN, hK, -⟩ := h.spec
  rw [← hK] at hw
  obtain ⟨L, hL⟩ := linear2 hg hw
  obtain ⟨b, b1, b2⟩ := flat2 (g := g) (sample2 g rhs) ⟨rfl, rfl⟩ vec0 h0
  obtain ⟨x, x1, x2⟩ := flat2 (g := g) (sample2 g uexact) ⟨rfl, rfl⟩ out0 h1
  obtain ⟨o, v, g1, g2, g3, g4⟩ := gmres_tells S hS (op g) L hL { defaults with maxits := 1500, relTol := 1e-4, kspaceSz := 300 } params2_valid (by norm_num [defaults]) b x b2.1
  obtain ⟨u, u1, u2, u3⟩ := unflat2 v g2 u0 hu
  have hK0 : 0 < g.K := by
    obtain ⟨e, he, -⟩ := hw
    omega
  have hmax := normMax_spec u (by rw [u2.1]; exact np_pos g) (by rw [u2.2]; exact hK0)
  rw [u2.1, u2.2] at hmax
  refine ⟨⟨o, (Print.poissonLines num ⟨.initial, []⟩ g.K o (normMax u)).text, [("rhs".toList, sample2 g rhs), ("u".toList, u), ("uexact".toList, sample2 g uexact)], 0⟩,
    sample2 g rhs, u, sample2 g uexact, b, v, entries (L (vec _ v)), x, entries (L (vec _ x)), normMax u, ?_, rfl, rfl, u2, ⟨⟨rfl, rfl⟩, fun i _ k _ => rfl⟩, ⟨⟨rfl, rfl⟩, fun i _ k _ => ?_⟩, b2, u3, x2,
    fun o ho => ⟨hL v o g2 ho, hL x o x2.1 ho⟩, g3, fun hn hi => g4 (by simp only; exact_mod_cast hn) hi, console_eq num g.K o _, ?_, ?_⟩
  · unfold program2
    simp only
    rw [b1]
    show (reshapeMatTo1D (sample2 g uexact) out0 false >>= _) = _
    rw [x1]
    show (gmres S (op g) _ b x >>= _) = _
    rw [g1]
    show (reshape1DToMat v u0 false >>= _) = _
    rw [u1]
    rfl
  · simp only [sample2, rhs, uexact]
    ring
  · exact hmax.1
  · obtain ⟨i, hi, k, hk, h⟩ := hmax.2
    exact ⟨i, hi, k, hk, h.symm⟩

/-- **C148, no wall.** On a mesh without a wall the program throws, unless `sin(pi x) sin(pi y)` happens to be zero at all nodes. -/
theorem C148_no_wall (h : Provisioned la eps ztol tol N m P g) (hw : ¬ ∃ e < 3 * m.K, m.bcType[e]? = some 3) (num : Print.Fmt → ℝ → Output.Str) (S : Solver (g.np * g.K)) (hS : Exact S.A)
    (vec0 out0 : List ℝ) (h0 : vec0.length = g.np * g.K) (h1 : out0.length = g.np * g.K) (u0 : DMat ℝ) (hu : u0.rows = g.np ∧ u0.cols = g.K) :
    ((∃ i < g.np, ∃ k < g.K, Real.sin (Real.pi * gridX (g.tri k) g.n i) * Real.sin (Real.pi * gridY (g.tri k) g.n i) ≠ 0) → program2 num g S vec0 out0 u0 = .throws) ∧
    ((∀ i < g.np, ∀ k < g.K, Real.sin (Real.pi * gridX (g.tri k) g.n i) * Real.sin (Real.pi * gridY (g.tri k) g.n i) = 0) →
      ∃ r u f e, program2 num g S vec0 out0 u0 = .ok r ∧ r.result.flag = .success ∧ r.fields = [("rhs".toList, f), ("u".toList, u), ("uexact".toList, e)] ∧ At2 g (fun _ _ => 0) u) := by
  obtain ⟨xx, hg, hN, hK, -⟩ := h.spec
  rw [← hK] at hw
  obtain ⟨b, b1, b2⟩ := flat2 (g := g) (sample2 g rhs) ⟨rfl, rfl⟩ vec0 h0
  obtain ⟨x, x1, x2⟩ := flat2 (g := g) (sample2 g uexact) ⟨rfl, rfl⟩ out0 h1
  have hrun : program2 num g S vec0 out0 u0 = (gmres S (op g) { defaults with maxits := 1500, relTol := 1e-4, kspaceSz := 300 } b x >>= fun y => reshape1DToMat y.2 u0 false >>= fun u =>
      .ok ⟨y.1, (Print.poissonLines num ⟨.initial, []⟩ g.K y.1 (normMax u)).text, [("rhs".toList, sample2 g rhs), ("u".toList, u), ("uexact".toList, sample2 g uexact)], 0⟩) := by
    unfold program2
    simp only
    rw [b1]
    show (reshapeMatTo1D (sample2 g uexact) out0 false >>= _) = _
    rw [x1]
    rfl
  have hgood := Gmres.valid_good hS _ params2_valid
  constructor
  · rintro ⟨i, hi, k, hk, hne⟩
    have hx : vec (g.np * g.K) x ≠ 0 := by
      intro he
      have hlt : i + g.np * k < g.np * g.K := by
        have : g.np * (k + 1) ≤ g.np * g.K := Nat.mul_le_mul_left _ hk
        rw [Nat.mul_add, Nat.mul_one] at this
        omega
      have := congrFun (congrArg (fun z : Vec (g.np * g.K) => (z : Fin (g.np * g.K) → ℝ)) he) ⟨_, hlt⟩
      have e2 : x.getD (i + g.np * k) 0 = 0 := this
      rw [getD_of (x2.2 i hi k hk)] at e2
      exact hne e2
    rw [hrun]
    have : gmres S (op g) { defaults with maxits := 1500, relTol := 1e-4, kspaceSz := 300 } b x = .throws := by
      unfold gmres Gmres.solve
      simp only [hgood, Bool.false_eq_true, if_false]
      rw [if_pos ((hS.nonzero _).2 hx)]
      simp only [Gmres.callMv, product, op_throws hg hw _ _ (le_of_eq (entries_length _).symm), Bool.not_false, if_true]
      rfl
    rw [this]
    rfl
  · intro hz
    have hzero {l : List ℝ} {F : ℝ → ℝ → ℝ} (hl : Flat2 g l (sample2 g F)) (hF : ∀ i < g.np, ∀ k < g.K, F (gridX (g.tri k) g.n i) (gridY (g.tri k) g.n i) = 0) : vec (g.np * g.K) l = 0 := by
      ext j
      show l.getD j 0 = 0
      have hi : j.1 % g.np < g.np := Nat.mod_lt _ (np_pos g)
      have hk : j.1 / g.np < g.K := Nat.div_lt_of_lt_mul j.2
      have := hl.2 _ hi _ hk
      rw [Nat.mod_add_div] at this
      rw [getD_of this]
      exact hF _ hi _ hk
    have hx0 := hzero x2 hz
    have hb0 := hzero b2 fun i hi k hk => by simp only [rhs, uexact, hz i hi k hk, mul_zero]
    obtain ⟨o, ho, hs⟩ : ∃ o : GOut ℝ, gmres S (op g) { defaults with maxits := 1500, relTol := 1e-4, kspaceSz := 300 } b x = .ok (o, entries (0 : Vec (g.np * g.K))) ∧ o.flag = .success := by
      have hnz : S.A.nonzero (0 : Vec (g.np * g.K)) = false := by
        rw [← Bool.not_eq_true, hS.nonzero]
        simp
      have hle : S.A.le (S.A.nrm (0 : Vec (g.np * g.K))) (Gmres.convTol S.A { defaults with maxits := 1500, relTol := 1e-4, kspaceSz := 300 } (0 : Vec (g.np * g.K))) = true := by
        rw [hS.le, hS.nrm, norm_zero]
        exact Gmres.convTol_nonneg hS _ _ params2_valid
      unfold gmres Gmres.solve Gmres.iterate
      simp only [hx0, hb0, hgood, hnz, hS.fin, hle, Bool.false_eq_true, if_false, Bool.not_true, if_true]
      exact ⟨_, rfl, rfl⟩
    obtain ⟨u, u1, u2, u3⟩ := unflat2 (g := g) (entries (0 : Vec (g.np * g.K))) (entries_length _) u0 hu
    refine ⟨⟨o, (Print.poissonLines num ⟨.initial, []⟩ g.K o (normMax u)).text, [("rhs".toList, sample2 g rhs), ("u".toList, u), ("uexact".toList, sample2 g uexact)], 0⟩,
      u, sample2 g rhs, sample2 g uexact, ?_, ?_, rfl, u2, fun i hi k hk => ?_⟩
    · rw [hrun, ho]
      show (reshape1DToMat (entries 0) u0 false >>= _) = _
      rw [u1]
      rfl
    · exact hs
    · have := u3.2 i hi k hk
      have e := getD_of this
      rw [← e]
      simp [entries]

end Run2

/-! ### Examples -/

/-- Exact arithmetic, and arrays of zeros. -/
noncomputable def exactSolver (n : ℕ) : Solver n := ⟨Gmres.realArith (Vec n), 0, 0, fun _ _ => 0⟩

/-- The hypotheses of `C148_main1`, `C148_run1` can be met and the eigensolver need not fail: the shipped program finishes and its report is true. -/
example : ∃ r t0 b w, main1 Nodes1D.exactLapack false 0.01 1e-5 (Drivers.zeros 5) (Drivers.zeroMat 5 5) t0 exactSolver (Drivers.zeros 75) (Drivers.zeroMat 5 15) = .ok r ∧ Tells b w 1e-6 1e-6 (size b) r.result := by
  obtain ⟨o, ho, -⟩ := Nodes1D.buildOps_returns 0.01 (by norm_num) (by norm_num) 4 (by norm_num) (Drivers.zeros 5) (by simp [Drivers.zeros]) (Drivers.zeroMat 5 5) ⟨rfl, rfl⟩
  rcases C148_main1 Nodes1D.exactLapack false 0.01 1e-5 _ _ _ (Drivers.machine_exists 4 15) exactSolver (fun n => Gmres.realArith_exact _) (Drivers.zeros 75) (by simp [Drivers.zeros])
    (Drivers.zeroMat 5 15) ⟨rfl, rfl⟩ with ⟨h, -⟩ | ⟨p, r, h1, h2, h3, h4, h5⟩
  · rw [ho] at h; cases h
  · obtain ⟨r', u, e, f, b, v, w, g1, -, -, -, -, -, -, -, g2, -⟩ := C148_run1 (by norm_num) h1 (exactSolver _) (Gmres.realArith_exact _) (Drivers.zeros 75) (by simp [Drivers.zeros, h2, h3])
      (Drivers.zeroMat 5 15) (by rw [h2, h3]; exact ⟨rfl, rfl⟩)
    rw [h4] at g1
    cases g1
    exact ⟨r, _, b, w, h5, g2⟩

/-- The unit square with walls: the program finishes. -/
example : ∃ g r, SW.Provisioned Nodes1D.exactLapack (1 / 2 ^ 52) 1e-10 1e-5 1 (Poisson.squareTags [3, 0, 3, 3, 3, 0]) DG2D.twoTri g ∧
    program2 (fun _ _ => "1".toList) g (exactSolver _) (SW.zeros (g.np * g.K)) (SW.zeros (g.np * g.K)) (SW.zeroMat g.np g.K) = .ok r ∧ r.number = 0 := by
  obtain ⟨g, hg, -⟩ := Poisson.squareTags_grid [3, 0, 3, 3, 3, 0] (by decide)
  obtain ⟨r, f, u, e, b, v, w, x, y, l, h1, -, h2, -⟩ := C148_run2 hg ⟨0, by decide, rfl⟩ (fun _ _ => "1".toList) (exactSolver _) (Gmres.realArith_exact _) (SW.zeros (g.np * g.K)) (SW.zeros (g.np * g.K))
    (by simp [SW.zeros]) (by simp [SW.zeros]) (SW.zeroMat g.np g.K) ⟨rfl, rfl⟩
  exact ⟨g, r, hg, h1, h2⟩

/-- The square of half the size with open boundary: the program throws. -/
example : ∃ g, SW.Provisioned Nodes1D.exactLapack (1 / 2 ^ 52) 1e-10 1e-5 1 (Poisson2D.scaleMesh (1 / 2) (Poisson.squareTags [2, 0, 2, 2, 2, 0])) DG2D.twoTri g ∧
    program2 (fun _ _ => "1".toList) g (exactSolver _) (SW.zeros (g.np * g.K)) (SW.zeros (g.np * g.K)) (SW.zeroMat g.np g.K) = .throws := by
  obtain ⟨g0, hg0, n0, k0, ht, -, hn, -⟩ := Poisson.squareTags_grid [2, 0, 2, 2, 2, 0] (by decide)
  obtain ⟨g, hg⟩ := Poisson2D.scaled_exists hg0 (s := 1 / 2) (by norm_num)
  have hs := Poisson2D.scaled_of (by norm_num) hg0 hg
  refine ⟨g, hg, (C148_no_wall hg ?_ _ (exactSolver _) (Gmres.realArith_exact _) _ _ (by simp [SW.zeros]) (by simp [SW.zeros]) _ ⟨rfl, rfl⟩).1 ⟨1, ?_, 1, ?_, ?_⟩⟩
  · rintro ⟨e, he, h⟩
    have he : e < 6 := he
    interval_cases e <;> simp [Poisson2D.scaleMesh, Poisson.squareTags] at h
  · rw [hs.np, n0]; norm_num
  · rw [hs.K, k0]; norm_num
  · rw [hs.n, hs.tri 1 (by rw [k0]; norm_num), ht 1 (by norm_num)]
    unfold SW.gridX SW.gridY DG2D.triCoord
    rw [hn.1, hn.2]
    simp only [Poisson2D.scaleTri, SW.Mesh.tri, SW.Mesh.corner, SW.square]
    have e : Real.sin (Real.pi * (1 / 2)) = 1 := by rw [mul_one_div, Real.sin_pi_div_two]
    norm_num [e]

/-- The unit square with order 1 and open boundary: all nodes are corners, and the program finishes. -/
example : ∃ g r, SW.Provisioned Nodes1D.exactLapack (1 / 2 ^ 52) 1e-10 1e-5 1 (Poisson.squareTags [2, 0, 2, 2, 2, 0]) DG2D.twoTri g ∧
    program2 (fun _ _ => "1".toList) g (exactSolver _) (SW.zeros (g.np * g.K)) (SW.zeros (g.np * g.K)) (SW.zeroMat g.np g.K) = .ok r ∧ r.result.flag = .success := by
  obtain ⟨g, hg, hn, hK, ht, ⟨a1, a2⟩, ⟨b1, b2⟩, c1, c2⟩ := Poisson.squareTags_grid [2, 0, 2, 2, 2, 0] (by decide)
  obtain ⟨r, u, f, e, h1, h2, -⟩ := (C148_no_wall hg (by
    rintro ⟨e, he, h⟩
    have he : e < 6 := he
    interval_cases e <;> simp [Poisson.squareTags] at h) (fun _ _ => "1".toList) (exactSolver _) (Gmres.realArith_exact _) (SW.zeros (g.np * g.K)) (SW.zeros (g.np * g.K)) (by simp [SW.zeros]) (by simp [SW.zeros])
    (SW.zeroMat g.np g.K) ⟨rfl, rfl⟩).2 (by
      intro i hi k hk
      rw [hn] at hi
      rw [hK] at hk
      rw [ht k hk]
      unfold SW.gridX SW.gridY DG2D.triCoord
      interval_cases i <;> simp only [a1, a2, b1, b2, c1, c2] <;> interval_cases k <;> simp [SW.Mesh.tri, SW.Mesh.corner, SW.square]
      rw [show (0.5 * (1 + 1) : ℝ) = 1 by norm_num, mul_one, Real.sin_pi])
  exact ⟨g, r, hg, h1, h2⟩

end Blitzdg.PoissonRun
