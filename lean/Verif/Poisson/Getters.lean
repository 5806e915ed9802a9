import Verif.Poisson.CubProps
import Verif.Py.ImportProps

/-! C104: what the getters hand out. -/

namespace Blitzdg.Poisson

open MvPolynomial
open Matrix
open Blitzdg.Sparse (Csc Represents cooVal)
open Blitzdg.Nodes1D (Lapack exactLapack)
open Blitzdg.DG2D
open Blitzdg.SW (Grid Mesh GridSpec Provisioned)
open Blitzdg.Py (sparseNumpy)

variable {la : Lapack} {eps ztol tol : ℝ} {N : ℕ} {m : Mesh} {P : ℕ → ℕ} {g : Grid}

theorem bil_same {n : ℕ} {A B : ℕ → ℕ → ℝ} (h : ∀ i < n, ∀ j < n, A i j = B i j) (v u : ℕ → ℝ) : bil n A v u = bil n B v u := by
  unfold bil
  exact Finset.sum_congr rfl fun i hi => Finset.sum_congr rfl fun j hj => by rw [h i (Finset.mem_range.1 hi) j (Finset.mem_range.1 hj)]

/-- **C104, Python.** The rows `(row, column, value)` that Python gets from `getOP` and `getMM`, put together as a matrix (values in the same place added up), are the interior penalty operator and
the mass matrix. -/
theorem C104_python (h : Provisioned la eps ztol tol N m P g) (hi : Fits g false) (ht : Tagged g m P) :
    ∃ op mm rowsOP rowsMM, (ctxOf g m).build la false = .ok (op, mm) ∧ sparseNumpy op = .ok rowsOP ∧ sparseNumpy mm = .ok rowsMM ∧
      (∀ v u V U, HasNodes g v V → HasNodes g u U → bil (g.np * g.K) (cooVal rowsOP) v u = sipForm g m P V U) ∧
      ∀ v u V U, HasNodes g v V → HasNodes g u U → bil (g.np * g.K) (cooVal rowsMM) v u = l2Form g V U := by
  obtain ⟨op, mm, A, M, e, d1, d2, d3, d4, r1, r2, f1, f2⟩ := C98_forms h false hi ht
  obtain ⟨ro, -, eo, -, -, -, -, ho⟩ := Py.C96_sparse op A r1
  obtain ⟨rm, -, em, -, -, -, -, hm⟩ := Py.C96_sparse mm M r2
  refine ⟨op, mm, ro, rm, e, eo, em, fun v u V U hv hu => ?_, fun v u V U hv hu => ?_⟩
  · rw [bil_same fun i _ j hj => ho i j (by rw [d2]; simpa using hj)]
    simpa using f1 v u V U hv hu
  · rw [bil_same fun i _ j hj => hm i j (by rw [d4]; exact hj)]
    exact f2 v u V U hv hu

/-- **C104 refuted, C++.** `getOP()` hands out the mass matrix and `getMM()` the operator: for every matrix the handed out objects stand for. -/
theorem C104_cpp_swapped (h : Provisioned la eps ztol tol N m P g) (hi : Fits g false) (ht : Tagged g m P) (op mm : Csc ℝ) (hb : (ctxOf g m).build la false = .ok (op, mm)) (A M : ℕ → ℕ → ℝ)
    (hA : Represents (Held.getOP ⟨op, mm⟩) A) (hM : Represents (Held.getMM ⟨op, mm⟩) M) :
    (∀ v u V U, HasNodes g v V → HasNodes g u U → bil (g.np * g.K) A v u = l2Form g V U) ∧ ∀ v u V U, HasNodes g v V → HasNodes g u U → bil (g.np * g.K) M v u = sipForm g m P V U := by
  obtain ⟨op', mm', A', M', e, d1, d2, d3, d4, r1, r2, f1, f2⟩ := C98_forms h false hi ht
  rw [e] at hb
  obtain ⟨rfl, rfl⟩ := Prod.mk.inj (Out.ok.inj hb)
  refine ⟨fun v u V U hv hu => ?_, fun v u V U hv hu => ?_⟩
  · rw [bil_same fun i _ j hj => Represents.unique hA r2 i j (by show j < mm'.n; rw [d4]; exact hj)]
    exact f2 v u V U hv hu
  · rw [bil_same fun i _ j hj => Represents.unique hM r1 i j (by show j < op'.n; rw [d2]; simpa using hj)]
    simpa using f1 v u V U hv hu

/-- So the system `getOP() u = b` that a C++ caller solves is not the Poisson problem: without a Dirichlet face the operator annihilates constants, while the matrix handed out does not, on any
mesh that has an element. -/
theorem C104_getOP_refuted (h : Provisioned la eps ztol tol N m P g) (hi : Fits g false) (hK : 0 < g.K) (op mm : Csc ℝ) (hb : (ctxOf g m).build la false = .ok (op, mm))
    (A : ℕ → ℕ → ℝ) (hA : Represents (Held.getOP ⟨op, mm⟩) A) : mat (g.np * g.K) A *ᵥ (fun _ => 1) ≠ 0 := by
  obtain ⟨x, hg, -, -, -⟩ := h.spec
  obtain ⟨op', mm', M, e, r, hpos, -⟩ := C99_mass h hi
  rw [e] at hb
  obtain ⟨rfl, rfl⟩ := Prod.mk.inj (Out.ok.inj hb)
  obtain ⟨op2, mm2, A2, M2, e2, d1, d2, d3, d4, r1, r2, -, -⟩ := weak hg (Provisioned.conn' h h.spec.choose_spec.2.2.1) (Provisioned.bc' h h.spec.choose_spec.2.2.1) la h.lapack false hi
  have e3 : (ctxOf g m).build la false = .ok (op2, mm2) := e2
  rw [e] at e3
  obtain ⟨rfl, rfl⟩ := Prod.mk.inj (Out.ok.inj e3)
  have hEq : mat (g.np * g.K) A = mat (g.np * g.K) M := by
    funext i j
    exact Represents.unique hA r i j (by show (j : ℕ) < mm'.n; rw [d4]; exact j.2)
  have hn : 0 < g.np * g.K := Nat.mul_pos (Ctx.np_pos g) hK
  have := hpos (fun _ => 1) (fun h0 => by have := congrFun h0 ⟨0, hn⟩; simp at this)
  intro h0
  rw [hEq] at h0
  rw [h0] at this
  simp at this

/-- On the square with walls: what is built, and the constants. -/
example : ∃ (g : Grid) (op mm : Csc ℝ) (A B : ℕ → ℕ → ℝ), (ctxOf g (squareTags [3, 0, 3, 3, 7, 0])).build exactLapack false = .ok (op, mm) ∧ Represents (Held.getOP ⟨op, mm⟩) A ∧ Represents op B ∧
    mat 6 A *ᵥ (fun _ => 1) ≠ 0 ∧ mat 6 B *ᵥ (fun _ => 1) = 0 := by
  obtain ⟨g, hg, h1, h2, -⟩ := squareTags_grid [3, 0, 3, 3, 7, 0] (by decide)
  obtain ⟨op, mm, B, A, e, r1, r2, hz⟩ := C99_singular hg (square_fits h1 h2 _) (square_tagged h2 _ _ _ _ (by decide) (by decide) (by decide) (by decide)) (by
    intro e he; rw [h2] at he
    have he : e < 6 := he
    interval_cases e <;> simp [tagOf, squareTags])
  have hr := C104_getOP_refuted hg (square_fits h1 h2 _) (by omega) op mm e A r2
  rw [h1, h2] at hz hr
  exact ⟨g, op, mm, A, B, e, r2, r1, hr, hz⟩

end Blitzdg.Poisson
