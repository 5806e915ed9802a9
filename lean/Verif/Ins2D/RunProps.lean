import Verif.Ins2D.Run
import Verif.Ins2D.Props
import Verif.Ins2D.NamelistProps
import Verif.Quads.Demo
import Verif.Poisson.QuadProps

/-!
C145: src/ins2d does not get to its time loop.
-/

namespace Blitzdg.Ins2D

open Blitzdg.Sparse (DMat Csc)
open Blitzdg.Nodes1D (Lapack)
open Blitzdg.DG2D
open Blitzdg.Quads
open Blitzdg.Csv (Str Lines)
open Blitzdg.SW (Mesh listMax Left asMatrix zeroMat)

variable {la : Lapack} {eps tol : ℝ} {N : ℕ} {m : Mesh} {P : ℕ → ℕ} {g : QGrid}

/-- The nodes of a grid are those of the reference element. -/
theorem grid_nodes (h : buildQGrid la eps tol N m = .ok g) : g.N = N ∧ g.K = m.K ∧ quadRefNodes la eps tol N = .ok g.n := by
  unfold buildQGrid at h
  simp only [Out.bind_eq_ok] at h
  obtain ⟨⟨n, o⟩, h1, h⟩ := h
  simp only at h
  obtain ⟨cs, -, maps, -, bc, -, h⟩ := h
  simp only [Out.pure_eq, Out.ok.injEq] at h
  subst h
  refine ⟨rfl, rfl, ?_⟩
  unfold quadElement at h1
  simp only [Out.bind_eq_ok] at h1
  obtain ⟨n', h2, o', -, h1⟩ := h1
  simp only [Out.pure_eq, Out.ok.injEq, Prod.mk.injEq] at h1
  rw [h2, h1.1]

theorem order_pos (h : buildQGrid la eps tol N m = .ok g) : 1 ≤ N := by
  by_contra hN
  obtain rfl : N = 0 := by omega
  obtain ⟨-, -, h⟩ := grid_nodes h
  unfold quadRefNodes Jacobi.gllPoints at h
  simp at h

/-- On a grid of quadrilaterals the Poisson matrix cannot be built. -/
theorem build_throws (hla : la.Ok) (he0 : 0 < eps) (he1 : eps ≤ 0.1) (ht : 0 < tol) (h : buildQGrid la eps tol N m = .ok g) (m' : Mesh) (b : Bool) : (contextOf g m').build la b = .throws := by
  obtain ⟨h1, -, h2⟩ := grid_nodes h
  have hN := order_pos h
  rw [← h1] at h2 hN
  exact (Poisson.C108_quadrilaterals la hla eps he0 he1 tol ht (contextOf g m') hN g.n h2 ⟨rfl, rfl, rfl, rfl, rfl⟩ b ⟨0, 0, fun _ _ => 0⟩ ⟨0, 0, fun _ _ => 0⟩).1

/-- **C145, refuted: the flow is never advanced.** Whatever the namelist file and the mesh contain: started with one argument the program does not get to its time loop, and no field is ever written. -/
theorem C145_never (hla : la.Ok) (he0 : 0 < eps) (he1 : eps ≤ 0.1) (ht : 0 < tol) (factorize : Csc ℝ → Out Unit) (num : Str → Str → Option ℝ) (readMesh : Str → Out Mesh) (mem : ℕ → Flow → ℕ → ℕ → ℝ) (n : ℕ)
    (file : Option Str) (res : Ended) : program factorize la eps tol num readMesh mem n 2 file ≠ .ok res := by
  intro h
  unfold program programWith at h
  rw [if_neg (by simp)] at h
  simp only [Out.bind_eq_ok] at h
  obtain ⟨⟨xs, name⟩, -, h⟩ := h
  simp only at h
  obtain ⟨m, -, h⟩ := h
  split_ifs at h
  simp only [Out.bind_eq_ok] at h
  obtain ⟨g, hg, F, -, held, hh, -⟩ := h
  rw [build_throws hla he0 he1 ht hg] at hh
  cases hh

/-- The values a namelist file with lines `items` assigns to the seven numbers, converted by `num`. -/
def Assigned (num : Str → Str → Option ℝ) (items : List (Option (Str × Str))) (f : Str → ℝ) : Prop := ∀ key ∈ parameters, ∃ v, firstValue (items.filterMap id) key = some v ∧ num key v = some (f key)

/-- The numbers of the file. -/
noncomputable def given (f : Str → ℝ) : Numbers :=
  ⟨f "GRAVITATIONALACCELERATION".toList, f "FINALTIME".toList, f "INITIALTIME".toList, ⌊f "POLYNOMIALORDER".toList⌋, f "CFL".toList, f "FILTERCUTOFF".toList, f "FILTERORDER".toList⟩

/-- The name of the mesh file. -/
def meshName (items : List (Option (Str × Str))) : Str := (firstValue (items.filterMap id) "MESHFILE".toList).getD []

/-- A namelist file which assigns all numbers sensible values (a cut-off below one, a filter order of at least one) and names a mesh of convex quadrilaterals for which nodes, maps and tags can be built. -/
structure Sensible (la : Lapack) (eps tol : ℝ) (num : Str → Str → Option ℝ) (readMesh : Str → Out Mesh) (text : Str) (f : Str → ℝ) (m : Mesh) (P : ℕ → ℕ) (g : QGrid) : Prop where
  lines : ∃ ls items, Lines text ls ∧ List.Forall₂ Means ls items ∧ Assigned num items f ∧ readMesh (meshName items) = .ok m
  order : 1 ≤ (given f).order
  cut : 0 ≤ (given f).cutOff ∧ (given f).cutOff < 1
  filt : 1 ≤ (given f).filtOrder
  grid : QProvisioned la eps tol (given f).order.toNat m P g

/-- The program up to the Poisson matrix, for sensible files. -/
theorem program_eq {num : Str → Str → Option ℝ} {readMesh : Str → Out Mesh} {text : Str} {f : Str → ℝ} (h : Sensible la eps tol num readMesh text f m P g) :
    ∃ F : Matrix (Fin g.np) (Fin g.np) ℝ, g.filter ((given f).cutOff * g.N) ⌊(given f).filtOrder⌋ = .ok (fun i j => some (F i j)) ∧
      ∀ build factorize mem n, programWith build factorize la eps tol num readMesh mem n 2 (some text) = (do
        let held ← build g m
        let _ ← factorize held.2
        let r := insLoop g (given f) F mem n (insStart g (given f))
        pure (.looped r.1 r.2)) := by
  obtain ⟨ls, items, l1, l2, l3, l4⟩ := h.lines
  obtain ⟨x, hg, hN, -⟩ := h.grid.spec
  have ho := h.order
  have hNc : ((given f).order : ℝ) = (g.N : ℝ) := by
    have h' : ((given f).order.toNat : ℤ) = (given f).order := Int.toNat_of_nonneg (by omega)
    rw [← hN] at h'
    rw [← h']
    simp
  have hNr : (1 : ℝ) ≤ g.N := by exact_mod_cast hg.posN
  obtain ⟨c, hF, -⟩ := hg.filter_ok ((given f).cutOff * g.N) (mul_nonneg h.cut.1 (by positivity)) (by intro hh; nlinarith [h.cut.2]) ⌊(given f).filtOrder⌋ (Int.le_floor.2 (by exact_mod_cast h.filt))
  refine ⟨_, hF, fun build factorize mem n => ?_⟩
  have hs : start num (some text) = .ok (parameters.map f, meshName items) := C107_start num f text ls items l1 l2 l3
  have hp : numbersOf (parameters.map f) = given f := rfl
  have ht : truncate (given f).filtOrder = ⌊(given f).filtOrder⌋ := if_pos (by linarith [h.filt])
  unfold programWith
  rw [if_neg (by simp), hs]
  simp only [Out.bind_ok, hp, l4, if_neg (show ¬ (given f).order < 0 by omega), h.grid.built, hNc, ht, hF]
  cases build g m with
  | ok held =>
    simp only [Out.bind_ok]
    show (factorize held.2 >>= _) = (factorize held.2 >>= _)
    cases factorize held.2 with
    | ok u =>
      simp only [Out.bind_ok]
      unfold asMatrix
      simp only [Option.isSome_some, implies_true, if_true, Option.getD_some]
      rfl
    | throws => rfl
    | ub => rfl
  | throws => rfl
  | ub => rfl

/-- **C145, how it ends.** With a sensible namelist file and mesh everything up to the Poisson matrix is built, and then the program ends with an exception. -/
theorem C145_throws {num : Str → Str → Option ℝ} {readMesh : Str → Out Mesh} {text : Str} {f : Str → ℝ} (h : Sensible la eps tol num readMesh text f m P g) (factorize : Csc ℝ → Out Unit)
    (mem : ℕ → Flow → ℕ → ℕ → ℝ) (n : ℕ) : program factorize la eps tol num readMesh mem n 2 (some text) = .throws := by
  obtain ⟨F, -, hF⟩ := program_eq h
  unfold program
  rw [hF]
  simp only [build_throws h.grid.lapack h.grid.eps_pos h.grid.eps_le h.grid.tol_pos h.grid.built]
  rfl

/-- **C145, usage.** Started with another number of arguments the program tells how to call it and reads nothing. -/
theorem C145_usage (factorize : Csc ℝ → Out Unit) (num : Str → Str → Option ℝ) (readMesh : Str → Out Mesh) (mem : ℕ → Flow → ℕ → ℕ → ℝ) (n argc : ℕ) (h : argc ≠ 2) (file : Option Str) :
    program factorize la eps tol num readMesh mem n argc file = .ok .usage := by
  unfold program programWith
  rw [if_pos h]

/-! ### What the loop would do -/

/-- The arrays of a flow have one entry per node. -/
structure FlowFits (g : QGrid) (q : Flow) : Prop where
  rho : q.rho.rows = g.np ∧ q.rho.cols = g.K
  u : q.u.rows = g.np ∧ q.u.cols = g.K
  v : q.v.rows = g.np ∧ q.v.cols = g.K

theorem elem_wf (h : QProvisioned la eps tol N m P g) (hw : ∃ e < 4 * m.K, m.bcType[e]? = some 3) : (elemOf g).WF := by
  obtain ⟨x, hg, hN, hK, -⟩ := h.spec
  have hlen : (elemOf g).nodes = g.nf := by unfold Elem.nodes QGrid.nf; rfl
  have hsplit : ∀ c < g.nf, ∃ e i, e < 4 * g.K ∧ i ≤ g.N ∧ c = (g.N + 1) * e + i := by
    intro c hc
    refine ⟨c / (g.N + 1), c % (g.N + 1), ?_, Nat.lt_succ_iff.1 (Nat.mod_lt _ (by omega)), (Nat.div_add_mod _ _).symm⟩
    rw [Nat.div_lt_iff_lt_mul (by omega)]
    unfold QGrid.nf at hc
    calc c < 4 * (g.N + 1) * g.K := hc
      _ = 4 * g.K * (g.N + 1) := by ring
  have hvol : ∀ e < 4 * g.K, ∀ i ≤ g.N, vol g.np 4 g.n.mask e i < g.np * g.K := by
    intro e he i hi
    have h1 := hg.maskLt (e % 4) (Nat.mod_lt _ (by norm_num)) i hi
    have h2 : e / 4 < g.K := by omega
    unfold vol
    calc g.n.mask i (e % 4) + g.np * (e / 4) < g.np + g.np * (e / 4) := by omega
      _ = g.np * (e / 4 + 1) := by ring
      _ ≤ g.np * g.K := Nat.mul_le_mul_left _ h2
  have hnx : (elemOf g).nfp * (elemOf g).nf = 4 * (g.N + 1) := by show (g.N + 1) * 4 = _; ring
  refine ⟨⟨hnx.symm, rfl⟩, ⟨hnx.symm, rfl⟩, hg.lenM.trans hlen.symm, hg.lenP.trans hlen.symm, ?_, ?_, ?_, Nat.succ_pos _⟩
  · intro i hi
    obtain ⟨c, hc, rfl⟩ := List.mem_iff_getElem.1 (show i ∈ g.maps.vmapM from hi)
    obtain ⟨e, j, he, hj, rfl⟩ := hsplit c (by rw [← hg.lenM]; exact hc)
    have := hg.vmapM e he j hj
    rw [List.getElem?_eq_getElem hc, Option.some.injEq] at this
    rw [this]
    exact hvol e he j hj
  · intro i hi
    obtain ⟨c, hc, rfl⟩ := List.mem_iff_getElem.1 (show i ∈ g.maps.vmapP from hi)
    obtain ⟨e, j, he, hj, rfl⟩ := hsplit c (by rw [← hg.lenP]; exact hc)
    have := hg.vmapP e he j hj
    rw [List.getElem?_eq_getElem hc, Option.some.injEq] at this
    rw [this]
    exact hvol (P e) (hg.lt e he) _ (across_le P g.N e j hj)
  · obtain ⟨e, he, ht⟩ := hw
    exact hg.bcSome 3 (by norm_num) ⟨e * (g.N + 1), e, 0, by omega, by omega, ht, by simp⟩

theorem rhs_fits (h : QProvisioned la eps tol N m P g) (hw : ∃ e < 4 * m.K, m.bcType[e]? = some 3) (grav : ℝ) (vort : ℕ → ℕ → ℝ) {q : Flow} (hq : FlowFits g q) :
    ∃ r, (elemOf g).rhs grav vort q = .ok r := by
  obtain ⟨r, L, hr, -⟩ := C109_rates (elemOf g) (elem_wf h hw) grav vort q hq.rho hq.u hq.v
  exact ⟨r, hr⟩

/-- A pass of the loop stays within its arrays: it returns, or throws because of a density beyond `1e8`. -/
theorem insPass_outcome (h : QProvisioned la eps tol N m P g) (hw : ∃ e < 4 * m.K, m.bcType[e]? = some 3) (p : Numbers) (F : Matrix (Fin g.np) (Fin g.np) ℝ) (vort : Flow → ℕ → ℕ → ℝ) (s : Sim)
    (hs : FlowFits g s.q) : insPass g p F vort s = .throws ∨ ∃ s', insPass g p F vort s = .ok s' ∧ FlowFits g s'.q := by
  obtain ⟨r1, h1⟩ := rhs_fits h hw p.grav (vort s.q) hs
  have hs1 : FlowFits g (Flow.axpy (0.5 * s.dt) (r1.filtered F) s.q) := ⟨hs.rho, hs.u, hs.v⟩
  obtain ⟨r2, h2⟩ := rhs_fits h hw p.grav (vort (Flow.axpy (0.5 * s.dt) (r1.filtered F) s.q)) hs1
  unfold insPass pass
  simp only [h1, Out.bind_ok, Out.pure_eq, h2]
  split_ifs
  · exact Or.inl rfl
  · exact Or.inr ⟨_, rfl, hs.rho, hs.u, hs.v⟩

/-- **C145, counterfactual.** Were the Poisson matrix built and factorised, whatever it is, the same file and mesh would make the program run: it enters the loop with the density of the start and fluid at rest, and on a mesh with a
wall no number of passes leads to undefined behaviour. -/
theorem C145_otherwise {num : Str → Str → Option ℝ} {readMesh : Str → Out Mesh} {text : Str} {f : Str → ℝ} (h : Sensible la eps tol num readMesh text f m P g)
    (hw : ∃ e < 4 * m.K, m.bcType[e]? = some 3) (build : QGrid → Mesh → Out (Csc ℝ × Csc ℝ)) (hb : ∃ held, build g m = .ok held) (mem : ℕ → Flow → ℕ → ℕ → ℝ) (n : ℕ) :
    ∃ r how, programWith build (fun _ => .ok ()) la eps tol num readMesh mem n 2 (some text) = .ok (.looped r how) ∧ ¬ how = .undefined ∧
      (n = 0 → r.count = 0 ∧ r.files = [] ∧ r.s.t = f "INITIALTIME".toList ∧ ∀ i k, r.s.q.u.at' i k = 0 ∧ r.s.q.v.at' i k = 0 ∧ 1 ≤ r.s.q.rho.at' i k ∧ r.s.q.rho.at' i k ≤ 1.003) := by
  obtain ⟨F, -, hF⟩ := program_eq h
  obtain ⟨held, hb⟩ := hb
  refine ⟨_, _, by rw [hF, hb]; rfl, ?_, ?_⟩
  · have key : ∀ n (r : InsRun), FlowFits g r.s.q → (insLoop g (given f) F mem n r).2 = .undefined → False := by
      intro n
      induction n with
      | zero => intro r _ hu; simp only [insLoop] at hu; cases hu
      | succ n ih =>
        intro r hr hu
        have hr' : (insOutput r).s = r.s := by unfold insOutput; split_ifs <;> rfl
        unfold insLoop at hu
        split_ifs at hu
        · simp only at hu
          rcases insPass_outcome h.grid hw (given f) F (mem (insOutput r).count) (insOutput r).s (by rw [hr']; exact hr) with h1 | ⟨s', h1, h2⟩
          · simp only [h1] at hu; cases hu
          · simp only [h1] at hu
            exact ih ⟨s', (insOutput r).count + 1, (insOutput r).files⟩ h2 hu
    exact fun hu => key n _ ⟨⟨rfl, rfl⟩, ⟨rfl, rfl⟩, rfl, rfl⟩ hu
  · rintro rfl
    refine ⟨rfl, rfl, rfl, fun i k => ⟨rfl, rfl, ?_⟩⟩
    simp only [insLoop, insStart, firstFlow]
    have h1 := Real.tanh_lt_one (5 * (nodeY (g.quad k) g.n i + 0.005 * nodeX (g.quad k) g.n i + 0.075))
    have h2 := Real.neg_one_lt_tanh (5 * (nodeY (g.quad k) g.n i + 0.005 * nodeX (g.quad k) g.n i + 0.075))
    constructor <;> linarith

/-! ### Example -/

/-- The numbers of the example. -/
noncomputable def exampleNum (_ v : Str) : Option ℝ := if v = "9.81".toList then some 9.81 else if v = "1".toList then some 1 else if v = "0.5".toList then some 0.5 else none

set_option maxRecDepth 8000 in
/-- A namelist with all eight keys and a mesh of two parallelograms with walls all around: a sensible file, on which the program ends with an exception, and would have run but for the Poisson matrix. -/
theorem sensible_example : ∃ f g, Sensible Nodes1D.exactLapack (1 / 2 ^ 52) 1e-5 exampleNum (fun _ => .ok sheared) "GravitationalAcceleration=9.81\nFinalTime=1\nInitialTime=0.5\nPolynomialOrder=1\nCFL=0.5\nFilterCutoff=0.5\nFilterOrder=1\nMeshFile=a.msh".toList f sheared twoQuad g ∧ (∃ e < 4 * sheared.K, sheared.bcType[e]? = some 3) ∧
    0 < f "GRAVITATIONALACCELERATION".toList ∧ 0 < f "CFL".toList ∧
    (∀ factorize mem n, program factorize Nodes1D.exactLapack (1 / 2 ^ 52) 1e-5 exampleNum (fun _ => .ok sheared) mem n 2 (some "GravitationalAcceleration=9.81\nFinalTime=1\nInitialTime=0.5\nPolynomialOrder=1\nCFL=0.5\nFilterCutoff=0.5\nFilterOrder=1\nMeshFile=a.msh".toList) = .throws) := by
  have w : ∀ s : Str, ('=' ∉ s ∧ Char.ofNat 0 ∉ s ∧ s.head? ≠ some ' ' ∧ s.getLast? ≠ some ' ') → Word s := fun s h => ⟨h.1, h.2.1, h.2.2.1, h.2.2.2⟩
  obtain ⟨g, hg, -⟩ := grid_one sheared twoQuad sheared_ok
  have hw : ∃ e < 4 * sheared.K, sheared.bcType[e]? = some 3 := by
    obtain ⟨h1, e, he, hP⟩ := sheared_walls
    exact ⟨e, he, (h1 e he).2 hP⟩
  let f : Str → ℝ := fun k => if k = "GRAVITATIONALACCELERATION".toList then 9.81 else if k ∈ ["FINALTIME".toList, "POLYNOMIALORDER".toList, "FILTERORDER".toList] then 1 else 0.5
  have f1 : (given f).order = 1 := by
    show ⌊f "POLYNOMIALORDER".toList⌋ = 1
    rw [show f "POLYNOMIALORDER".toList = 1 from by simp only [f]; rw [if_neg (by decide), if_pos (by decide)]]
    exact Int.floor_one
  have f2 : (given f).cutOff = 0.5 := by
    show f "FILTERCUTOFF".toList = 0.5
    simp only [f]; rw [if_neg (by decide), if_neg (by decide)]
  have f3 : (given f).filtOrder = 1 := by
    show f "FILTERORDER".toList = 1
    simp only [f]; rw [if_neg (by decide), if_pos (by decide)]
  have hs : Sensible Nodes1D.exactLapack (1 / 2 ^ 52) 1e-5 exampleNum (fun _ => .ok sheared) "GravitationalAcceleration=9.81\nFinalTime=1\nInitialTime=0.5\nPolynomialOrder=1\nCFL=0.5\nFilterCutoff=0.5\nFilterOrder=1\nMeshFile=a.msh".toList f sheared twoQuad g := by
    refine ⟨⟨["GravitationalAcceleration=9.81".toList, "FinalTime=1".toList, "InitialTime=0.5".toList, "PolynomialOrder=1".toList, "CFL=0.5".toList, "FilterCutoff=0.5".toList, "FilterOrder=1".toList, "MeshFile=a.msh".toList], [some ("GravitationalAcceleration".toList, "9.81".toList), some ("FinalTime".toList, "1".toList), some ("InitialTime".toList, "0.5".toList), some ("PolynomialOrder".toList, "1".toList), some ("CFL".toList, "0.5".toList), some ("FilterCutoff".toList, "0.5".toList), some ("FilterOrder".toList, "1".toList), some ("MeshFile".toList, "a.msh".toList)], Lines.cons "GravitationalAcceleration=9.81".toList (by decide) (Lines.cons "FinalTime=1".toList (by decide) (Lines.cons "InitialTime=0.5".toList (by decide) (Lines.cons "PolynomialOrder=1".toList (by decide) (Lines.cons "CFL=0.5".toList (by decide) (Lines.cons "FilterCutoff=0.5".toList (by decide) (Lines.cons "FilterOrder=1".toList (by decide) (Lines.last "MeshFile=a.msh".toList (by decide) (by decide)))))))), ?_, ?_, rfl⟩, by rw [f1], by rw [f2]; norm_num, by rw [f3], by rw [f1]; exact hg⟩
    · repeat' first | exact .nil | refine .cons ⟨w _ (by decide), w _ (by decide), by decide, [], [], [], [], by simp [Pad], by simp [Pad], by simp [Pad], by simp [Pad], by decide, by decide⟩ ?_
    · intro key hk
      simp only [parameters, List.mem_cons, List.not_mem_nil, or_false] at hk
      rcases hk with rfl | rfl | rfl | rfl | rfl | rfl | rfl
      · refine ⟨"9.81".toList, by decide, ?_⟩
        simp only [f, exampleNum]
        rw [if_pos trivial, if_pos trivial]
      · refine ⟨"1".toList, by decide, ?_⟩
        simp only [f, exampleNum]
        rw [if_neg (by decide), if_pos trivial, if_neg (by decide), if_pos (by decide)]
      · refine ⟨"0.5".toList, by decide, ?_⟩
        simp only [f, exampleNum]
        rw [if_neg (by decide), if_neg (by decide), if_pos trivial, if_neg (by decide), if_neg (by decide)]
      · refine ⟨"1".toList, by decide, ?_⟩
        simp only [f, exampleNum]
        rw [if_neg (by decide), if_pos trivial, if_neg (by decide), if_pos (by decide)]
      · refine ⟨"0.5".toList, by decide, ?_⟩
        simp only [f, exampleNum]
        rw [if_neg (by decide), if_neg (by decide), if_pos trivial, if_neg (by decide), if_neg (by decide)]
      · refine ⟨"0.5".toList, by decide, ?_⟩
        simp only [f, exampleNum]
        rw [if_neg (by decide), if_neg (by decide), if_pos trivial, if_neg (by decide), if_neg (by decide)]
      · refine ⟨"1".toList, by decide, ?_⟩
        simp only [f, exampleNum]
        rw [if_neg (by decide), if_pos trivial, if_neg (by decide), if_pos (by decide)]
  have p1 : 0 < f "GRAVITATIONALACCELERATION".toList := by
    simp only [f]; rw [if_pos trivial]; norm_num
  have p2 : 0 < f "CFL".toList := by
    simp only [f]; rw [if_neg (by decide), if_neg (by decide)]; norm_num
  exact ⟨f, g, hs, hw, p1, p2, fun factorize mem n => C145_throws hs factorize mem n⟩

end Blitzdg.Ins2D
