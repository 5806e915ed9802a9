import Verif.Py.Session
import Verif.Py.ImportProps
import Verif.SW.GridLow

/-! C163: what Python sees of a triangular provisioner after any sequence of calls. -/

namespace Blitzdg.Py

open Blitzdg.Sparse (DMat)
open Blitzdg.Dense (toMat)
open Blitzdg.DG2D
open Blitzdg.SW (Grid gridX gridY faceEnds nrm nrm_ends nrm_len hypot GridSpec Mesh Provisioned square_grid_low jac_triDerivOf)
open Blitzdg.Nodes1D (Lapack exactLapack)

/-! ### Specification -/

/-- The array has this shape and these entries. -/
def Shows (a : NdArray Cell) (m n : ℕ) (v : ℕ → ℕ → Option Cell) : Prop := a.shape = [m, n] ∧ ∀ i < m, ∀ j < n, a.at2 i j = v i j

/-- Reading the property `f` of any context of the session succeeds, adds one array with these entries, and changes nothing else. -/
def Reading (g : Grid) (t : Session) (f : DField) (m n : ℕ) (v : ℕ → ℕ → Option Cell) : Prop :=
  ∀ c < t.ctxs.length, ∃ a, act g t (.read c f) = .ok { t with arrs := t.arrs ++ [a] } ∧ Shows a m n v

/-- The arrays given to `setCoordinates` are C-contiguous and have the shape of the grid. -/
def Proper (g : Grid) : Act → Prop
  | .setCoordinates x y => x.Contiguous ∧ y.Contiguous ∧ x.s0 = (g.N + 1) * (g.N + 2) / 2 ∧ x.s1 = g.K ∧ y.s0 = (g.N + 1) * (g.N + 2) / 2 ∧ y.s1 = g.K
  | _ => True

def Act.IsSet : Act → Prop
  | .setCoordinates _ _ => True
  | _ => False

def Act.IsFilter : Act → Prop
  | .buildFilter _ _ => True
  | _ => False

def Act.isStore : Act → Bool
  | .store _ _ _ => true
  | _ => false

def Act.isContext : Act → Bool
  | .dgContext => true
  | _ => false

/-- Numbers shown by the context. -/
def ReadingNum (g : Grid) (t : Session) (f : DField) (m n : ℕ) (v : ℕ → ℕ → ℝ) : Prop := Reading g t f m n fun i j => some (some (v i j))

/-- `J` is the determinant of the derivatives of the coordinates `x`, `y`. -/
def Belongs (np K : ℕ) (Dr Ds x y J : ℕ → ℕ → ℝ) : Prop := ∀ i < np, ∀ k < K,
  J i k = (∑ j ∈ Finset.range np, Dr i j * x j k) * (∑ j ∈ Finset.range np, Ds i j * y j k) - (∑ j ∈ Finset.range np, Ds i j * x j k) * ∑ j ∈ Finset.range np, Dr i j * y j k

/-- The contexts of the session show coordinates, differentiation matrices and a Jacobian that belong together. -/
def Consistent (g : Grid) (t : Session) : Prop := ∃ Dr Ds x y J : ℕ → ℕ → ℝ, ReadingNum g t .Dr g.np g.np Dr ∧ ReadingNum g t .Ds g.np g.np Ds ∧
  ReadingNum g t .x g.np g.K x ∧ ReadingNum g t .y g.np g.K y ∧ ReadingNum g t .J g.np g.K J ∧ Belongs g.np g.K Dr Ds x y J

/-! ### Invariant -/

/-- Sizes never change. -/
structure Inv (g : Grid) (t : Session) : Prop where
  alloc : ∀ f, ((t.mat f).rows, (t.mat f).cols) = triAlloc g.N g.K f
  sizes : ∀ z ∈ t.ctxs, z = triSizes g.N g.K

theorem np_comm (g : Grid) : (g.N + 2) * (g.N + 1) / 2 = g.np := by rw [Nat.mul_comm]; rfl

theorem start_inv (g : Grid) (junk : ℕ → ℕ → Cell) : Inv g (.start g junk) := by
  refine ⟨fun f => ?_, fun z hz => by simp [Session.start] at hz⟩
  cases f <;> simp [Session.start, made, cells, triAlloc, Grid.pyX, Grid.pyY, Grid.nx, Grid.ny, Nat.mul_comm] <;> rfl

theorem filter_ok (g : Grid) (Nc : ℝ) (s : ℤ) : ∃ F, g.filter Nc s = .ok F := by
  unfold Grid.filter buildFilter
  rw [filterDiag_ok g.np g.N Nc s (le_refl _)]
  exact ⟨_, rfl⟩

theorem setMat_self (mat : DField → DMat Cell) (f : DField) (m : DMat Cell) : setMat mat f m f = m := if_pos rfl
theorem setMat_ne (mat : DField → DMat Cell) {f h : DField} (m : DMat Cell) (e : h ≠ f) : setMat mat f m h = mat h := if_neg e

theorem inv_set {g : Grid} {t : Session} (hi : Inv g t) (f : DField) (m : DMat Cell) (hm : (m.rows, m.cols) = triAlloc g.N g.K f) : Inv g { t with mat := setMat t.mat f m } := by
  refine ⟨fun h => ?_, hi.sizes⟩
  by_cases e : h = f
  · subst e; simp only [setMat_self]; exact hm
  · simp only [setMat_ne _ _ e]; exact hi.alloc h

/-- The coordinate arrays after `setCoordinates`. -/
theorem act_set {g : Grid} {t : Session} (hi : Inv g t) {x y : View Cell} (hp : Proper g (.setCoordinates x y)) :
    ∃ t', act g t (.setCoordinates x y) = .ok t' ∧ Inv g t' ∧ SameView (t'.mat .x) x ∧ SameView (t'.mat .y) y ∧ t'.ctxs = t.ctxs ∧ t'.arrs = t.arrs ∧
      ∀ f, f ≠ .x → f ≠ .y → t'.mat f = t.mat f := by
  obtain ⟨cx, cy, x0, x1, y0, y1⟩ := hp
  have ax := Prod.mk.inj (hi.alloc .x)
  have ay := Prod.mk.inj (hi.alloc .y)
  obtain ⟨mx, ex, sx⟩ := C95_coordinates_partial (t.mat .x) x cx (by rw [ax.1, x0, Nat.mul_comm]) (by rw [ax.2, x1])
  obtain ⟨my, ey, sy⟩ := C95_coordinates_partial (t.mat .y) y cy (by rw [ay.1, y0, Nat.mul_comm]) (by rw [ay.2, y1])
  refine ⟨{ t with mat := setMat (setMat t.mat .x mx) .y my }, by simp [act, ex, ey], ?_, ?_, ?_, rfl, rfl, fun f h1 h2 => ?_⟩
  · refine inv_set (t := { t with mat := setMat t.mat .x mx }) (inv_set hi .x mx ?_) .y my ?_
    · rw [sx.1, sx.2.1, x0, x1]; simp [triAlloc, Nat.mul_comm]
    · rw [sy.1, sy.2.1, y0, y1]; simp [triAlloc, Nat.mul_comm]
  · simpa only [setMat_ne _ _ (show DField.x ≠ .y by decide), setMat_self] using sx
  · simpa only [setMat_self] using sy
  · simp only [setMat_ne _ _ h2, setMat_ne _ _ h1]

theorem act_filter {g : Grid} {t : Session} (hi : Inv g t) (Nc : ℝ) (s : ℤ) :
    ∃ t' F, g.filter Nc s = .ok F ∧ act g t (.buildFilter Nc s) = .ok t' ∧ Inv g t' ∧ t'.mat .filter = filterStore F ∧ t'.ctxs = t.ctxs ∧ t'.arrs = t.arrs ∧
      ∀ f, f ≠ .filter → t'.mat f = t.mat f := by
  obtain ⟨F, hF⟩ := filter_ok g Nc s
  refine ⟨{ t with mat := setMat t.mat .filter (filterStore F) }, F, hF, by simp [act, hF], inv_set hi _ _ ?_, setMat_self t.mat .filter (filterStore F), rfl, rfl, fun f h => setMat_ne t.mat (filterStore F) h⟩
  simp [filterStore, triAlloc, np_comm]

/-- What a context shows is what the provisioner holds. -/
theorem act_read {g : Grid} {t : Session} (hi : Inv g t) {c : ℕ} (hc : c < t.ctxs.length) (f : DField) :
    ∃ a, dgNumpy (triSizes g.N g.K) f (t.mat f) = .ok a ∧ act g t (.read c f) = .ok { t with arrs := t.arrs ++ [a] } ∧ SameMat a (t.mat f) := by
  obtain ⟨a, ha, hs⟩ := C59_triangle g.N g.K f (t.mat f) (hi.alloc f)
  have hz := hi.sizes _ (List.getElem_mem hc)
  refine ⟨a, ha, ?_, hs⟩
  simp only [act, List.getElem?_eq_getElem hc, hz, ha, Out.bind_ok, Out.pure_eq]

theorem reading_of {g : Grid} {t : Session} (hi : Inv g t) (f : DField) {m n : ℕ} (hm : (t.mat f).rows = m) (hn : (t.mat f).cols = n) {v : ℕ → ℕ → Option Cell}
    (hv : ∀ i < m, ∀ j < n, some ((t.mat f).at' i j) = v i j) : Reading g t f m n v := by
  intro c hc
  obtain ⟨a, -, ha, h1, h2⟩ := act_read hi hc f
  refine ⟨a, ha, by rw [h1, hm, hn], fun i hi j hj => ?_⟩
  rw [h2 i (hm ▸ hi) j (hn ▸ hj), hv i hi j hj]

/-- One action. -/
theorem act_inv {g : Grid} {t : Session} (hi : Inv g t) {a : Act} (hp : Proper g a) : ∃ t', act g t a = .ok t' ∧ Inv g t' ∧
    (¬ a.IsSet → t'.mat .x = t.mat .x ∧ t'.mat .y = t.mat .y) ∧ (¬ a.IsFilter → t'.mat .filter = t.mat .filter) ∧
    (∀ f, f ≠ .x → f ≠ .y → f ≠ .filter → t'.mat f = t.mat f) ∧ t'.ctxs.length = t.ctxs.length + [a].countP Act.isContext := by
  cases a with
  | setCoordinates x y =>
    obtain ⟨t', e, i', -, -, ec, -, em⟩ := act_set hi hp
    exact ⟨t', e, i', fun h => absurd trivial h, fun _ => em _ (by decide) (by decide), fun f h1 h2 _ => em f h1 h2, by rw [ec]; rfl⟩
  | buildFilter Nc s =>
    obtain ⟨t', F, -, e, i', -, ec, -, em⟩ := act_filter hi Nc s
    exact ⟨t', e, i', fun _ => ⟨em _ (by decide), em _ (by decide)⟩, fun h => absurd trivial h, fun f _ _ h => em f h, by rw [ec]; rfl⟩
  | dgContext =>
    refine ⟨_, rfl, ⟨hi.alloc, fun z hz => ?_⟩, fun _ => ⟨rfl, rfl⟩, fun _ => rfl, fun _ _ _ _ => rfl, by simp [Act.isContext]⟩
    rcases List.mem_append.1 hz with h | h
    · exact hi.sizes z h
    · simpa using h
  | read c f =>
    by_cases hc : c < t.ctxs.length
    · obtain ⟨a, -, e, -⟩ := act_read hi hc f
      exact ⟨_, e, ⟨hi.alloc, hi.sizes⟩, fun _ => ⟨rfl, rfl⟩, fun _ => rfl, fun _ _ _ _ => rfl, rfl⟩
    · refine ⟨t, ?_, hi, fun _ => ⟨rfl, rfl⟩, fun _ => rfl, fun _ _ _ _ => rfl, rfl⟩
      simp [act, List.getElem?_eq_none (not_lt.1 hc)]
  | store j p v =>
    cases hj : t.arrs[j]? with
    | none => exact ⟨t, by simp [act, hj], hi, fun _ => ⟨rfl, rfl⟩, fun _ => rfl, fun _ _ _ _ => rfl, rfl⟩
    | some a => exact ⟨{ t with arrs := t.arrs.set j { a with data := a.data.set p v } }, by simp [act, hj], ⟨hi.alloc, hi.sizes⟩, fun _ => ⟨rfl, rfl⟩, fun _ => rfl, fun _ _ _ _ => rfl, rfl⟩

/-- Any sequence of actions. -/
theorem run_inv {g : Grid} (h : List Act) : ∀ {t : Session}, Inv g t → (∀ a ∈ h, Proper g a) → ∃ t', loopM (act g) t h = .ok t' ∧ Inv g t' ∧
    ((∀ a ∈ h, ¬ a.IsSet) → t'.mat .x = t.mat .x ∧ t'.mat .y = t.mat .y) ∧ ((∀ a ∈ h, ¬ a.IsFilter) → t'.mat .filter = t.mat .filter) ∧
    (∀ f, f ≠ .x → f ≠ .y → f ≠ .filter → t'.mat f = t.mat f) ∧ t'.ctxs.length = t.ctxs.length + h.countP Act.isContext := by
  induction h with
  | nil => exact fun {t} hi _ => ⟨t, rfl, hi, fun _ => ⟨rfl, rfl⟩, fun _ => rfl, fun _ _ _ _ => rfl, rfl⟩
  | cons a h ih =>
    intro t hi hp
    obtain ⟨t1, e1, i1, x1, f1, m1, c1⟩ := act_inv hi (hp a (by simp))
    obtain ⟨t2, e2, i2, x2, f2, m2, c2⟩ := ih i1 fun b hb => hp b (by simp [hb])
    refine ⟨t2, by rw [loopM_cons, e1, Out.bind_ok, e2], i2, fun hn => ?_, fun hn => ?_, fun f p q r => (m2 f p q r).trans (m1 f p q r), ?_⟩
    · obtain ⟨p, q⟩ := x1 (hn a (by simp))
      obtain ⟨p', q'⟩ := x2 fun b hb => hn b (by simp [hb])
      exact ⟨p'.trans p, q'.trans q⟩
    · exact (f2 fun b hb => hn b (by simp [hb])).trans (f1 (hn a (by simp)))
    · rw [c2, c1, List.countP_cons, List.countP_cons, List.countP_nil]; omega

/-! ### Theorems -/

/-- **C163, no failure.** With arrays of the right shape every sequence of calls runs to its end, and there is one context for each call of `dgContext`. -/
theorem C163_defined (g : Grid) (junk : ℕ → ℕ → Cell) (h : List Act) (hp : ∀ a ∈ h, Proper g a) : ∃ t, session g junk h = .ok t ∧ t.ctxs.length = h.countP Act.isContext := by
  obtain ⟨t, e, -, -, -, -, c⟩ := run_inv h (start_inv g junk) hp
  exact ⟨t, e, by rw [c]; simp [Session.start]⟩

/-- **C163, coordinates.** Every context, whether received before or after, shows the coordinates given by the last call of `setCoordinates`. -/
theorem C163_coordinates (g : Grid) (junk : ℕ → ℕ → Cell) (before after : List Act) (x y : View Cell) (hp : ∀ a ∈ before ++ .setCoordinates x y :: after, Proper g a)
    (hl : ∀ a ∈ after, ¬ a.IsSet) : ∃ t, session g junk (before ++ .setCoordinates x y :: after) = .ok t ∧ Reading g t .x g.np g.K x.at' ∧ Reading g t .y g.np g.K y.at' := by
  obtain ⟨t0, e0, i0, -⟩ := run_inv before (start_inv g junk) fun a ha => hp a (by simp [ha])
  have hs := hp (.setCoordinates x y) (by simp)
  obtain ⟨t1, e1, i1, sx, sy, -⟩ := act_set i0 hs
  obtain ⟨t2, e2, i2, hx, -⟩ := run_inv after i1 fun a ha => hp a (by simp [ha])
  obtain ⟨hx, hy⟩ := hx hl
  obtain ⟨-, -, x0, x1, y0, y1⟩ := hs
  refine ⟨t2, by rw [session, loopM_append, e0, Out.bind_ok, loopM_cons, e1, Out.bind_ok, e2], ?_, ?_⟩
  · refine reading_of i2 .x (by rw [hx, sx.1, x0]; rfl) (by rw [hx, sx.2.1, x1]) fun i hi j hj => ?_
    rw [hx]; exact (sx.2.2 i (by rw [x0]; exact hi) j (by rw [x1]; exact hj)).symm
  · refine reading_of i2 .y (by rw [hy, sy.1, y0]; rfl) (by rw [hy, sy.2.1, y1]) fun i hi j hj => ?_
    rw [hy]; exact (sy.2.2 i (by rw [y0]; exact hi) j (by rw [y1]; exact hj)).symm

/-- **C163, coordinates.** Without a call of `setCoordinates` they are the nodes of the elements. -/
theorem C163_coordinates_initial (g : Grid) (junk : ℕ → ℕ → Cell) (h : List Act) (hp : ∀ a ∈ h, Proper g a) (hl : ∀ a ∈ h, ¬ a.IsSet) :
    ∃ t, session g junk h = .ok t ∧ ReadingNum g t .x g.np g.K (fun i k => gridX (g.tri k) g.n i) ∧ ReadingNum g t .y g.np g.K (fun i k => gridY (g.tri k) g.n i) := by
  obtain ⟨t, e, i, hx, -⟩ := run_inv h (start_inv g junk) hp
  obtain ⟨hx, hy⟩ := hx hl
  exact ⟨t, e, reading_of i .x (by rw [hx]; rfl) (by rw [hx]; rfl) fun _ _ _ _ => by rw [hx]; rfl, reading_of i .y (by rw [hy]; rfl) (by rw [hy]; rfl) fun _ _ _ _ => by rw [hy]; rfl⟩

/-- **C163, filter.** Every context, whether received before or after, shows the filter of the last call of `buildFilter`. -/
theorem C163_filter (g : Grid) (junk : ℕ → ℕ → Cell) (before after : List Act) (Nc : ℝ) (s : ℤ) (hp : ∀ a ∈ before ++ .buildFilter Nc s :: after, Proper g a)
    (hl : ∀ a ∈ after, ¬ a.IsFilter) : ∃ t F, session g junk (before ++ .buildFilter Nc s :: after) = .ok t ∧ g.filter Nc s = .ok F ∧
      Reading g t .filter g.np g.np fun i j => if h : i < g.np ∧ j < g.np then some (F ⟨i, h.1⟩ ⟨j, h.2⟩) else none := by
  obtain ⟨t0, e0, i0, -⟩ := run_inv before (start_inv g junk) fun a ha => hp a (by simp [ha])
  obtain ⟨t1, F, hF, e1, i1, m1, -⟩ := act_filter i0 Nc s
  obtain ⟨t2, e2, i2, -, hf, -⟩ := run_inv after i1 fun a ha => hp a (by simp [ha])
  have hm := (hf hl).trans m1
  refine ⟨t2, F, by rw [session, loopM_append, e0, Out.bind_ok, loopM_cons, e1, Out.bind_ok, e2], hF, reading_of i2 .filter (by rw [hm]; rfl) (by rw [hm]; rfl) fun i hi j hj => ?_⟩
  rw [hm, filterStore]
  simp only [dif_pos (And.intro hi hj)]

/-- **C163, filter, in terms of the modes.** For an exponent of at least one and a cut-off other than the order, the matrix shown multiplies each column of the Vandermonde matrix by a number in (0, 1],
which is one exactly up to the cut-off. -/
theorem C163_filter_modes {la : Lapack} {eps ztol tol : ℝ} {N : ℕ} {m : Mesh} {P : ℕ → ℕ} {g : Grid} (hg : Provisioned la eps ztol tol N m P g) (junk : ℕ → ℕ → Cell) (before after : List Act)
    (Nc : ℝ) (hNc : Nc ≠ g.N) (s : ℤ) (hs : 1 ≤ s) (hp : ∀ a ∈ before ++ .buildFilter Nc s :: after, Proper g a) (hl : ∀ a ∈ after, ¬ a.IsFilter) :
    ∃ (t : Session) (F : ℕ → ℕ → ℝ), session g junk (before ++ .buildFilter Nc s :: after) = .ok t ∧ ReadingNum g t .filter g.np g.np F ∧ ReadingNum g t .V g.np g.np g.o.V.at' ∧
      ∀ i j, i + j ≤ g.N → ∃ c : ℝ, 0 < c ∧ c ≤ 1 ∧ (c = 1 ↔ ((i + j : ℕ) : ℝ) ≤ Nc) ∧
        ∀ a < g.np, ∑ b ∈ Finset.range g.np, F a b * g.o.V.at' b (triNum g.N i j) = c * g.o.V.at' a (triNum g.N i j) := by
  obtain ⟨x, hx, -⟩ := hg.spec
  obtain ⟨t, F, et, eF, hF⟩ := C163_filter g junk before after Nc s hp hl
  obtain ⟨t', et', i', -, -, em, -⟩ := run_inv _ (start_inv g junk) hp
  obtain rfl : t' = t := Out.ok.inj (et'.symm.trans et)
  have hV : toMat g.o.Vinv g.np g.np * toMat g.o.V g.np g.np = 1 := by rw [hx.vand]; exact hx.unisolvent
  obtain ⟨R, eR, hR⟩ := C39_filter_partial g.N Nc s hs hNc (toMat g.o.V g.np g.np) (toMat g.o.Vinv g.np g.np) hV
  have hFR : F = fun i j => some (R i j) := Out.ok.inj (eF.symm.trans eR)
  refine ⟨t', fun i j => if h : i < g.np ∧ j < g.np then R ⟨i, h.1⟩ ⟨j, h.2⟩ else 0, et, ?_, ?_, fun i j hij => ?_⟩
  · intro c hc
    obtain ⟨a, ea, h1, h2⟩ := hF c hc
    refine ⟨a, ea, h1, fun i hi j hj => ?_⟩
    rw [h2 i hi j hj, hFR]
    simp only [dif_pos (And.intro hi hj)]
    rfl
  · have hm : t'.mat .V = made g junk .V := em _ (by decide) (by decide) (by decide)
    exact reading_of i' .V (by rw [hm]; rfl) (by rw [hm]; rfl) fun _ _ _ _ => by rw [hm]; rfl
  · obtain ⟨c, c0, c1, h1, h2, he⟩ := hR i j hij
    refine ⟨c, c0, c1, ⟨fun h => not_lt.1 fun hlt => (h2 hlt).ne h, h1⟩, fun a ha => ?_⟩
    have := congrFun he ⟨a, ha⟩
    simp only [Matrix.mulVec, dotProduct, Matrix.col, Pi.smul_apply, smul_eq_mul] at this
    rw [Finset.sum_range]
    refine Eq.trans (Finset.sum_congr rfl fun b _ => ?_) this
    exact congrArg (· * g.o.V.at' b (triNum g.N i j)) (dif_pos (And.intro ha b.2))

/-- **C163, everything else.** All other properties show at any time what the first context of a fresh provisioner shows. -/
theorem C163_fixed (g : Grid) (junk : ℕ → ℕ → Cell) (h : List Act) (hp : ∀ a ∈ h, Proper g a) (f : DField) (h1 : f ≠ .x) (h2 : f ≠ .y) (h3 : f ≠ .filter) :
    ∃ t t0 a, session g junk h = .ok t ∧ session g junk [.dgContext] = .ok t0 ∧ act g t0 (.read 0 f) = .ok { t0 with arrs := [a] } ∧
      ∀ c < t.ctxs.length, act g t (.read c f) = .ok { t with arrs := t.arrs ++ [a] } := by
  obtain ⟨t, e, i, -, -, em, -⟩ := run_inv h (start_inv g junk) hp
  obtain ⟨t0, e0, i0, -, -, em0, c0⟩ := run_inv [.dgContext] (start_inv g junk) (by simp [Proper])
  obtain ⟨a, ea, e1, -⟩ := act_read i0 (c := 0) (by rw [c0]; simp [Session.start, Act.isContext]) f
  have ha0 : t0.arrs = [] := by
    have : t0 = ⟨made g junk, [triSizes g.N g.K], []⟩ := (Out.ok.inj e0).symm
    rw [this]
  refine ⟨t, t0, a, e, e0, by rw [e1, ha0]; rfl, fun c hc => ?_⟩
  obtain ⟨a', ea', e', -⟩ := act_read i hc f
  rw [em f h1 h2 h3, ← em0 f h1 h2 h3, ea] at ea'
  rw [e', Out.ok.inj ea']

/-- **C163, everything else.** In particular the Jacobian shown is always that of the triangles of the mesh: half the area of the element. -/
theorem C163_jacobian {la : Lapack} {eps ztol tol : ℝ} {N : ℕ} {m : Mesh} {P : ℕ → ℕ} {g : Grid} (hg : Provisioned la eps ztol tol N m P g) (junk : ℕ → ℕ → Cell) (h : List Act)
    (hp : ∀ a ∈ h, Proper g a) : ∃ t, session g junk h = .ok t ∧ ReadingNum g t .J g.np g.K fun _ k => cross (m.tri k) / 4 := by
  obtain ⟨x, hx, -, hK, htri⟩ := hg.spec
  obtain ⟨t, e, i, -, -, em, -⟩ := run_inv h (start_inv g junk) hp
  have hm : t.mat .J = made g junk .J := em _ (by decide) (by decide) (by decide)
  refine ⟨t, e, reading_of i .J (by rw [hm]; rfl) (by rw [hm]; rfl) fun a ha k hk => ?_⟩
  rw [hm]
  show some (some (jac (g.deriv a k))) = _
  rw [hx.deriv_eq a k ha, jac_triDerivOf, htri k (hK ▸ hk)]

/-- Length of an edge. -/
noncomputable def edgeLen (e : (ℝ × ℝ) × (ℝ × ℝ)) : ℝ := √((e.2.1 - e.1.1) ^ 2 + (e.2.2 - e.1.2) ^ 2)

/-- **C163, everything else.** The metric terms, normals and face scales shown are always those of the triangles of the mesh: row `f*(N+1) + i` belongs to the edge `f`, the normal is the edge turned
clockwise and divided by its length, the face scale is the length over the area. -/
theorem C163_geometry {la : Lapack} {eps ztol tol : ℝ} {N : ℕ} {m : Mesh} {P : ℕ → ℕ} {g : Grid} (hg : Provisioned la eps ztol tol N m P g) (junk : ℕ → ℕ → Cell) (h : List Act)
    (hp : ∀ a ∈ h, Proper g a) : ∃ t, session g junk h = .ok t ∧
      ReadingNum g t .rx g.np g.K (fun _ k => 2 * ((m.tri k).yc - (m.tri k).ya) / cross (m.tri k)) ∧ ReadingNum g t .ry g.np g.K (fun _ k => -2 * ((m.tri k).xc - (m.tri k).xa) / cross (m.tri k)) ∧
      ReadingNum g t .sx g.np g.K (fun _ k => -2 * ((m.tri k).yb - (m.tri k).ya) / cross (m.tri k)) ∧ ReadingNum g t .sy g.np g.K (fun _ k => 2 * ((m.tri k).xb - (m.tri k).xa) / cross (m.tri k)) ∧
      ReadingNum g t .nx (3 * (g.N + 1)) g.K (fun c k => ((faceEnds (m.tri k) (c / (g.N + 1))).2.2 - (faceEnds (m.tri k) (c / (g.N + 1))).1.2) / edgeLen (faceEnds (m.tri k) (c / (g.N + 1)))) ∧
      ReadingNum g t .ny (3 * (g.N + 1)) g.K (fun c k => -((faceEnds (m.tri k) (c / (g.N + 1))).2.1 - (faceEnds (m.tri k) (c / (g.N + 1))).1.1) / edgeLen (faceEnds (m.tri k) (c / (g.N + 1)))) ∧
      ReadingNum g t .fscale (3 * (g.N + 1)) g.K (fun c k => 2 * edgeLen (faceEnds (m.tri k) (c / (g.N + 1))) / cross (m.tri k)) := by
  obtain ⟨x, hx, -, hK, htri⟩ := hg.spec
  obtain ⟨t, e, i, -, -, em, -⟩ := run_inv h (start_inv g junk) hp
  have hT : ∀ k < g.K, g.tri k = m.tri k := fun k hk => htri k (hK ▸ hk)
  have hc : ∀ k < g.K, 0 < cross (m.tri k) := fun k hk => hT k hk ▸ hx.ccw k hk
  have sh : ∀ f, f ≠ .x → f ≠ .y → f ≠ .filter → ∀ (w : DMat ℝ) (v : ℕ → ℕ → ℝ), made g junk f = cells w → (∀ a < w.rows, ∀ k < w.cols, w.at' a k = v a k) → ReadingNum g t f w.rows w.cols v := by
    intro f p q r w v hw hv
    have hm : t.mat f = cells w := (em f p q r).trans hw
    exact reading_of i f (by rw [hm]; rfl) (by rw [hm]; rfl) fun a ha k hk => by rw [hm, ← hv a ha k hk]; rfl
  have hd : ∀ a < g.np, ∀ k < g.K, g.deriv a k = triDerivOf (m.tri k) := fun a ha k hk => by rw [hx.deriv_eq a k ha, hT k hk]
  have hn : ∀ c < 3 * (g.N + 1), ∀ k < g.K, g.normal c k = nrm (m.tri k) (c / (g.N + 1)) := by
    intro c hc k hk
    have := hx.normal_eq (c / (g.N + 1)) (c % (g.N + 1)) k (Nat.div_lt_of_lt_mul (by omega)) (Nat.lt_succ_iff.1 (Nat.mod_lt _ (by omega)))
    rwa [Nat.div_add_mod', hT k hk] at this
  have hs : ∀ c < 3 * (g.N + 1), ∀ k < g.K, g.fscale c k = len (nrm (m.tri k) (c / (g.N + 1))) / (cross (m.tri k) / 4) := by
    intro c hc k hk
    have := hx.fscale_eq (c / (g.N + 1)) (c % (g.N + 1)) k (Nat.div_lt_of_lt_mul (by omega)) (Nat.lt_succ_iff.1 (Nat.mod_lt _ (by omega)))
    rwa [Nat.div_add_mod', hT k hk] at this
  have hf : ∀ c < 3 * (g.N + 1), c / (g.N + 1) < 3 := fun c hc => Nat.div_lt_of_lt_mul (by omega)
  have hl : ∀ (T : Tri) f, f < 3 → len (nrm T f) = edgeLen (faceEnds T f) / 2 := by
    intro T f hf
    rw [nrm_len T f hf]
    unfold hypot edgeLen
    congr 2; ring
  have metr : ∀ a < g.np, ∀ k < g.K, ∀ p q, metric (g.deriv a k) p q = (!![2 * ((m.tri k).yc - (m.tri k).ya) / cross (m.tri k), -2 * ((m.tri k).xc - (m.tri k).xa) / cross (m.tri k);
      -2 * ((m.tri k).yb - (m.tri k).ya) / cross (m.tri k), 2 * ((m.tri k).xb - (m.tri k).xa) / cross (m.tri k)] : Matrix (Fin 2) (Fin 2) ℝ) p q := by
    intro a ha k hk p q
    have := hc k hk
    rw [hd a ha k hk, metric, jac_triDerivOf]
    generalize cross (m.tri k) = C at this ⊢
    fin_cases p <;> fin_cases q <;> simp [triDerivOf] <;> field_simp <;> ring
  refine ⟨t, e, sh .rx (by decide) (by decide) (by decide) _ _ rfl fun a ha k hk => metr a ha k hk 0 0, sh .ry (by decide) (by decide) (by decide) _ _ rfl fun a ha k hk => metr a ha k hk 0 1,
    sh .sx (by decide) (by decide) (by decide) _ _ rfl fun a ha k hk => metr a ha k hk 1 0, sh .sy (by decide) (by decide) (by decide) _ _ rfl fun a ha k hk => metr a ha k hk 1 1,
    sh .nx (by decide) (by decide) (by decide) _ _ rfl fun c hc k hk => ?_, sh .ny (by decide) (by decide) (by decide) _ _ rfl fun c hc k hk => ?_,
    sh .fscale (by decide) (by decide) (by decide) _ _ rfl fun c hc k hk => ?_⟩
  · show (unit (g.normal c k)).1 = _
    rw [hn c hc k hk, unit, hl _ _ (hf c hc), nrm_ends _ _ (hf c hc), div_div_div_cancel_right₀ two_ne_zero]
  · show (unit (g.normal c k)).2 = _
    rw [hn c hc k hk, unit, hl _ _ (hf c hc), nrm_ends _ _ (hf c hc), ← neg_div]
    exact div_div_div_cancel_right₀ two_ne_zero _ _
  · show g.fscale c k = _
    rw [hs c hc k hk, hl _ _ (hf c hc)]
    ring

/-- **C163, everything else.** In every history the matrices `Dr`, `Ds` shown differentiate the polynomials of the element, `lift` shown lifts edge polynomials, and column `f` of `Fmask` shown lists the
nodes on edge `f`, at the Gauss-Lobatto points `p`. -/
theorem C163_operators {la : Lapack} {eps ztol tol : ℝ} {N : ℕ} {m : Mesh} {P : ℕ → ℕ} {g : Grid} (hg : Provisioned la eps ztol tol N m P g) (junk : ℕ → ℕ → Cell) (h : List Act)
    (hp : ∀ a ∈ h, Proper g a) : ∃ (t : Session) (Dr Ds lift : ℕ → ℕ → ℝ) (mask : ℕ → ℕ → ℕ) (p : List ℝ), session g junk h = .ok t ∧ ReadingNum g t .Dr g.np g.np Dr ∧ ReadingNum g t .Ds g.np g.np Ds ∧
      ReadingNum g t .lift g.np (3 * (g.N + 1)) lift ∧ ReadingNum g t .fmask (g.N + 1) 3 (fun i f => (mask i f : ℝ)) ∧
      (∀ q, TriSpace g.N q → ∀ i < g.np, ∑ j ∈ Finset.range g.np, Dr i j * nodal g.n.r g.n.s q j = nodal g.n.r g.n.s (MvPolynomial.pderiv 0 q) i) ∧
      (∀ q, TriSpace g.N q → ∀ i < g.np, ∑ j ∈ Finset.range g.np, Ds i j * nodal g.n.r g.n.s q j = nodal g.n.r g.n.s (MvPolynomial.pderiv 1 q) i) ∧
      LiftSpec g.N 3 (TriSpace g.N) triInt triEdge (fun f j => (if triOnS f then g.n.s else g.n.r).getD (mask j f) 0) g.n.r g.n.s ⟨g.np, 3 * (g.N + 1), lift⟩ ∧
      (∀ i j : ℕ, i < j → j ≤ g.N → p.getD i 0 < p.getD j 0) ∧ ∀ f < 3, ∀ i ≤ g.N, (g.n.r.getD (mask i f) 0, g.n.s.getD (mask i f) 0) = triFacePt f (p.getD i 0) := by
  obtain ⟨x, hx, -⟩ := hg.spec
  obtain ⟨t, e, i, -, -, em, -⟩ := run_inv h (start_inv g junk) hp
  have sh : ∀ f, f ≠ .x → f ≠ .y → f ≠ .filter → ∀ (w : DMat ℝ), made g junk f = cells w → ReadingNum g t f w.rows w.cols w.at' := by
    intro f p q r w hw
    have hm : t.mat f = cells w := (em f p q r).trans hw
    exact reading_of i f (by rw [hm]; rfl) (by rw [hm]; rfl) fun a ha k hk => by rw [hm]; rfl
  have hn := hx.nodes
  refine ⟨t, _, _, _, g.n.mask, x, e, sh .Dr (by decide) (by decide) (by decide) _ rfl, sh .Ds (by decide) (by decide) (by decide) _ rfl, sh .lift (by decide) (by decide) (by decide) _ rfl,
    sh .fmask (by decide) (by decide) (by decide) _ rfl, fun q hq i hi => ?_, fun q hq i hi => ?_, hx.elem.lift, hx.inc, hx.maskPt⟩
  · have := hx.elem.diff.dr q hq i (hn ▸ hi)
    rwa [hn] at this
  · have := hx.elem.diff.ds q hq i (hn ▸ hi)
    rwa [hn] at this

/-- **C163, arrays are copies.** An array received changes only when Python stores into it. -/
theorem C163_copies (g : Grid) (j : ℕ) : ∀ (h : List Act) (t t' : Session), loopM (act g) t h = .ok t' → j < t.arrs.length → (∀ p v, Act.store j p v ∉ h) →
    t'.arrs[j]? = t.arrs[j]? := by
  intro h
  induction h with
  | nil => intro t t' e _ _; rw [loopM_nil] at e; rw [Out.ok.inj e]
  | cons a h ih =>
    intro t t' e hj hs
    rw [loopM_cons] at e
    obtain ⟨t1, e1, e2⟩ := Out.bind_eq_ok.1 e
    have key : t1.arrs[j]? = t.arrs[j]? ∧ j < t1.arrs.length := by
      cases a with
      | setCoordinates x y =>
        simp only [act] at e1
        obtain ⟨mx, -, e1⟩ := Out.bind_eq_ok.1 e1
        obtain ⟨my, -, e1⟩ := Out.bind_eq_ok.1 e1
        rw [← Out.ok.inj e1]; exact ⟨rfl, hj⟩
      | buildFilter Nc s =>
        simp only [act] at e1
        obtain ⟨F, -, e1⟩ := Out.bind_eq_ok.1 e1
        rw [← Out.ok.inj e1]; exact ⟨rfl, hj⟩
      | dgContext => rw [← Out.ok.inj e1]; exact ⟨rfl, hj⟩
      | read c f =>
        simp only [act] at e1
        split at e1
        · rw [← Out.ok.inj e1]; exact ⟨rfl, hj⟩
        · obtain ⟨b, -, e1⟩ := Out.bind_eq_ok.1 e1
          rw [← Out.ok.inj e1]
          exact ⟨List.getElem?_append_left hj, by simp only [List.length_append]; omega⟩
      | store i p v =>
        have hne : i ≠ j := fun e => hs p v (by simp [e])
        simp only [act] at e1
        split at e1
        · rw [← Out.ok.inj e1]; exact ⟨rfl, hj⟩
        · rw [← Out.ok.inj e1]
          exact ⟨List.getElem?_set_ne hne, by simpa using hj⟩
    rw [ih t1 t' e2 key.2 fun p v hm => hs p v (by simp [hm]), key.1]

/-- Two sessions that differ only in the contents of the arrays received. -/
structure Alike (t u : Session) : Prop where
  mat : t.mat = u.mat
  ctxs : t.ctxs = u.ctxs

theorem alike_act {g : Grid} {t u t' : Session} (h : Alike t u) {a : Act} (e : act g t a = .ok t') (ha : a.isStore = false) : ∃ u', act g u a = .ok u' ∧ Alike t' u' := by
  obtain ⟨hm, hc⟩ := h
  cases a with
  | setCoordinates x y =>
    simp only [act] at e ⊢
    obtain ⟨mx, ex, e⟩ := Out.bind_eq_ok.1 e
    obtain ⟨my, ey, e⟩ := Out.bind_eq_ok.1 e
    rw [← hm, ex, Out.bind_ok, ey, Out.bind_ok]
    exact ⟨_, rfl, by rw [← Out.ok.inj e], by rw [← Out.ok.inj e]; exact hc⟩
  | buildFilter Nc s =>
    simp only [act] at e ⊢
    obtain ⟨F, eF, e⟩ := Out.bind_eq_ok.1 e
    rw [eF, Out.bind_ok]
    exact ⟨_, rfl, by rw [← Out.ok.inj e, hm], by rw [← Out.ok.inj e]; exact hc⟩
  | dgContext =>
    refine ⟨_, rfl, by rw [← Out.ok.inj e]; exact hm, by rw [← Out.ok.inj e]; simp [hc]⟩
  | read c f =>
    simp only [act] at e ⊢
    rw [← hc, ← hm]
    split at e
    · exact ⟨u, rfl, by rw [← Out.ok.inj e]; exact hm, by rw [← Out.ok.inj e]; exact hc⟩
    · obtain ⟨b, eb, e⟩ := Out.bind_eq_ok.1 e
      simp only [eb, Out.bind_ok]
      rw [← Out.ok.inj e]
      exact ⟨_, rfl, rfl, rfl⟩
  | store j p v => cases ha

theorem alike_store {g : Grid} {t t' : Session} {j p : ℕ} {v : Cell} (e : act g t (.store j p v) = .ok t') : Alike t' t := by
  simp only [act] at e
  split at e <;> · rw [← Out.ok.inj e]; exact ⟨rfl, rfl⟩

/-- **C163, stores have no effect.** Whatever Python writes into the arrays it received, later reads show the same as if it had not. -/
theorem C163_stores (g : Grid) (junk : ℕ → ℕ → Cell) (h : List Act) (t : Session) (e : session g junk h = .ok t) :
    ∃ u, session g junk (h.filter fun a => !a.isStore) = .ok u ∧ u.ctxs.length = t.ctxs.length ∧
      ∀ f m n v, Reading g t f m n v ↔ Reading g u f m n v := by
  have key : ∀ (h : List Act) (t u t' : Session), Alike t u → loopM (act g) t h = .ok t' → ∃ u', loopM (act g) u (h.filter fun a => !a.isStore) = .ok u' ∧ Alike t' u' := by
    intro h
    induction h with
    | nil => intro t u t' ha e; rw [loopM_nil] at e; exact ⟨u, rfl, Out.ok.inj e ▸ ha⟩
    | cons a h ih =>
      intro t u t' ha e
      rw [loopM_cons] at e
      obtain ⟨t1, e1, e2⟩ := Out.bind_eq_ok.1 e
      cases hs : a.isStore with
      | true =>
        cases a with
        | store j p v =>
          have h1 := alike_store e1
          obtain ⟨u', eu, hu⟩ := ih t1 u t' ⟨h1.mat.trans ha.mat, h1.ctxs.trans ha.ctxs⟩ e2
          exact ⟨u', by simpa [Act.isStore] using eu, hu⟩
        | _ => cases hs
      | false =>
        obtain ⟨u1, eu1, hu1⟩ := alike_act ha e1 hs
        obtain ⟨u', eu, hu⟩ := ih t1 u1 t' hu1 e2
        exact ⟨u', by rw [List.filter_cons_of_pos (by simp [hs]), loopM_cons, eu1, Out.bind_ok, eu], hu⟩
  obtain ⟨u, eu, hm, hc⟩ := key h _ _ t ⟨rfl, rfl⟩ e
  have half : ∀ (t u : Session), t.mat = u.mat → t.ctxs = u.ctxs → ∀ f m n v, Reading g t f m n v → Reading g u f m n v := by
    intro t u hm hc f m n v hr c hlt
    obtain ⟨a, ea, ha⟩ := hr c (hc ▸ hlt)
    refine ⟨a, ?_, ha⟩
    simp only [act] at ea ⊢
    rw [← hc, ← hm]
    split at ea
    · rename_i hn
      exact absurd (List.getElem?_eq_none_iff.1 hn) (by rw [hc]; omega)
    · obtain ⟨b, eb, e'⟩ := Out.bind_eq_ok.1 ea
      have hb : b = a := by
        have := congrArg Session.arrs (Out.ok.inj e')
        simpa using this
      simp only [eb, Out.bind_ok, Out.pure_eq, hb]
  exact ⟨u, eu, by rw [hc], fun f m n v => ⟨half t u hm hc f m n v, half u t hm.symm hc.symm f m n v⟩⟩

/-- **C163, consistency.** Without a call of `setCoordinates` the Jacobian shown is that of the coordinates shown.  Missing from the full statement: histories with `setCoordinates`, for which it is false
(`C163_stale`). -/
theorem C163_consistent_partial (g : Grid) (junk : ℕ → ℕ → Cell) (h : List Act) (hp : ∀ a ∈ h, Proper g a) (hl : ∀ a ∈ h, ¬ a.IsSet) : ∃ t, session g junk h = .ok t ∧ Consistent g t := by
  obtain ⟨t, e, hx, hy⟩ := C163_coordinates_initial g junk h hp hl
  obtain ⟨t', e', i, -, -, em, -⟩ := run_inv h (start_inv g junk) hp
  obtain rfl : t' = t := Out.ok.inj (e'.symm.trans e)
  have h1 : t'.mat .Dr = made g junk .Dr := em _ (by decide) (by decide) (by decide)
  have h2 : t'.mat .Ds = made g junk .Ds := em _ (by decide) (by decide) (by decide)
  have h3 : t'.mat .J = made g junk .J := em _ (by decide) (by decide) (by decide)
  exact ⟨t', e, g.o.d.Dr.at', g.o.d.Ds.at', _, _, fun a k => jac (g.deriv a k), reading_of i .Dr (by rw [h1]; rfl) (by rw [h1]; rfl) fun _ _ _ _ => by rw [h1]; rfl,
    reading_of i .Ds (by rw [h2]; rfl) (by rw [h2]; rfl) fun _ _ _ _ => by rw [h2]; rfl, hx, hy, reading_of i .J (by rw [h3]; rfl) (by rw [h3]; rfl) fun _ _ _ _ => by rw [h3]; rfl, fun _ _ _ _ => rfl⟩

/-- A C-contiguous array with these entries. -/
def carray (m n : ℕ) (v : ℕ → ℕ → ℝ) : View Cell := ⟨storage (cells ⟨m, n, v⟩), 0, m, n, n, 1⟩

theorem carray_contiguous (m n : ℕ) (v : ℕ → ℕ → ℝ) : (carray m n v).Contiguous := ⟨rfl, rfl, by simp [carray, storage_length, cells]⟩

theorem carray_at (m n : ℕ) (v : ℕ → ℕ → ℝ) {i j : ℕ} (hi : i < m) (hj : j < n) : (carray m n v).at' i j = some (some (v i j)) := by
  have h := storage_get (cells ⟨m, n, v⟩) (i := i) (j := j) hi hj
  have e : ((((carray m n v).off : ℕ) : ℤ) + i * (carray m n v).st0 + j * (carray m n v).st1) = ((i * n + j : ℕ) : ℤ) := by simp [carray]
  unfold View.at'
  rw [e, if_pos (by positivity), Int.toNat_natCast]
  exact h

theorem num_unique {g : Grid} {t : Session} {f : DField} {m n : ℕ} {v w : ℕ → ℕ → Option Cell} (hc : 0 < t.ctxs.length) (hv : Reading g t f m n v) (hw : Reading g t f m n w) :
    ∀ i < m, ∀ j < n, v i j = w i j := by
  obtain ⟨a, ea, -, ha⟩ := hv 0 hc
  obtain ⟨b, eb, -, hb⟩ := hw 0 hc
  have : a = b := by
    have := congrArg Session.arrs (Out.ok.inj (ea.symm.trans eb))
    simpa using this
  subst this
  intro i hi j hj
  rw [← ha i hi j hj, hb i hi j hj]

/-- **C163, setCoordinates leaves the metric behind.** On every provisioned grid, after doubling the coordinates every context shows the doubled coordinates with the old Jacobian: whatever was called
before and, apart from `setCoordinates`, after. -/
theorem C163_stale {la : Lapack} {eps ztol tol : ℝ} {N : ℕ} {m : Mesh} {P : ℕ → ℕ} {g : Grid} (hg : Provisioned la eps ztol tol N m P g) (hK : 0 < m.K) (junk : ℕ → ℕ → Cell) (before after : List Act)
    (hp : ∀ a ∈ before ++ after, Proper g a) (hl : ∀ a ∈ after, ¬ a.IsSet) (hc : .dgContext ∈ before ++ after) :
    ∃ t, session g junk (before ++ .setCoordinates (carray g.np g.K fun i k => 2 * gridX (g.tri k) g.n i) (carray g.np g.K fun i k => 2 * gridY (g.tri k) g.n i) :: after) = .ok t ∧
      ReadingNum g t .x g.np g.K (fun i k => 2 * gridX (g.tri k) g.n i) ∧ ReadingNum g t .J g.np g.K (fun i k => jac (g.deriv i k)) ∧ ¬ Consistent g t := by
  obtain ⟨x, hx, -, hKm, -⟩ := hg.spec
  set X : ℕ → ℕ → ℝ := fun i k => 2 * gridX (g.tri k) g.n i with hX
  set Y : ℕ → ℕ → ℝ := fun i k => 2 * gridY (g.tri k) g.n i with hY
  have hp' : ∀ a ∈ before ++ .setCoordinates (carray g.np g.K X) (carray g.np g.K Y) :: after, Proper g a := by
    intro a ha
    rcases List.mem_append.1 ha with h | h
    · exact hp a (by simp [h])
    · rcases List.mem_cons.1 h with rfl | h
      · exact ⟨carray_contiguous _ _ _, carray_contiguous _ _ _, rfl, rfl, rfl, rfl⟩
      · exact hp a (by simp [h])
  obtain ⟨t, e, rx, ry⟩ := C163_coordinates g junk before after _ _ hp' hl
  obtain ⟨t', e', i, -, -, em, cl⟩ := run_inv _ (start_inv g junk) hp'
  obtain rfl : t' = t := Out.ok.inj (e'.symm.trans e)
  have hpos : 0 < t'.ctxs.length := by
    rw [cl]
    refine Nat.add_pos_right _ (List.countP_pos_iff.2 ⟨.dgContext, ?_, rfl⟩)
    rcases List.mem_append.1 hc with h | h <;> simp [h]
  have num : ∀ {f : DField} {V : ℕ → ℕ → ℝ}, Reading g t' f g.np g.K (carray g.np g.K V).at' → ReadingNum g t' f g.np g.K V := by
    intro f V hr c hc
    obtain ⟨a, ea, h1, h2⟩ := hr c hc
    exact ⟨a, ea, h1, fun i hi j hj => by rw [h2 i hi j hj, carray_at _ _ _ hi hj]⟩
  have h1 : t'.mat .Dr = made g junk .Dr := em _ (by decide) (by decide) (by decide)
  have h2 : t'.mat .Ds = made g junk .Ds := em _ (by decide) (by decide) (by decide)
  have h3 : t'.mat .J = made g junk .J := em _ (by decide) (by decide) (by decide)
  have r1 : ReadingNum g t' .Dr g.np g.np g.o.d.Dr.at' := reading_of i .Dr (by rw [h1]; rfl) (by rw [h1]; rfl) fun _ _ _ _ => by rw [h1]; rfl
  have r2 : ReadingNum g t' .Ds g.np g.np g.o.d.Ds.at' := reading_of i .Ds (by rw [h2]; rfl) (by rw [h2]; rfl) fun _ _ _ _ => by rw [h2]; rfl
  have r3 : ReadingNum g t' .J g.np g.K (fun i k => jac (g.deriv i k)) := reading_of i .J (by rw [h3]; rfl) (by rw [h3]; rfl) fun _ _ _ _ => by rw [h3]; rfl
  refine ⟨t', e, num rx, r3, ?_⟩
  rintro ⟨Dr, Ds, x', y', J, q1, q2, qx, qy, q3, hb⟩
  have uniq : ∀ {f : DField} {p q : ℕ} {v w : ℕ → ℕ → ℝ}, ReadingNum g t' f p q v → ReadingNum g t' f p q w → ∀ i < p, ∀ j < q, v i j = w i j := by
    intro f p q v w hv hw i hi j hj
    exact Option.some.inj (Option.some.inj (num_unique hpos hv hw i hi j hj))
  have hnp : 0 < g.np := by
    have := tri_low g.N hx.posN
    obtain ⟨l1, -⟩ := this
    unfold Grid.np
    exact Nat.div_pos (by nlinarith) (by norm_num)
  have hk : 0 < g.K := by rw [hKm]; exact hK
  have hb := hb 0 hnp 0 hk
  have s : ∀ {D E : ℕ → ℕ → ℝ} {x' : ℕ → ℕ → ℝ} {G : ℕ → ℝ} {f : DField}, ReadingNum g t' f g.np g.np D → ReadingNum g t' f g.np g.np E → (∀ j < g.np, x' j 0 = 2 * G j) →
      ∑ j ∈ Finset.range g.np, D 0 j * x' j 0 = 2 * ∑ j ∈ Finset.range g.np, E 0 j * G j := by
    intro D E x' G f hD hE hx'
    rw [Finset.mul_sum]
    refine Finset.sum_congr rfl fun j hj => ?_
    have hj := Finset.mem_range.1 hj
    rw [uniq hD hE 0 hnp j hj, hx' j hj]; ring
  have ex : ∀ j < g.np, x' j 0 = 2 * gridX (g.tri 0) g.n j := fun j hj => uniq qx (num rx) j hj 0 hk
  have ey : ∀ j < g.np, y' j 0 = 2 * gridY (g.tri 0) g.n j := fun j hj => uniq qy (num ry) j hj 0 hk
  rw [uniq q3 r3 0 hnp 0 hk, s q1 r1 ex, s q2 r2 ey, s q2 r2 ex, s q1 r1 ey] at hb
  have hj : jac (g.deriv 0 0) = cross (g.tri 0) / 4 := by rw [hx.deriv_eq 0 0 hnp, jac_triDerivOf]
  have hd : jac (g.deriv 0 0) = (∑ j ∈ Finset.range g.np, g.o.d.Dr.at' 0 j * gridX (g.tri 0) g.n j) * (∑ j ∈ Finset.range g.np, g.o.d.Ds.at' 0 j * gridY (g.tri 0) g.n j)
      - (∑ j ∈ Finset.range g.np, g.o.d.Ds.at' 0 j * gridX (g.tri 0) g.n j) * ∑ j ∈ Finset.range g.np, g.o.d.Dr.at' 0 j * gridY (g.tri 0) g.n j := rfl
  have hpos := hx.ccw 0 hk
  have : jac (g.deriv 0 0) = 4 * jac (g.deriv 0 0) := hb.trans (by rw [hd]; ring)
  linarith

/-- **C163, the filter before `buildFilter`.** Any contents whatever can be shown: the memory is not written. -/
theorem C163_filter_unwritten (g : Grid) (junk : ℕ → ℕ → Cell) (h : List Act) (hp : ∀ a ∈ h, Proper g a) (hl : ∀ a ∈ h, ¬ a.IsFilter) :
    ∃ t, session g junk h = .ok t ∧ Reading g t .filter g.np g.np fun i j => some (junk i j) := by
  obtain ⟨t, e, i, -, hf, -⟩ := run_inv h (start_inv g junk) hp
  have hm := hf hl
  exact ⟨t, e, reading_of i .filter (by rw [hm]; rfl) (by rw [hm]; rfl) fun _ _ _ _ => by rw [hm]; rfl⟩

/-- The theorems apply to order three on the two triangles of the square, in a history with a context from before and one from after, a filter, and a store into an array received. -/
example : ∃ g : Grid, g.N = 3 ∧ ∃ h : List Act, (∀ a ∈ h, Proper g a) ∧ ∃ t, session g (fun _ _ => none) h = .ok t ∧ t.ctxs.length = 2 ∧ ¬ Consistent g t := by
  obtain ⟨g, hg⟩ := square_grid_low 3 (by omega) (by omega)
  obtain ⟨x, hx, h3, -⟩ := hg.spec
  have hp : ∀ a ∈ [Act.dgContext, .buildFilter 2 4, .read 0 .filter, .store 0 0 (some 7)] ++ [Act.dgContext], Proper g a := by simp [Proper]
  obtain ⟨t, e, -, -, hn⟩ := C163_stale hg (by decide) (fun _ _ => none) [.dgContext, .buildFilter 2 4, .read 0 .filter, .store 0 0 (some 7)] [.dgContext] hp (by simp [Act.IsSet]) (by simp)
  have hp' : ∀ a ∈ [Act.dgContext, .buildFilter 2 4, .read 0 .filter, .store 0 0 (some 7)] ++
      .setCoordinates (carray g.np g.K fun i k => 2 * gridX (g.tri k) g.n i) (carray g.np g.K fun i k => 2 * gridY (g.tri k) g.n i) :: [Act.dgContext], Proper g a := by
    intro a ha
    simp only [List.cons_append, List.nil_append, List.mem_cons, List.not_mem_nil, or_false] at ha
    rcases ha with rfl | rfl | rfl | rfl | rfl | rfl <;> try trivial
    exact ⟨carray_contiguous _ _ _, carray_contiguous _ _ _, rfl, rfl, rfl, rfl⟩
  obtain ⟨t', e', hc⟩ := C163_defined g (fun _ _ => none) _ hp'
  obtain rfl : t' = t := Out.ok.inj (e'.symm.trans e)
  exact ⟨g, h3, _, hp', t', e, hc, hn⟩

end Blitzdg.Py
