import Verif.Drivers.BurgersRun
import Verif.Drivers.BurgersProps
import Verif.Drivers.AdvecRunProps

/-! Property C146: the program burgers1d from start to end, and the number of passes the one-dimensional programs make as they are shipped. -/

namespace Blitzdg.Drivers

open Blitzdg.Sparse (DMat rowMajor)
open Blitzdg.Nodes1D
open Blitzdg.Time (rk4a rk4b numStages)

variable {xmin xmax : ℝ} {p : Prov}

/-- A field of the size of the grid. -/
def Sizes (p : Prov) (u : DMat ℝ) : Prop := u.rows = p.N + 1 ∧ u.cols = p.K

/-- `(u', r')` is what five stages of the scheme make of the field `u` and the residual `r`, all with the right-hand side at time `t`: stage `i` turns the residual `R i` into `a_i R i + dt rhs(U i)` and adds `b_i` times the result to the field. -/
def FiveStages (p : Prov) (d : BurgersData) (t dt : ℝ) (s s' : DMat ℝ × DMat ℝ) : Prop :=
  ∃ U R Q : ℕ → DMat ℝ, U 0 = s.1 ∧ R 0 = s.2 ∧ U 5 = s'.1 ∧ R 5 = s'.2 ∧ ∀ i < 5, burgersRHS p p.t.x t d.c d.alpha d.nu (U i) = .ok (Q i) ∧
    ∀ n ≤ p.N, ∀ k < p.K, (R (i + 1)).at' n k = (rk4a.getD i 0 : ℚ) * (R i).at' n k + dt * (Q i).at' n k ∧ (U (i + 1)).at' n k = (U i).at' n k + (rk4b.getD i 0 : ℚ) * (R (i + 1)).at' n k

theorem foldlM_snoc {α β : Type} (f : β → α → Out β) (l : List α) (a : α) : ∀ b, (l ++ [a]).foldlM f b = (l.foldlM f b >>= fun b => f b a) := by
  induction l with
  | nil => intro b; simp only [List.nil_append, List.foldlM_cons, List.foldlM_nil, Out.pure_eq, Out.bind_ok]; cases f b a <;> rfl
  | cons x l ih => intro b; simp only [List.cons_append, List.foldlM_cons]; cases f b x with
    | ok c => simp only [Out.bind_ok]; exact ih c
    | throws => rfl
    | ub => rfl

theorem stages_exist {rhs : DMat ℝ → Out (DMat ℝ)} (hr : ∀ u, Sizes p u → ∃ q, rhs u = .ok q) (dt : ℝ) (m : ℕ) (s : DMat ℝ × DMat ℝ) (hs : Sizes p s.1) :
    ∃ (U R Q : ℕ → DMat ℝ), U 0 = s.1 ∧ R 0 = s.2 ∧ (List.range m).foldlM (rkStage rhs dt) s = .ok (U m, R m) ∧ Sizes p (U m) ∧
      ∀ i < m, rhs (U i) = .ok (Q i) ∧ R (i + 1) = lin ((rk4a.getD i 0 : ℚ) : ℝ) (R i) dt (Q i) ∧ U (i + 1) = lin 1 (U i) ((rk4b.getD i 0 : ℚ) : ℝ) (R (i + 1)) := by
  induction m with
  | zero => exact ⟨fun _ => s.1, fun _ => s.2, fun _ => s.1, rfl, rfl, rfl, hs, by simp⟩
  | succ m ih =>
    obtain ⟨U, R, Q, h1, h2, h3, h4, h5⟩ := ih
    obtain ⟨q, hq⟩ := hr (U m) h4
    obtain ⟨R', hR'⟩ : ∃ R' : DMat ℝ, R' = lin ((rk4a.getD m 0 : ℚ) : ℝ) (R m) dt q := ⟨_, rfl⟩
    obtain ⟨U', hU'⟩ : ∃ U' : DMat ℝ, U' = lin 1 (U m) ((rk4b.getD m 0 : ℚ) : ℝ) R' := ⟨_, rfl⟩
    refine ⟨fun i => if i ≤ m then U i else U', fun i => if i ≤ m then R i else R', fun i => if i < m then Q i else q, by simp [h1], by simp [h2], ?_, ?_, ?_⟩
    · rw [List.range_succ, foldlM_snoc, h3, Out.bind_ok]
      simp only [rkStage, hq, Out.bind_ok, Nat.not_succ_le_self, if_false, ← hR', ← hU']
      rfl
    · simp only [Nat.not_succ_le_self, if_false]
      rw [hU']
      exact h4
    · intro i hi
      rcases Nat.lt_or_ge i m with h | h
      · simp only [h.le, h, if_true, show i + 1 ≤ m from h]
        exact h5 i h
      · obtain rfl : i = m := by omega
        simp only [le_refl, if_true, lt_irrefl, if_false, Nat.not_succ_le_self]
        exact ⟨hq, hR', hU'⟩

theorem rkStep_stages (hp : ProvSpec xmin xmax p) (d : BurgersData) (t dt : ℝ) (s : DMat ℝ × DMat ℝ) (hs : Sizes p s.1) :
    ∃ s', rkStep (burgersRHS p p.t.x t d.c d.alpha d.nu) dt s = .ok s' ∧ Sizes p s'.1 ∧ FiveStages p d t dt s s' := by
  obtain ⟨U, R, Q, h1, h2, h3, h4, h5⟩ := stages_exist (p := p) (rhs := burgersRHS p p.t.x t d.c d.alpha d.nu)
    (fun u hu => by obtain ⟨q, hq, -⟩ := burgers_closed hp t d.c d.alpha d.nu u hu; exact ⟨q, hq⟩) dt numStages s hs
  refine ⟨(U numStages, R numStages), h3, h4, U, R, Q, h1, h2, rfl, rfl, fun i hi => ?_⟩
  obtain ⟨a, b, c⟩ := h5 i hi
  refine ⟨a, fun n _ k _ => ⟨by rw [b]; rfl, ?_⟩⟩
  rw [c]
  show 1 * _ + _ = _
  rw [one_mul]

/-- Number of states among 0, 10, 20, ... that are written when `n` passes have been completed: the failing pass has begun with its output. -/
def writtenBy (how : How) (n : ℕ) : ℕ := match how with
  | .threw => n / 10 + 1
  | _ => (n + 9) / 10

/-- A run of at most `fuel` passes: `S j` holds field and residual after `j` passes. -/
structure BurgersRan (p : Prov) (d : BurgersData) (dt : ℝ) (fuel : ℕ) (s : BurgersState) (how : How) (S : ℕ → DMat ℝ × DMat ℝ) : Prop where
  /-- It starts from the reference solution at time 0. -/
  first : Sizes p (S 0).1 ∧ ∀ n ≤ p.N, ∀ k < p.K, (S 0).1.at' n k = burgers2 (p.t.x.at' n k) 0 d.alpha d.nu d.c
  /-- Each pass is five stages, all at the time of its start. -/
  passes : ∀ j < s.count, j * dt < d.finalTime ∧ FiveStages p d (j * dt) dt (S j) (S (j + 1))
  /-- No value above 10⁸ survives a pass. -/
  tame : ∀ j < s.count, ∀ n ≤ p.N, ∀ k < p.K, |(S (j + 1)).1.at' n k| ≤ 1e8
  clock : s.t = s.count * dt
  size : Sizes p s.u
  defined : ¬ how = .undefined
  /-- Regular end: the number of passes is the least that reaches the final time. -/
  finished : how = .finished → s.count = ⌈d.finalTime / dt⌉₊ ∧ s.u = (S s.count).1
  goingOn : how = .goingOn → s.count = fuel ∧ s.count ≤ ⌈d.finalTime / dt⌉₊
  /-- An exception: one more pass has been made, and gave a value above 10⁸. -/
  threw : how = .threw → s.count < ⌈d.finalTime / dt⌉₊ ∧ ∃ s', FiveStages p d (s.count * dt) dt (S s.count) s' ∧ ∃ n ≤ p.N, ∃ k < p.K, 1e8 < |s'.1.at' n k|
  /-- The files: the grid and every tenth state. -/
  files : s.files = ("x.dat".toList, p.t.x) :: (List.range (writtenBy how s.count)).map fun j : ℕ =>
    (Output.generateFileName ".dat".toList "u".toList ((10 * j : ℕ) : ℤ), (S (10 * j)).1)

/-- The files of the states after 0, 10, 20, ... passes, `m` of them. -/
def uFiles (S : ℕ → DMat ℝ × DMat ℝ) (m : ℕ) : List (Output.Str × DMat ℝ) := (List.range m).map fun j : ℕ => (Output.generateFileName ".dat".toList "u".toList ((10 * j : ℕ) : ℤ), (S (10 * j)).1)

theorem output_files {S : ℕ → DMat ℝ × DMat ℝ} {s : BurgersState} {pre : List (Output.Str × DMat ℝ)} (hu : s.u = (S s.count).1) (hf : s.files = pre ++ uFiles S ((s.count + 9) / 10)) :
    (burgersOutput s).files = pre ++ uFiles S (s.count / 10 + 1) := by
  unfold burgersOutput
  show (if _ then _ else _) = _
  split_ifs with hc
  · rw [hf]
    unfold uFiles
    rw [List.range_succ, List.map_append, show (s.count + 9) / 10 = s.count / 10 by omega, List.append_assoc]
    congr 2
    simp only [List.map_cons, List.map_nil]
    rw [show 10 * (s.count / 10) = s.count by omega, ← hu]
  · rw [hf, show (s.count + 9) / 10 = s.count / 10 + 1 by omega]

theorem maxAbs_gt (u : DMat ℝ) (hu : Sizes p u) : 1e8 < maxAbs u ↔ ∃ n ≤ p.N, ∃ k < p.K, 1e8 < |u.at' n k| := by
  rw [← not_le, maxAbs_le_iff u 1e8 (by norm_num), hu.1, hu.2]
  push Not
  exact ⟨fun ⟨i, hi, k, hk, h⟩ => ⟨i, by omega, k, hk, h⟩, fun ⟨i, hi, k, hk, h⟩ => ⟨i, by omega, k, hk, h⟩⟩

theorem burgersLoop_ran (hp : ProvSpec xmin xmax p) (d : BurgersData) {dt : ℝ} (hdt : 0 < dt) (fuel m : ℕ) (S : ℕ → DMat ℝ × DMat ℝ) (s : BurgersState)
    (first : Sizes p (S 0).1 ∧ ∀ n ≤ p.N, ∀ k < p.K, (S 0).1.at' n k = burgers2 (p.t.x.at' n k) 0 d.alpha d.nu d.c)
    (passes : ∀ j < m, j * dt < d.finalTime ∧ FiveStages p d (j * dt) dt (S j) (S (j + 1))) (tame : ∀ j < m, ∀ n ≤ p.N, ∀ k < p.K, |(S (j + 1)).1.at' n k| ≤ 1e8)
    (hc : s.count = m) (hu : (s.u, s.res) = S m) (hsz : Sizes p s.u) (ht : s.t = m * dt) (hf : s.files = ("x.dat".toList, p.t.x) :: uFiles S ((m + 9) / 10)) :
    ∃ S', BurgersRan p d dt (m + fuel) (burgersLoop p d dt fuel s).1 (burgersLoop p d dt fuel s).2 S' := by
  induction fuel generalizing m S s with
  | zero =>
    have e : burgersLoop p d dt 0 s = (s, .goingOn) := rfl
    rw [e]
    refine ⟨S, first, by simp only [hc]; exact passes, by simp only [hc]; exact tame, by simp only [hc]; exact ht, hsz, nofun, nofun, fun _ => ⟨hc, ?_⟩, nofun, by simp only [hc]; exact hf⟩
    show s.count ≤ _
    rw [hc]
    rcases Nat.eq_zero_or_pos m with h0 | h0
    · omega
    · obtain ⟨j, rfl⟩ : ∃ j, m = j + 1 := ⟨m - 1, by omega⟩
      have := (passes j (by omega)).1
      exact Nat.lt_ceil.2 ((lt_div_iff₀ hdt).2 this)
  | succ fuel ih =>
    have hu1 : s.u = (S s.count).1 := by rw [hc, ← hu]
    unfold burgersLoop
    split_ifs with hT
    · have hlt : m < ⌈d.finalTime / dt⌉₊ := Nat.lt_ceil.2 ((lt_div_iff₀ hdt).2 (by rw [← ht]; exact hT))
      have ho := output_files (S := S) (s := s) (pre := [("x.dat".toList, p.t.x)]) hu1 (by rw [hf, hc]; rfl)
      obtain ⟨s', e1, e2, e3⟩ := rkStep_stages hp d s.t dt (s.u, s.res) hsz
      obtain ⟨u', r'⟩ := s'
      have e3' : FiveStages p d (m * dt) dt (S m) (u', r') := by rw [← hu, ← ht]; exact e3
      have e1' : rkStep (burgersRHS p p.t.x (burgersOutput s).t d.c d.alpha d.nu) dt ((burgersOutput s).u, (burgersOutput s).res) = .ok (u', r') := e1
      have hc' : (burgersOutput s).count = m := hc
      have ht' : (burgersOutput s).t = m * dt := ht
      simp only [e1']
      split_ifs with hb
      · refine ⟨S, first, by simp only [hc']; exact passes, by simp only [hc']; exact tame, by simp only [hc']; exact ht', e2, nofun, nofun, nofun, fun _ => ⟨by simp only [hc']; exact hlt, (u', r'), by simp only [hc']; exact e3', (maxAbs_gt u' e2).1 hb⟩, ?_⟩
        show (burgersOutput s).files = _
        rw [ho]
        rfl
      · obtain ⟨S', hS'⟩ : ∃ S' : ℕ → DMat ℝ × DMat ℝ, (∀ j ≤ m, S' j = S j) ∧ S' (m + 1) = (u', r') := ⟨fun j => if j ≤ m then S j else (u', r'), fun j hj => if_pos hj, if_neg (by omega)⟩
        have hb' : ∀ n ≤ p.N, ∀ k < p.K, |u'.at' n k| ≤ 1e8 := by
          rw [gt_iff_lt, not_lt, maxAbs_le_iff u' 1e8 (by norm_num)] at hb
          exact fun n hn k hk => hb n (by rw [e2.1]; omega) k (by rw [e2.2]; exact hk)
        obtain ⟨S'', h''⟩ := ih (m + 1) S' ⟨u', r', (burgersOutput s).t + dt, (burgersOutput s).count + 1, (burgersOutput s).files⟩ (by rw [hS'.1 0 (by omega)]; exact first)
          (fun j hj => by
            rcases Nat.lt_or_ge j m with h | h
            · rw [hS'.1 j (by omega), hS'.1 (j + 1) (by omega)]; exact passes j h
            · obtain rfl : j = m := by omega
              rw [hS'.1 j le_rfl, hS'.2]
              exact ⟨by rw [← ht]; exact hT, e3'⟩)
          (fun j hj => by
            rcases Nat.lt_or_ge j m with h | h
            · rw [hS'.1 (j + 1) (by omega)]; exact tame j h
            · obtain rfl : j = m := by omega
              rw [hS'.2]; exact hb')
          (by show _ + 1 = _; rw [hc']) hS'.2.symm e2 (by show (burgersOutput s).t + dt = _; rw [ht']; push_cast; ring) (by
            show _ = _
            refine ho.trans ?_
            show _ :: _ = _
            rw [hc, show (m + 1 + 9) / 10 = m / 10 + 1 by omega]
            congr 1
            unfold uFiles
            apply List.map_congr_left
            intro j hj
            rw [List.mem_range] at hj
            rw [hS'.1 (10 * j) (by omega)])
        refine ⟨S'', ?_⟩
        rw [show m + 1 + fuel = m + (fuel + 1) by omega] at h''
        exact h''
    · refine ⟨S, first, by simp only [hc]; exact passes, by simp only [hc]; exact tame, by simp only [hc]; exact ht, hsz, nofun, fun _ => ⟨?_, hu1⟩, nofun, nofun, by simp only [hc]; exact hf⟩
      show s.count = _
      rw [hc]
      refine le_antisymm ?_ (Nat.ceil_le.2 ((div_le_iff₀ hdt).2 (by rw [← ht]; exact not_lt.1 hT)))
      rcases Nat.eq_zero_or_pos m with h0 | h0
      · omega
      · obtain ⟨j, rfl⟩ : ∃ j, m = j + 1 := ⟨m - 1, by omega⟩
        exact Nat.lt_ceil.2 ((lt_div_iff₀ hdt).2 (passes j (by omega)).1)

/-- The error printed: the largest distance from the reference solution at the time reached, found at some node. -/
def ErrorIs (p : Prov) (d : BurgersData) (s : BurgersState) (e : ℝ) : Prop :=
  (∀ n ≤ p.N, ∀ k < p.K, |s.u.at' n k - burgers2 (p.t.x.at' n k) s.t d.alpha d.nu d.c| ≤ e) ∧ ∃ n ≤ p.N, ∃ k < p.K, |s.u.at' n k - burgers2 (p.t.x.at' n k) s.t d.alpha d.nu d.c| = e

theorem burgersDt_pos (hx : xmin < xmax) (hp : ProvSpec xmin xmax p) (hN : 1 ≤ p.N) (d : BurgersData) (hC : 0 < d.CFL) (hc : d.c ≠ 0) (hnu : 0 < d.nu) : 0 < burgersDt p d := by
  have hdx : 0 < p.t.x.at' 1 0 - p.t.x.at' 0 0 := by
    have h1 := hp.ops.nodes.2.2.2 0 1 (by omega) hN
    have hK : (0 : ℝ) < p.K := by exact_mod_cast hp.posK
    have hh : 0 < (xmax - xmin) / p.K := div_pos (by linarith) hK
    rw [hp.x]
    simp only [grid]
    nlinarith
  have := abs_pos.2 hc
  have := Real.sqrt_pos.2 hnu
  unfold burgersDt
  exact mul_pos hC (lt_min (by positivity) (by positivity))

theorem maxAbs_is (u : DMat ℝ) (hu : Sizes p u) (hK : 0 < p.K) : (∀ n ≤ p.N, ∀ k < p.K, |u.at' n k| ≤ maxAbs u) ∧ ∃ n ≤ p.N, ∃ k < p.K, |u.at' n k| = maxAbs u := by
  have h0 : 0 ≤ maxAbs u := (maxAbs_foldl (fun ij => u.at' ij.1 ij.2) (rowMajor u.rows u.cols) 0).1
  have h1 : ∀ n ≤ p.N, ∀ k < p.K, |u.at' n k| ≤ maxAbs u := fun n hn k hk => (maxAbs_le_iff u _ h0).1 le_rfl n (by rw [hu.1]; omega) k (by rw [hu.2]; exact hk)
  refine ⟨h1, ?_⟩
  by_contra hno
  push Not at hno
  obtain ⟨q, hq, hmax⟩ := Finset.exists_max_image (Finset.range (p.N + 1) ×ˢ Finset.range p.K) (fun q => |u.at' q.1 q.2|) ⟨(0, 0), by simp [hK]⟩
  simp only [Finset.mem_product, Finset.mem_range] at hq hmax
  have h2 := hno q.1 (by omega) q.2 hq.2
  have h3 := lt_of_le_of_ne (h1 q.1 (by omega) q.2 hq.2) h2
  have h4 := (maxAbs_le_iff u |u.at' q.1 q.2| (abs_nonneg _)).2 fun i hi k hk => hmax (i, k) ⟨by rw [← hu.1]; exact hi, by rw [← hu.2]; exact hk⟩
  linarith

/-- **C146, a run.** On every interval and grid, with positive Courant number and viscosity and a speed other than zero, nothing undefined happens.  The program takes steps of `dt = CFL min(dx/|c|, dx²/√ν)`, `dx` being the distance of the first two
nodes; `BurgersRan` says what the passes do, which files are written and when the loop is left.  The error is printed exactly if the final time is reached, and is the largest distance from the reference solution at the time reached. -/
theorem C146_run (hx : xmin < xmax) (hp : ProvSpec xmin xmax p) (hN : 1 ≤ p.N) (d : BurgersData) (hC : 0 < d.CFL) (hc : d.c ≠ 0) (hnu : 0 < d.nu) (fuel : ℕ) :
    ∃ rep S dt, burgersProgram p d fuel = .ok rep ∧ dt = d.CFL * min ((p.t.x.at' 1 0 - p.t.x.at' 0 0) / |d.c|) ((p.t.x.at' 1 0 - p.t.x.at' 0 0) ^ 2 / √d.nu) ∧ 0 < dt ∧ BurgersRan p d dt fuel rep.s rep.how S ∧
      (rep.how = .finished → ∃ e, rep.err = some e ∧ ErrorIs p d rep.s e) ∧ (rep.how ≠ .finished → rep.err = none) := by
  have hdt := burgersDt_pos hx hp hN d hC hc hnu
  obtain ⟨S, hS⟩ := burgersLoop_ran hp d hdt fuel 0 (fun _ => (burgersField p d 0, zeroMat (p.N + 1) p.K)) ⟨burgersField p d 0, zeroMat (p.N + 1) p.K, 0, 0, [("x.dat".toList, p.t.x)]⟩
    ⟨⟨rfl, rfl⟩, fun _ _ _ _ => rfl⟩ (fun j hj => by omega) (fun j hj => by omega) rfl rfl ⟨rfl, rfl⟩ (by simp) rfl
  rw [Nat.zero_add] at hS
  have hdt' : burgersDt p d = d.CFL * min ((p.t.x.at' 1 0 - p.t.x.at' 0 0) / |d.c|) ((p.t.x.at' 1 0 - p.t.x.at' 0 0) ^ 2 / √d.nu) := by
    unfold burgersDt
    simp only [pow_two]
  unfold burgersProgram
  rw [if_neg (by have := hp.posK; omega)]
  revert hS
  generalize burgersLoop p d (burgersDt p d) fuel ⟨burgersField p d 0, zeroMat (p.N + 1) p.K, 0, 0, [("x.dat".toList, p.t.x)]⟩ = r
  obtain ⟨s, how⟩ := r
  intro hS
  cases how with
  | finished =>
    refine ⟨_, S, _, rfl, hdt', hdt, hS, fun _ => ⟨_, rfl, ?_⟩, fun h => absurd rfl h⟩
    have h1 := maxAbs_is (p := p) (lin 1 s.u (-1) (burgersField p d s.t)) hS.size hp.posK
    have e : ∀ n k, (lin 1 s.u (-1) (burgersField p d s.t)).at' n k = s.u.at' n k - burgers2 (p.t.x.at' n k) s.t d.alpha d.nu d.c := by
      intro n k
      show 1 * _ + (-1) * _ = _
      rw [one_mul, neg_one_mul, ← sub_eq_add_neg]
      rfl
    simp only [e] at h1
    exact h1
  | threw => exact ⟨_, S, _, rfl, hdt', hdt, hS, nofun, fun _ => rfl⟩
  | undefined => exact absurd rfl hS.defined
  | goingOn => exact ⟨_, S, _, rfl, hdt', hdt, hS, nofun, fun _ => rfl⟩

/-- **C146, one node per element.** With order zero the step size is computed from a second node that does not exist: the program reads outside its grid. -/
theorem C146_one_node (d : BurgersData) (hN : p.N = 0) (fuel : ℕ) : burgersProgram p d fuel = .ub := by
  unfold burgersProgram
  rw [if_pos (Or.inl hN)]

/-- **C146, no endless run.** With more passes allowed than steps fit into the final time, the loop is left. -/
theorem C146_ends {d : BurgersData} {dt : ℝ} {fuel : ℕ} {s : BurgersState} {how : How} {S : ℕ → DMat ℝ × DMat ℝ} (h : BurgersRan p d dt fuel s how S) (hf : ⌈d.finalTime / dt⌉₊ < fuel) : how = .finished ∨ how = .threw := by
  cases how with
  | finished => exact Or.inl rfl
  | threw => exact Or.inr rfl
  | undefined => exact absurd rfl h.defined
  | goingOn => have := h.goingOn rfl; omega

/-! ### The programs as they are shipped -/

/-- Nodes of the reference interval: symmetric, and inside where the derivative of the Legendre polynomial vanishes. -/
theorem built_nodes {la : Lapack} (hla : la.Ok) {eps : ℝ} (h0 : 0 < eps) (h1 : eps ≤ 0.1) {N : ℕ} (hN : 1 ≤ N) {r0 : List ℝ} (hr0 : r0.length = N + 1) {Vinv0 : DMat ℝ} {o : Ops}
    (ho : buildOps la eps N r0 Vinv0 = .ok o) : (∀ i ≤ N, o.r.getD (N - i) 0 = -o.r.getD i 0) ∧ ∀ i, 1 ≤ i → i < N → HasDerivAt (Jacobi.jacobiP 0 0 N) 0 (o.r.getD i 0) := by
  have hg := Jacobi.C70_gauss_lobatto la.query la.dsyevd hla.syevd 0 eps h0 h1 N hN r0 hr0
  simp only [Nat.cast_zero] at hg
  unfold buildOps at ho
  rcases hg with ⟨x, hg⟩ | ⟨x, hg, -, -, -, -, h6, h7⟩
  · rw [hg] at ho; cases ho
  · rw [hg, Out.bind_ok] at ho
    simp only [Nodes1D.uncaught, Out.bind_ok] at ho
    obtain ⟨Vi, -, ho⟩ := Out.bind_eq_ok.1 ho
    obtain ⟨Dr, -, ho⟩ := Out.bind_eq_ok.1 ho
    rw [Out.pure_eq] at ho
    injection ho with ho
    rw [← ho]
    exact ⟨h6, h7⟩

theorem legendre6 (x : ℝ) : Jacobi.jacobiP 0 0 6 x = Jacobi.kap 0 0 6 * ((231 * x ^ 6 - 315 * x ^ 4 + 105 * x ^ 2 - 5) / 16) := by
  rw [Jacobi.jacobi_closed (by norm_num) (by norm_num) (by norm_num)]
  congr 1
  simp only [Jacobi.pt, Jacobi.Q, Finset.sum_range_succ, Finset.sum_range_zero, Jacobi.co, Jacobi.poch, Finset.prod_range_succ, Finset.prod_range_zero]
  simp [Nat.choose]
  ring

theorem legendre4 (x : ℝ) : Jacobi.jacobiP 0 0 4 x = Jacobi.kap 0 0 4 * ((35 * x ^ 4 - 30 * x ^ 2 + 3) / 8) := by
  rw [Jacobi.jacobi_closed (by norm_num) (by norm_num) (by norm_num)]
  congr 1
  simp only [Jacobi.pt, Jacobi.Q, Finset.sum_range_succ, Finset.sum_range_zero, Jacobi.co, Jacobi.poch, Finset.prod_range_succ, Finset.prod_range_zero]
  simp [Nat.choose]
  ring

theorem root6 {x : ℝ} (h : HasDerivAt (Jacobi.jacobiP 0 0 6) 0 x) : x * (33 * x ^ 4 - 30 * x ^ 2 + 5) = 0 := by
  have e : Jacobi.jacobiP 0 0 6 = fun x => Jacobi.kap 0 0 6 * ((231 * x ^ 6 - 315 * x ^ 4 + 105 * x ^ 2 - 5) / 16) := funext legendre6
  have h2 : HasDerivAt (fun x : ℝ => Jacobi.kap 0 0 6 * ((231 * x ^ 6 - 315 * x ^ 4 + 105 * x ^ 2 - 5) / 16)) (Jacobi.kap 0 0 6 * ((231 * (6 * x ^ 5) - 315 * (4 * x ^ 3) + 105 * (2 * x)) / 16)) x := by
    have h6 : HasDerivAt (fun x : ℝ => x ^ 6) (6 * x ^ 5) x := by simpa using hasDerivAt_pow 6 x
    have h4 : HasDerivAt (fun x : ℝ => x ^ 4) (4 * x ^ 3) x := by simpa using hasDerivAt_pow 4 x
    have h2 : HasDerivAt (fun x : ℝ => x ^ 2) (2 * x) x := by simpa using hasDerivAt_pow 2 x
    exact (((((h6.const_mul 231).sub (h4.const_mul 315)).add (h2.const_mul 105)).sub_const 5).div_const 16).const_mul _
  rw [e] at h
  have h3 := h.unique h2
  have hk := Jacobi.kap_pos (α := 0) (β := 0) (by norm_num) (by norm_num) (by norm_num) 6
  rcases mul_eq_zero.1 h3.symm with h4 | h4
  · exact absurd h4 hk.ne'
  · linarith

theorem root4 {x : ℝ} (h : HasDerivAt (Jacobi.jacobiP 0 0 4) 0 x) : x * (7 * x ^ 2 - 3) = 0 := by
  have e : Jacobi.jacobiP 0 0 4 = fun x => Jacobi.kap 0 0 4 * ((35 * x ^ 4 - 30 * x ^ 2 + 3) / 8) := funext legendre4
  have h2 : HasDerivAt (fun x : ℝ => Jacobi.kap 0 0 4 * ((35 * x ^ 4 - 30 * x ^ 2 + 3) / 8)) (Jacobi.kap 0 0 4 * ((35 * (4 * x ^ 3) - 30 * (2 * x)) / 8)) x := by
    have h4 : HasDerivAt (fun x : ℝ => x ^ 4) (4 * x ^ 3) x := by simpa using hasDerivAt_pow 4 x
    have h2 : HasDerivAt (fun x : ℝ => x ^ 2) (2 * x) x := by simpa using hasDerivAt_pow 2 x
    exact ((((h4.const_mul 35).sub (h2.const_mul 30)).add_const 3).div_const 8).const_mul _
  rw [e] at h
  have h3 := h.unique h2
  have hk := Jacobi.kap_pos (α := 0) (β := 0) (by norm_num) (by norm_num) (by norm_num) 4
  rcases mul_eq_zero.1 h3.symm with h4 | h4
  · exact absurd h4 hk.ne'
  · linarith

/-- The second of the seven nodes of order six. -/
theorem second_of_seven {r : ℕ → ℝ} (hs : ∀ i ≤ 6, r (6 - i) = -r i) (hm : ∀ i j : ℕ, i < j → j ≤ 6 → r i < r j) (hr : ∀ i, 1 ≤ i → i < 6 → r i * (33 * r i ^ 4 - 30 * r i ^ 2 + 5) = 0) : -0.83023 < r 1 ∧ r 1 < -0.83022 := by
  have h3 : r 3 = 0 := by have := hs 3 (by omega); simp only [Nat.reduceSub] at this; linarith
  have h12 := hm 1 2 (by omega) (by omega)
  have h23 := hm 2 3 (by omega) (by omega)
  have a1 : 33 * r 1 ^ 4 - 30 * r 1 ^ 2 + 5 = 0 := by
    rcases mul_eq_zero.1 (hr 1 (by omega) (by omega)) with h | h
    · linarith
    · exact h
  have a2 : 33 * r 2 ^ 4 - 30 * r 2 ^ 2 + 5 = 0 := by
    rcases mul_eq_zero.1 (hr 2 (by omega) (by omega)) with h | h
    · linarith
    · exact h
  generalize r 1 = a at *
  generalize r 2 = b at *
  rw [h3] at h23
  have hab : b ^ 2 < a ^ 2 := by nlinarith
  obtain ⟨y, hy⟩ : ∃ y, y = a ^ 2 := ⟨_, rfl⟩
  obtain ⟨z, hz⟩ : ∃ z, z = b ^ 2 := ⟨_, rfl⟩
  have b1 : 33 * y ^ 2 - 30 * y + 5 = 0 := by rw [hy]; linarith [a1]
  have b2 : 33 * z ^ 2 - 30 * z + 5 = 0 := by rw [hz]; linarith [a2]
  rw [← hy, ← hz] at hab
  have hsum : y + z = 10 / 11 := by
    have : (y - z) * (33 * (y + z) - 30) = 0 := by linarith
    rcases mul_eq_zero.1 this with h | h
    · linarith
    · linarith
  have hy5 : 5 / 11 < y := by linarith
  have hlo : 0.68927 < y := by
    by_contra h
    push Not at h
    nlinarith [mul_nonneg (sub_nonneg.2 hy5.le) (sub_nonneg.2 h)]
  have hhi : y < 0.68928 := by
    by_contra h
    push Not at h
    nlinarith
  constructor
  · nlinarith
  · by_contra h
    push Not at h
    nlinarith

/-- The second of the five nodes of order four. -/
theorem second_of_five {r : ℕ → ℝ} (hs : ∀ i ≤ 4, r (4 - i) = -r i) (hm : ∀ i j : ℕ, i < j → j ≤ 4 → r i < r j) (hr : ∀ i, 1 ≤ i → i < 4 → r i * (7 * r i ^ 2 - 3) = 0) : -0.65466 < r 1 ∧ r 1 < -0.65465 := by
  have h2 : r 2 = 0 := by have := hs 2 (by omega); simp only [Nat.reduceSub] at this; linarith
  have h12 := hm 1 2 (by omega) (by omega)
  have a1 : 7 * r 1 ^ 2 - 3 = 0 := by
    rcases mul_eq_zero.1 (hr 1 (by omega) (by omega)) with h | h
    · linarith
    · exact h
  generalize r 1 = a at *
  constructor
  · nlinarith
  · by_contra h
    push Not at h
    nlinarith

/-- What the provisioner of a shipped program is built from: a LAPACK that meets its contract, a small positive machine precision and tolerance, and arrays of the right sizes with any contents. -/
structure Machine (la : Lapack) (eps tol : ℝ) (N K : ℕ) (r0 : List ℝ) (Vinv0 : DMat ℝ) (t0 : Tables ℝ) : Prop where
  lapack : la.Ok
  eps_pos : 0 < eps
  eps_le : eps ≤ 0.1
  tol_pos : 0 < tol
  r0 : r0.length = N + 1
  Vinv0 : Vinv0.rows = N + 1 ∧ Vinv0.cols = N + 1
  t0 : Sized t0 K

theorem Machine.prov {la : Lapack} {wrap : Bool} {eps tol : ℝ} {N K : ℕ} {r0 : List ℝ} {Vinv0 : DMat ℝ} {t0 : Tables ℝ} (h : Machine la eps tol N K r0 Vinv0 t0) (hx : xmin < xmax) (hN : 1 ≤ N) (hK : 0 < K) (hov : (K + 1) * (2 * K) ≤ intMax) :
    (buildOps la eps N r0 Vinv0 = .throws ∧ buildProv la wrap eps tol xmin xmax N K r0 Vinv0 t0 = .throws) ∨ ∃ p, buildProv la wrap eps tol xmin xmax N K r0 Vinv0 t0 = .ok p ∧ p.N = N ∧ p.K = K ∧ ProvSpec xmin xmax p ∧
      (∀ i ≤ N, p.o.r.getD (N - i) 0 = -p.o.r.getD i 0) ∧ ∀ i, 1 ≤ i → i < N → HasDerivAt (Jacobi.jacobiP 0 0 N) 0 (p.o.r.getD i 0) := by
  cases ho : buildOps la eps N r0 Vinv0 with
  | throws => left; exact ⟨rfl, by simp [buildProv, ho]⟩
  | ub => rcases C47_operators la h.lapack eps h.eps_pos h.eps_le N hN r0 h.r0 Vinv0 h.Vinv0 with ⟨-, h⟩ | ⟨o, h, -⟩ <;> rw [ho] at h <;> cases h
  | ok o =>
    right
    obtain ⟨p, h1, h2, h3, h4, h5⟩ := buildProv_of h.lapack (wrap := wrap) h.eps_pos h.eps_le h.tol_pos hx hN hK hov h.r0 h.Vinv0 h.t0 ho
    refine ⟨p, h1, h2, h3, h5, ?_⟩
    rw [h4]
    exact built_nodes h.lapack h.eps_pos h.eps_le hN h.r0 ho

theorem first_gap (hp : ProvSpec xmin xmax p) : p.t.x.at' 1 0 - p.t.x.at' 0 0 = (xmax - xmin) / p.K / 2 * (p.o.r.getD 1 0 + 1) := by
  have h0 := hp.ops.nodes.2.1
  rw [hp.x]
  simp only [grid, h0]
  push_cast
  ring

theorem ceil_is {x : ℝ} {n : ℕ} (h1 : (n : ℝ) < x) (h2 : x ≤ n + 1) : ⌈x⌉₊ = n + 1 := by
  refine le_antisymm (Nat.ceil_le.2 (by push_cast; exact h2)) (Nat.lt_ceil.2 h1)

/-- **C146, burgers1d as shipped.** Unless LAPACK fails or a pass gives a value above 10⁸, the program makes exactly 94 passes, stops at a time between 0.1 and 0.101, and leaves the grid and the states numbered 0, 10, ..., 90. The last state is not among them. -/
theorem C146_shipped {la : Lapack} (wrap : Bool) {eps tol : ℝ} {r0 : List ℝ} {Vinv0 : DMat ℝ} {t0 : Tables ℝ} (h : Machine la eps tol 6 40 r0 Vinv0 t0) (fuel : ℕ) (hf : 94 < fuel) :
    (buildOps la eps 6 r0 Vinv0 = .throws ∧ burgersMain la wrap eps tol r0 Vinv0 t0 burgersData fuel = .throws) ∨ ∃ p rep S dt, burgersMain la wrap eps tol r0 Vinv0 t0 burgersData fuel = .ok rep ∧ ProvSpec (-5) 5 p ∧ p.N = 6 ∧ p.K = 40 ∧
      BurgersRan p ⟨-5, 5, 1, 0.1, 0.5, 0.1, 6, 40, 0.75⟩ dt fuel rep.s rep.how S ∧ 0.001066 < dt ∧ dt < 0.00107 ∧
      ((rep.how = .threw ∧ rep.s.count < 94) ∨ (rep.how = .finished ∧ rep.s.count = 94 ∧ 0.1 < rep.s.t ∧ rep.s.t < 0.101 ∧ rep.s.files.map (fun f => String.ofList f.1) =
        ["x.dat", "u0000000.dat", "u0000010.dat", "u0000020.dat", "u0000030.dat", "u0000040.dat", "u0000050.dat", "u0000060.dat", "u0000070.dat", "u0000080.dat", "u0000090.dat"])) := by
  unfold burgersMain
  rcases h.prov (xmin := -5) (xmax := 5) (wrap := wrap) (by norm_num) (by norm_num) (by norm_num) (by norm_num [intMax]) with ⟨ho, hb⟩ | ⟨p, hb, hN, hK, hp, hsym, hroot⟩
  · left
    refine ⟨ho, ?_⟩
    show (buildProv la wrap eps tol (-5) 5 6 40 r0 Vinv0 t0 >>= _) = _
    rw [hb]; rfl
  · right
    obtain ⟨rep, S, dt, h1, h2, h3, h4, -⟩ := C146_run (by norm_num) hp (by omega) burgersData (by norm_num [burgersData]) (by norm_num [burgersData]) (by norm_num [burgersData]) fuel
    have hsec := second_of_seven (r := fun i => p.o.r.getD i 0) hsym (fun i j hij hj => hp.ops.nodes.2.2.2 i j hij (by omega)) (fun i hi1 hi2 => root6 (hroot i hi1 hi2))
    have hgap := first_gap hp
    rw [hK] at hgap
    generalize p.o.r.getD 1 0 = a at hsec hgap
    obtain ⟨δ, hδ⟩ : ∃ δ, δ = p.t.x.at' 1 0 - p.t.x.at' 0 0 := ⟨_, rfl⟩
    rw [← hδ] at hgap h2
    have hδ1 : δ = (a + 1) / 8 := by rw [hgap]; norm_num; ring
    have hl : 0.02122125 < δ := by rw [hδ1]; linarith [hsec.1]
    have hu : δ < 0.0212225 := by rw [hδ1]; linarith [hsec.2]
    obtain ⟨w, hw⟩ : ∃ w, w = √(0.1 : ℝ) := ⟨_, rfl⟩
    have hw0 : 0 ≤ w := by rw [hw]; exact Real.sqrt_nonneg _
    have hw2 : w * w = 0.1 := by rw [hw]; exact Real.mul_self_sqrt (by norm_num)
    have hwl : 0.31622 < w := by nlinarith
    have hwu : w < 0.31623 := by nlinarith
    have h2' : dt = 0.75 * (δ ^ 2 / w) := by
      rw [h2]
      simp only [burgersData, ← hw]
      rw [min_eq_right]
      rw [abs_of_pos (by norm_num), div_le_div_iff₀ (by linarith) (by norm_num)]
      nlinarith
    have e : dt * w = 0.75 * δ ^ 2 := by rw [h2']; field_simp
    have hd1 : 0.001066 < dt := by nlinarith
    have hd2 : dt < 0.00107 := by nlinarith
    have hlow : 93 * dt < 0.1 := by nlinarith
    have hhigh : 0.1 < 94 * dt := by nlinarith
    have hceil : ⌈burgersData.finalTime / dt⌉₊ = 94 := ceil_is (n := 93) (by rw [lt_div_iff₀ h3]; simp only [burgersData]; push_cast; exact hlow) (by rw [div_le_iff₀ h3]; simp only [burgersData]; push_cast; linarith)
    refine ⟨p, rep, S, dt, ?_, hp, hN, hK, h4, hd1, hd2, ?_⟩
    · show (buildProv la wrap eps tol (-5) 5 6 40 r0 Vinv0 t0 >>= _) = _
      rw [hb]; exact h1
    · rcases C146_ends h4 (by rw [hceil]; exact hf) with hh | hh
      · right
        have hcount := (h4.finished hh).1
        rw [hceil] at hcount
        have hclock := h4.clock
        rw [hcount] at hclock
        push_cast at hclock
        refine ⟨hh, hcount, by linarith, by linarith, ?_⟩
        have hfiles := h4.files
        rw [hh, hcount] at hfiles
        rw [hfiles, List.map_cons, List.map_map]
        show String.ofList "x.dat".toList :: (List.range 10).map (fun j : ℕ => String.ofList (Output.generateFileName ".dat".toList "u".toList ((10 * j : ℕ) : ℤ))) = _
        decide +kernel
      · left
        have := (h4.threw hh).1
        rw [hceil] at this
        exact ⟨hh, this⟩

/-- **C146, advec1d as shipped.** Whatever the profile: unless LAPACK fails or a pass gives a value above 10⁸, the program makes exactly 87 steps and stops at a time between 20 and 20.04; it leaves the grid and the states numbered 0, 10, ..., 80. -/
theorem C146_advec {la : Lapack} (wrap : Bool) {eps tol : ℝ} {r0 : List ℝ} {Vinv0 : DMat ℝ} {t0 : Tables ℝ} (h : Machine la eps tol 4 30 r0 Vinv0 t0) (F : ℝ → ℝ) (fuel : ℕ) (hf : 87 < fuel) :
    advecMain la wrap eps tol (-1) 4 4 30 r0 Vinv0 t0 0.1 20 0.8 F fuel = .throws ∨ ∃ rep dt, advecMain la wrap eps tol (-1) 4 4 30 r0 Vinv0 t0 0.1 20 0.8 F fuel = .ok (some rep) ∧
      rep.t = 87 * dt ∧ 0.23 < dt ∧ dt < 0.2304 ∧ 20 < rep.t ∧ rep.t < 20.04 ∧ rep.files.map (fun f => String.ofList f.1) =
        ["x.dat", "u0000000.dat", "u0000010.dat", "u0000020.dat", "u0000030.dat", "u0000040.dat", "u0000050.dat", "u0000060.dat", "u0000070.dat", "u0000080.dat"] := by
  unfold advecMain
  rcases h.prov (xmin := -1) (xmax := 4) (wrap := wrap) (by norm_num) (by norm_num) (by norm_num) (by norm_num [intMax]) with ⟨-, hb⟩ | ⟨p, hb, hN, hK, hp, hsym, hroot⟩
  · left; rw [hb]; rfl
  · rw [hb, Out.bind_ok]
    have hsec := second_of_five (r := fun i => p.o.r.getD i 0) hsym (fun i j hij hj => hp.ops.nodes.2.2.2 i j hij (by omega)) (fun i hi1 hi2 => root4 (hroot i hi1 hi2))
    have hgap := first_gap hp
    rw [hK] at hgap
    generalize p.o.r.getD 1 0 = a at hsec hgap
    obtain ⟨dt, hdt⟩ : ∃ dt, dt = 0.8 * (p.t.x.at' 1 0 - p.t.x.at' 0 0) / |(0.1 : ℝ)| := ⟨_, rfl⟩
    have hdt' : dt = (a + 1) * (2 / 3) := by
      rw [hdt, hgap, abs_of_pos (by norm_num)]
      norm_num
      ring
    have hd1 : 0.2302 < dt := by rw [hdt']; linarith [hsec.1]
    have hd2 : dt < 0.23024 := by rw [hdt']; linarith [hsec.2]
    have hceil : ⌈(20 : ℝ) / dt⌉₊ = 87 := ceil_is (n := 86) (by rw [lt_div_iff₀ (by linarith)]; push_cast; linarith) (by rw [div_le_iff₀ (by linarith)]; push_cast; linarith)
    unfold advecProgram
    rw [if_neg (by omega)]
    simp only [← hdt]
    obtain ⟨v, hv⟩ := Rep.exists hp (p.sample F) ⟨rfl, rfl⟩
    obtain ⟨w, hw⟩ := Rep.exists hp (zeroMat (p.N + 1) p.K) ⟨rfl, rfl⟩
    rcases advecLoop_from (by norm_num) hp (c := 0.1) (by norm_num) (dt := dt) (by linarith) 20 v 87 0 (by rw [hceil]) fuel ⟨p.sample F, zeroMat (p.N + 1) p.K, 0, 0, [("x.dat".toList, p.t.x)]⟩ hf hv ⟨w, hw⟩ (by simp) rfl with
      ⟨j, u, -, -, -, -, h5⟩ | ⟨s', us, h5, -, h6, -, h7⟩
    · left; rw [h5]; rfl
    · right
      rw [hceil] at h6
      push_cast at h6
      refine ⟨_, dt, by rw [h5]; rfl, h6, by linarith, by linarith, ?_, ?_, ?_⟩
      · show 20 < s'.t
        rw [h6]; linarith
      · show s'.t < 20.04
        rw [h6]; linarith
      · show s'.files.map _ = _
        rw [h7, show (List.range' 0 87).filter (fun j => decide (j % 10 = 0)) = [0, 10, 20, 30, 40, 50, 60, 70, 80] from by decide, List.map_append, List.map_map]
        show [String.ofList "x.dat".toList] ++ [0, 10, 20, 30, 40, 50, 60, 70, 80].map (fun j : ℕ => String.ofList (Output.generateFileName ".dat".toList "u".toList (j : ℤ))) = _
        decide +kernel

/-- Arrays of zeros and exact linear algebra meet the hypotheses. -/
theorem machine_exists (N K : ℕ) : Machine exactLapack 0.01 1e-5 N K (zeros (N + 1)) (zeroMat (N + 1) (N + 1)) ⟨zeroMat 0 0, List.replicate (2 * K) 0, List.replicate (2 * K) 0, List.replicate (2 * K) 0, zeros (2 * K), [], [], zeros (2 * K)⟩ :=
  ⟨exactLapack_ok, by norm_num, by norm_num, by norm_num, by simp [zeros], ⟨rfl, rfl⟩, by constructor <;> simp [zeros]⟩

/-- The hypotheses of `C146_shipped` can be met, and the eigensolver need not fail. -/
example : ∃ rep t0, burgersMain exactLapack false 0.01 1e-5 (zeros 7) (zeroMat 7 7) t0 burgersData 1000 = .ok rep ∧ (rep.how = .finished ∨ rep.how = .threw) := by
  obtain ⟨o, ho, -⟩ := buildOps_returns 0.01 (by norm_num) (by norm_num) 6 (by norm_num) (zeros 7) (by simp [zeros]) (zeroMat 7 7) ⟨rfl, rfl⟩
  rcases C146_shipped false (machine_exists 6 40) 1000 (by norm_num) with ⟨h, -⟩ | ⟨p, rep, S, dt, h, -, -, -, -, -, -, h2⟩
  · rw [ho] at h; cases h
  · exact ⟨rep, _, h, h2.symm.imp And.left And.left⟩

end Blitzdg.Drivers
