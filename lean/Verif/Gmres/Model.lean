/-!
Model of include/GMRESSolver.hpp `GMRESSolver::solve`, src/GMRESSolver.cpp `checkGMRESParams` and include/LinAlgHelpers.hpp
`applyGivens`.

The model is generic in the scalar type `F`, the vector type `E` and all arithmetic (`Arith`): comparisons are arbitrary Boolean
functions, so NaN and infinities are covered, and the order of summation in norms and products is left open.  The exact-arithmetic theorems
instantiate it.  The callbacks are arbitrary: they may fail, keep state `σ` and see the previous contents of their output
argument.  The trace records every callback invocation and every update of `x`, in order; it is instrumentation only.
Verbose output (lines 266-274, 346-354) is left out here; Verbose.lean puts it back.
-/

namespace Blitzdg.Gmres

/-- include/GMRESSolver.hpp lines 63-74 `ConvFlag`. -/
inductive Flag where
  | unconverged | success | diverged | maxits | stagnation | breakdown | trueRnrm | infOrNan | preconFail | matvecFail
deriving DecidableEq, Repr

/-- The arithmetic used by the solver. -/
structure Arith (F E : Type) where
  zero : F
  one : F
  add : F → F → F
  sub : F → F → F
  mul : F → F → F
  div : F → F → F
  abs : F → F
  /-- the C++ operators `==`, `<`, `<=` and `std::isfinite` -/
  eq : F → F → Bool
  lt : F → F → Bool
  le : F → F → Bool
  fin : F → Bool
  /-- include/LinAlgHelpers.hpp lines 63-66 `norm2` -/
  nrm : E → F
  /-- `sum(w * v)` -/
  dot : E → E → F
  vadd : E → E → E
  vsub : E → E → E
  vscale : F → E → E
  /-- include/GMRESSolver.hpp lines 51-54 `isNonzero` -/
  nonzero : E → Bool
  /-- BLAS `drotg`: (r, c, s) from (a, b) -/
  rotg : F → F → F × F × F
  /-- BLAS `dtrsv` on the upper triangle of the leading block (src/GMRESSolver.cpp lines 24-33); the matrix is the list of its columns -/
  trsv : Nat → List (List F) → List F → List F
  /-- BLAS `dgemv` with the leading columns (src/GMRESSolver.cpp lines 35-47) -/
  comb : Nat → List E → List F → E
  /-- include/GMRESSolver.hpp lines 417-425: no component `j` has `x(j) != 0 && |pv(j)| > stgTol |x(j)|` -/
  stag : F → E → E → Bool

/-- include/GMRESSolver.hpp lines 92-107 `GMRESParams` without `verbose`. -/
structure Params (F : Type) where
  testTrue : Bool
  kspaceSz : Int
  maxits : Int
  relTol : F
  absTol : F
  divTol : F
  stgTol : F

/-- include/GMRESSolver.hpp lines 118-129 `GMRESOut`. -/
structure GOut (F : Type) where
  flag : Flag
  innerIts : Nat
  outerIts : Nat
  relres : F
  msg : String
deriving DecidableEq

/-- Events: a matrix-vector product or preconditioner call with its input, success and output; an update of the solution. -/
inductive Ev (E : Type) where
  | mv (inp : E) (ok : Bool) (out : E)
  | pc (inp : E) (ok : Bool) (out : E)
  | upd (x : E)

/-- The state of the callbacks and the trace. -/
structure World (σ E : Type) where
  st : σ
  tr : List (Ev E)

/-- A callback: state, input and previous output to success, output and state. -/
abbrev Callback (σ E : Type) := σ → E → E → Bool × E × σ

variable {σ F E : Type}

/-- `mvec(inp, out)`. -/
def callMv (f : Callback σ E) (W : World σ E) (inp out : E) : Bool × E × World σ E :=
  ((f W.st inp out).1, (f W.st inp out).2.1, { st := (f W.st inp out).2.2, tr := W.tr ++ [.mv inp (f W.st inp out).1 (f W.st inp out).2.1] })

/-- `precon(inp, out)`. -/
def callPc (f : Callback σ E) (W : World σ E) (inp out : E) : Bool × E × World σ E :=
  ((f W.st inp out).1, (f W.st inp out).2.1, { st := (f W.st inp out).2.2, tr := W.tr ++ [.pc inp (f W.st inp out).1 (f W.st inp out).2.1] })

/-- src/GMRESSolver.cpp lines 76-89 `checkGMRESParams`: `true` if it throws. -/
def badParams (A : Arith F E) (p : Params F) : Bool :=
  decide (p.kspaceSz < 1) || decide (p.maxits < 1) || A.lt p.relTol A.zero || A.lt p.absTol A.zero || A.le p.divTol A.zero ||
    A.lt p.stgTol A.zero

/-- `std::max(a, b)`. -/
def fmax (A : Arith F E) (a b : F) : F := if A.lt a b then b else a

/-- include/LinAlgHelpers.hpp lines 46-50 `applyGivens` on entries `i`, `i+1` of a column. -/
def rotAt (A : Arith F E) (c s : F) (l : List F) (i : Nat) : List F :=
  let x := l.getD i A.zero
  let y := l.getD (i + 1) A.zero
  (l.set (i + 1) (A.sub (A.mul c y) (A.mul s x))).set i (A.add (A.mul c x) (A.mul s y))

/-- include/GMRESSolver.hpp lines 302-306: modified Gram-Schmidt; the state is (w, H(0..j-1, i)). -/
def mgs (A : Arith F E) (V : List E) (w : E) : E × List F :=
  V.foldl (fun s v => (A.vsub s.1 (A.vscale (A.dot s.1 v) v), s.2 ++ [A.dot s.1 v])) (w, [])

/-- include/GMRESSolver.hpp lines 320-322: apply the earlier rotations to the new column. -/
def rotCol (A : Arith F E) (giv : List (F × F)) (col : List F) : List F :=
  (List.range giv.length).foldl (fun l j => rotAt A (giv.getD j (A.zero, A.zero)).1 (giv.getD j (A.zero, A.zero)).2 l j) col

/-- The data of a cycle.  `V`, `H`, `giv` hold the columns and rotations computed so far in the cycle (column `i` of H has the rows
`0 .. i+1`); the code keeps them in arrays allocated once. -/
structure Cyc (σ F E : Type) where
  V : List E
  H : List (List F)
  giv : List (F × F)
  s : List F
  w : E
  pv : E
  rnrm : F
  W : World σ E

/-- Outcome of an inner iteration: return from `solve`, leave the loop, or go on. -/
inductive Step (σ F E : Type) where
  | ret (flag : Flag) (msg : String) (W : World σ E)
  | brk (flag : Flag) (c : Cyc σ F E)
  | next (c : Cyc σ F E)

/-- include/GMRESSolver.hpp lines 302-337: everything between the two callbacks and the convergence tests of inner iteration `i`: the new column
of V (`junk` is the stale content of V(:, i+1) when H(i+1, i) = 0), the new column of H, the new rotation and s. -/
def arnoldi (A : Arith F E) (junk : E) (i : Nat) (V : List E) (H : List (List F)) (giv : List (F × F)) (s : List F) (w : E) :
    List E × List (List F) × List (F × F) × List F :=
  let m := mgs A V w
  let h := A.nrm m.1
  let v := if A.eq h A.zero then junk else A.vscale (A.div A.one h) m.1
  let col := rotCol A giv (m.2 ++ [h])
  let g := A.rotg (col.getD i A.zero) (col.getD (i + 1) A.zero)
  (V ++ [v], H ++ [(col.set i g.1).set (i + 1) A.zero], giv ++ [(g.2.1, g.2.2)], rotAt A g.2.1 g.2.2 s i)

/-- include/GMRESSolver.hpp lines 340-368: the tests of an inner iteration, after line 338. -/
def innerTests (A : Arith F E) (convTol divTol : F) (c : Cyc σ F E) : Step σ F E :=
  if !A.fin c.rnrm then .ret .infOrNan "" c.W
  else if A.le c.rnrm convTol then .brk .success c
  else if A.le divTol c.rnrm then .brk .diverged c
  else .next c

/-- include/GMRESSolver.hpp lines 290-368: inner iteration `i`.  Line 328 tests H(i, i) before `s` is rotated (line 337); `s` is not
used when it returns. -/
def innerStep (A : Arith F E) (mv pc : Callback σ E) (junk : Nat → E) (convTol divTol : F) (i : Nat) (c : Cyc σ F E) : Step σ F E :=
  let p := callPc pc c.W (c.V.getD i (junk i)) c.pv
  if !p.1 then .ret .preconFail "preconditioner application in inner loop failed" p.2.2
  else
    let m := callMv mv p.2.2 p.2.1 c.w
    if !m.1 then .ret .matvecFail "matvec in inner loop failed" m.2.2
    else
      let a := arnoldi A (junk (i + 1)) i c.V c.H c.giv c.s m.2.1
      if A.eq ((a.2.1.getD i []).getD i A.zero) A.zero then .ret .breakdown "H(i,i) = 0" m.2.2
      else innerTests A convTol divTol
        { V := a.1, H := a.2.1, giv := a.2.2.1, s := a.2.2.2, w := (mgs A c.V m.2.1).1, pv := p.2.1
          rnrm := A.abs (a.2.2.2.getD (i + 1) A.zero), W := m.2.2 }

/-- Outcome of the inner loop: return from `solve`, or go on to the update with the flag and `iupdate`; `its` is `ret.innerIts`. -/
inductive InnerRes (σ F E : Type) where
  | ret (flag : Flag) (msg : String) (its : Nat) (W : World σ E)
  | done (flag : Flag) (iupdate its : Nat) (c : Cyc σ F E)

/-- include/GMRESSolver.hpp lines 286-369: the inner loop from iteration `i` with `n` iterations left. -/
def innerLoop (A : Arith F E) (mv pc : Callback σ E) (junk : Nat → E) (convTol divTol : F) :
    Nat → Nat → Nat → Cyc σ F E → InnerRes σ F E
  | 0, i, its, c => .done .unconverged i its c
  | n + 1, i, _, c =>
    match innerStep A mv pc junk convTol divTol i c with
    | .ret f msg W => .ret f msg i W
    | .brk f c' => .done f (i + 1) i c'
    | .next c' => innerLoop A mv pc junk convTol divTol n (i + 1) i c'

/-- The state of the outer loop. -/
structure St (σ F E : Type) where
  x : E
  r : E
  w : E
  pv : E
  rnrm : F
  out : GOut F
  W : World σ E

/-- What `solve` leaves behind: the result (`none`: it threw), `x`, and the callbacks' state and trace. -/
structure Res (σ F E : Type) where
  out : Option (GOut F)
  x : E
  W : World σ E

/-- The end of the outer loop: return from `solve`, or go on after the loop with `testTrueRnrm`. -/
inductive OuterRes (σ F E : Type) where
  | ret (R : Res σ F E)
  | brk (S : St σ F E) (test : Bool)
  | next (S : St σ F E)

/-- include/GMRESSolver.hpp lines 394-429: from the new residual to the end of the outer iteration; `w` is `A x`. -/
def afterResidual (A : Arith F E) (p : Params F) (b : E) (convTol divTol : F) (S : St σ F E) : OuterRes σ F E :=
  let r := A.vsub b S.w
  let rnrm := A.nrm r
  let S' : St σ F E := { S with r := r, rnrm := rnrm }
  if !A.fin rnrm then .ret { out := some { S.out with flag := .infOrNan }, x := S.x, W := S.W }
  else if A.le rnrm convTol then .brk { S' with out := { S.out with flag := .success } } false
  else if A.le divTol rnrm then .brk { S' with out := { S.out with flag := .diverged } } p.testTrue
  else if A.stag p.stgTol S.pv S.x then .brk { S' with out := { S.out with flag := .stagnation } } p.testTrue
  else .next S'

/-- include/GMRESSolver.hpp lines 370-429: update of the solution and the tests after it. -/
def afterInner (A : Arith F E) (mv pc : Callback σ E) (p : Params F) (b : E) (convTol divTol : F) (S : St σ F E) (flag : Flag)
    (iupdate its : Nat) (c : Cyc σ F E) : OuterRes σ F E :=
  let o : GOut F := { S.out with flag := flag, innerIts := its }
  let y := A.trsv iupdate c.H c.s
  let w := A.comb iupdate c.V y
  let q := callPc pc c.W w c.pv
  if !q.1 then
    .ret { out := some { o with flag := .preconFail, msg := "preconditioner application failed when updating solution" }
           x := S.x, W := q.2.2 }
  else
    let x := A.vadd S.x q.2.1
    let W : World σ E := { q.2.2 with tr := q.2.2.tr ++ [.upd x] }
    let S' : St σ F E := { x := x, r := S.r, w := w, pv := q.2.1, rnrm := c.rnrm, out := o, W := W }
    if flag ≠ .unconverged then .brk S' p.testTrue
    else
      let m := callMv mv W x w
      if !m.1 then
        .ret { out := some { o with flag := .matvecFail, msg := "matvec failed when updating residual" }, x := x, W := m.2.2 }
      else afterResidual A p b convTol divTol { S' with w := m.2.1, W := m.2.2 }

/-- include/GMRESSolver.hpp lines 279-429: outer iteration `k`; `m` is `kspaceSz`. -/
def outerStep (A : Arith F E) (mv pc : Callback σ E) (p : Params F) (b : E) (junk : Nat → E) (m : Nat) (bInv convTol divTol : F)
    (k : Nat) (S : St σ F E) : OuterRes σ F E :=
  let o : GOut F := { S.out with relres := A.mul bInv S.rnrm, outerIts := k }
  let c : Cyc σ F E :=
    { V := [A.vscale (A.div A.one S.rnrm) S.r], H := [], giv := [], s := S.rnrm :: List.replicate m A.zero, w := S.w, pv := S.pv
      rnrm := S.rnrm, W := S.W }
  match innerLoop A mv pc junk convTol divTol m 0 o.innerIts c with
  | .ret f msg its W => .ret { out := some { o with flag := f, msg := msg, innerIts := its }, x := S.x, W := W }
  | .done f iu its c' => afterInner A mv pc p b convTol divTol { S with out := o } f iu its c'

/-- include/GMRESSolver.hpp lines 278-430: the outer loop from iteration `k` with `n` iterations left. -/
def outerLoop (A : Arith F E) (mv pc : Callback σ E) (p : Params F) (b : E) (junk : Nat → Nat → E) (m : Nat) (bInv convTol divTol : F) :
    Nat → Nat → St σ F E → OuterRes σ F E
  | 0, _, S => .brk S p.testTrue
  | n + 1, k, S =>
    match outerStep A mv pc p b (junk k) m bInv convTol divTol k S with
    | .next S' => outerLoop A mv pc p b junk m bInv convTol divTol n (k + 1) S'
    | R => R

/-- include/GMRESSolver.hpp lines 431-447: after the outer loop. -/
def finish (A : Arith F E) (mv : Callback σ E) (b : E) (bInv convTol : F) (S : St σ F E) (test : Bool) : Res σ F E :=
  let flag := if S.out.flag = .unconverged then Flag.maxits else S.out.flag
  if flag = .success ∧ test = true then
    let m := callMv mv S.W S.x S.w
    if m.1 then
      let rnrm := A.nrm (A.vsub b m.2.1)
      { out := some { S.out with flag := if A.fin rnrm && A.lt convTol rnrm then .trueRnrm else flag, relres := A.mul bInv rnrm }
        x := S.x, W := m.2.2 }
    else
      { out := some { S.out with flag := flag, relres := A.mul bInv S.rnrm
                                 msg := "matvec failed when computing true residual -> test skipped" }
        x := S.x, W := m.2.2 }
  else { out := some { S.out with flag := flag, relres := A.mul bInv S.rnrm }, x := S.x, W := S.W }

/-- include/GMRESSolver.hpp lines 278-447: what follows the outer loop; `next` does not occur. -/
def finishOf (A : Arith F E) (mv : Callback σ E) (p : Params F) (b : E) (bInv convTol : F) : OuterRes σ F E → Res σ F E
  | .ret R => R
  | .brk S' test => finish A mv b bInv convTol S' test
  | .next S' => finish A mv b bInv convTol S' p.testTrue

/-- `bnrm` after include/GMRESSolver.hpp lines 231-235. -/
def bnorm (A : Arith F E) (b : E) : F := if A.eq (A.nrm b) A.zero then A.one else A.nrm b

/-- include/GMRESSolver.hpp line 256. -/
def convTol (A : Arith F E) (p : Params F) (b : E) : F := fmax A (A.mul p.relTol (bnorm A b)) p.absTol

/-- include/GMRESSolver.hpp lines 249-447: `solve` after the initial residual `r` and its norm are known. -/
def iterate (A : Arith F E) (mv pc : Callback σ E) (p : Params F) (b : E) (junk : Nat → Nat → E) (m : Nat) (S : St σ F E) :
    Res σ F E :=
  let bInv := A.div A.one (bnorm A b)
  if !A.fin S.rnrm then { out := some { S.out with flag := .infOrNan }, x := S.x, W := S.W }
  else if A.le S.rnrm (convTol A p b) then
    { out := some { S.out with flag := .success, relres := A.mul bInv S.rnrm }, x := S.x, W := S.W }
  else
    finishOf A mv p b bInv (convTol A p b)
      (outerLoop A mv pc p b junk m bInv (convTol A p b) (A.mul p.divTol S.rnrm) p.maxits.toNat 0 S)

/-- include/GMRESSolver.hpp lines 217-448 `GMRESSolver::solve`; `N` is the length of `x`, `w0`, `pv0` and `junk` the contents of
uninitialised vectors. -/
def solve (A : Arith F E) (mv pc : Callback σ E) (N : Nat) (w0 pv0 : E) (junk : Nat → Nat → E) (p : Params F) (b x : E)
    (W : World σ E) : Res σ F E :=
  if badParams A p then { out := none, x := x, W := W }
  else
    let m := min N p.kspaceSz.toNat
    let o : GOut F := { flag := .unconverged, innerIts := 0, outerIts := 0, relres := A.zero, msg := "" }
    if A.nonzero x then
      let c := callMv mv W x w0
      if !c.1 then
        { out := some { o with flag := .matvecFail, msg := "matvec failed when computing initial residual" }, x := x, W := c.2.2 }
      else
        let r := A.vsub b c.2.1
        iterate A mv pc p b junk m { x := x, r := r, w := c.2.1, pv := pv0, rnrm := A.nrm r, out := o, W := c.2.2 }
    else iterate A mv pc p b junk m { x := x, r := b, w := w0, pv := pv0, rnrm := A.nrm b, out := o, W := W }

end Blitzdg.Gmres
