import Verif.Gmres.Model

/-!
The convergence history `GMRESSolver::solve` writes to the console (include/GMRESSolver.hpp lines 266-274 and 346-354): the loops of Model.lean with the output statements put back in, and the
effect of these statements on the stream `std::cout`.  Characters of the numbers are not modelled; a number appears on the screen with the format in force.
-/

namespace Blitzdg.Gmres

/-- The format of an output stream: `std::scientific` in force, precision, and the width for the next item. -/
structure Fmt where
  sci : Bool
  prec : Nat
  width : Nat
deriving DecidableEq, Repr

/-- What is on the screen: a text or integer in a field of a width, a number in a notation, with a precision and in a field of a width. -/
inductive Look (F : Type) where
  | text (s : String) (width : Nat)
  | int (n width : Nat)
  | num (v : F) (sci : Bool) (prec width : Nat)
deriving DecidableEq

/-- The screen and the format of `std::cout`. -/
structure Screen (F : Type) where
  fmt : Fmt
  cells : List (Look F)

/-- An operand of `std::cout <<`. -/
inductive Tok (F : Type) where
  | text (s : String)
  | int (n : Nat)
  | num (v : F)
  | setw (n : Nat)
  | scientific
  | precision (n : Nat)

variable {σ F E : Type}

/-- `std::cout << t`: items use up the width, `std::scientific` and `std::setprecision` last. -/
def Screen.put (s : Screen F) : Tok F → Screen F
  | .text t => ⟨{ s.fmt with width := 0 }, s.cells ++ [.text t s.fmt.width]⟩
  | .int n => ⟨{ s.fmt with width := 0 }, s.cells ++ [.int n s.fmt.width]⟩
  | .num v => ⟨{ s.fmt with width := 0 }, s.cells ++ [.num v s.fmt.sci s.fmt.prec s.fmt.width]⟩
  | .setw n => ⟨{ s.fmt with width := n }, s.cells⟩
  | .scientific => ⟨{ s.fmt with sci := true }, s.cells⟩
  | .precision n => ⟨{ s.fmt with prec := n }, s.cells⟩

/-- An execution of one of the two output statements, with its values. -/
inductive Say (F : Type) where
  | head (rel : F)
  | row (outer inner : Nat) (rel rate : F)

/-- The operands of the two output statements (include/GMRESSolver.hpp lines 267-273 and 347-352). -/
def Say.toks : Say F → List (Tok F)
  | .head rel => [.text "outer iter  inner iter  relative rnrm  conv rate\n", .setw 10, .int 0, .text "  ", .setw 10, .int 0, .text "  ", .scientific, .precision 2, .setw 13, .num rel, .text "  ",
      .scientific, .precision 2, .setw 9, .int 1, .text "\n"]
  | .row k i rel rate => [.setw 10, .int k, .text "  ", .setw 10, .int i, .text "  ", .scientific, .precision 2, .setw 13, .num rel, .text "  ", .scientific, .precision 2, .setw 9, .num rate, .text "\n"]

/-- The output statements one after another. -/
def Screen.say (s : Screen F) (l : List (Say F)) : Screen F := (l.flatMap Say.toks).foldl Screen.put s

/-- include/GMRESSolver.hpp lines 286-369 with lines 346-354: the inner loop and what it says; `k` is the outer iteration.  Line 346 is reached when the iteration has not returned before, and
`rnrmold` is the norm at the start of the iteration (line 289). -/
def innerLoopV (A : Arith F E) (mv pc : Callback σ E) (junk : Nat → E) (bInv convTol divTol : F) (verbose : Bool) (k : Nat) :
    Nat → Nat → Nat → Cyc σ F E → List (Say F) × InnerRes σ F E
  | 0, i, its, c => ([], .done .unconverged i its c)
  | n + 1, i, _, c =>
    match innerStep A mv pc junk convTol divTol i c with
    | .ret f msg W => ([], .ret f msg i W)
    | .brk f c' => (if verbose then [.row (k + 1) (i + 1) (A.mul bInv c'.rnrm) (A.div c'.rnrm c.rnrm)] else [], .done f (i + 1) i c')
    | .next c' =>
      let r := innerLoopV A mv pc junk bInv convTol divTol verbose k n (i + 1) i c'
      ((if verbose then [.row (k + 1) (i + 1) (A.mul bInv c'.rnrm) (A.div c'.rnrm c.rnrm)] else []) ++ r.1, r.2)

/-- include/GMRESSolver.hpp lines 279-429: outer iteration `k`. -/
def outerStepV (A : Arith F E) (mv pc : Callback σ E) (p : Params F) (b : E) (junk : Nat → E) (m : Nat) (bInv convTol divTol : F) (verbose : Bool)
    (k : Nat) (S : St σ F E) : List (Say F) × OuterRes σ F E :=
  let o : GOut F := { S.out with relres := A.mul bInv S.rnrm, outerIts := k }
  let c : Cyc σ F E :=
    { V := [A.vscale (A.div A.one S.rnrm) S.r], H := [], giv := [], s := S.rnrm :: List.replicate m A.zero, w := S.w, pv := S.pv
      rnrm := S.rnrm, W := S.W }
  let l := innerLoopV A mv pc junk bInv convTol divTol verbose k m 0 o.innerIts c
  (l.1, match l.2 with
    | .ret f msg its W => .ret { out := some { o with flag := f, msg := msg, innerIts := its }, x := S.x, W := W }
    | .done f iu its c' => afterInner A mv pc p b convTol divTol { S with out := o } f iu its c')

/-- include/GMRESSolver.hpp lines 278-430: the outer loop. -/
def outerLoopV (A : Arith F E) (mv pc : Callback σ E) (p : Params F) (b : E) (junk : Nat → Nat → E) (m : Nat) (bInv convTol divTol : F) (verbose : Bool) :
    Nat → Nat → St σ F E → List (Say F) × OuterRes σ F E
  | 0, _, S => ([], .brk S p.testTrue)
  | n + 1, k, S =>
    let t := outerStepV A mv pc p b (junk k) m bInv convTol divTol verbose k S
    match t.2 with
    | .next S' =>
      let r := outerLoopV A mv pc p b junk m bInv convTol divTol verbose n (k + 1) S'
      (t.1 ++ r.1, r.2)
    | R => (t.1, R)

/-- include/GMRESSolver.hpp lines 249-447 with lines 266-274. -/
def iterateV (A : Arith F E) (mv pc : Callback σ E) (p : Params F) (b : E) (junk : Nat → Nat → E) (m : Nat) (verbose : Bool) (S : St σ F E) :
    List (Say F) × Res σ F E :=
  let bInv := A.div A.one (bnorm A b)
  if !A.fin S.rnrm then ([], { out := some { S.out with flag := .infOrNan }, x := S.x, W := S.W })
  else if A.le S.rnrm (convTol A p b) then
    ([], { out := some { S.out with flag := .success, relres := A.mul bInv S.rnrm }, x := S.x, W := S.W })
  else
    let r := outerLoopV A mv pc p b junk m bInv (convTol A p b) (A.mul p.divTol S.rnrm) verbose p.maxits.toNat 0 S
    ((if verbose then [.head (A.mul bInv S.rnrm)] else []) ++ r.1, finishOf A mv p b bInv (convTol A p b) r.2)

/-- include/GMRESSolver.hpp lines 217-448 `GMRESSolver::solve` with the parameter `verbose` and the console. -/
def solveV (A : Arith F E) (mv pc : Callback σ E) (N : Nat) (w0 pv0 : E) (junk : Nat → Nat → E) (p : Params F) (verbose : Bool) (b x : E)
    (W : World σ E) (scr : Screen F) : Screen F × Res σ F E :=
  if badParams A p then (scr, { out := none, x := x, W := W })
  else
    let m := min N p.kspaceSz.toNat
    let o : GOut F := { flag := .unconverged, innerIts := 0, outerIts := 0, relres := A.zero, msg := "" }
    if A.nonzero x then
      let c := callMv mv W x w0
      if !c.1 then
        (scr, { out := some { o with flag := .matvecFail, msg := "matvec failed when computing initial residual" }, x := x, W := c.2.2 })
      else
        let r := A.vsub b c.2.1
        let t := iterateV A mv pc p b junk m verbose { x := x, r := r, w := c.2.1, pv := pv0, rnrm := A.nrm r, out := o, W := c.2.2 }
        (scr.say t.1, t.2)
    else
      let t := iterateV A mv pc p b junk m verbose { x := x, r := b, w := w0, pv := pv0, rnrm := A.nrm b, out := o, W := W }
      (scr.say t.1, t.2)

end Blitzdg.Gmres
