import Verif.Cub.Table
import Mathlib.Algebra.BigOperators.Group.List.Basic

/-! Integer arithmetic for checking a cubature table, evaluated by the kernel in `Verif.Cub.Checks*`. -/

namespace Blitzdg.Cub

/-- Points of a table. -/
def triples : List Int → List (Int × Int × Int)
  | a :: b :: c :: l => (a, b, c) :: triples l
  | _ => []

def isum : List Int → Int
  | [] => 0
  | a :: l => a + isum l

def imul : List Int → List Int → List Int
  | a :: l, b :: m => a * b :: imul l m
  | _, _ => []

/-- The integral of `r^a s^b` over the triangle is `num / den`. -/
def num (a b : Nat) : Int :=
  (if a % 2 = 0 then -1 else 1) * ((if (a + b + 1) % 2 = 0 then 2 * ((b : Int) + 1) else 0) - (if b % 2 = 0 then 2 * ((a : Int) + b + 2) else 0))

def den (a b : Nat) : Nat := (a + 1) * (a + b + 2) * (b + 1)

/-- The moment `S`, in units of `10^(-15 (a+b+1))`, is within `2e-14` of the integral. -/
def good (a b : Nat) (S : Int) : Bool :=
  (S * (den a b : Int) - num a b * ((10 ^ (15 * (a + b + 1)) : Nat) : Int)).natAbs * 10 ^ 14 ≤ 2 * den a b * 10 ^ (15 * (a + b + 1))

def inner (xs : List Int) (b : Nat) : Nat → Nat → List Int → Bool
  | 0, _, _ => true
  | k + 1, a, vs => good a b (isum vs) && inner xs b k (a + 1) (imul xs vs)

def outer (xs ys : List Int) : Nat → Nat → List Int → Bool
  | 0, _, _ => true
  | k + 1, b, vs => inner xs b (k + 1) 0 vs && outer xs ys k (b + 1) (imul ys vs)

/-- All moments up to degree `n`. -/
def check (n : Nat) (l : List Int) : Bool := outer ((triples l).map (·.1)) ((triples l).map (·.2.1)) (n + 1) 0 ((triples l).map (·.2.2))

/-- The table has `rows` complete rows, the points lie inside the triangle and the weights are positive. -/
def inside (rows : Nat) (l : List Int) : Bool :=
  l.length == 3 * rows && (triples l).all fun p => decide (-(10 ^ 15) < p.1) && decide (-(10 ^ 15) < p.2.1) && decide (p.1 + p.2.1 < 0) && decide (0 < p.2.2)

end Blitzdg.Cub
