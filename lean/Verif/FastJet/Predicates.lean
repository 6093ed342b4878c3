import Mathlib.Algebra.Order.Field.Basic
import Mathlib.Algebra.Order.Ring.Abs
import Mathlib.Data.Rat.Defs

/-!
# Model of `fastjet/internal/predicates`

The orientation of three points and the position of a point with respect to a circle, computed
with floating point numbers together with a bound on the rounding errors.

A floating point number is `some x` when finite and `none` when infinite or NaN.  The two are not
distinguished: an operation on a number that is not finite gives one that is not finite, and all
comparisons below with such numbers are false (a bound that is infinite or NaN is never exceeded;
that the determinant is infinite and its bound finite does not happen because the bound is computed
from it).  The sign of zero is not tracked.  Products and sums are rounded one by one, as on amd64;
architectures where the compiler fuses them are not modelled.
-/

namespace Verif.FastJet.Pred

/-- The arithmetic: rounding, and the two constants used. -/
structure Arith (K : Type) where
  /-- The nearest floating point number to an exact result, `none` beyond the largest. -/
  rnd : K → Option K
  /-- fastjet/internal/predicates/float64Pred.go:11-20 (`macheps`) -/
  macheps : K
  /-- `math.SmallestNonzeroFloat64` -/
  tiny : K

section
variable {K : Type} [Field K] [LinearOrder K] (A : Arith K)

/-- `a + b` -/
def fadd : Option K → Option K → Option K
  | some a, some b => A.rnd (a + b)
  | _, _ => none

/-- `a - b` -/
def fsub : Option K → Option K → Option K
  | some a, some b => A.rnd (a - b)
  | _, _ => none

/-- `a * b` -/
def fmul : Option K → Option K → Option K
  | some a, some b => A.rnd (a * b)
  | _, _ => none

/-- `a / b` for `b` not zero -/
def fdiv : Option K → Option K → Option K
  | some a, some b => A.rnd (a / b)
  | _, _ => none

/-- `math.Abs` -/
def fabs : Option K → Option K := Option.map fun x => |x|

/-- `a > b` -/
def fgt : Option K → Option K → Bool
  | some a, some b => decide (b < a)
  | _, _ => false

/-- fastjet/internal/predicates/float64Pred.go:36-41 (`float64Pred`): a number and a bound on its
rounding error. -/
structure FPred (K : Type) where
  n : Option K
  e : Option K

/-- fastjet/internal/predicates/float64Pred.go:44-49 (`newFloat64Pred`). -/
def newPred (n : Option K) : FPred K := { n := n, e := some 0 }

/-- The term for the rounding of `n` itself in the three functions below. -/
def ownErr (n : Option K) : Option K :=
  if n = some 0 then some A.tiny
  else fdiv A (fmul A (some A.macheps) (fabs n)) (some (1 - A.macheps))

/-- fastjet/internal/predicates/float64Pred.go:63-71 (`addFloat64Pred`). -/
def addPred (a b : FPred K) : FPred K :=
  let n := fadd A a.n b.n
  { n := n, e := fadd A a.e (fadd A (ownErr A n) b.e) }

/-- fastjet/internal/predicates/float64Pred.go:85-93 (`subFloat64Pred`). -/
def subPred (a b : FPred K) : FPred K :=
  let n := fsub A a.n b.n
  { n := n, e := fadd A a.e (fadd A (ownErr A n) b.e) }

/-- fastjet/internal/predicates/float64Pred.go:103-111 (`mulFloat64`). -/
def mulPred (p : FPred K) (f : Option K) : FPred K :=
  let n := fmul A p.n f
  { n := n, e := fadd A p.e (fadd A (ownErr A n) (fmul A p.e (fabs f))) }

/-! ### Orientation -/

/-- fastjet/internal/predicates/orientation.go:15-24 (`OrientationKind`). -/
inductive OrientationKind
  | ccw | cw | colinear | indeterminate
deriving DecidableEq, Repr

/-- fastjet/internal/predicates/orientation.go:64-86 (`simpleOrientation`), for finite
coordinates. -/
def simpleOrientation (x1 y1 x2 y2 x y : K) : OrientationKind :=
  if (x1 = x2 ∧ x2 = x) ∨ (y1 = y2 ∧ y2 = y) then .colinear
  else
    let m (a b : K) : FPred K := mulPred A (newPred (some a)) (some b)
    let p := subPred A (subPred A (subPred A (addPred A (addPred A (m x1 y2) (m x2 y)) (m x y1)) (m x1 y))
      (m x2 y1)) (m x y2)
    if fgt p.n p.e then .ccw
    else if fgt (p.e.map (- ·)) p.n then .cw
    else .indeterminate

/-- fastjet/internal/predicates/orientation.go:43-51 (`Orientation`); the second stage, an LU
factorisation of the library `gonum`, is a parameter. -/
def orientation (lu : K → K → K → K → K → K → OrientationKind) (x1 y1 x2 y2 x y : K) : OrientationKind :=
  match simpleOrientation A x1 y1 x2 y2 x y with
  | .indeterminate => lu x1 y1 x2 y2 x y
  | o => o

/-- fastjet/internal/predicates/orientation.go:94-112 (`robustOrientation`). -/
def robustOrientation (x1 y1 x2 y2 x y : K) : OrientationKind :=
  let det := (x1 * y2 + x2 * y + x * y1) - (x1 * y + x2 * y1 + x * y2)
  if 0 < det then .ccw else if det < 0 then .cw else .colinear

/-! ### Circles -/

/-- fastjet/internal/predicates/incircle.go:15-25 (`RelativePosition`). -/
inductive RelativePosition
  | inside | on | outside | indeterminate
deriving DecidableEq, Repr

/-- fastjet/internal/predicates/incircle.go:105-112 (`rowFloat`). -/
def rowFloat (a b c d : Nat) (plus : Bool) (m : List (Option K)) : FPred K :=
  let at' (i : Nat) : Option K := m.getD i none
  let prod (a b : Nat) : FPred K :=
    mulPred A (mulPred A (mulPred A (newPred (at' a)) (at' (b + 4))) (at' (c + 8))) (at' (d + 12))
  if plus then subPred A (prod b a) (prod a b) else subPred A (prod a b) (prod b a)

/-- The third column of the matrix, `x*x + y*y`. -/
def fsq (x y : K) : Option K := fadd A (fmul A (some x) (some x)) (fmul A (some y) (some y))

/-- fastjet/internal/predicates/incircle.go:64-99 (`simpleIncircle`), for finite coordinates. -/
def simpleIncircle (x1 y1 x2 y2 x3 y3 x y : K) : RelativePosition :=
  let m : List (Option K) :=
    [some x1, some y1, fsq A x1 y1, some 1, some x2, some y2, fsq A x2 y2, some 1,
     some x3, some y3, fsq A x3 y3, some 1, some x, some y, fsq A x y, some 1]
  let r (a b c d : Nat) (plus : Bool) : FPred K := rowFloat A a b c d plus m
  let p := addPred A (addPred A (addPred A (addPred A (addPred A (addPred A (addPred A (addPred A (addPred A
    (addPred A (addPred A (r 3 2 1 0 false) (r 3 1 2 0 true)) (r 2 1 3 0 false)) (r 3 2 0 1 true))
    (r 3 0 2 1 false)) (r 2 0 3 1 true)) (r 3 1 0 2 false)) (r 3 0 1 2 true)) (r 1 0 3 2 false))
    (r 2 1 0 3 true)) (r 2 0 1 3 false)) (r 1 0 2 3 true)
  if fgt (p.e.map (- ·)) p.n then .outside
  else if fgt p.n p.e then .inside
  else .indeterminate

/-- The second stage decides if the first does not. -/
def secondStage (l : RelativePosition) : RelativePosition → RelativePosition
  | .indeterminate => l
  | o => o

/-- fastjet/internal/predicates/incircle.go:45-51 (`Incircle`); the second stage is a parameter. -/
def incircle (lu : K → K → K → K → K → K → K → K → RelativePosition) (x1 y1 x2 y2 x3 y3 x y : K) :
    RelativePosition :=
  secondStage (lu x1 y1 x2 y2 x3 y3 x y) (simpleIncircle A x1 y1 x2 y2 x3 y3 x y)

/-- fastjet/internal/predicates/incircle.go:179-190 (`rowBig`). -/
def rowBig (a b c d : Nat) (plus : Bool) (m : List K) : K :=
  let at' (i : Nat) : K := m.getD i 0
  if plus then
    (at' b * at' (a + 4)) * (at' (c + 8) * at' (d + 12)) - (at' a * at' (b + 4)) * (at' (c + 8) * at' (d + 12))
  else
    (at' a * at' (b + 4)) * (at' (c + 8) * at' (d + 12)) - (at' b * at' (a + 4)) * (at' (c + 8) * at' (d + 12))

/-- fastjet/internal/predicates/incircle.go:122-173 (`robustIncircle`). -/
def robustIncircle (x1 y1 x2 y2 x3 y3 x y : K) : RelativePosition :=
  let m : List K :=
    [x1, y1, x1 * x1 + y1 * y1, 1, x2, y2, x2 * x2 + y2 * y2, 1,
     x3, y3, x3 * x3 + y3 * y3, 1, x, y, x * x + y * y, 1]
  let r (a b c d : Nat) (plus : Bool) : K := rowBig a b c d plus m
  let det := (((r 3 2 1 0 false + r 3 1 2 0 true) + r 2 1 3 0 false) +
      ((r 3 2 0 1 true + r 3 0 2 1 false) + r 2 0 3 1 true)) +
    (((r 3 1 0 2 false + r 3 0 1 2 true) + r 1 0 3 2 false) +
      ((r 2 1 0 3 true + r 2 0 1 3 false) + r 1 0 2 3 true))
  if 0 < det then .inside else if det < 0 then .outside else .on

end

end Verif.FastJet.Pred
