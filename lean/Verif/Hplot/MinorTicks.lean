import Mathlib.Algebra.Order.Field.Basic
import Mathlib.Algebra.Order.Group.Abs

/-!
# Model of the minor ticks of an axis (hplot/internal/talbot/ticks.go, C188)

The labels, the distance `step` and the magnitude are given by the search of talbot, which is not modelled here; arithmetic is exact. A
tick is its value and whether it is labelled; the text of labels is left out.
-/

namespace Verif.Hplot.MinorTicks

variable {K : Type} [Field K] [LinearOrder K]

/-- hplot/internal/talbot/ticks.go:47-60 (`minorDelta`); none if there are to be no minor ticks, `tiny` is `dlamchP` -/
def minorDelta (tiny step major : K) : Option K :=
  if step = 1 ∨ step = 5 / 2 then some (major / 5)
  else if step = 2 ∨ step = 3 ∨ step = 4 ∨ step = 5 then some (major / step)
  else if major / 2 < tiny then none
  else some (major / 2)

/-- hplot/internal/talbot/ticks.go:64-67 (`i--`); none if the loop has not ended after that many turns -/
def down (lo l0 δ : K) : Nat → ℤ → Option ℤ
  | 0, _ => none
  | f + 1, i => if lo < l0 + ((i - 1 : ℤ) : K) * δ then down lo l0 δ f (i - 1) else some i

/-- hplot/internal/talbot/ticks.go:76-84 (`found`) -/
def addTick (δ val : K) (ts : List (K × Bool)) : List (K × Bool) :=
  if ∃ t ∈ ts, |t.1 - val| < δ / 2 then ts else ts ++ [(val, false)]

/-- hplot/internal/talbot/ticks.go:71-86 (`val`); none if the loop has not ended after that many turns -/
def scan (hi l0 δ : K) : Nat → ℤ → List (K × Bool) → Option (List (K × Bool))
  | 0, _, _ => none
  | f + 1, i, ts =>
    if hi < l0 + (i : K) * δ then some ts else scan hi l0 δ f (i + 1) (addTick δ (l0 + (i : K) * δ) ts)

/-- hplot/internal/talbot/ticks.go:88-95 (`elect`), `tol` is `1e-15` -/
def electLast (tol major lastMajor : K) (ts : List (K × Bool)) : List (K × Bool) :=
  match ts.getLast? with
  | some (v, false) => if |v - lastMajor - major| ≤ tol then ts.dropLast ++ [(v, true)] else ts
  | _ => ts

/-- hplot/internal/talbot/ticks.go:16-98 (`Ticks`), from the labels `l0 :: ls` on -/
def ticks (fuel : Nat) (tiny tol lo hi step major l0 : K) (ls : List K) : Option (List (K × Bool)) :=
  match minorDelta tiny step major with
  | none => some ((l0 :: ls).map fun v => (v, true))
  | some δ =>
    ((down lo l0 δ fuel 0).bind fun i => scan hi l0 δ fuel i ((l0 :: ls).map fun v => (v, true))).map
      (electLast tol major ((l0 :: ls).getLast (List.cons_ne_nil _ _)))

end Verif.Hplot.MinorTicks
