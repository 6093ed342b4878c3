import Mathlib.Algebra.Order.Field.Basic

/-!
# Model of ticks at a fixed frequency (hplot/ticks.go, C191)

In exact arithmetic; the text of a label is a parameter. The number of ticks is not negative (else `make` panics).
-/

namespace Verif.Hplot.FreqTicks

/-- What `Ticks` gives: it panics, or has the value (none if it is not a number) and the label of every tick. -/
inductive Res (K L : Type) where
  | panic
  | ticks (l : List (Option K × Option L))

section
variable {K L : Type} [Field K] [LinearOrder K]

/-- hplot/ticks.go:34 (`min + float64(i)*(max-min)/float64(len(ticks)-1)`); with one tick it is 0/0, not a number. -/
def value (lo hi : K) (n i : Nat) : Option K := if n = 1 then none else some (lo + (i : K) * (hi - lo) / ((n - 1 : Nat) : K))

/-- hplot/ticks.go:30-42 (`Ticks`). `i%ft.Freq` panics if `Freq` is 0, and is the remainder by the absolute value else. -/
def ticks (text : Option K → L) (n : Nat) (freq : Int) (lo hi : K) : Res K L :=
  if n ≠ 0 ∧ freq = 0 then .panic
  else .ticks ((List.range n).map fun i => (value lo hi n i, if i % freq.natAbs = 0 then some (text (value lo hi n i)) else none))

end

end Verif.Hplot.FreqTicks
