import Mathlib.Algebra.Ring.Defs

/-!
# Model of the fit of a polynomial (fit/poly.go, C186)

The numbers are of a ring: arithmetic is exact. The decomposition and the solution of gonum are a parameter; a panic is `none`.
-/

namespace Verif.Fit.Poly

variable {K : Type} [CommRing K]

/-- fit/poly.go:41-43 (`Set`): a row of the matrix, the loop over `j` and `p` -/
def powers (a : K) : Nat → K → List K
  | 0, _ => []
  | d + 1, p => p :: powers a d (p * a)

/-- fit/poly.go:38-46 (`vandermonde`) -/
def vandermonde (xs : List K) (d : Nat) : List (List K) := xs.map fun a => powers a d 1

/-- fit/poly.go:17-36 (`Poly`): `solve` is the decomposition of the matrix and the solution of the system; gonum panics if there are
no points, fewer points than coefficients, or if the numbers of `xs` and `ys` differ. -/
def poly (solve : List (List K) → List K → Option (List K)) (xs ys : List K) (degree : Nat) : Option (Option (List K)) :=
  if ys.length = 0 ∨ xs.length < degree + 1 ∨ xs.length ≠ ys.length then none
  else some ((solve (vandermonde xs (degree + 1)) ys).map List.reverse)

end Verif.Fit.Poly
