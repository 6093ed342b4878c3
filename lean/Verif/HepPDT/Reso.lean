import Mathlib.Algebra.Order.Field.Basic

/-!
# Model of widths and lifetimes (heppdt/resonance.go, C193)

In exact arithmetic over an ordered field.
-/

namespace Verif.HepPDT.Reso

/-- A value and its error (heppdt/measurement.go:7-11, `Measurement`). -/
structure Meas (K : Type) where
  value : K
  sigma : K
deriving DecidableEq

section
variable {K : Type} [Field K] [LinearOrder K]

/-- heppdt/resonance.go:19 and 29 (`hbar`) -/
def hbar : K := 658211889 / (10 ^ 33)

/-- heppdt/resonance.go:28 (`epsilon`) -/
def epsilon : K := 1 / 10 ^ 20

/-- heppdt/resonance.go:17-24 (`Lifetime`), of the width -/
def lifetime (w : Meas K) : Meas K := ⟨hbar / w.value, hbar / w.value * w.sigma / w.value⟩

/-- heppdt/resonance.go:26-49 (`SetTotalWidthFromLifetime`): the width before, the lifetime given, the width after -/
def setWidth (w lt : Meas K) : Meas K :=
  if lt.value < epsilon then w
  else ⟨hbar / lt.value, if lt.sigma < epsilon then 0 else lt.sigma / lt.value * (hbar / lt.value)⟩

end

end Verif.HepPDT.Reso
