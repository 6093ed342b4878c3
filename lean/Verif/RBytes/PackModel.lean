import Mathlib.Algebra.Order.Floor.Ring
import Mathlib.Algebra.Order.Field.Basic

/-!
# `Float16` and `Double32`

Model of how `groot/rbytes` writes and reads the compressed floating-point types of ROOT.  With a
range, a value becomes a 32-bit integer; this part is over any ordered field (exact arithmetic
instead of `float64`).  Without a range, a value is its 32 bits (IEEE 754 single precision), of which
the exponent and some bits of the mantissa are kept; this part is exact, over the bits.
-/

namespace Verif.RBytes.Pack

/-! ## With a range -/

section Range

variable {K : Type} [Field K] [LinearOrder K] [IsStrictOrderedRing K] [FloorRing K]

/-- What an element says of its range: groot/rbytes/rbytes.go:83-85 (`XMin`). -/
structure Range (K : Type) where
  xmin : K
  xmax : K
  factor : K

/-- groot/rbytes/wbuffer.go:369-377 (`min`), groot/rbytes/wbuffer.go:319-327 (`min`). -/
def clamp (r : Range K) (x : K) : K :=
  let y := if x < r.xmin then r.xmin else x
  if r.xmax < y then r.xmax else y

/-- The Go conversion of a floating-point number to `uint32`; out of its range the result depends
on the machine. -/
def toU32 (x : K) : Option Nat := if 0 ≤ x ∧ x < 2 ^ 32 then some ⌊x⌋₊ else none

/-- groot/rbytes/wbuffer.go:364-381 (`u32`), groot/rbytes/wbuffer.go:314-330 (`u32`). -/
def writeRange (r : Range K) (x : K) : Option Nat :=
  toU32 (1 / 2 + r.factor * (clamp r x - r.xmin))

/-- groot/rbytes/rbuffer.go:374-377 (`readWithFactorD32`), groot/rbytes/rbuffer.go:335-338
(`readWithFactorF16`). -/
def readRange (r : Range K) (u : Nat) : K := (u : K) / r.factor + r.xmin

end Range

/-! ## Without a range -/

/-- What is written: the exponent and 16 bits of sign and mantissa. -/
structure Packed where
  exp : Nat
  man : Nat
deriving DecidableEq, Repr

/-- The exponent: groot/rbytes/wbuffer.go:343-343 (`exp`), groot/rbytes/wbuffer.go:395-395 (`exp`). -/
def expOf (u : Nat) : Nat := (((u <<< 1) % 2 ^ 32) >>> 24) &&& 0xff

/-- The mantissa, rounded: groot/rbytes/wbuffer.go:344-346 (`man`), groot/rbytes/wbuffer.go:396-398
(`man`), with the types `uint32` and `uint16`. -/
def manOf (nbits u : Nat) : Nat :=
  (((((2 ^ (nbits + 1) - 1) &&& (u >>> (23 - nbits - 1))) % 2 ^ 16) + 1) % 2 ^ 16) >>> 1

/-- Whether the mantissa is taken to be too large: groot/rbytes/wbuffer.go:347-347 (`nbits`),
groot/rbytes/wbuffer.go:399-399 (`nbits`).  In Go the operators `&` and `<<` bind equally strongly,
from the left, so that this is `(man&1) << nbits`. -/
def tooLarge (nbits man : Nat) : Bool := ((man &&& 1) <<< nbits) % 2 ^ 16 != 0

/-- groot/rbytes/wbuffer.go:340-356 (`nbits`), groot/rbytes/wbuffer.go:392-408 (`nbits`).  `u` are
the bits of the value as a `float32`, `neg` tells whether the value is below zero. -/
def writeBits (nbits : Nat) (neg : Bool) (u : Nat) : Packed :=
  let man := manOf nbits u
  let man := if tooLarge nbits man then 2 ^ nbits - 1 else man
  let man := if neg then (man ||| 2 ^ (nbits + 1)) % 2 ^ 16 else man
  ⟨expOf u, man⟩

/-- groot/rbytes/rbuffer.go:340-355 (`readWithNbitsF16`), groot/rbytes/rbuffer.go:379-394
(`readWithNbitsD32`): the bits of the `float32` which is read; its sign bit, which is not set
before, is set when the bit before the mantissa is. -/
def readBits (nbits : Nat) (p : Packed) : Nat :=
  let val := (p.exp <<< 23) ||| ((p.man &&& (2 ^ (nbits + 1) - 1)) <<< (23 - nbits))
  if 2 ^ (nbits + 1) &&& p.man != 0 then val + 2 ^ 31 else val

end Verif.RBytes.Pack
