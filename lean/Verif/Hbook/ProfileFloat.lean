import Verif.Hbook.ProfileProps
import Mathlib.Data.Rat.Floor
import Mathlib.Algebra.Order.Floor.Defs

/-!
# Profiles in floating point arithmetic (C88)

IEEE 754 binary64 numbers, rounding to nearest with ties to even, without the limits on the
exponent: the numbers used below are far from them.
-/

namespace Verif.Hbook.Prof
open Verif.Hbook Verif.Hbook.Brio

/-- A floating point number: `none` is NaN. -/
structure B64 where
  q : Option ℚ
deriving DecidableEq

namespace B64

/-- The power of two. -/
def pow2 (s : Int) : ℚ := if 0 ≤ s then 2 ^ s.toNat else 1 / 2 ^ (-s).toNat

/-- To the nearest whole number, ties to even. -/
def nearest (r : ℚ) : Int :=
  let f := r.floor
  let d := r - f
  if d < 1 / 2 then f else if 1 / 2 < d then f + 1 else if f % 2 = 0 then f else f + 1

/-- Rounding to 53 bits. -/
def round (q : ℚ) : ℚ :=
  if q = 0 then 0
  else
    let a := |q|
    let e : Int := (Nat.log2 a.num.natAbs : Int) - Nat.log2 a.den
    let s := if a * pow2 (52 - e) < 2 ^ 52 then 53 - e else 52 - e
    let m := (nearest (a * pow2 s) : ℚ) / pow2 s
    if q < 0 then -m else m

/-- An operation: exact, then rounded. -/
def op (f : ℚ → ℚ → ℚ) (x y : B64) : B64 :=
  match x.q, y.q with
  | some a, some b => ⟨some (round (f a b))⟩
  | _, _ => ⟨none⟩

instance : Zero B64 := ⟨⟨some 0⟩⟩
instance : One B64 := ⟨⟨some 1⟩⟩
instance : Add B64 := ⟨op (· + ·)⟩
instance : Sub B64 := ⟨op (· - ·)⟩
instance : Mul B64 := ⟨op (· * ·)⟩
/-- Divisions by zero are not used below. -/
instance : Div B64 := ⟨op (· / ·)⟩
instance : Neg B64 := ⟨fun x => ⟨x.q.map (- ·)⟩⟩
instance : NatCast B64 := ⟨fun n => ⟨some (round n)⟩⟩
instance : GoFloat B64 ℚ := ⟨fun x => x.q⟩

/-- `int(x)` on amd64: truncation, NaN giving the smallest number. -/
def toInt (x : B64) : Int :=
  match x.q with
  | none => -2 ^ 63
  | some a => if a < 0 then -(-a).floor else a.floor

/-- Square roots and the constants are not used below. -/
def env : Env B64 := { sqrt := id, toInt := toInt, nan := ⟨none⟩, half := ⟨some (1 / 2)⟩, tol := 0, tiny := 0 }

end B64

/-- The largest floating point number below 1. -/
def belowOne : B64 := ⟨some (1 - 1 / 2 ^ 53)⟩

/-- `NewP1D(10, -1, 1)` -/
def tenBins : Option (BinningP1D B64) := newBinningP1D 10 ⟨some (-1)⟩ ⟨some 1⟩

/-- **C88 fails** for floating point numbers: `NewP1D(10, -1, 1)` books a profile, and filling it
at the largest number below 1, which is a floating point number within the last bin, panics,
because the subtraction of the lower limit rounds up; so does a fill at NaN. -/
theorem C88_last_value_counterexample :
    B64.round (1 - 1 / 2 ^ 53) = 1 - 1 / 2 ^ 53 ∧
    (tenBins.bind fun b => b.bins.getLast?.map fun p =>
      fle p.xrange.lo belowOne && flt belowOne p.xrange.hi) = some true ∧
    (tenBins.map fun b => (fill B64.env b belowOne 1 1).isNone) = some true ∧
    (tenBins.map fun b => (fill B64.env b ⟨none⟩ 1 1).isNone) = some true ∧
    (tenBins.map fun b => (fill B64.env b ⟨some (1 / 2)⟩ 1 1).isSome) = some true := by
  decide +kernel

end Verif.Hbook.Prof
