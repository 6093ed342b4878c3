import Verif.RBytes.PackModel
import Verif.Common.Words
import Verif.Common.Strconv

/-!
# Ranges in the titles of members

Model of how the title (the comment in the C++ source) of a `Float16_t` or `Double32_t` member gives
the range and the number of bits.  Numbers are those of an ordered field, `strconv.ParseFloat` and
pi are parameters; not-a-number is not among them.
-/

namespace Verif.Rdict.Range

open Verif.Text Verif.Strconv

/-- What is before and behind the last occurrence of a character: `strings.LastIndex`. -/
def cutLast (x : Char) : List Char → Option (List Char × List Char)
  | [] => none
  | c :: s =>
    match cutLast x s with
    | some r => some (c :: r.1, r.2)
    | none => if c = x then some ([], s) else none

/-- `strings.ToLower`, for ASCII. -/
def lower (s : List Char) : List Char := s.map Char.toLower

/-- `strings.Contains`. -/
def has (sub : List Char) : List Char → Bool
  | [] => sub.isEmpty
  | c :: s => sub.isPrefixOf (c :: s) || has sub s

section

variable {K : Type} [Field K] [LinearOrder K]

/-- groot/rdict/rdict.go:414-437 (`fct`): the value of an end of the range. -/
def endOf (pf : List Char → Option K) (pi : K) (s : List Char) : Option K :=
  if has ['p', 'i'] s then
    let f := if has ['2', 'p', 'i'] s || has ['2', '*', 'p', 'i'] s ||
          has ['t', 'w', 'o', 'p', 'i'] s then 2 * pi
      else if has ['p', 'i', '/', '2'] s then pi / 2
      else if has ['p', 'i', '/', '4'] s then pi / 4
      else pi
    some (if '-' ∈ s then -f else f)
  else pf s

/-- groot/rdict/rdict.go:402-412 (`nbits`). -/
def bitsOf (s : List Char) : Option Nat :=
  match parseUint 32 s with
  | none => none
  | some n => if n < 2 ∨ 32 < n then none else some n

/-- groot/rdict/rdict.go:444-457 (`bigint`). -/
def rangeOf (xmin xmax : K) (nbits : Nat) : Verif.RBytes.Pack.Range K :=
  let bigint : Nat := if nbits < 32 then 2 ^ nbits else 0xffffffff
  let factor := if xmin < xmax then (bigint : K) / (xmax - xmin) else 0
  ⟨if xmax ≤ xmin ∧ nbits < 15 then (nbits : K) + 1 / 10 else xmin, xmax, factor⟩

/-- groot/rdict/rdict.go:387-457 (`toks`): what is in the brackets; `none` is a panic. -/
def specOf (pf : List Char → Option K) (pi : K) (s : List Char) : Option (Verif.RBytes.Pack.Range K) :=
  if ',' ∈ s then
    match (splitC ',' s).map fun t => lower (trimSpace t) with
    | [a, b] => do rangeOf (← endOf pf pi a) (← endOf pf pi b) 32
    | [a, b, c] => do
      let n ← bitsOf c
      rangeOf (← endOf pf pi a) (← endOf pf pi b) n
    | _ => none
  else some ⟨0, 0, 0⟩

/-- Whether the bracket behind `before` counts: groot/rdict/rdict.go:374-381 (`slash`). -/
def bracketOK (before : List Char) : Bool :=
  match before with
  | [] => true
  | _ =>
    match cutLast '/' before with
    | some (_, [_]) => true
    | _ => false

/-- groot/rdict/rdict.go:366-458 (`getRange`).  A closing bracket only before the opening one is
a slice out of its bounds. -/
def getRange (pf : List Char → Option K) (pi : K) (s : List Char) : Option (Verif.RBytes.Pack.Range K) :=
  match cutLast '[' s with
  | none => some ⟨0, 0, 0⟩
  | some (before, after) =>
    if bracketOK before then
      match cutLast ']' after with
      | some (inner, _) => specOf pf pi inner
      | none => if ']' ∈ before then none else some ⟨0, 0, 0⟩
    else some ⟨0, 0, 0⟩

end

end Verif.Rdict.Range
