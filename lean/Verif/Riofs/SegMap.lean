/-!
# Model of the map of the segments of a file (groot/riofs/file.go, C187)

Positions are integers. What is read at a position is a parameter; of a record only its first four bytes matter for the walk, the
class, the date and the compression that are printed are left out.
-/

namespace Verif.Riofs.SegMap

/-- What a read at a position gives: nothing, fewer than four bytes, or the first number of a record. -/
inductive Read where
  | fail
  | short
  | val (n : Int)
deriving DecidableEq

/-- A line of the map: its position, and the number of bytes. -/
inductive Item where
  | err (at' n : Int)
  | gap (at' n : Int)
  | key (at' n : Int)
  | fin (at' : Int)
deriving DecidableEq

/-- groot/riofs/file.go:909 (`idcur`): the negation of a number of 32 bits; the smallest one is its own. -/
def neg32 (n : Int) : Int := if n = -2147483648 then n else -n

/-- The lines before those of the rest of a walk. -/
def before (i : Item) : Option (List Item × Bool) → Option (List Item × Bool)
  | none => none
  | some r => some (i :: r.1, r.2)

/-- groot/riofs/file.go:868-952 (`idcur`): the loop, with the lines it prints and whether there is no error; none if it has not ended
after that many turns. -/
def walk (hdr : Int → Read) (end' : Int) : Nat → Int → Option (List Item × Bool)
  | 0, _ => none
  | fuel + 1, pos =>
    if end' ≤ pos then some ([.fin pos], true)
    else match hdr pos with
      | .fail => some ([], false)
      | .short => some ([.err pos 0], false)
      | .val n =>
        if n = 0 then some ([.err pos 0], false)
        else if n < 0 then before (.gap pos n) (walk hdr end' fuel (pos + neg32 n))
        else before (.key pos n) (walk hdr end' fuel (pos + n))

/-- groot/riofs/file.go:654-656 (`min`): what `markFree` writes at the beginning of a free segment -/
def gapHeader (free : Int) : Int := -(min free 2000000000)

end Verif.Riofs.SegMap
