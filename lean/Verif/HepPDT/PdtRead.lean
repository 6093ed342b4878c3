import Verif.HepPDT.Model
import Verif.Common.Strconv
import Verif.Common.Words

/-!
# Model of reading tables of particles (heppdt/parser.go, heppdt/pdt.go, C179)

Numbers are of a type `K`; how they are read from text, and the comparisons and conversions that are made of them, are
parameters. A charge is kept as the fraction that the code multiplies out.
-/

namespace Verif.HepPDT.Read

open Verif.Text Verif.Strconv

/-- What the parser does with numbers: heppdt/parser.go:82-98 (`ParseFloat`), heppdt/parser.go:108-126, heppdt/utils.go:7-15
(`calcWidthFromLifetime`). -/
structure Num (K : Type) where
  parse : List Char → Option K
  pos : K → Bool
  /-- equal to -1 -/
  unset : K → Bool
  ofLifetime : K → K
  zero : K

/-- heppdt/particle.go:12-26 (`Particle`); of the fields, those that are filled. -/
structure Particle (K : Type) where
  id : Int
  name : List Char
  /-- numerator and denominator -/
  charge : Int × Nat
  mass : K
  width : K
deriving DecidableEq

/-- The cutset of heppdt/parser.go:27. -/
def blank (c : Char) : Bool := c == ' ' || c == '\t' || c == '\r' || c == '\n'

/-- heppdt/parser.go:27 (`Trim`) -/
def trimB (s : List Char) : List Char := ((s.dropWhile blank).reverse.dropWhile blank).reverse

/-- heppdt/parser.go:37-46 (`toks`) -/
def tokens (s : List Char) : List (List Char) := ((splitC ' ' s).map trimB).filter fun t => !t.isEmpty

/-- heppdt/parser.go:72-81 (`charge`) -/
def chargeOf (id icharge : Int) : Int × Nat := if isQBall id then (icharge, 100) else (icharge, 3)

/-- heppdt/parser.go:107-126 (`totwidth`) -/
def widthOf {K : Type} (x : Num K) (totwidth lifetime : K) : K :=
  if x.pos totwidth then totwidth
  else if x.unset totwidth then totwidth
  else if x.pos lifetime then x.ofLifetime lifetime
  else x.zero

/-- heppdt/parser.go:47-135 (`tokens`): the particle of the six elements of a line. -/
def entry {K : Type} (x : Num K) : List (List Char) → Option (Particle K)
  | [a, name, c, d, e, f] =>
    (parseInt 64 a).bind fun id =>
      (parseInt 64 c).bind fun ch =>
        (x.parse d).bind fun mass =>
          (x.parse e).bind fun w => (x.parse f).bind fun lt => some ⟨id, name, chargeOf id ch, mass, widthOf x w lt⟩
  | _ => none

/-- heppdt/parser.go:31-36 -/
def isComment : List Char → Bool
  | '#' :: _ => true
  | '/' :: '/' :: _ => true
  | _ => false

inductive LineRes (K : Type) where
  | skip
  | bad
  | part (p : Particle K)

/-- heppdt/parser.go:26-135 (`bline`) -/
def parseLine {K : Type} (x : Num K) (line : List Char) : LineRes K :=
  if trimB line = [] then .skip
  else if isComment (trimB line) then .skip
  else
    match entry x (tokens (trimB line)) with
    | none => .bad
    | some p => .part p

/-- heppdt/pdt.go:15-19 (`Table`); `keys` are the keys of the first map. -/
structure Table (K : Type) where
  pdt : Int → Option (Particle K)
  pid : List Char → Option Int
  keys : List Int

/-- heppdt/pdt.go:23-27 -/
def empty {K : Type} : Table K := ⟨fun _ => none, fun _ => none, []⟩

/-- heppdt/parser.go:136-137 (`pdt`) -/
def put {K : Type} (t : Table K) (p : Particle K) : Table K :=
  ⟨fun i => if i = p.id then some p else t.pdt i, fun n => if n = p.name then some p.id else t.pid n,
    if p.id ∈ t.keys then t.keys else t.keys ++ [p.id]⟩

/-- heppdt/parser.go:16-145 (`parse`): the table, and whether there is an error. The lines are those that the scanner gives; the
last argument tells whether it stopped because of an error, which the code asks for only after a line has been read. -/
def parse {K : Type} (x : Num K) (t : Table K) : List (List Char) → Bool → Table K × Bool
  | [], _ => (t, false)
  | l :: ls, failed =>
    match parseLine x l with
    | .skip => parse x t ls failed
    | .bad => (t, true)
    | .part p => parse x (put t p) ls failed

/-- heppdt/pdt.go:22-30 (`New`) -/
def new {K : Type} (x : Num K) (ls : List (List Char)) (failed : Bool) : Table K × Bool := parse x empty ls failed

/-- heppdt/pdt.go:38-40 (`Len`) -/
def Table.len {K : Type} (t : Table K) : Nat := t.keys.length

/-- heppdt/pdt.go:48-54 (`ParticleByID`) -/
def Table.byID {K : Type} (t : Table K) (id : Int) : Option (Particle K) := t.pdt id

/-- heppdt/pdt.go:57-68 (`ParticleByName`) -/
def Table.byName {K : Type} (t : Table K) (n : List Char) : Option (Particle K) :=
  match t.pid n with
  | none => none
  | some id => t.pdt id

end Verif.HepPDT.Read
