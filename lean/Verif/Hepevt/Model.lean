/-
Events in the HEPEVT text format (hepevt/hepevt.go, hepevt/ascii_io.go).

`fmt.Fprintf` and `fmt.Fscanf` belong to the standard library.  Simplification:
`Fscanf` is modelled on lines whose numbers are separated by spaces; what is left
of the input after an error is not modelled.  The notation of floating-point
numbers (`%E`) is a parameter.
-/
import Verif.Common.Strconv
import Verif.Common.Words

namespace Verif.Hepevt

open Verif.Text Verif.Strconv

/-- A pair of indices, `[2]int`. -/
abbrev Pair := BitVec 64 × BitVec 64

/-- `[5]float64` -/
abbrev V5 (F : Type) := F × F × F × F × F

/-- `[4]float64` -/
abbrev V4 (F : Type) := F × F × F × F

/-- hepevt/hepevt.go:13-22. -/
structure Event (F : Type) where
  nevhep : BitVec 64
  nhep : BitVec 64
  isthep : List (BitVec 64)
  idhep : List (BitVec 64)
  jmohep : List Pair
  jdahep : List Pair
  phep : List (V5 F)
  vhep : List (V4 F)

/-- The notation of numbers: `%E` of `fmt.Fprintf` and of `fmt.Fscanf`. -/
structure Notation (F : Type) where
  fmt : F → List Char
  parse : List Char → Option F

/-- `%d` of an `int`. -/
def fmtInt (x : BitVec 64) : List Char := formatInt x.toInt

/-- `%d` into an `int`. -/
def scanInt (s : List Char) : Option (BitVec 64) := (parseInt 64 s).map (BitVec.ofInt 64)

section
variable {F : Type} (no : Notation F)

/-- One particle, by the index: the values at the index in all the slices; none (a panic) when one of them is
too short. -/
structure Particle (F : Type) where
  ist : BitVec 64
  id : BitVec 64
  mo : Pair
  da : Pair
  p : V5 F
  v : V4 F

/-- The reads of hepevt/ascii_io.go:33-41. -/
def Event.at (e : Event F) (i : Nat) : Option (Particle F) :=
  match e.isthep[i]?, e.idhep[i]?, e.jmohep[i]?, e.jdahep[i]?, e.phep[i]?, e.vhep[i]? with
  | some a, some b, some c, some d, some p, some v => some ⟨a, b, c, d, p, v⟩
  | _, _, _, _, _, _ => none

/-- hepevt/ascii_io.go:30-42: one line; the indices are written one higher. -/
def particleLine (x : Particle F) : List Char :=
  joinC ' ' [fmtInt x.ist, fmtInt x.id,
    fmtInt (x.mo.1 + 1), fmtInt (x.mo.2 + 1), fmtInt (x.da.1 + 1), fmtInt (x.da.2 + 1),
    no.fmt x.p.1, no.fmt x.p.2.1, no.fmt x.p.2.2.1, no.fmt x.p.2.2.2.1, no.fmt x.p.2.2.2.2,
    no.fmt x.v.1, no.fmt x.v.2.1, no.fmt x.v.2.2.1, no.fmt x.v.2.2.2] ++ ['\n']

/-- The loop of hepevt/ascii_io.go:29-46, from an index on. -/
def encodeFrom (e : Event F) (i : Nat) : Nat → Option (List Char)
  | 0 => some []
  | n + 1 =>
    match e.at i with
    | none => none
    | some x => (encodeFrom e (i + 1) n).map (particleLine no x ++ ·)

/-- The number of turns of `for i := range n`. -/
def turns (n : BitVec 64) : Nat := n.toInt.toNat

/-- hepevt/ascii_io.go:23-48, `Encode`; none is a panic. -/
def encode (e : Event F) : Option (List Char) :=
  (encodeFrom no e 0 (turns e.nhep)).map
    (joinC ' ' [fmtInt e.nevhep, fmtInt e.nhep] ++ '\n' :: ·)

/-- Outcome of `Decode`. -/
inductive Out (α : Type)
  | ok (a : α) | err | panic

/-- The line at the beginning of the input, without its end, and the rest
(`fmt.Fscanf` with a format which ends with a newline: the newline or the end of the input is needed, and nothing
is read after it). -/
def line (s : List Char) : List Char × List Char :=
  (s.takeWhile (· ≠ '\n'), (s.dropWhile (· ≠ '\n')).drop 1)

/-- hepevt/ascii_io.go:62. -/
def scanHeader (s : List Char) : Option (BitVec 64 × BitVec 64) :=
  match words s with
  | [a, b] =>
    match scanInt a, scanInt b with
    | some a, some b => some (a, b)
    | _, _ => none
  | _ => none

/-- Four numbers. -/
def scan4 (a b c d : List Char) : Option (V4 F) :=
  match no.parse a, no.parse b, no.parse c, no.parse d with
  | some a, some b, some c, some d => some (a, b, c, d)
  | _, _, _, _ => none

/-- Two indices, lowered by one (hepevt/ascii_io.go:101-104). -/
def scanPair (a b : List Char) : Option Pair :=
  match scanInt a, scanInt b with
  | some a, some b => some (a - 1, b - 1)
  | _, _ => none

/-- hepevt/ascii_io.go:87-104: one line. -/
def scanParticle (s : List Char) : Option (Particle F) :=
  match words s with
  | [a, b, c1, c2, d1, d2, p1, p2, p3, p4, p5, v1, v2, v3, v4] =>
    match scanInt a, scanInt b, scanPair c1 c2, scanPair d1 d2, scan4 no p1 p2 p3 p4, no.parse p5,
      scan4 no v1 v2 v3 v4 with
    | some a, some b, some c, some d, some p, some m, some v =>
      some ⟨a, b, c, d, (p.1, p.2.1, p.2.2.1, p.2.2.2, m), v⟩
    | _, _, _, _, _, _, _ => none
  | _ => none

/-- `append(l, make([]T, n)...)` -/
def grow {α : Type} (l : List α) (n : Nat) (z : α) : List α := l ++ List.replicate n z

/-- `l[:n]`.  Simplification: the capacity of a slice is its length. -/
def upto {α : Type} (l : List α) (n : Nat) : Option (List α) := if n ≤ l.length then some (l.take n) else none

/-- hepevt/ascii_io.go:67-83: the slices get the length of the event.  Only the first one is looked at. -/
def resize (zero : F) (e : Event F) : Option (Event F) :=
  if (e.isthep.length : Int) > e.nhep.toInt then
    if e.nhep.toInt < 0 then none
    else
      let n := e.nhep.toInt.toNat
      match upto e.isthep n, upto e.idhep n, upto e.jmohep n, upto e.jdahep n, upto e.phep n, upto e.vhep n with
      | some a, some b, some c, some d, some p, some v => some ⟨e.nevhep, e.nhep, a, b, c, d, p, v⟩
      | _, _, _, _, _, _ => none
  else
    let sz := e.nhep.toInt.toNat - e.isthep.length
    some ⟨e.nevhep, e.nhep, grow e.isthep sz 0, grow e.idhep sz 0, grow e.jmohep sz (0, 0),
      grow e.jdahep sz (0, 0), grow e.phep sz (zero, zero, zero, zero, zero), grow e.vhep sz (zero, zero, zero, zero)⟩

/-- The writes of hepevt/ascii_io.go:90-104, at an index all slices have. -/
def Event.put (e : Event F) (i : Nat) (x : Particle F) : Option (Event F) :=
  if i < e.isthep.length ∧ i < e.idhep.length ∧ i < e.jmohep.length ∧ i < e.jdahep.length ∧ i < e.phep.length ∧
      i < e.vhep.length then
    some { e with
      isthep := e.isthep.set i x.ist, idhep := e.idhep.set i x.id, jmohep := e.jmohep.set i x.mo
      jdahep := e.jdahep.set i x.da, phep := e.phep.set i x.p, vhep := e.vhep.set i x.v }
  else none

/-- The loop of hepevt/ascii_io.go:85-105, from an index on.  A slice which is too short panics when the
addresses of its elements are taken, before the line is read. -/
def decodeFrom (e : Event F) (s : List Char) (i : Nat) : Nat → Out (Event F × List Char)
  | 0 => .ok (e, s)
  | n + 1 =>
    match e.at i with
    | none => .panic
    | some _ =>
      match scanParticle no (line s).1 with
      | none => .err
      | some x =>
        match e.put i x with
        | none => .panic
        | some e' => decodeFrom e' (line s).2 (i + 1) n

/-- hepevt/ascii_io.go:61-107, `Decode` into an event; the event and the rest of the input. -/
def decode (zero : F) (e : Event F) (s : List Char) : Out (Event F × List Char) :=
  match scanHeader (line s).1 with
  | none => .err
  | some (a, b) =>
    match resize zero { e with nevhep := a, nhep := b } with
    | none => .panic
    | some e' => decodeFrom no e' (line s).2 0 (turns b)

end

end Verif.Hepevt
