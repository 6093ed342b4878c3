/-!
# Model of the free-segment list of a ROOT file (`groot/riofs/blocks.go`)

`int64` offsets are modelled as unbounded integers (file offsets are far from the
limits of `int64`).
-/

namespace Verif.FreeList

/-- groot/riofs/blocks.go:17-20 (`freeSegment`): first and last free byte. -/
structure Seg where
  first : Int
  last : Int
deriving DecidableEq, Repr

/-- groot/riofs/blocks.go:26-28 (`free`). -/
def Seg.free (s : Seg) : Int := s.last - s.first + 1

/-- groot/riofs/blocks.go:112-122 (`Less`): lexicographic order. -/
def Seg.less (a b : Seg) : Bool :=
  if a.first < b.first then true
  else if a.first = b.first then decide (a.last < b.last)
  else false

/-- `sort.Sort` with `Less` (Go standard library): an ordering of the elements in
which no later element is `Less` than an earlier one. Elements equal for `Less`
are identical, so the result is unique and insertion sort gives it. -/
def insertSeg (s : Seg) : List Seg → List Seg
  | [] => [s]
  | c :: rest => if s.less c then s :: c :: rest else c :: insertSeg s rest

/-- See `insertSeg`. -/
def sortSegs (l : List Seg) : List Seg := l.foldl (fun acc s => insertSeg s acc) []

/-- groot/riofs/blocks.go:147-159 (`consolidate`). The loop runs from the last
element down to index 1 and compares each element with its predecessor; here the
tail has been processed when the head is looked at. `remove`
(groot/riofs/blocks.go:161-164) deletes the current element. -/
def consolidate : List Seg → List Seg
  | [] => []
  | prev :: rest =>
    match consolidate rest with
    | [] => [prev]
    | cur :: tail =>
      if prev.last + 1 < cur.first then prev :: cur :: tail
      else { prev with last := if cur.last ≥ prev.last then cur.last else prev.last } :: tail

/-- groot/riofs/blocks.go:132-145 (`find`). -/
def find (elmt : Seg) : List Seg → Option Seg
  | [] => none
  | cur :: rest =>
    if elmt.last < cur.first ∨ cur.last < elmt.first then find elmt rest
    else if cur.first ≤ elmt.first ∧ elmt.first ≤ cur.last ∧ elmt.last ≤ cur.last then some cur
    else find elmt rest

/-- groot/riofs/blocks.go:124-130 (`add`): the new list and the returned segment. -/
def add (first last : Int) (fl : List Seg) : List Seg × Option Seg :=
  let fl' := consolidate (sortSegs (fl ++ [⟨first, last⟩]))
  (fl', find ⟨first, last⟩ fl')

/-- Loop of groot/riofs/blocks.go:174-183 (`best`): `cand` is the first segment
with room to spare met so far. `inl i`: exact match at index `i`; `inr c`: loop
ended with candidate `c`. -/
def bestLoop (nbytes : Int) : List Seg → Nat → Option Nat → Nat ⊕ Option Nat
  | [], _, cand => .inr cand
  | cur :: rest, i, cand =>
    if cur.free = nbytes then .inl i
    else if cur.free ≥ nbytes + 4 ∧ cand = none then bestLoop nbytes rest (i + 1) (some i)
    else bestLoop nbytes rest (i + 1) cand

/-- groot/riofs/blocks.go:167-193 (`best`): index of the selected segment and the
list afterwards (the last segment is extended when nothing fits). -/
def best (nbytes : Int) (fl : List Seg) : Option Nat × List Seg :=
  if fl.length = 0 then (none, fl)
  else match bestLoop nbytes fl 0 none with
    | .inl i => (some i, fl)
    | .inr (some i) => (some i, fl)
    | .inr none =>
      (some (fl.length - 1),
        fl.modify (fl.length - 1) (fun s => { s with last := s.last + 1000000000 }))

end Verif.FreeList
