/-!
# NumPy arrays as records: groot/rnpy/arrow.go

A NumPy file holds the elements of an array of some shape, with the last index running fastest (the order of C), or the first one
(the order of Fortran). `NewRecord` makes of it a column of an Arrow record, which npy2root writes as the branch of a tree.
Simplified: elements are of one arbitrary type `V` (the switches over the eleven types are the same for all). Reading the
elements from the file gives them in the order of the file; this is the package npyio. The channel between the two goroutines is
the list of the elements not yet taken. The Arrow builder of a list of fixed size is the list of what was appended; lists of
no elements (an Arrow type cannot be made of them) are allowed here. Panics are `none`. -/

namespace Verif.Rnpy

/-- The type of a column: elements, or lists of fixed size. -/
inductive DT
  | elem
  | list (n : Nat) (dt : DT)

/-- A value of a column. -/
inductive Val (V : Type)
  | elem (v : V)
  | list (l : List (Val V))

variable {V : Type}

/-- The shape as it is used: reversed for the order of Fortran, by exchanging (groot/rnpy/arrow.go:58-66, 204-212). -/
def shapeOf (fortran : Bool) (shape : List Nat) : List Nat := if fortran then shape.reverse else shape

/-- The loop over the dimensions but the first, from the last one (groot/rnpy/arrow.go:224-226). -/
def nest (shape : List Nat) : DT :=
  (List.range (shape.length - 1)).foldl (fun dt i => .list (shape.getD (shape.length - 1 - i) 0) dt) .elem

/-- The type of the column (groot/rnpy/arrow.go:154-234); at most five dimensions. -/
def schemaFrom (shape : List Nat) : Option DT :=
  if shape.length = 1 then some .elem
  else if shape.length = 2 then some (.list (shape.getD 1 0) .elem)
  else if 3 ≤ shape.length ∧ shape.length ≤ 5 then some (nest shape)
  else none

/-- Some reading repeated (groot/rnpy/arrow.go:147-149, 350-352). -/
def times (f : List V → Option (Val V × List V)) : Nat → List V → Option (List (Val V) × List V)
  | 0, ch => some ([], ch)
  | n + 1, ch => (f ch).bind fun r => (times f n r.2).map fun s => (r.1 :: s.1, s.2)

/-- `appendData` (groot/rnpy/arrow.go:309-356): one value of the column is taken from the channel. A channel with nothing left is
closed, and its nil value panics. -/
def appendData : DT → List V → Option (Val V × List V)
  | .elem, [] => none
  | .elem, v :: ch => some (.elem v, ch)
  | .list n dt, ch => (times (appendData dt) n ch).map fun r => (.list r.1, r.2)

/-- The product of the dimensions (groot/rnpy/arrow.go:77-80). -/
def nelem (shape : List Nat) : Nat := shape.foldl (· * ·) 1

/-- `NewRecord` (groot/rnpy/arrow.go:51-88, 129-152): the rows of the record, `none` when it panics. `file` are the elements in the
file; reading fewer than asked for is an error, which panics. -/
def newRecord (fortran : Bool) (shape : List Nat) (file : List V) : Option (List (Val V)) :=
  let s := shapeOf fortran shape
  match schemaFrom s with
  | none => none
  | some dt =>
    if file.length < nelem s then none
    else (times (appendData dt) (s.getD 0 0) (file.take (nelem s))).map Prod.fst

end Verif.Rnpy
