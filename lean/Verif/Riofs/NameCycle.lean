import Verif.Common.Decimal

/-!
# Model of name;cycle parsing and of the directory operations Get and Put (C09, C11)
-/

namespace Verif.Riofs

/-- groot/riofs/utils.go:15-38 (`decodeNameCycle`): `none` is the panic. 59 is ';'. -/
def decodeNameCycle (s : List UInt8) : Option (List UInt8 × Int) :=
  match splitOn 59 s with
  | [name] => some (name, 9999)
  | [name, c] =>
    match atoi c with
    | none => some (name, 9999)
    | some i => some (name, Int.bmod i (2 ^ 16))
  | _ => none

/-- The part of groot/riofs/key.go:75-103 (`Key`) that directories look at; `obj` is
the object the key gives access to (in-memory object or payload on file). -/
structure DKey (Obj : Type) where
  name : List UInt8
  cycle : Int
  cls : List UInt8
  obj : Obj
deriving DecidableEq

/-- `sort.Slice(keys, cycle <)` followed by taking the last element
(groot/riofs/dir.go:388-393): a key of maximal cycle. For keys of equal cycle the Go
sort gives no guarantee; the model takes the last one. -/
def maxCycle {Obj : Type} : List (DKey Obj) → Option (DKey Obj)
  | [] => none
  | k :: ks =>
    match maxCycle ks with
    | none => some k
    | some m => if k.cycle > m.cycle then some k else some m

/-- The outcome of a lookup. -/
inductive GetResult (Obj : Type) where
  | found (obj : Obj)
  | noKey
  | panic
deriving DecidableEq

/-- groot/riofs/dir.go:362-408 (`Get`). -/
def get {Obj : Type} (keys : List (DKey Obj)) (namecycle : List UInt8) : GetResult Obj :=
  match decodeNameCycle namecycle with
  | none => .panic
  | some (name, cycle) =>
    if cycle ≠ 9999 then
      match keys.find? (fun k => decide (k.name = name ∧ k.cycle = cycle)) with
      | some k => .found k.obj
      | none => .noKey
    else
      match maxCycle (keys.filter (fun k => decide (k.name = name))) with
      | some k => .found k.obj
      | none => .noKey

/-- The scan over the keys of groot/riofs/dir.go:410-480 (`Put`): `none` on a class
mismatch, otherwise the highest cycle found (at least the initial value). -/
def scanCycle {Obj : Type} (name cls : List UInt8) : List (DKey Obj) → Int → Option Int
  | [], c => some c
  | k :: ks, c =>
    if k.name ≠ name then scanCycle name cls ks c
    else if k.cls ≠ cls then none
    else scanCycle name cls ks (if k.cycle > c then k.cycle else c)

/-- groot/riofs/dir.go:410-480 (`Put`): the new list of keys, `none` on error.
`objName` is the name carried by the object (`root.Named`), used when the given name
is empty. `keyCls` is `rdict.GoName2Cxx(obj.Class())`, `cls` is `obj.Class()`.
Streamer registration and errors of the underlying file are not modelled. 47 is '/'.
The cycle is an `int16`: incrementing wraps. -/
def put {Obj : Type} (keys : List (DKey Obj)) (name objName cls keyCls : List UInt8) (obj : Obj) :
    Option (List (DKey Obj)) :=
  if 47 ∈ name then none
  else
    let name := if name = [] then objName else name
    if name = [] then none
    else (scanCycle name cls keys 0).bind fun c =>
      some (keys ++ [{ name := name, cycle := Int.bmod (c + 1) (2 ^ 16), cls := keyCls, obj := obj }])

end Verif.Riofs
