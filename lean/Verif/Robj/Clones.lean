import Verif.Common.Strconv
import Verif.Common.Words

/-!
# Model of arrays of clones (groot/rcont/clonesarray.go, C176)

Simplified: what is written is a list of values, whose bytes are modelled elsewhere; the header, with the length, is one of
them. Elements are of a type `O`; how they are written and read is a parameter.
-/

namespace Verif.Robj.Clones

open Verif.Text Verif.Strconv

/-- The values in the buffer. -/
inductive Tok (E : Type) where
  | hdr (vers : Nat)
  /-- TObject, of whose bits only two are of interest -/
  | obj (bypass cannot : Bool)
  | str (s : List Char)
  | i32 (n : Int)
  | i8 (n : Int)
  | elem (e : E)

/-- groot/rcont/clonesarray.go:20-23 (`ClonesArray`), with groot/rcont/objarray.go:15-23. -/
structure Arr (O : Type) where
  bypass : Bool
  cannot : Bool
  name : List Char
  cls : List Char
  low : Int
  objs : List (Option O)
  last : Int

/-- groot/rcont/clonesarray.go:25-32 (`NewClonesArray`) -/
def newArr {O : Type} : Arr O := ⟨false, true, [], [], 0, [], -1⟩

/-- groot/rcont/clonesarray.go:74-79 (`SetElems`); `none`: panic. `clsOf` gives the class of an object; that of a nil object
panics. -/
def setElems {O : Type} (clsOf : O → List Char) (a : Arr O) (v : List (Option O)) : Option (Arr O) :=
  if a.cls = [] then
    match v with
    | some o :: _ => some { a with cls := clsOf o, objs := v, last := (v.length : Int) - 1 }
    | _ => none
  else some { a with objs := v, last := (v.length : Int) - 1 }

/-- How elements and streamers are: `enc` writes an element, or fails; `dec` reads one of a class; `latest` is the version of the
streamer of a class for the writer; `knows` tells whether the reader has a streamer. -/
structure Ctx (O E : Type) where
  clsOf : O → List Char
  enc : O → Option E
  dec : List Char → E → Option O
  latest : List Char → Option Int
  knows : List Char → Int → Bool

inductive Out (α : Type) where
  | ok (a : α)
  | err
  | panic

/-- groot/rcont/clonesarray.go:132-143 (`WriteI8`): the elements. -/
def encElems {O E : Type} (c : Ctx O E) : List (Option O) → Option (List (Tok E))
  | [] => some []
  | none :: os => (encElems c os).map (.i8 0 :: ·)
  | some o :: os => (c.enc o).bind fun e => (encElems c os).map fun t => .i8 1 :: .elem e :: t

/-- groot/rcont/clonesarray.go:107-110 (`CannotHandleMemberWiseStreaming`): the bit that is written. -/
def bypassBit {O : Type} (a : Arr O) : Bool := if a.cannot then false else a.bypass

/-- groot/rcont/clonesarray.go:100-151 (`MarshalROOT`): what is written, and the array afterwards. -/
def marshal {O E : Type} (c : Ctx O E) (a : Arr O) : Out (List (Tok E)) × Arr O :=
  match c.latest a.cls with
  | none => (.err, { a with bypass := bypassBit a })
  | some v =>
    if bypassBit a then (.panic, a)
    else
      match encElems c a.objs with
      | none => (.err, { a with bypass := bypassBit a })
      | some t =>
        (.ok (.hdr 4 :: .obj (bypassBit a) a.cannot :: .str a.name :: .str (a.cls ++ ';' :: formatInt v) ::
          .i32 a.objs.length :: .i32 a.low :: t), a)

/-- The next value, if it is an element, groot/rcont/clonesarray.go:207 (`ReadObject`). -/
def takeElem {E : Type} : List (Tok E) → Option (E × List (Tok E))
  | .elem e :: t => some (e, t)
  | _ => none

/-- The next value, if it is a byte, groot/rcont/clonesarray.go:204 (`ReadI8`). -/
def takeI8 {E : Type} : List (Tok E) → Option (Int × List (Tok E))
  | .i8 k :: t => some (k, t)
  | _ => none

/-- groot/rcont/clonesarray.go:203-213 (`ReadI8`): the elements. -/
def decElems {O E : Type} (c : Ctx O E) (cls : List Char) : Nat → List (Tok E) → Option (List (Option O) × List (Tok E))
  | 0, t => some ([], t)
  | n + 1, t =>
    (takeI8 t).bind fun p =>
      if p.1 = 0 then (decElems c cls n p.2).map fun r => (none :: r.1, r.2)
      else
        (takeElem p.2).bind fun q =>
          (c.dec cls q.1).bind fun o => (decElems c cls n q.2).map fun r => (some o :: r.1, r.2)

/-- groot/rcont/clonesarray.go:178-217 (`nobjs`), after the class and its version. -/
def unmarshalTail {O E : Type} (c : Ctx O E) (a : Arr O) (vers : Int) : List (Tok E) → Out (Arr O × List (Tok E))
  | .i32 n :: .i32 low :: t =>
    if c.knows a.cls vers = false then .err
    else if a.bypass && !a.cannot then .panic
    else
      match decElems c a.cls n.natAbs t with
      | none => .err
      | some (os, t') => .ok ({ a with low := low, objs := os, last := (n.natAbs : Int) - 1 }, t')
  | _ => .err

/-- groot/rcont/clonesarray.go:167-176 (`Split`): the class and its version. -/
def unmarshalClass {O E : Type} (c : Ctx O E) (a : Arr O) (s : List Char) (t : List (Tok E)) : Out (Arr O × List (Tok E)) :=
  match splitC ';' s with
  | cls :: vers :: _ =>
    match parseInt 64 vers with
    | none => .err
    | some v => unmarshalTail c { a with cls := cls } v t
  | _ => .panic

/-- groot/rcont/clonesarray.go:155-218 (`UnmarshalROOT`), for buffers of version 4. -/
def unmarshal {O E : Type} (c : Ctx O E) : List (Tok E) → Out (Arr O × List (Tok E))
  | .hdr _ :: .obj b k :: .str name :: .str s :: t => unmarshalClass c { (newArr : Arr O) with bypass := b, cannot := k, name := name } s t
  | _ => .err

end Verif.Robj.Clones
