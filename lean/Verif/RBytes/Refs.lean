import Verif.RBytes.Lemmas

/-!
# Objects pointing to objects in a ROOT buffer

`WBuffer.WriteObjectAny` and `RBuffer.ReadObjectAny`: an object seen for the first
time is written in full, with the name of its class the first time the class is
seen; an object seen before is written as the position it was written at. The
reader rebuilds the pointers from a map from positions to what was found there.
-/

namespace Verif.RBytes.Refs

/-- The content of an object, as the sequence of calls its `MarshalROOT` makes:
plain data, pointers to other objects (`none` is nil) written with
`WriteObjectAny`, and blocks between `WriteHeader` and `SetHeader` (the object
itself and its base classes). Objects are named by numbers. -/
inductive Parts where
  | nil
  | data (bs : List UInt8) (rest : Parts)
  | ref (o : Option Nat) (rest : Parts)
  | block (vers : BitVec 16) (inner rest : Parts)
deriving DecidableEq, Repr

/-- The same content, without the identity of the objects pointed to. -/
def Parts.erase : Parts → Parts
  | .nil => .nil
  | .data bs rest => .data bs rest.erase
  | .ref o rest => .ref (o.map fun _ => 0) rest.erase
  | .block v inner rest => .block v inner.erase rest.erase

/-- An object: what `Class()` answers, and its content. -/
structure Node where
  cls : List UInt8
  parts : Parts
deriving DecidableEq, Repr

/-! ## Writer -/

/-- groot/rbytes/wbuffer.go:62-69 (`WBuffer`, `refs`). The map `refs` has objects and
class names as keys: `objs` and `classes` here. -/
structure WS where
  w : WBuf
  objs : List (Nat × Nat)
  classes : List (List UInt8 × Nat)

/-- `uint32(bcnt | kByteCountMask)`, in groot/rbytes/wbuffer.go:199-241 (`WriteClass`). -/
def cnt (n : Nat) : Nat := (n ||| 2 ^ 30) % 2 ^ 32

/-- The calls of a `MarshalROOT` method, one after the other; `rec` is
`WriteObjectAny`. Plain data stands for any of the primitive writers: the buffer
grows by the number of bytes, which are stored there (groot/rbytes/wbuffer_gen.go:87-97,
`WriteU32`, and the like). -/
def writeParts (rec : Option Nat → WS → Option WS) : Parts → WS → Option WS
  | .nil, s => some s
  | .data bs rest, s =>
    ((s.w.grow bs.length).put bs).bind fun w => writeParts rec rest { s with w := w }
  | .ref o rest, s => (rec o s).bind fun s => writeParts rec rest s
  | .block vers inner rest, s =>
    (s.w.writeHeader vers).bind fun q =>
    (writeParts rec inner { s with w := q.2 }).bind fun s =>
    (s.w.setHeader q.1).bind fun w => writeParts rec rest { s with w := w }

/-- groot/rbytes/wbuffer.go:199-241 (`WBuffer.WriteClass`). Returns the byte count.
Simplification: `MarshalROOT` returns no error of its own. -/
def writeClass (rec : Option Nat → WS → Option WS) (G : Nat → Node) (beg i : Nat) (s : WS) :
    Option (Nat × WS) :=
  if s.w.err then some (0, s)
  else
    let start := s.w.pos
    match s.objs.lookup i with
    | some ref =>
      (s.w.writeBE 4 ref).bind fun w => some (cnt (w.pos - start), { s with w := w })
    | none =>
      match s.classes.lookup (G i).cls with
      | none =>
        (s.w.writeBE 4 (2 ^ 32 - 1)).bind fun w =>
        (w.writeCString (G i).cls).bind fun w =>
        (writeParts rec (G i).parts
          { w := w, classes := ((G i).cls, (start + 2) ||| 2 ^ 31) :: s.classes,
            objs := (i, beg + 2) :: s.objs }).bind fun s =>
        some (cnt (s.w.pos - start), s)
      | some ref =>
        (s.w.writeBE 4 (ref ||| 2 ^ 31)).bind fun w =>
        (writeParts rec (G i).parts { s with w := w }).bind fun s =>
        some (cnt (s.w.pos - start), { s with objs := (i, beg + 2) :: s.objs })

/-- groot/rbytes/wbuffer.go:176-197 (`WBuffer.WriteObjectAny`). The first argument
bounds the depth of the recursion; `none` when it is exceeded, which for every
bound means that the Go program recurses for ever. -/
def writeAny (G : Nat → Node) : Nat → Option Nat → WS → Option WS
  | 0, _, _ => none
  | fuel + 1, o, s =>
    if s.w.err then some s
    else
      match o with
      | none => (s.w.writeBE 4 0).bind fun w => some { s with w := w }
      | some i =>
        let pos := s.w.pos
        (s.w.writeBE 4 0).bind fun w =>
        (writeClass (writeAny G fuel) G pos i { s with w := w }).bind fun q =>
        if q.2.w.err then some q.2
        else
          let end_ := q.2.w.pos
          ((q.2.w.setPos pos).put (beEnc 4 q.1)).bind fun w =>
          some { q.2 with w := w.setPos end_ }

/-- Several objects, one after the other, as in the loop of
groot/rcont/objarray.go:83-100 (`ObjArray.MarshalROOT`). -/
def writeAll (G : Nat → Node) (fuel : Nat) : List (Option Nat) → WS → Option WS
  | [], s => some s
  | o :: os, s => (writeAny G fuel o s).bind fun s => writeAll G fuel os s

/-! ## Reader -/

/-- What `UnmarshalROOT` of a class reads: data of a given length, which decides
what comes next, pointers, and blocks between `ReadHeader` (with the given
maximum version, negative for none) and `CheckHeader`. What comes next may depend
on a pointer being nil, on the version of a block, and on what the block contains;
not on which object a pointer points to. `fail` is a panic, or a method that gives
up with an error of its own. -/
inductive Dec where
  | done
  | fail
  | data (n : Nat) (k : List UInt8 → Dec)
  | ref (k : Bool → Dec)
  | block (vmax : Int) (inner : BitVec 16 → Dec) (k : BitVec 16 → Parts → Dec)

/-- Values of the map `refs` of the reader: a factory of a class, or an object. -/
inductive Ent where
  | cls (c : List UInt8)
  | obj (id : Nat)
deriving DecidableEq, Repr

/-- groot/rbytes/rbuffer.go:59-65 (`RBuffer`). `heap` are the objects made so far;
the number of an object is its index. -/
structure RS where
  r : RBuf
  refs : List (Nat × Ent)
  heap : List Node

/-- Assignment to a map. -/
def put (refs : List (Nat × Ent)) (k : Nat) (v : Ent) : List (Nat × Ent) :=
  (k, v) :: refs.filter (fun q => q.1 != k)

/-- The calls of an `UnmarshalROOT` method; `rec` is `ReadObjectAny`. -/
def readDec (rec : RS → Option (Option Nat × RS)) : Dec → RS → Option (Parts × RS)
  | .done, s => some (.nil, s)
  | .fail, _ => none
  | .data n k, s =>
    (s.r.slice s.r.c n).bind fun bs =>
    (readDec rec (k bs) { s with r := { s.r with c := s.r.c + n } }).bind fun q =>
    some (.data bs q.1, q.2)
  | .ref k, s =>
    (rec s).bind fun o => (readDec rec (k o.1.isSome) o.2).bind fun q => some (.ref o.1 q.1, q.2)
  | .block vmax inner k, s =>
    (s.r.readHeader vmax).bind fun h =>
    (readDec rec (inner h.1.vers) { s with r := h.2 }).bind fun q =>
    (readDec rec (k h.1.vers q.1.erase) { q.2 with r := q.2.r.checkHeader h.1 }).bind fun t =>
    some (.block h.1.vers q.1 t.1, t.2)

/-- groot/rbytes/rbuffer.go:656-679 (`kNewClassTag`), part of `ReadObjectAny`: the class is new in this
buffer. `dec` is the factory `rtypes.Factory`: `none` for an unknown class
(`Factory.Get` panics). `start` is 0 for a record without byte count (`vers == 0`,
which the writer never makes). -/
def readNew (rec : RS → Option (Option Nat × RS)) (dec : List UInt8 → Option Dec)
    (vers : Bool) (beg start : Nat) (s : RS) : Option (Option Nat × RS) :=
  (s.r.readCString 80).bind fun c =>
  (dec c.1).bind fun d =>
  let refs := if vers then put s.refs (start + 2) (.cls c.1)
    else put s.refs (s.refs.length + 1) (.cls c.1)
  let id := s.heap.length
  (readDec rec d { r := c.2, refs := refs, heap := s.heap ++ [⟨c.1, .nil⟩] }).bind fun q =>
  if q.2.r.err then some (none, q.2)
  else
    some (some id,
      { q.2 with
        heap := q.2.heap.set id ⟨c.1, q.1⟩
        refs := if vers then put q.2.refs (beg + 2) (.obj id)
          else put q.2.refs (q.2.refs.length + 1) (.obj id) })

/-- groot/rbytes/rbuffer.go:680-706 (`kClassMask`), part of `ReadObjectAny`: the class has been seen
before, at `ref`. -/
def readKnown (rec : RS → Option (Option Nat × RS)) (dec : List UInt8 → Option Dec)
    (vers : Bool) (beg ref : Nat) (s : RS) : Option (Option Nat × RS) :=
  match s.refs.lookup ref with
  | none => some (none, { s with r := { s.r with err := true } })
  | some (.obj _) => some (none, { s with r := { s.r with err := true } })
  | some (.cls c) =>
    (dec c).bind fun d =>
    let id := s.heap.length
    (readDec rec d
      { r := s.r, heap := s.heap ++ [⟨c, .nil⟩],
        refs := if vers then put s.refs (beg + 2) (.obj id)
          else put s.refs (s.refs.length + 1) (.obj id) }).bind fun q =>
    if q.2.r.err then some (none, q.2)
    else some (some id, { q.2 with heap := q.2.heap.set id ⟨c, q.1⟩ })

/-- groot/rbytes/rbuffer.go:633-654 (`kNullTag`), part of `ReadObjectAny`: a pointer to an object seen
before. A position at which nothing was recorded gives nil, and the buffer is
moved to `beg + bcnt + 4`, where `bcnt` still contains the mask bit. -/
def readRef (beg bcnt tag : Nat) (s : RS) : Option Nat × RS :=
  if tag = 0 then (none, s)
  else if tag = 1 then (none, { s with r := { s.r with err := true } })
  else
    match s.refs.lookup tag with
    | none => (none, { s with r := s.r.setPos (beg + bcnt + 4) })
    | some (.cls _) => (none, { s with r := { s.r with err := true } })
    | some (.obj id) => (some id, s)

/-- groot/rbytes/rbuffer.go:609-706 (`RBuffer.ReadObjectAny`). -/
def readAny (dec : List UInt8 → Option Dec) : Nat → RS → Option (Option Nat × RS)
  | 0, _ => none
  | fuel + 1, s =>
    if s.r.err then some (none, s)
    else
      let beg := s.r.pos
      (s.r.readBE 4).bind fun b =>
      let vers : Bool := !(b.1 &&& 2 ^ 30 == 0 || b.1 == 2 ^ 32 - 1)
      let start := b.2.pos
      (if vers then b.2.readBE 4 else some (b.1, b.2)).bind fun t =>
      let bcnt := if vers then b.1 else 0
      let s := { s with r := t.2 }
      if t.1 &&& 2 ^ 31 = 0 then some (readRef beg bcnt t.1 s)
      else if t.1 = 2 ^ 32 - 1 then readNew (readAny dec fuel) dec vers beg start s
      else readKnown (readAny dec fuel) dec vers beg (t.1 % 2 ^ 31) s

/-- Several objects, one after the other, as in the loop of
groot/rcont/objarray.go:104-136 (`ObjArray.UnmarshalROOT`). -/
def readAll (dec : List UInt8 → Option Dec) (fuel : Nat) : Nat → RS → Option (List (Option Nat) × RS)
  | 0, s => some ([], s)
  | n + 1, s =>
    (readAny dec fuel s).bind fun o =>
    (readAll dec fuel n o.2).bind fun q => some (o.1 :: q.1, q.2)

end Verif.RBytes.Refs
