import Verif.Common.Stream

/-!
# Model of `sio` streams

`Record.read` works on a buffer of bytes; the state a user's `UnmarshalSio` acts on is an
arbitrary type.  The `zlib` compressor is a parameter (`Codec`).  Files are lists of the
bytes still to be read; seeking past the end leaves nothing to read.
-/

namespace Verif.Sio

abbrev Bytes := List UInt8

/-- sio/defs.go:15 (`recMarker`), as written in big-endian order. -/
def recMarker : Bytes := [0xab, 0xad, 0xca, 0xfe]
/-- sio/defs.go:16 (`blkMarker`) as written in big-endian order, and sio/defs.go:25 (`blkMarkerBeg`). -/
def blkMarker : Bytes := [0xde, 0xad, 0xbe, 0xef]

/-- sio/defs.go:29-31 (`align4U32`), in 32-bit arithmetic. -/
def align4 (sz : Nat) : Nat := (sz + (4 - sz % 4) % 4) % 2 ^ 32

/-- Zero bytes after a name, sio/record.go:269-275 and sio/stream.go:372-378. -/
def pad (n : Nat) : Bytes := List.replicate (align4 n - n) 0

/-! ## Blocks -/

/-- A connected block: version, name under which it was connected, and the bytes its
`MarshalSio` has written. -/
structure Blk where
  version : Nat
  name : Bytes
  data : Bytes
deriving DecidableEq, Repr

/-- One turn of the loop of sio/record.go:225-286 (`Record.write`). -/
def encBlk (b : Blk) : Bytes :=
  beEnc 4 (8 + 8 + align4 b.name.length + b.data.length) ++ (blkMarker ++ (beEnc 4 b.version ++
    (beEnc 4 b.name.length ++ (b.name ++ (pad b.name.length ++ b.data)))))

/-- sio/record.go:225-286 (`Record.write`). -/
def encBlks : List Blk → Bytes
  | [] => []
  | b :: bs => encBlk b ++ encBlks bs

/-- `bytes.Index(r.Bytes(), blkMarkerBeg)` (Go standard library). -/
def index : Bytes → Option Nat
  | [] => none
  | b :: t => if blkMarker.isPrefixOf (b :: t) then some 0 else (index t).map (· + 1)

/-- sio/record.go:200-211 (in `Record.read`): looking for the next block.  `none` is the panic of
`bytes.Buffer.Next` when its argument is negative. -/
def resync (s : Bytes) : Option Bytes :=
  if s.length > 0 then
    match index s with
    | some n => if n > 0 then (if n < 4 then none else some (s.drop (n - 4))) else some []
    | none => some []
  else some []

/-- What a read has made of the state. -/
inductive Out (σ : Type)
  | panic
  | fail (st : σ)
  | ok (st : σ)

/-- The `UnmarshalSio` methods of the blocks connected to a record, by the names of the
blocks (sio/record.go:80-125, `Record.Connect`): given the version in the block header and the bytes
left, the new state and the bytes left after it. -/
abbrev Blocks (σ : Type) := Bytes → Option (σ → Nat → Bytes → Option (σ × Bytes))

/-- sio/record.go:128-223 (`Record.read`), the loop; `fuel` bounds the number of turns.  The
pairs are the names and versions of the connected blocks read, in order, for the
relocation and linking at the end. -/
def readLoop {σ : Type} (um : Blocks σ) (fin : List (Bytes × Nat) → σ → Option σ) :
    Nat → List (Bytes × Nat) → σ → Bytes → Out σ
  | 0, _, st, _ => .fail st
  | fuel + 1, seen, st, s =>
    if s.length > 0 then
      match (readFull 4 s) with
      | .ok len s1 =>
        match (readFull 4 s1) with
        | .ok typ s2 =>
          if typ ≠ blkMarker then .fail st else
          match (readFull 4 s2) with
          | .ok ver s3 =>
            match (readFull 4 s3) with
            | .ok nlen s4 =>
              match readFull (align4 (beDec nlen)) s4 with
              | .ok cbuf s5 =>
                if beDec nlen > align4 (beDec nlen) then .panic else
                match um (cbuf.take (beDec nlen)) with
                | some f =>
                  match f st (beDec ver) s5 with
                  | some (st', s6) =>
                    if (s.length : Int) - s6.length ≠ beDec len then .fail st' else
                    match resync s6 with
                    | none => .panic
                    | some s7 => readLoop um fin fuel (seen ++ [(cbuf.take (beDec nlen), beDec ver)]) st' s7
                  | none => .fail st
                | none =>
                  match resync s5 with
                  | none => .panic
                  | some s7 => readLoop um fin fuel seen st s7
              | _ => .fail st
            | _ => .fail st
          | _ => .fail st
        | _ => .fail st
      | _ => .fail st
    else
      match fin seen st with
      | none => .fail st
      | some st' => .ok st'

/-- sio/record.go:128-223 (`Record.read`).  Every turn takes at least sixteen bytes. -/
def readBlocks {σ : Type} (um : Blocks σ) (fin : List (Bytes × Nat) → σ → Option σ) (st : σ) (s : Bytes) : Out σ :=
  readLoop um fin (s.length + 1) [] st s

/-! ## Records -/

/-- A record: options and connected blocks. -/
structure Rec where
  options : BitVec 32
  name : Bytes
  blocks : List Blk
deriving DecidableEq, Repr

/-- sio/record.go:54-56 (`Record.Compress`). -/
def compress (options : BitVec 32) : Bool := options &&& 1#32 != 0#32

/-- sio/record.go:59-64 (`Record.SetCompress`). -/
def setCompress (options : BitVec 32) (c : Bool) : BitVec 32 :=
  if c then (options &&& 0xfffffffe#32) ||| 1#32 else options &&& 0xfffffffe#32

/-- `zlib`: what a writer produces, and what reading from a reader on some bytes delivers. -/
structure Codec where
  comp : Bytes → Bytes
  dec : Bytes → Bytes

/-- The data of a record, sio/stream.go:330-355. -/
def content (C : Codec) (r : Rec) : Bytes :=
  if compress r.options then
    let b := C.comp (encBlks r.blocks)
    b ++ List.replicate (align4 b.length - b.length) 0
  else encBlks r.blocks

/-- sio/stream.go:305-391 (`Stream.WriteRecord`): the bytes added to the file. -/
def encRec (C : Codec) (r : Rec) : Bytes :=
  beEnc 4 (8 + 16 + align4 r.name.length) ++ (recMarker ++ (beEnc 4 r.options.toNat ++
    (beEnc 4 (content C r).length ++ (beEnc 4 (encBlks r.blocks).length ++ (beEnc 4 r.name.length ++
      (r.name ++ (pad r.name.length ++ content C r)))))))

/-- Several records, one after the other. -/
def encRecs (C : Codec) : List Rec → Bytes
  | [] => []
  | r :: rs => encRec C r ++ encRecs C rs

/-- Result of `Stream.ReadRecord`. -/
inductive Read (σ : Type)
  | panic
  | eof (st : σ)
  | fail (st : σ)
  /-- the record returned, the state and the rest of the file. -/
  | got (name : Bytes) (options : BitVec 32) (st : σ) (rest : Bytes)

/-- A stream opened for reading: which records are to be unpacked (sio/record.go:44-51) and the blocks
connected to them. -/
structure Cfg (σ : Type) where
  unpack : Bytes → Bool
  um : Bytes → Blocks σ
  fin : List (Bytes × Nat) → σ → Option σ

/-- Unpacking, lines 250-300 of sio/stream.go:185-303 (`Stream.ReadRecord`), after the name was read. -/
def unpackRecord {σ : Type} (C : Codec) (cfg : Cfg σ) (name : Bytes) (options : BitVec 32) (dlen ulen : Nat)
    (st : σ) (s : Bytes) : Read σ :=
  let done (rest buf : Bytes) : Read σ :=
    match readBlocks (cfg.um name) cfg.fin st buf with
    | .panic => .panic
    | .fail st' => .fail st'
    | .ok st' => .got name options st' rest
  match readFull dlen s with
  | .eof => .eof st
  | .fail => .fail st
  | .ok data rest =>
    if compress options then
      match readFull ulen (C.dec data) with
      | .ok buf _ => done (rest.drop (align4 dlen - dlen)) buf
      | .eof => .eof st
      | .fail => .fail st
    else done rest data

/-- sio/stream.go:185-303 (`Stream.ReadRecord`); `fuel` bounds the number of records skipped.  The test of
the position after seeking (sio/stream.go:241) compares the sum of 32-bit numbers with the
bytes passed. -/
def readRecord {σ : Type} (C : Codec) (cfg : Cfg σ) : Nat → σ → Bytes → Read σ
  | 0, st, _ => .fail st
  | fuel + 1, st, s =>
    match readFull 8 s with
    | .eof => .eof st
    | .fail => .fail st
    | .ok hdr s1 =>
      if hdr.drop 4 ≠ recMarker then .fail st else
      match readFull 16 s1 with
      | .eof => .eof st
      | .fail => .fail st
      | .ok data s2 =>
        let options := BitVec.ofNat 32 (beDec (data.take 4))
        let dlen := beDec ((data.drop 4).take 4)
        let ulen := beDec ((data.drop 8).take 4)
        let nlen := beDec (data.drop 12)
        match readFull (align4 nlen) s2 with
        | .eof => .eof st
        | .fail => .fail st
        | .ok buf s3 =>
          if nlen > align4 nlen then .panic else
          if cfg.unpack (buf.take nlen) then
            unpackRecord C cfg (buf.take nlen) options dlen ulen st s3
          else if 24 + align4 nlen + align4 dlen ≠ (align4 dlen + beDec (hdr.take 4)) % 2 ^ 32 then .fail st
          else readRecord C cfg fuel st (s3.drop (align4 dlen))

/-- A user reading records until an error: the records returned, the last state, and
whether the loop ended with `io.EOF`; `none` is a panic. -/
def readAll {σ : Type} (C : Codec) (cfg : Cfg σ) : Nat → σ → Bytes → Option (List (Bytes × BitVec 32) × σ × Bool)
  | 0, st, _ => some ([], st, false)
  | fuel + 1, st, s =>
    match readRecord C cfg (s.length + 1) st s with
    | .panic => none
    | .eof st => some ([], st, true)
    | .fail st => some ([], st, false)
    | .got name options st rest => (readAll C cfg fuel st rest).map fun p => ((name, options) :: p.1, p.2)

/-! ## Pointers -/

/-- One call of the user's marshaling code: tagging an object, writing a pointer to an
object, or writing other data.  `Key` is a Go pointer as a map key, type and address. -/
inductive WOp (Key : Type)
  | tag (k : Key)
  | ptr (k : Key)
  | data (bs : Bytes)

/-- sio/sio.go:151-157 (`writer`); only the fields used. -/
structure Writer (Key : Type) where
  ids : Nat
  tags : List (Key × Nat)
deriving DecidableEq

/-- sio/sio.go:159-165 (`newWriter`). -/
def Writer.new {Key : Type} : Writer Key := ⟨0, []⟩

variable {Key : Type} [DecidableEq Key]

/-- The identifier of a pointer, sio/sio.go:195-210 (`writer.Tag`) and sio/sio.go:212-228 (`writer.Pointer`), which
do the same, with sio/sio.go:230-236 (`writer.genID`).  `none` is the error of too many identifiers. -/
def Writer.idOf (w : Writer Key) (k : Key) : Option (Nat × Writer Key) :=
  match w.tags.lookup k with
  | some i => some (i, w)
  | none => if w.ids + 1 = 2 ^ 32 - 1 then none else some (w.ids + 1, ⟨w.ids + 1, (k, w.ids + 1) :: w.tags⟩)

/-- The calls one after the other; the state of the writer is carried from one block to the
next (sio/record.go:241, 281-283). -/
def write (w : Writer Key) : List (WOp Key) → Option (Bytes × Writer Key)
  | [] => some ([], w)
  | .tag k :: ops =>
    match w.idOf k with
    | none => none
    | some (i, w) => (write w ops).map fun p => (beEnc 4 i ++ p.1, p.2)
  | .ptr k :: ops =>
    match w.idOf k with
    | none => none
    | some (i, w) => (write w ops).map fun p => (beEnc 4 i ++ p.1, p.2)
  | .data bs :: ops => (write w ops).map fun p => (bs ++ p.1, p.2)

/-- One call of the user's unmarshaling code: an object, a variable holding a pointer, or
the number of bytes of other data. -/
inductive ROp (Obj Loc : Type)
  | tag (o : Obj)
  | ptr (l : Loc)
  | data (n : Nat)

/-- sio/sio.go:68-73 (`reader`); the maps are lists of their entries. -/
structure Reader (Obj Loc : Type) where
  ptr : List (Loc × Nat)
  tag : List (Obj × Nat)

/-- Setting an entry of a Go map. -/
def setKey {α : Type} [DecidableEq α] (m : List (α × Nat)) (k : α) (v : Nat) : List (α × Nat) :=
  (k, v) :: m.filter fun p => p.1 ≠ k

variable {Obj Loc : Type} [DecidableEq Obj] [DecidableEq Loc]

/-- sio/sio.go:105-116 (`reader.Tag`) and sio/sio.go:118-135 (`reader.Pointer`), and reads of other data with
`io.ReadFull`. -/
def read (r : Reader Obj Loc) : List (ROp Obj Loc) → Bytes → Option (Reader Obj Loc × Bytes)
  | [], s => some (r, s)
  | .tag o :: ops, s =>
    match readFull 4 s with
    | .ok id s => if beDec id = 0xffffffff then read r ops s else read ⟨r.ptr, setKey r.tag o (beDec id)⟩ ops s
    | _ => none
  | .ptr l :: ops, s =>
    match readFull 4 s with
    | .ok id s => if beDec id = 0 then read r ops s else read ⟨setKey r.ptr l (beDec id), r.tag⟩ ops s
    | _ => none
  | .data n :: ops, s =>
    match readFull n s with
    | .ok _ s => read r ops s
    | _ => none

/-- sio/sio.go:137-149 (`reader.relocate`).  `ptrs` are the entries of the map of pointers in the order in
which Go happens to range over it, and `tags l` those of the map of tags in the order
taken for `l`.  `ok l o` tells whether the variable can hold a pointer to the object;
`none` is the panic of `reflect.Value.Set` otherwise. -/
def relocate (ok : Loc → Obj → Bool) (tags : Loc → List (Obj × Nat)) :
    List (Loc × Nat) → (Loc → Option Obj) → Option (Loc → Option Obj)
  | [], mem => some mem
  | (l, pid) :: ptrs, mem =>
    match (tags l).find? fun t => t.2 = pid with
    | some t => if ok l t.1 then relocate ok tags ptrs (fun x => if x = l then some t.1 else mem x) else none
    | none => relocate ok tags ptrs mem

/-! ## Values of Go types -/

/-- The types `bwrite` and `bread` handle by themselves: types of a fixed number of bytes
(numbers, booleans, arrays of them), strings, slices, structures (as chains of fields) and
maps.  `int` and `uint`, which `encoding/binary` refuses, are not represented, nor types
with methods of their own. -/
inductive Ty
  | fixed (n : Nat)
  | str
  | slice (t : Ty)
  | nil
  | field (t rest : Ty)
  | map (k v : Ty)
deriving DecidableEq, Repr

/-- The values of a type: for fixed types their big-endian bytes; a map is the list of its
entries in the order in which Go happens to range over it. -/
def Ty.Val : Ty → Type
  | .fixed n => { bs : Bytes // bs.length = n }
  | .str => Bytes
  | .slice t => List t.Val
  | .nil => Unit
  | .field t rest => t.Val × rest.Val
  | .map k v => List (k.Val × v.Val)

/-- A structure with at least one field. -/
def Ty.isFields : Ty → Bool
  | .field _ _ => true
  | _ => false

/-- Encoding the elements of a slice or map one after the other. -/
def encList {α : Type} (f : α → Option Bytes) : List α → Option Bytes
  | [] => some []
  | x :: xs =>
    match f x with
    | none => none
    | some a => (encList f xs).map (a ++ ·)

/-- Encoding a pair. -/
def encPair {α β : Type} (f : α → Option Bytes) (g : β → Option Bytes) (x : α × β) : Option Bytes :=
  match f x.1 with
  | none => none
  | some a => (g x.2).map (a ++ ·)

/-- sio/encoder.go:64-147 (`bwrite`, with `marshal` of sio/encoder.go:57-62).  Keys and values of maps are not
addressable, and taking the address of their fields panics (`none`); elements of slices
and what is reached through pointers are. -/
def enc : (t : Ty) → t.Val → Option Bytes
  | .fixed _, v => some v.1
  | .str, (v : Bytes) => some (beEnc 4 v.length ++ (v ++ pad v.length))
  | .slice t, (v : List t.Val) => (encList (enc t) v).map (beEnc 4 v.length ++ ·)
  | .nil, _ => some []
  | .field t rest, v => encPair (enc t) (enc rest) v
  | .map k v, (m : List (k.Val × v.Val)) =>
    (encList (fun p => if k.isFields || v.isFields then none else encPair (enc k) (enc v) p) m).map
      (beEnc 4 m.length ++ ·)

/-- Reading a number of elements. -/
def decList {α : Type} (f : Bytes → Option (α × Bytes)) : Nat → Bytes → Option (List α × Bytes)
  | 0, s => some ([], s)
  | n + 1, s =>
    match f s with
    | none => none
    | some (x, s) =>
      match decList f n s with
      | none => none
      | some (xs, s) => some (x :: xs, s)

/-- Reading two values. -/
def decPair {α β : Type} (f : Bytes → Option (α × Bytes)) (g : Bytes → Option (β × Bytes)) (s : Bytes) :
    Option ((α × β) × Bytes) :=
  match f s with
  | none => none
  | some (x, s) =>
    match g s with
    | none => none
    | some (y, s) => some ((x, y), s)

/-- The bytes of a fixed type. -/
def decFixed (n : Nat) (s : Bytes) : Option ({ bs : Bytes // bs.length = n } × Bytes) :=
  if h : (s.take n).length = n then some (⟨s.take n, h⟩, s.drop n) else none

/-- sio/decoder.go:89-105: one `Read` into a slice made for the string and its padding, which for
a `bytes.Buffer` fails only if nothing is left, and otherwise may leave zeros. -/
def decStr (s : Bytes) : Option (Bytes × Bytes) :=
  match readFull 4 s with
  | .ok n s =>
    let sz := beDec n
    let len := align4 sz
    if len ≠ 0 ∧ s = [] then none
    else if sz > len then none
    else some (((s.take len) ++ List.replicate (len - s.length) 0).take sz |> fun x => (x, s.drop len))
  | _ => none

/-- The length before a slice or map, and its elements. -/
def decMany {α : Type} (f : Bytes → Option (α × Bytes)) (s : Bytes) : Option (List α × Bytes) :=
  match readFull 4 s with
  | .ok n s => decList f (beDec n) s
  | _ => none

/-- sio/decoder.go:66-160 (`bread`, with `unmarshal` of sio/decoder.go:59-64); a map is the list of the entries
set, in order.  Errors are `none`, and so is the panic for a string length close to 2^32. -/
def dec : (t : Ty) → Bytes → Option (t.Val × Bytes)
  | .fixed n => decFixed n
  | .str => decStr
  | .slice t => decMany (dec t)
  | .nil => fun s => some ((), s)
  | .field t rest => decPair (dec t) (dec rest)
  | .map k v => decMany (decPair (dec k) (dec v))

end Verif.Sio
