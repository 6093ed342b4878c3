import Verif.Common.Bytes

/-!
# Model of `groot/rbytes`: ROOT write and read buffers

A Go panic (index or slice bounds out of range, explicit `panic`) is the outcome
`none`. Errors recorded in the buffer (`w.err`, `r.err`) are the flag `err`.
-/

namespace Verif.RBytes

/-! ## Write buffer -/

/-- groot/rbytes/wbuffer.go:20-23 (`wbuff`) and 63-69 (`WBuffer`).
`p` is the slice `w.w.p`, `c` the current position, `offset` the buffer offset.
`junk i` is the content of the spare capacity at absolute index `i`, exposed by a
re-slice in `grow`; it is arbitrary. The reference map and the streamer context
are left out here. -/
structure WBuf where
  p : List UInt8
  c : Nat
  offset : Nat
  err : Bool
  junk : Nat → UInt8

/-- groot/rbytes/wbuffer.go:71-82 (`NewWBuffer`). -/
def newWBuffer (data : List UInt8) (offset : Nat) (junk : Nat → UInt8) : WBuf :=
  { p := data, c := 0, offset := offset, err := false, junk := junk }

/-- groot/rbytes/wbuffer.go:94-95 (`WBuffer.Bytes`, `buffer`). -/
def WBuf.bytes (w : WBuf) : List UInt8 := w.p.take w.c

/-- groot/rbytes/wbuffer.go:100-102 (`WBuffer.Pos`). -/
def WBuf.pos (w : WBuf) : Nat := w.c + w.offset

/-- groot/rbytes/wbuffer.go:109-112 (`WBuffer.setPos`).
Simplification: positions before the buffer start are not represented. -/
def WBuf.setPos (pos : Nat) (w : WBuf) : WBuf := { w with c := pos - w.offset }

/-- groot/rbytes/wbuffer.go:38-60 (`wbuff.grow`), for `n ≥ 0`: the slice gets `n`
bytes longer. The capacity bookkeeping only decides where the new bytes come
from, so they are arbitrary (`junk`). -/
def WBuf.grow (n : Nat) (w : WBuf) : WBuf :=
  { w with p := w.p ++ (List.range n).map (fun i => w.junk (w.p.length + i)) }

/-- Store `bs` at the current position and advance, as done by
`w.w.p[beg:end] = ...; w.w.c += sz` in groot/rbytes/wbuffer.go:259-307
(`writeI8`, `writeI32`, `writeU8`, `writeU16`, `writeU32`, `writeF32`) and in
groot/rbytes/wbuffer_gen.go. Panics if the slice is too short. (Go would accept
an end beyond `len` but within the capacity; callers always `grow` first.) -/
def WBuf.put (bs : List UInt8) (w : WBuf) : Option WBuf :=
  if w.c + bs.length ≤ w.p.length then
    some { w with p := w.p.take w.c ++ bs ++ w.p.drop (w.c + bs.length), c := w.c + bs.length }
  else none

/-- groot/rbytes/wbuffer.go:25-32 (`wbuff.Write`): `io.EOF` if the position is at
or past the end of the slice, even when there is nothing to write. -/
def WBuf.rawWrite (v : List UInt8) (w : WBuf) : WBuf :=
  if w.p.length ≤ w.c then { w with err := true }
  else
    let n := min v.length (w.p.length - w.c)
    { w with p := w.p.take w.c ++ v.take n ++ w.p.drop (w.c + n), c := w.c + n, err := false }

/-- groot/rbytes/wbuffer.go:243-249 (`WBuffer.write`). -/
def WBuf.write (v : List UInt8) (w : WBuf) : WBuf :=
  if w.err then w else (w.grow v.length).rawWrite v

/-- Common shape of the generated writers groot/rbytes/wbuffer_gen.go:33-43
(`WriteU16`), 87-97 (`WriteU32`), 141-151 (`WriteU64`), 194-203 (`WriteI16`),
245-254 (`WriteI32`), 296-305 (`WriteI64`), 347-356 (`WriteF32`), 398-407
(`WriteF64`) and of groot/rbytes/wbuffer.go:251-257, 272-278 (`WriteI8`,
`WriteU8`): error check, grow by `k`, store `k` big-endian bytes. -/
def WBuf.writeBE (k n : Nat) (w : WBuf) : Option WBuf :=
  if w.err then some w else (w.grow k).put (beEnc k n)

/-- groot/rbytes/wbuffer.go:412-419 (`WBuffer.WriteBool`): no error check. -/
def WBuf.writeBool (v : Bool) (w : WBuf) : Option WBuf :=
  (w.grow 1).put (beEnc 1 (if v then 1 else 0))

/-- groot/rbytes/wbuffer.go:434-451 (`WBuffer.WriteString`). `grow(1+l)` is
followed by `write`, which grows by `l` again. -/
def WBuf.writeString (v : List UInt8) (w : WBuf) : Option WBuf :=
  if w.err then some w
  else if v.length < 255 then do
    let w ← (w.grow (1 + v.length)).put (beEnc 1 v.length)
    if v.length > 0 then some (w.write v) else some w
  else do
    let w ← (w.grow (1 + 4 + v.length)).put (beEnc 1 255)
    let w ← w.put (beEnc 4 v.length)
    some (w.write v)

/-- groot/rbytes/wbuffer.go:453-466 (`WBuffer.writeString`): the helper without
`grow` and without the test for an empty string. -/
def WBuf.writeStringNoGrow (v : List UInt8) (w : WBuf) : Option WBuf :=
  if w.err then some w
  else if v.length < 255 then do
    let w ← w.put (beEnc 1 v.length)
    some (w.write v)
  else do
    let w ← w.put (beEnc 1 255)
    let w ← w.put (beEnc 4 v.length)
    some (w.write v)

/-- groot/rbytes/wbuffer.go:541-547 (`WBuffer.strlen`). -/
def strlen (v : List UInt8) : Nat :=
  if v.length < 255 then 1 + v.length else 1 + 4 + v.length

/-- Loop body of `WriteArrayString`: write the strings one after the other. -/
def WBuf.writeStringsNoGrow : List (List UInt8) → WBuf → Option WBuf
  | [], w => some w
  | v :: vs, w => do
    let w ← w.writeStringNoGrow v
    w.writeStringsNoGrow vs

/-- groot/rbytes/wbuffer.go:549-562 (`WBuffer.WriteArrayString`). -/
def WBuf.writeArrayString (vs : List (List UInt8)) (w : WBuf) : Option WBuf :=
  if w.err then some w
  else (w.grow ((vs.map strlen).sum)).writeStringsNoGrow vs

/-- groot/rbytes/wbuffer.go:468-482 (`WBuffer.WriteCString`). -/
def WBuf.writeCString (v : List UInt8) (w : WBuf) : Option WBuf :=
  if w.err then some w
  else some (w.write (v.takeWhile (· != 0) ++ [0]))

/-- Loop of the generated array writers: store the elements one after the other. -/
def WBuf.putAll (k : Nat) : List Nat → WBuf → Option WBuf
  | [], w => some w
  | n :: ns, w => do
    let w ← w.put (beEnc k n)
    w.putAll k ns

/-- Common shape of groot/rbytes/wbuffer_gen.go:16-31 (`WriteArrayU16`), 70-85,
124-139, 178-192, 229-243, 280-294, 331-345, 382-396 (`WriteArrayF64`) and of
groot/rbytes/wbuffer.go:495-527 (`WriteArrayBool`, `WriteArrayI8`, `WriteArrayU8`): one `grow` for
the whole slice, then element stores of `k` bytes each. -/
def WBuf.writeArray (k : Nat) (ns : List Nat) (w : WBuf) : Option WBuf :=
  if w.err then some w else (w.grow (ns.length * k)).putAll k ns

/-! ## Object headers, writing side -/

/-- groot/rbytes/rbytes.go:20-27 (`Header`). The class name is only used in
messages and left out. -/
structure Header where
  vers : BitVec 16
  pos : Nat
  len : BitVec 32
  memberWise : Bool
deriving DecidableEq, Repr

/-- groot/rbytes/consts.go:14 -/
def kByteCountMask : BitVec 32 := 0x40000000

/-- groot/rbytes/consts.go:27 -/
def streamedMemberWise : BitVec 16 := 0x4000

/-- groot/rbytes/wbuffer.go:132-147 (`WBuffer.WriteHeader`): byte-count
placeholder and version. -/
def WBuf.writeHeader (vers : BitVec 16) (w : WBuf) : Option (Header × WBuf) :=
  let hdr : Header := { vers := vers, pos := w.pos, len := 0, memberWise := false }
  if w.err then some (hdr, w)
  else do
    let w ← (w.grow 6).put (beEnc 4 0)
    let w ← w.put (beEnc 2 vers.toNat)
    some (hdr, w)

/-- groot/rbytes/wbuffer.go:149-161 (`WBuffer.SetHeader`): seek back, patch the
byte count (`WriteU32` grows the slice by 4 first), seek forward. `cnt` is an
`int64` in Go, hence the 64-bit arithmetic. -/
def WBuf.setHeader (hdr : Header) (w : WBuf) : Option WBuf :=
  if w.err then some w
  else do
    let cur := w.pos
    let cnt : BitVec 64 := BitVec.ofNat 64 cur - BitVec.ofNat 64 hdr.pos - 4
    let word : BitVec 32 := (cnt ||| 0x40000000).setWidth 32
    let w ← (w.setPos hdr.pos).writeBE 4 word.toNat
    some (w.setPos cur)

/-! ## Read buffer -/

/-- groot/rbytes/rbuffer.go:18-21 (`rbuff`), 59-65 (`RBuffer`). `p` is the slice,
`hid` the bytes between its length and its capacity (a Go slice expression
`p[a:b]` may reach into them), `c` the position. -/
structure RBuf where
  p : List UInt8
  hid : List UInt8
  c : Nat
  offset : Nat
  err : Bool
deriving DecidableEq, Repr

/-- groot/rbytes/rbuffer.go:67-78 (`NewRBuffer`). -/
def newRBuffer (data hid : List UInt8) (offset : Nat) : RBuf :=
  { p := data, hid := hid, c := 0, offset := offset, err := false }

/-- groot/rbytes/rbuffer.go:80-96 (`RBuffer.Reset`) on a non-nil buffer: data,
references, offset and context are replaced; the error is not touched. -/
def RBuf.reset (data hid : List UInt8) (offset : Nat) (r : RBuf) : RBuf :=
  { r with p := data, hid := hid, c := 0, offset := offset }

/-- groot/rbytes/rbuffer.go:152-154 (`RBuffer.Pos`). -/
def RBuf.pos (r : RBuf) : Nat := r.c + r.offset

/-- groot/rbytes/rbuffer.go:157-160 (`RBuffer.setPos`), same simplification as for
the writer. -/
def RBuf.setPos (pos : Nat) (r : RBuf) : RBuf := { r with c := pos - r.offset }

/-- groot/rbytes/rbuffer.go:162-164 (`RBuffer.Len`), for a position inside the
slice. -/
def RBuf.len (r : RBuf) : Nat := r.p.length - r.c

/-- Slice expression `r.r.p[beg:end]`: bounds are checked against the capacity. -/
def RBuf.slice (beg n : Nat) (r : RBuf) : Option (List UInt8) :=
  if beg + n ≤ (r.p ++ r.hid).length then some (((r.p ++ r.hid).drop beg).take n) else none

/-- groot/rbytes/rbuffer.go:291-303, 305-317 (`ReadU8`, `readU8`, `ReadI8`,
`readI8`): an index expression, checked against the length. -/
def RBuf.readU8 (r : RBuf) : Option (Nat × RBuf) :=
  if r.err then some (0, r)
  else match r.p[r.c]? with
    | some b => some (b.toNat, { r with c := r.c + 1 })
    | none => none

/-- Common shape of groot/rbytes/rbuffer_gen.go:41-50 (`ReadU16`), 98-107, 155-164,
211-219, 266-274, 321-329, 376-384, 431-439 (`ReadF64`). -/
def RBuf.readBE (k : Nat) (r : RBuf) : Option (Nat × RBuf) :=
  if r.err then some (0, r)
  else match r.slice r.c k with
    | some bs => some (beDec bs, { r with c := r.c + k })
    | none => none

/-- groot/rbytes/rbuffer.go:279-289 (`ReadBool`, `readBool`). -/
def RBuf.readBool (r : RBuf) : Option (Bool × RBuf) :=
  if r.err then some (false, r)
  else match r.p[r.c]? with
    | some b => some (b != 0, { r with c := r.c + 1 })
    | none => none

/-- groot/rbytes/rbuffer.go:169-175 (`RBuffer.read`) into a zeroed slice of `n`
bytes: copies what is there, leaves the rest zero, never sets an error. Panics
if the position is past the end (slice expression `p[c:]`). -/
def RBuf.read (n : Nat) (r : RBuf) : Option (List UInt8 × RBuf) :=
  if r.err then some (List.replicate n 0, r)
  else if r.c ≤ r.p.length then
    let bs := (r.p.drop r.c).take n
    some (bs ++ List.replicate (n - bs.length) 0, { r with c := r.c + bs.length })
  else none

/-- groot/rbytes/rbuffer.go:233-261 (`RBuffer.ReadString`). -/
def RBuf.readString (r : RBuf) : Option (List UInt8 × RBuf) :=
  if r.err then some ([], r)
  else do
    let (u8, r) ← r.readU8
    let (n, r) ← if u8 = 255 then r.readBE 4 else some (u8, r)
    if n = 0 then some ([], r)
    else do
      let (v, r) ← r.readU8
      if v = 0 then some ([], r)
      else do
        let (rest, r) ← r.read (n - 1)
        some (UInt8.ofNat v :: rest, r)

/-- Loop of `ReadArrayString`. -/
def RBuf.readStrings : Nat → RBuf → Option (List (List UInt8) × RBuf)
  | 0, r => some ([], r)
  | n + 1, r => do
    let (v, r) ← r.readString
    let (vs, r) ← r.readStrings n
    some (v :: vs, r)

/-- groot/rbytes/rbuffer.go:489-501 (`RBuffer.ReadArrayString`): returns without
reading (the destination keeps its content: zero values here) when the slice is
empty or longer than the number of remaining bytes. -/
def RBuf.readArrayString (n : Nat) (r : RBuf) : Option (List (List UInt8) × RBuf) :=
  if r.err then some (List.replicate n [], r)
  else if n = 0 ∨ r.len < n then some (List.replicate n [], r)
  else r.readStrings n

/-- Loop of groot/rbytes/rbuffer.go:263-277 (`RBuffer.ReadCString`): at most `n`
bytes, stops after a NUL. Reading past the end yields a zero byte (the buffer is
zeroed), hence stops. -/
def RBuf.readCStringLoop : Nat → RBuf → Option (List UInt8 × RBuf)
  | 0, r => some ([], r)
  | n + 1, r => do
    let (bs, r) ← r.read 1
    if bs.head? = some 0 then some ([], r)
    else do
      let (vs, r) ← r.readCStringLoop n
      some (bs ++ vs, r)

/-- groot/rbytes/rbuffer.go:263-277 (`RBuffer.ReadCString`). -/
def RBuf.readCString (n : Nat) (r : RBuf) : Option (List UInt8 × RBuf) :=
  if r.err then some ([], r) else r.readCStringLoop n

/-- Loop of the generated array readers over the sub-slice `sub`. -/
def decAll (k : Nat) : Nat → List UInt8 → List Nat
  | 0, _ => []
  | n + 1, bs => beDec (bs.take k) :: decAll k n (bs.drop k)

/-- Common shape of groot/rbytes/rbuffer_gen.go:17-39 (`ReadArrayU16`), 74-96,
131-153, 188-209, 243-264, 298-319, 353-374, 408-429 (`ReadArrayF64`): returns
silently when the slice is empty or has more elements than there are bytes left;
the destination is taken to be zeroed. -/
def RBuf.readArray (k n : Nat) (r : RBuf) : Option (List Nat × RBuf) :=
  if r.err then some (List.replicate n 0, r)
  else if n = 0 ∨ r.len < n then some (List.replicate n 0, r)
  else match r.slice r.c (k * n) with
    | some sub => some (decAll k n sub, { r with c := r.c + k * n })
    | none => none

/-- groot/rbytes/rbuffer.go:99-141 (`RBuffer.ReadHeader`).
Simplification: no streamer context (`r.sictx == nil`), so versions `≤ 0` are
kept as read. `vmax` is the `int16` maximum version, negative to disable. -/
def RBuf.readHeader (vmax : Int) (r : RBuf) : Option (Header × RBuf) :=
  let pos := r.pos
  if r.err then some ({ vers := 0, pos := pos, len := 0, memberWise := false }, r)
  else do
    let (bcnt, r) ← r.readBE 4
    let bcnt : BitVec 32 := BitVec.ofNat 32 bcnt
    let (len, vers, r) ←
      if bcnt &&& kByteCountMask ≠ 0 then do
        let (v, r) ← r.readBE 2
        some (bcnt &&& ~~~ kByteCountMask, v, r)
      else do
        let (v, r) ← (r.setPos pos).readBE 2
        some (0, v, r)
    let vers : BitVec 16 := BitVec.ofNat 16 vers
    let mw := vers &&& streamedMemberWise ≠ 0
    let vers := if mw then vers &&& ~~~ streamedMemberWise else vers
    if 0 ≤ vmax ∧ vmax < vers.toInt then none
    else some ({ vers := vers, pos := pos, len := len, memberWise := decide mw }, r)

/-- groot/rbytes/rbuffer.go:547-577 (`RBuffer.CheckHeader`). -/
def RBuf.checkHeader (hdr : Header) (r : RBuf) : RBuf :=
  if r.err then r
  else if hdr.len.toInt ≤ 0 then r
  else if (r.pos : Int) = hdr.pos + hdr.len.toInt + 4 then r
  else { r with err := true }

/-! ## Sequences of primitive values and nested objects -/

/-- A primitive value, as its bit pattern. Go's conversions `uintN(v)` of an
`intN` and `math.FloatNbits` are the identity on the pattern. -/
inductive Prim where
  | bool (v : Bool)
  | u8 (v : BitVec 8) | u16 (v : BitVec 16) | u32 (v : BitVec 32) | u64 (v : BitVec 64)
  | i8 (v : BitVec 8) | i16 (v : BitVec 16) | i32 (v : BitVec 32) | i64 (v : BitVec 64)
  | f32 (v : BitVec 32) | f64 (v : BitVec 64)
deriving DecidableEq, Repr

/-- The Go type of a primitive value. -/
inductive Kind where
  | bool | u8 | u16 | u32 | u64 | i8 | i16 | i32 | i64 | f32 | f64
deriving DecidableEq, Repr

def Prim.kind : Prim → Kind
  | .bool _ => .bool
  | .u8 _ => .u8 | .u16 _ => .u16 | .u32 _ => .u32 | .u64 _ => .u64
  | .i8 _ => .i8 | .i16 _ => .i16 | .i32 _ => .i32 | .i64 _ => .i64
  | .f32 _ => .f32 | .f64 _ => .f64

/-- The call `w.WriteXX(v)` for the type of `v` (groot/rbytes/wbuffer.go:251-257,
272-278, 412-419 and groot/rbytes/wbuffer_gen.go:33-43, 87-97, 141-151, 194-203,
245-254, 296-305, 347-356, 398-407). -/
def WBuf.writePrim (v : Prim) (w : WBuf) : Option WBuf :=
  match v with
  | .bool v => w.writeBool v
  | .u8 v => w.writeBE 1 v.toNat
  | .u16 v => w.writeBE 2 v.toNat
  | .u32 v => w.writeBE 4 v.toNat
  | .u64 v => w.writeBE 8 v.toNat
  | .i8 v => w.writeBE 1 v.toNat
  | .i16 v => w.writeBE 2 v.toNat
  | .i32 v => w.writeBE 4 v.toNat
  | .i64 v => w.writeBE 8 v.toNat
  | .f32 v => w.writeBE 4 v.toNat
  | .f64 v => w.writeBE 8 v.toNat

/-- The call `r.ReadXX()` (groot/rbytes/rbuffer.go:279-317 and
groot/rbytes/rbuffer_gen.go:41-50, 98-107, 155-164, 211-219, 266-274, 321-329,
376-384, 431-439). -/
def RBuf.readPrim (k : Kind) (r : RBuf) : Option (Prim × RBuf) :=
  match k with
  | .bool => r.readBool.bind fun q => some (.bool q.1, q.2)
  | .u8 => r.readU8.bind fun q => some (.u8 (BitVec.ofNat 8 q.1), q.2)
  | .u16 => (r.readBE 2).bind fun q => some (.u16 (BitVec.ofNat 16 q.1), q.2)
  | .u32 => (r.readBE 4).bind fun q => some (.u32 (BitVec.ofNat 32 q.1), q.2)
  | .u64 => (r.readBE 8).bind fun q => some (.u64 (BitVec.ofNat 64 q.1), q.2)
  | .i8 => r.readU8.bind fun q => some (.i8 (BitVec.ofNat 8 q.1), q.2)
  | .i16 => (r.readBE 2).bind fun q => some (.i16 (BitVec.ofNat 16 q.1), q.2)
  | .i32 => (r.readBE 4).bind fun q => some (.i32 (BitVec.ofNat 32 q.1), q.2)
  | .i64 => (r.readBE 8).bind fun q => some (.i64 (BitVec.ofNat 64 q.1), q.2)
  | .f32 => (r.readBE 4).bind fun q => some (.f32 (BitVec.ofNat 32 q.1), q.2)
  | .f64 => (r.readBE 8).bind fun q => some (.f64 (BitVec.ofNat 64 q.1), q.2)

/-- A client writing a sequence of values. -/
def WBuf.writePrims : List Prim → WBuf → Option WBuf
  | [], w => some w
  | v :: vs, w => (w.writePrim v).bind (·.writePrims vs)

/-- A client reading a sequence of values of given types. -/
def RBuf.readPrims : List Kind → RBuf → Option (List Prim × RBuf)
  | [], r => some ([], r)
  | k :: ks, r => (r.readPrim k).bind fun q =>
      (q.2.readPrims ks).bind fun s => some (q.1 :: s.1, s.2)

/-- A composite value: a primitive, a string, or a versioned object with members
(themselves possibly objects). -/
inductive Item where
  | val (v : Prim)
  | str (v : List UInt8)
  | obj (vers : BitVec 16) (body : List Item)

/-- The layout of a composite value, known to the reading class. -/
inductive Shape where
  | val (k : Kind)
  | str
  | obj (body : List Shape)

mutual
def Item.shape : Item → Shape
  | .val v => .val v.kind
  | .str _ => .str
  | .obj _ body => .obj (Item.shapes body)
def Item.shapes : List Item → List Shape
  | [] => []
  | i :: is => i.shape :: Item.shapes is
end

mutual
/-- A hand-written `MarshalROOT` method: `hdr := w.WriteHeader(..); members...;
w.SetHeader(hdr)` (for instance groot/rbase/named.go:89-99 (`MarshalROOT`)). -/
def writeItem : Item → WBuf → Option WBuf
  | .val v, w => w.writePrim v
  | .str v, w => w.writeString v
  | .obj vers body, w =>
    (w.writeHeader vers).bind fun q =>
      (writeItems body q.2).bind fun w => w.setHeader q.1
def writeItems : List Item → WBuf → Option WBuf
  | [], w => some w
  | i :: is, w => (writeItem i w).bind (writeItems is)
end

mutual
/-- A hand-written `UnmarshalROOT` method: `hdr := r.ReadHeader(..); members...;
r.CheckHeader(hdr)`, in the mode without maximum version. -/
def readItem : Shape → RBuf → Option (Item × RBuf)
  | .val k, r => (r.readPrim k).bind fun q => some (.val q.1, q.2)
  | .str, r => r.readString.bind fun q => some (.str q.1, q.2)
  | .obj body, r =>
    (r.readHeader (-1)).bind fun h =>
      (readItems body h.2).bind fun q =>
        some (.obj h.1.vers q.1, q.2.checkHeader h.1)
def readItems : List Shape → RBuf → Option (List Item × RBuf)
  | [], r => some ([], r)
  | s :: ss, r => (readItem s r).bind fun q =>
      (readItems ss q.2).bind fun t => some (q.1 :: t.1, t.2)
end

end Verif.RBytes
