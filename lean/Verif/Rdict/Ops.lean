import Verif.RBytes.Props

/-!
# The streaming operations of `groot/rdict`

A streamer info is compiled into a tree of operations; running the tree writes a
Go value to a buffer or reads one from it. The value `none` of a run stands for a
failure: a returned error or a panic.

Not modelled: pointers, `TObject`, `TNamed` and classes with hand-written methods,
`Float16_t` and `Double32_t`, arrays of `char*`, external counters (`cfg.count`).
-/

namespace Verif.Rdict

open Verif.RBytes

/-- Keys of maps: values of basic types and strings (other key types are left out). -/
inductive Key where
  | prim (p : Prim)
  | str (s : List UInt8)
deriving DecidableEq, Repr

/-- A Go value, as seen by the streamers. A nil slice is an empty list and a nil
map an empty map. Keys of maps are compared by their bits. -/
inductive Val where
  | prim (p : Prim)
  | str (s : List UInt8)
  | list (vs : List Val)
  | struct (vs : List Val)
  | map (f : Key → Option Val)

/-- Type assertion to a pointer to a basic type, for instance
groot/rdict/wstreamer.go:594-600 (`wstreamBool`). -/
def Val.prim? (k : Kind) : Val → Option Prim
  | .prim p => if p.kind = k then some p else none
  | _ => none

/-- Type assertion to a string, groot/rdict/wstreamer.go:714-718 (`wstreamTString`). -/
def Val.str? : Val → Option (List UInt8)
  | .str s => some s
  | _ => none

/-- The elements of an array or a slice. -/
def Val.list? : Val → Option (List Val)
  | .list vs => some vs
  | _ => none

/-- The fields of a struct. -/
def Val.struct? : Val → Option (List Val)
  | .struct vs => some vs
  | _ => none

/-- The entries of a map. -/
def Val.map? : Val → Option (Key → Option Val)
  | .map f => some f
  | _ => none

/-- Operation on a key of a map. -/
inductive KOp where
  | prim (k : Kind)
  | str
deriving DecidableEq, Repr

mutual
/-- A streaming operation: the closures of groot/rdict/wstreamer.go and
groot/rdict/rstreamer.go.
`prim`: groot/rdict/wstreamer.go:594-690 (`wstreamF64`), groot/rdict/rstreamer.go:635-695
(`rstreamF64`); `str`: groot/rdict/wstreamer.go:714-718, 1084-1089
(`wstreamTString`, `wstreamStdString`), groot/rdict/rstreamer.go:713-716, 1115-1119
(`rstreamTString`, `rstreamStdString`); `array`: groot/rdict/wstreamer.go:730-748
(`wstreamBasicArray`), groot/rdict/rstreamer.go:749-763 (`rstreamBasicArray`); `slice`:
groot/rdict/wstreamer.go:801-828 (`wstreamStdSlice`, `wstreamStdSet`),
groot/rdict/rstreamer.go:819-849 (`rstreamStdSlice`, `rstreamStdSet`); `typed`:
groot/rdict/wstreamer.go:789-799 (`wstreamType`), groot/rdict/rstreamer.go:804-817
(`rstreamType`); `map`: groot/rdict/wstreamer.go:830-897 (`wstreamStdMap`),
groot/rdict/rstreamer.go:851-921 (`rstreamStdMap`); `bitset`: groot/rdict/wstreamer.go:899-908
(`wstreamStdBitset`), groot/rdict/rstreamer.go:923-933 (`rstreamStdBitset`); `cat`:
groot/rdict/wstreamer.go:1067-1082 (`wstreamCat`), groot/rdict/rstreamer.go:1089-1113
(`rstreamCat`). `map` carries whether the keys and the values come with a header and the
versions the writer puts there. -/
inductive Op where
  | prim (k : Kind)
  | str
  | array (n : Nat) (o : Op)
  | slice (o : Op)
  | typed (o : Op)
  | map (kh : Bool) (kvers : BitVec 16) (k : KOp) (vh : Bool) (vvers : BitVec 16) (v : Op)
  | bitset (n : Nat)
  | cat (vers : BitVec 16) (fs : Flds)
/-- The operations on the fields of a struct, in order. `path` is the index path
of the field with the number of elements. -/
inductive Flds where
  | nil
  | plain (o : Op) (rest : Flds)
  | varr (k : Kind) (path : List Nat) (rest : Flds)
  | loop (path : List Nat) (o : Op) (rest : Flds)
end

/-- The signed value of a field, `reflect.Value.Int`: panics on other types. -/
def Val.int? : Val → Option Int
  | .prim (.i8 v) => some v.toInt
  | .prim (.i16 v) => some v.toInt
  | .prim (.i32 v) => some v.toInt
  | .prim (.i64 v) => some v.toInt
  | _ => none

/-- `FieldByIndex(cfg.descr.method).Int()` in groot/rdict/descr.go:38-43 (`counter`). -/
def counter : List Val → List Nat → Option Int
  | _, [] => none
  | vs, [i] => vs[i]?.bind Val.int?
  | vs, i :: j :: path => (vs[i]?.bind Val.struct?).bind fun ws => counter ws (j :: path)

/-- rvers.StreamerBaseSTL, the version of typed headers:
groot/rdict/wstreamer.go:789-799 (`wstreamType`). -/
def stlVers : BitVec 16 := 9

/-- The bits of a value of a basic type. -/
def primBits : Prim → Nat
  | .bool v => if v then 1 else 0
  | .u8 v => v.toNat | .u16 v => v.toNat | .u32 v => v.toNat | .u64 v => v.toNat
  | .i8 v => v.toNat | .i16 v => v.toNat | .i32 v => v.toNat | .i64 v => v.toNat
  | .f32 v => v.toNat | .f64 v => v.toNat

/-- The value with the given bits. -/
def primOf : Kind → Nat → Prim
  | .bool, n => .bool (n != 0)
  | .u8, n => .u8 (BitVec.ofNat 8 n) | .u16, n => .u16 (BitVec.ofNat 16 n)
  | .u32, n => .u32 (BitVec.ofNat 32 n) | .u64, n => .u64 (BitVec.ofNat 64 n)
  | .i8, n => .i8 (BitVec.ofNat 8 n) | .i16, n => .i16 (BitVec.ofNat 16 n)
  | .i32, n => .i32 (BitVec.ofNat 32 n) | .i64, n => .i64 (BitVec.ofNat 64 n)
  | .f32, n => .f32 (BitVec.ofNat 32 n) | .f64, n => .f64 (BitVec.ofNat 64 n)

/-- All elements of a slice asserted to be of one basic type. -/
def prims? (k : Kind) : List Val → Option (List Prim)
  | [] => some []
  | v :: vs => (v.prim? k).bind fun p => (prims? k vs).bind fun ps => some (p :: ps)

/-! ## Writing -/

/-- `for i := range n { wop(w, rv.Index(i)...) }`, as in
groot/rdict/wstreamer.go:801-821 (`wstreamStdSlice`). -/
def writeEach (f : Val → WBuf → Option WBuf) : List Val → WBuf → Option WBuf
  | [], w => some w
  | v :: vs, w => (f v w).bind (writeEach f vs)

/-- Header, body, byte count. -/
def inHeader (vers : BitVec 16) (body : WBuf → Option WBuf) (w : WBuf) : Option WBuf :=
  (w.writeHeader vers).bind fun q => (body q.2).bind fun w => w.setHeader q.1

/-- groot/rdict/wstreamer.go:772-787 (`wstreamHeader`, `wsetHeader`): the header of the
keys or values of a map, if there is one. -/
def maybeHeader (h : Bool) (vers : BitVec 16) (body : WBuf → Option WBuf) (w : WBuf) : Option WBuf :=
  if h then inHeader vers body w else body w

/-- A key of a map. -/
def writeKey (k : KOp) (v : Key) (w : WBuf) : Option WBuf :=
  match k, v with
  | .prim k, .prim p => if p.kind = k then w.writePrim p else none
  | .str, .str s => w.writeString s
  | _, _ => none

/-- The keys of a map, one after the other. -/
def writeKeys (k : KOp) : List Key → WBuf → Option WBuf
  | [], w => some w
  | v :: vs, w => (writeKey k v w).bind (writeKeys k vs)

/-- groot/rdict/wstreamer.go:910-1029 (`wstreamBools`, `wstreamF64s`): the first `n`
elements as one array. Slices are taken to have no spare capacity. -/
def writeVarr (k : Kind) (n : Int) (vs : List Val) (w : WBuf) : Option WBuf :=
  if n < 0 ∨ (vs.length : Int) < n then none
  else (prims? k (vs.take n.toNat)).bind fun ps =>
    (w.writeBE 1 1).bind fun w => w.writeArray k.width (ps.map primBits)

/-- groot/rdict/wstreamer.go:750-770 (`wstreamBasicSlice`): a negative number of elements means none. -/
def writeLoop (f : Val → WBuf → Option WBuf) (n : Int) (vs : List Val) (w : WBuf) : Option WBuf :=
  if (vs.length : Int) < n then none
  else (w.writeBE 1 1).bind (writeEach f (vs.take n.toNat))

mutual
/-- Running a write operation. `range` gives the entries of a map in the order in
which `MapRange` visits them, groot/rdict/wstreamer.go:851-857 (`MapRange`). -/
def wrun (range : (Key → Option Val) → List (Key × Val)) : Op → Val → WBuf → Option WBuf
  | .prim k, v, w => (v.prim? k).bind fun p => w.writePrim p
  | .str, v, w => v.str?.bind fun s => w.writeString s
  | .array n o, v, w => v.list?.bind fun vs =>
      if vs.length < n then none else writeEach (wrun range o) (vs.take n) w
  | .slice o, v, w => v.list?.bind fun vs =>
      (w.writeBE 4 (vs.length % 2 ^ 32)).bind (writeEach (wrun range o) vs)
  | .typed o, v, w => inHeader stlVers (wrun range o v) w
  | .map kh kvers k vh vvers o, v, w => v.map?.bind fun f =>
      inHeader stlVers (fun w => (w.writeBE 4 ((range f).length % 2 ^ 32)).bind fun w =>
        if (range f).isEmpty then some w
        else (maybeHeader kh kvers (writeKeys k ((range f).map (·.1))) w).bind
          (maybeHeader vh vvers (writeEach (wrun range o) ((range f).map (·.2))))) w
  | .bitset n, v, w => v.list?.bind fun vs =>
      if vs.length < n then none
      else (prims? .u8 (vs.take n)).bind fun ps =>
        (w.writeBE 4 (n % 2 ^ 32)).bind (WBuf.writePrims ps.reverse)
  | .cat vers fs, v, w => v.struct?.bind fun vs => inHeader vers (wflds range fs 0 vs) w
/-- The fields from index `i` on. -/
def wflds (range : (Key → Option Val) → List (Key × Val)) : Flds → Nat → List Val → WBuf → Option WBuf
  | .nil, _, _, w => some w
  | .plain o rest, i, vs, w => vs[i]?.bind fun v => (wrun range o v w).bind (wflds range rest (i + 1) vs)
  | .varr k path rest, i, vs, w => (counter vs path).bind fun n => (vs[i]?.bind Val.list?).bind fun xs =>
      (writeVarr k n xs w).bind (wflds range rest (i + 1) vs)
  | .loop path o rest, i, vs, w => (counter vs path).bind fun n => (vs[i]?.bind Val.list?).bind fun xs =>
      (writeLoop (wrun range o) n xs w).bind (wflds range rest (i + 1) vs)
end

/-! ## Reading -/

/-- The zero value of a basic type. -/
def primZero (k : Kind) : Prim := primOf k 0

mutual
/-- The zero value of the Go type an operation reads. -/
def Op.zero : Op → Val
  | .prim k => .prim (primZero k)
  | .str => .str []
  | .array n o => .list (List.replicate n o.zero)
  | .slice _ => .list []
  | .typed o => o.zero
  | .map .. => .map fun _ => none
  | .bitset _ => .list []
  | .cat _ fs => .struct fs.zeros
def Flds.zeros : Flds → List Val
  | .nil => []
  | .plain o rest => o.zero :: rest.zeros
  | .varr _ _ rest => .list [] :: rest.zeros
  | .loop _ _ rest => .list [] :: rest.zeros
end

/-- `for i := range n { rop(r, rv.Index(i)...) }` with the given receivers. -/
def readEach (f : Val → RBuf → Option (Val × RBuf)) : List Val → RBuf → Option (List Val × RBuf)
  | [], r => some ([], r)
  | v :: vs, r => (f v r).bind fun q => (readEach f vs q.2).bind fun s => some (q.1 :: s.1, s.2)

/-- `r.CheckHeader(hdr); return r.Err()` -/
def checked (hdr : Header) (r : RBuf) : Option RBuf :=
  if (r.checkHeader hdr).err then none else some (r.checkHeader hdr)

/-- Header with the given maximal version, body, check of the byte count. -/
def inHeaderR (vmax : Int) (body : Header → RBuf → Option (α × RBuf)) (r : RBuf) : Option (α × RBuf) :=
  (r.readHeader vmax).bind fun h => (body h.1 h.2).bind fun q =>
    (checked h.1 q.2).bind fun r => some (q.1, r)

/-- groot/rdict/rstreamer.go:786-802 (`rstreamHeader`, `rcheckHeader`). -/
def maybeHeaderR (h : Bool) (body : RBuf → Option (α × RBuf)) (r : RBuf) : Option (α × RBuf) :=
  if h then inHeaderR (-1) (fun _ => body) r else body r

/-- A key of a map. -/
def readKey (k : KOp) (r : RBuf) : Option (Key × RBuf) :=
  match k with
  | .prim k => (r.readPrim k).bind fun q => some (.prim q.1, q.2)
  | .str => r.readString.bind fun q => some (.str q.1, q.2)

/-- `n` keys of a map. -/
def readKeys (k : KOp) : Nat → RBuf → Option (List Key × RBuf)
  | 0, r => some ([], r)
  | n + 1, r => (readKey k r).bind fun q => (readKeys k n q.2).bind fun s => some (q.1 :: s.1, s.2)

/-- `int(r.ReadI32())` -/
def readCount (r : RBuf) : Option (Int × RBuf) :=
  (r.readBE 4).bind fun q => some ((BitVec.ofNat 32 q.1).toInt, q.2)

/-- Receivers for `n` elements of a slice: the old elements, then zero values. -/
def receivers (z : Val) (n : Nat) (old : List Val) : List Val :=
  (old ++ List.replicate (n - old.length) z).take n

/-- `rv.SetMapIndex` for all pairs, groot/rdict/rstreamer.go:912-917 (`SetMapIndex`). -/
def setAll (f : Key → Option Val) : List (Key × Val) → (Key → Option Val)
  | [] => f
  | (k, v) :: kvs => setAll (fun x => if x = k then some v else f x) kvs

/-- groot/rdict/rstreamer.go:935-1054 (`rstreamBools`, `rstreamF64s`). -/
def readVarr (k : Kind) (n : Int) (r : RBuf) : Option (List Val × RBuf) :=
  if n < 0 then none
  else (r.readArray k.width n.toNat).bind fun q => some (q.1.map fun b => .prim (primOf k b), q.2)

/-- groot/rdict/rstreamer.go:765-784 (`rstreamBasicSlice`): the slice is made longer if
needed, but never shorter. -/
def readLoop (f : Val → RBuf → Option (Val × RBuf)) (z : Val) (n : Int) (old : List Val) (r : RBuf) :
    Option (List Val × RBuf) :=
  (readEach f (receivers z n.toNat old) r).bind fun q => some (q.1 ++ old.drop n.toNat, q.2)

/-- The optional part of groot/rdict/rstreamer.go:858-867 (`clvers`): class version
and checksum of a map streamed member-wise. -/
def skipMemberWise (mw : Bool) (r : RBuf) : Option RBuf :=
  if mw then (r.readBE 2).bind fun q =>
    if (BitVec.ofNat 16 q.1).toInt ≤ 0 then (q.2.readBE 4).bind fun s => some s.2 else some q.2
  else some r

/-- groot/rdict/rstreamer.go:876-910 (`krop`, `vrop`): keys and values, if there are any. -/
def readEntries (kr : RBuf → Option (List Key × RBuf)) (vr : RBuf → Option (List Val × RBuf)) (n : Int)
    (r : RBuf) : Option (List (Key × Val) × RBuf) :=
  if n < 0 then none
  else if n = 0 then some ([], r)
  else (kr r).bind fun ks => (vr ks.2).bind fun vs => some (ks.1.zip vs.1, vs.2)

mutual
/-- Running a read operation into a receiver holding a value. -/
def rrun : Op → Val → RBuf → Option (Val × RBuf)
  | .prim k, _, r => (r.readPrim k).bind fun q => some (.prim q.1, q.2)
  | .str, _, r => r.readString.bind fun q => some (.str q.1, q.2)
  | .array n o, old, r => old.list?.bind fun os =>
      if os.length < n then none
      else (readEach (rrun o) (os.take n) r).bind fun q => some (.list (q.1 ++ os.drop n), q.2)
  | .slice o, old, r => old.list?.bind fun os =>
      (readCount r).bind fun c =>
        if c.1 < 0 then none
        else (readEach (rrun o) (receivers o.zero c.1.toNat os) c.2).bind fun q => some (.list q.1, q.2)
  | .typed o, old, r => inHeaderR stlVers.toInt (fun _ => rrun o old) r
  | .map kh _ k vh _ o, old, r => old.map?.bind fun f =>
      (inHeaderR stlVers.toInt (fun h r => (skipMemberWise h.memberWise r).bind fun r =>
        (readCount r).bind fun c =>
          readEntries (maybeHeaderR kh (readKeys k c.1.toNat))
            (maybeHeaderR vh (readEach (rrun o) (List.replicate c.1.toNat o.zero))) c.1 c.2) r).bind
      fun q => some (.map (setAll f q.1), q.2)
  | .bitset _, old, r => old.list?.bind fun _ => (readCount r).bind fun c =>
      if c.1 < 0 then none
      else (c.2.readPrims (List.replicate c.1.toNat .u8)).bind fun q =>
        some (.list (q.1.reverse.map .prim), q.2)
  | .cat vers fs, old, r => old.struct?.bind fun os =>
      (inHeaderR vers.toInt (fun h r => if h.vers ≠ vers then none else rflds fs 0 os r) r).bind
      fun q => some (.struct q.1, q.2)
/-- The fields from index `i` on; the values of the struct so far are `cur`. -/
def rflds : Flds → Nat → List Val → RBuf → Option (List Val × RBuf)
  | .nil, _, cur, r => some (cur, r)
  | .plain o rest, i, cur, r => cur[i]?.bind fun v => (rrun o v r).bind fun q =>
      rflds rest (i + 1) (cur.set i q.1) q.2
  | .varr k path rest, i, cur, r => r.readU8.bind fun b => (counter cur path).bind fun n =>
      (cur[i]?.bind Val.list?).bind fun _ => (readVarr k n b.2).bind fun q =>
        rflds rest (i + 1) (cur.set i (.list q.1)) q.2
  | .loop path o rest, i, cur, r => r.readU8.bind fun b => (counter cur path).bind fun n =>
      (cur[i]?.bind Val.list?).bind fun xs => (readLoop (rrun o) o.zero n xs b.2).bind fun q =>
        rflds rest (i + 1) (cur.set i (.list q.1)) q.2
end

/-- A streamer info compiled for writing and reading: class version and the
operations on the fields. -/
structure Info where
  vers : BitVec 16
  fs : Flds

/-- groot/rdict/encoder.go:25-50 (`EncodeROOT`), object-wise. -/
def encode (range : (Key → Option Val) → List (Key × Val)) (si : Info) (v : Val) (w : WBuf) : Option WBuf :=
  wrun range (.cat si.vers si.fs) v w

/-- groot/rdict/decoder.go:26-58 (`DecodeROOT`), object-wise. -/
def decode (si : Info) (old : Val) (r : RBuf) : Option (Val × RBuf) :=
  rrun (.cat si.vers si.fs) old r

end Verif.Rdict
