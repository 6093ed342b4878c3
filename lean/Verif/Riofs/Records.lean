import Verif.RBytes.Ints
import Verif.Riofs.Datime
import Verif.FreeList.Model

/-!
# Model of the records of a ROOT file: keys, free segments, directory and file headers

Go's fixed-width signed integers are `Int`s; conversions to narrower types wrap
(`wrapS`), and so do the writers (`WBuf.writeInt`).
-/

namespace Verif.Riofs

open Verif.RBytes Verif.FreeList

/-- groot/riofs/file.go (`kStartBigFile`). -/
def kStartBigFile : Int := 2000000000

/-- groot/riofs/key.go:75-103 (`Key`), the persistent fields. -/
structure Key where
  rvers : Int
  nbytes : Int
  objlen : Int
  datetime : Civil
  keylen : Int
  cycle : Int
  seekkey : Int
  seekpdir : Int
  cls : List UInt8
  name : List UInt8
  title : List UInt8
deriving DecidableEq, Repr

/-- groot/riofs/key.go:511-513 (`isBigFile`). -/
def Key.isBigFile (k : Key) : Bool := decide (k.rvers > 1000)

/-- groot/riofs/sizeof.go:8-14 (`tstringSizeof`). -/
def tstringSizeof (v : List UInt8) : Int :=
  let n := wrapS 4 v.length
  if n > 254 then n + 1 + 4 else n + 1

/-- "TBasket". -/
def tBasket : List UInt8 := [84, 66, 97, 115, 107, 101, 116]

/-- groot/riofs/key.go:520-538 (`keylenFor`); `dirBig` is `dir.isBigFile()`.
The `int32` sum is not wrapped (names of 2 GiB are out of scope). -/
def keylenFor (name title cls : List UInt8) (dirBig : Bool) (eof : Int) : Int :=
  22 + (if dirBig || decide (eof > kStartBigFile) then 8 else 0) + 4
    + tstringSizeof cls + tstringSizeof name + tstringSizeof title
    + (if cls = tBasket then 2 + 4 + 4 + 4 + 4 + 1 else 0)

/-- The version bump at the start of groot/riofs/key.go:541-578 (`MarshalROOT`). -/
def Key.bump (k : Key) : Key :=
  if k.seekkey > kStartBigFile ∧ k.rvers < 1000 then { k with rvers := k.rvers + 1000 } else k

/-- groot/riofs/key.go:541-578 (`MarshalROOT`), the fields following the length. -/
def Key.marshalFields (k : Key) (w : WBuf) : Option WBuf :=
  (time2datime k.datetime).bind fun d =>
  (w.writeInt 2 k.rvers).bind fun w =>
  (w.writeInt 4 k.objlen).bind fun w =>
  (w.writeBE 4 d.toNat).bind fun w =>
  (w.writeInt 2 (wrapS 2 k.keylen)).bind fun w =>
  (w.writeInt 2 k.cycle).bind fun w =>
  (if k.isBigFile then
    (w.writeInt 8 k.seekkey).bind fun w => w.writeInt 8 k.seekpdir
  else
    (w.writeInt 4 (wrapS 4 k.seekkey)).bind fun w => w.writeInt 4 (wrapS 4 k.seekpdir)).bind fun w =>
  (w.writeString k.cls).bind fun w =>
  (w.writeString k.name).bind fun w =>
  w.writeString k.title

/-- groot/riofs/key.go:541-578 (`MarshalROOT`). -/
def Key.marshal (k : Key) (w : WBuf) : Option WBuf :=
  if w.err then some w
  else (w.writeInt 4 k.nbytes).bind fun w =>
    if k.nbytes < 0 then some w else k.bump.marshalFields w

/-- groot/riofs/key.go:581-613 (`UnmarshalROOT`) of a record which is not a gap
(`[GAP]` keys carry nothing but their negative length: `none` stands for them here). -/
def Key.unmarshal (r : RBuf) : Option (Key × RBuf) :=
  (r.readInt 4).bind fun nbytes =>
  if nbytes.1 < 0 then none
  else
  (nbytes.2.readInt 2).bind fun rvers =>
  (rvers.2.readInt 4).bind fun objlen =>
  (objlen.2.readBE 4).bind fun d =>
  (d.2.readInt 2).bind fun keylen =>
  (keylen.2.readInt 2).bind fun cycle =>
  (if rvers.1 > 1000 then
    (cycle.2.readInt 8).bind fun a => (a.2.readInt 8).bind fun b => some ((a.1, b.1), b.2)
  else
    (cycle.2.readInt 4).bind fun a => (a.2.readInt 4).bind fun b => some ((a.1, b.1), b.2)).bind fun seeks =>
  (seeks.2.readString).bind fun cls =>
  (cls.2.readString).bind fun name =>
  (name.2.readString).bind fun title =>
  some ({ rvers := rvers.1, nbytes := nbytes.1, objlen := objlen.1,
          datetime := datime2time (BitVec.ofNat 32 d.1), keylen := keylen.1, cycle := cycle.1,
          seekkey := seeks.1.1, seekpdir := seeks.1.2, cls := cls.1, name := name.1,
          title := title.1 }, title.2)

/-- groot/riofs/blocks.go:30-35 (`sizeof`). -/
def segSizeof (s : Seg) : Int := if s.last > kStartBigFile then 18 else 10

/-- groot/riofs/blocks.go:37-62 (`MarshalROOT`); the preliminary `Grow` only reserves room. -/
def segMarshal (s : Seg) (w : WBuf) : Option WBuf :=
  if w.err then some w
  else
    let w := w.grow (segSizeof s).toNat
    let vers : Int := if s.last > kStartBigFile then 1 + 1000 else 1
    (w.writeInt 2 vers).bind fun w =>
    if vers > 1000 then (w.writeInt 8 s.first).bind fun w => w.writeInt 8 s.last
    else (w.writeInt 4 (wrapS 4 s.first)).bind fun w => w.writeInt 4 (wrapS 4 s.last)

/-- groot/riofs/blocks.go:64-80 (`UnmarshalROOT`). -/
def segUnmarshal (r : RBuf) : Option (Seg × RBuf) :=
  (r.readInt 2).bind fun vers =>
  if vers.1 > 1000 then
    (vers.2.readInt 8).bind fun a => (a.2.readInt 8).bind fun b => some (⟨a.1, b.1⟩, b.2)
  else
    (vers.2.readInt 4).bind fun a => (a.2.readInt 4).bind fun b => some (⟨a.1, b.1⟩, b.2)

/-- groot/rbase/uuid.go:32-42 (`MarshalROOT`); the version of `TUUID` is 1. -/
def uuidMarshal (uuid : List UInt8) (w : WBuf) : Option WBuf :=
  if w.err then some w
  else (w.writeBE 2 1).bind fun w => some (w.write uuid)

/-- groot/rbase/uuid.go:54-63 (`UnmarshalROOT`). -/
def uuidUnmarshal (r : RBuf) : Option (List UInt8 × RBuf) :=
  (r.readBE 2).bind fun v => v.2.readFull 16

/-- groot/rbase/uuid.go:44-52 (`UnmarshalROOTv1`). -/
def uuidUnmarshalV1 (r : RBuf) : Option (List UInt8 × RBuf) := r.readFull 16

/-- groot/riofs/dir.go:80-96 (`tdirectoryFile`), the persistent fields; `rvers` and
`uuid` are those of the embedded `tdirectory`. -/
structure DirHdr where
  rvers : Int
  ctime : Civil
  mtime : Civil
  nbyteskeys : Int
  nbytesname : Int
  seekdir : Int
  seekparent : Int
  seekkeys : Int
  uuid : List UInt8
deriving DecidableEq, Repr

/-- groot/riofs/dir.go:526-556 (`MarshalROOT`), with `isBigFile`
(groot/riofs/dir.go:146-148). -/
def DirHdr.marshal (d : DirHdr) (w : WBuf) : Option WBuf :=
  if w.err then some w
  else
  (time2datime d.ctime).bind fun c =>
  (time2datime d.mtime).bind fun m =>
  (w.writeInt 2 d.rvers).bind fun w =>
  (w.writeBE 4 c.toNat).bind fun w =>
  (w.writeBE 4 m.toNat).bind fun w =>
  (w.writeInt 4 d.nbyteskeys).bind fun w =>
  (w.writeInt 4 d.nbytesname).bind fun w =>
  (if d.rvers > 1000 then
    (w.writeInt 8 d.seekdir).bind fun w => (w.writeInt 8 d.seekparent).bind fun w => w.writeInt 8 d.seekkeys
  else
    (w.writeInt 4 (wrapS 4 d.seekdir)).bind fun w => (w.writeInt 4 (wrapS 4 d.seekparent)).bind fun w =>
      w.writeInt 4 (wrapS 4 d.seekkeys)).bind fun w =>
  uuidMarshal d.uuid w

/-- groot/riofs/dir.go:558-591 (`UnmarshalROOT`). `prev` is the identifier the
directory object had before (kept for versions without identifier). -/
def DirHdr.unmarshal (prev : List UInt8) (r : RBuf) : Option (DirHdr × RBuf) :=
  (r.readInt 2).bind fun rvers =>
  (rvers.2.readBE 4).bind fun c =>
  (c.2.readBE 4).bind fun m =>
  (m.2.readInt 4).bind fun nbk =>
  (nbk.2.readInt 4).bind fun nbn =>
  (if rvers.1 > 1000 then
    (nbn.2.readInt 8).bind fun a => (a.2.readInt 8).bind fun b => (b.2.readInt 8).bind fun c =>
      some ((a.1, b.1, c.1), c.2)
  else
    (nbn.2.readInt 4).bind fun a => (a.2.readInt 4).bind fun b => (b.2.readInt 4).bind fun c =>
      some ((a.1, b.1, c.1), c.2)).bind fun s =>
  (if rvers.1.tmod 1000 = 2 then uuidUnmarshalV1 s.2
   else if rvers.1.tmod 1000 > 2 then uuidUnmarshal s.2
   else some (prev, s.2)).bind fun u =>
  some ({ rvers := rvers.1, ctime := datime2time (BitVec.ofNat 32 c.1),
          mtime := datime2time (BitVec.ofNat 32 m.1), nbyteskeys := nbk.1, nbytesname := nbn.1,
          seekdir := s.1.1, seekparent := s.1.2.1, seekkeys := s.1.2.2, uuid := u.1 }, u.2)

/-- The fields of groot/riofs/file.go (`File`) stored in the file header. `nfree`
is the length of the list of free segments when writing. -/
structure FileHdr where
  version : Int
  begin : Int
  end_ : Int
  seekfree : Int
  nbytesfree : Int
  nfree : Int
  nbytesname : Int
  units : Nat
  compression : Int
  seekinfo : Int
  nbytesinfo : Int
  uuid : List UInt8
deriving DecidableEq, Repr

/-- "root". -/
def rootMagic : List UInt8 := [114, 111, 111, 116]

/-- The test at the start of groot/riofs/file.go:370-432 (`writeHeader`) that selects
the 64-bit layout; `IsBigFile` is groot/riofs/file.go:967-969 (`IsBigFile`). -/
def FileHdr.big (f : FileHdr) : Prop :=
  f.end_ > kStartBigFile ∨ f.seekfree > kStartBigFile ∨ f.seekinfo > kStartBigFile

instance (f : FileHdr) : Decidable f.big := by unfold FileHdr.big; infer_instance

/-- groot/riofs/file.go:370-432 (`writeHeader`): the local `version`. -/
def FileHdr.wversion (f : FileHdr) : Int :=
  if f.big ∧ f.version < 1000000 then f.version + 1000000 else f.version

/-- groot/riofs/file.go:370-432 (`writeHeader`): `f.units` after the test. -/
def FileHdr.wunits (f : FileHdr) : Nat := if f.big then 8 else f.units

/-- groot/riofs/file.go:370-432 (`writeHeader`), the bytes of the header. -/
def FileHdr.marshal (f : FileHdr) (w : WBuf) : Option WBuf :=
  ((some (w.write rootMagic)).bind fun w =>
  (w.writeInt 4 f.wversion).bind fun w =>
  (w.writeInt 4 (wrapS 4 f.begin)).bind fun w =>
  (if f.wversion < 1000000 then
    (w.writeInt 4 (wrapS 4 f.end_)).bind fun w => w.writeInt 4 (wrapS 4 f.seekfree)
  else (w.writeInt 8 f.end_).bind fun w => w.writeInt 8 f.seekfree).bind fun w =>
  (w.writeInt 4 f.nbytesfree).bind fun w =>
  (w.writeInt 4 f.nfree).bind fun w =>
  (w.writeInt 4 f.nbytesname).bind fun w =>
  (w.writeBE 1 f.wunits).bind fun w =>
  (w.writeInt 4 f.compression).bind fun w =>
  (if f.wversion < 1000000 then w.writeInt 4 (wrapS 4 f.seekinfo) else w.writeInt 8 f.seekinfo).bind fun w =>
  (w.writeInt 4 f.nbytesinfo).bind fun w =>
  uuidMarshal f.uuid w)

/-- groot/riofs/file.go:290-368 (`readHeader`), the part decoding the header: magic,
fixed fields, then the identifier as 16 raw bytes. `none` also stands for a wrong
magic. -/
def FileHdr.unmarshal (r : RBuf) : Option (FileHdr × RBuf) :=
  (r.readFull 4).bind fun magic =>
  if magic.1 ≠ rootMagic then none
  else
  (magic.2.readInt 4).bind fun version =>
  (version.2.readInt 4).bind fun begin =>
  (if version.1 < 1000000 then
    (begin.2.readInt 4).bind fun a => (a.2.readInt 4).bind fun b => some ((a.1, b.1), b.2)
  else
    (begin.2.readInt 8).bind fun a => (a.2.readInt 8).bind fun b => some ((a.1, b.1), b.2)).bind fun es =>
  (es.2.readInt 4).bind fun nbytesfree =>
  (nbytesfree.2.readInt 4).bind fun nfree =>
  (nfree.2.readInt 4).bind fun nbytesname =>
  (nbytesname.2.readU8).bind fun units =>
  (units.2.readInt 4).bind fun compression =>
  (if version.1 < 1000000 then compression.2.readInt 4 else compression.2.readInt 8).bind fun seekinfo =>
  (seekinfo.2.readInt 4).bind fun nbytesinfo =>
  (nbytesinfo.2.readFull 16).bind fun uuid =>
  some ({ version := version.1.tmod 1000000, begin := begin.1, end_ := es.1.1, seekfree := es.1.2,
          nbytesfree := nbytesfree.1, nfree := nfree.1, nbytesname := nbytesname.1,
          units := units.1, compression := compression.1, seekinfo := seekinfo.1,
          nbytesinfo := nbytesinfo.1, uuid := uuid.1 }, uuid.2)

end Verif.Riofs
