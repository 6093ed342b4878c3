import Verif.Common.Bytes

/-!
# Trees: the writer, the basket records and the reader

Model of `groot/rtree`: how a `Writer` cuts the entries of its branches into
baskets, what is stored for each of them, and how a `Reader` finds an entry
again.  Common simplifications:

* the bytes a leaf writes for one entry are given (leaf codecs are not part of
  this model); a reader hands the leaf the buffer positioned at the entry;
* a basket record is stored with its uncompressed payload under the position it
  was written at; the compressed length enters the file size through the
  function `z` (that decompression restores the payload is a subject of the
  `Compress` model);
* a branch made by a `Writer` has exactly one leaf, at offset 0, and no
  sub-branches, as in the code.

Go panics are `none`.
-/

namespace Verif.RTree

abbrev Bytes := List UInt8

/-- groot/riofs/consts.go:10-12 (`kStartBigFile`). -/
def kStartBigFile : Nat := 2000000000

/-- A basket record as stored in the file: the fields of the header
groot/rtree/basket.go:79-156 (`MarshalROOT`) writes which a reader uses, and
the payload behind it. -/
structure Stored where
  keylen  : Nat
  nbytes  : Nat
  nevsize : Nat
  nevbuf  : Nat
  last    : Nat
  payload : Bytes
deriving DecidableEq

/-- The file: its end and the basket records by position.  groot/riofs/file.go:237-239
(`setEnd`). -/
structure File where
  fend : Nat
  disk : Nat → Option Stored

/-- groot/riofs/file.go:967-969 (`IsBigFile`). -/
def File.big (f : File) : Bool := kStartBigFile < f.fend

/-- groot/riofs/key.go:520-538 (`keylenFor`): `base` are the bytes which do not
depend on the file; the directory of the file switches to big positions only
when it is closed (groot/riofs/dir.go:276-286 (`rvers`)), by which time the file is big. -/
def keylenFor (base : Nat) (f : File) : Nat := base + (if f.big then 8 else 0)

/-- What kind of write variable a branch was made for.
groot/rtree/branch.go:62-143 (`newBranchFromWVar`): numbers, booleans and arrays of
them get no offset table; strings and counted slices one of 1000;
groot/rtree/branch.go:866-871 (`entryOffsetLen`): structs one of 20, uncounted slices
(`std::vector`) one of 400.  The number of bytes of a fixed-size value is kept here. -/
inductive Kind where
  | fixed (n : Nat) | counted | struct | vector
deriving DecidableEq, Repr

/-- The `entryOffsetLen` of the branch, see `Kind`. -/
def Kind.eoff : Kind → Nat
  | .fixed _ => 0 | .counted => 1000 | .struct => 20 | .vector => 400

/-- Whether the branch is a `tbranchElement`, see `Kind`. -/
def Kind.elem : Kind → Bool
  | .fixed _ => false | .counted => false | .struct => true | .vector => true

/-- A basket being filled: groot/rtree/basket.go:22-40 (`Basket`).  A nil offset
table is the empty list; the code makes no other empty table. -/
structure Basket where
  keylen  : Nat
  big     : Bool
  nevsize : Nat
  nevbuf  : Nat
  offsets : List Nat
  wbuf    : Bytes
deriving DecidableEq

/-- groot/rtree/basket.go:42-61 (`newBasketFrom`) with
groot/riofs/key.go:280-316 (`NewKeyForBasketInternal`). -/
def newBasket (k : Kind) (base : Nat) (f : File) : Basket :=
  { keylen := keylenFor base f, big := f.big, nevsize := k.eoff, nevbuf := 0,
    offsets := List.replicate k.eoff 0, wbuf := [] }

/-- `|a - b|`, as `delta` in groot/rtree/basket.go:277-301 (`update`). -/
def absDiff (a b : Nat) : Nat := (a - b) + (b - a)

/-- groot/rtree/basket.go:277-292 (`update`). -/
def Basket.update (b : Basket) (offset : Nat) : Option Basket :=
  if b.offsets = [] then
    some { b with nevbuf := b.nevbuf + 1 }
  else if b.nevbuf + 1 ≥ b.nevsize then
    let nevsize := max 10 (2 * b.nevsize)
    let offs := b.offsets ++ List.replicate (absDiff b.offsets.length nevsize) 0
    if b.nevbuf < offs.length then
      some { b with nevsize := nevsize, offsets := offs.set b.nevbuf (offset + b.keylen),
                    nevbuf := b.nevbuf + 1 }
    else none
  else if b.nevbuf < b.offsets.length then
    some { b with offsets := b.offsets.set b.nevbuf (offset + b.keylen), nevbuf := b.nevbuf + 1 }
  else none

/-- groot/rtree/basket.go:294-301 (`grow`). -/
def Basket.grow (b : Basket) (n : Nat) : Basket :=
  { b with nevsize := n, offsets := b.offsets ++ List.replicate (absDiff b.offsets.length n) 0 }

/-- The array of the offset table: groot/rtree/basket.go:325-327 (`WriteArrayI32`). -/
def encOffsets (offs : List Nat) : Bytes := (offs.map (beEnc 4)).flatten

/-- groot/rtree/basket.go:303-357 (`writeFile`): the record, its position, and the
file after it.  `z` gives the compressed form of a payload. -/
def Basket.writeFile (base : Nat) (z : Bytes → Bytes) (b : Basket) (f : File) :
    Nat × Nat × File :=
  let adjust := !b.big && f.big
  let last := b.keylen + b.wbuf.length
  let offs := if adjust then b.offsets.map (· + 8) else b.offsets
  let payload :=
    if b.offsets = [] then b.wbuf
    else b.wbuf ++ beEnc 4 (b.nevbuf + 1) ++ encOffsets (offs.take b.nevbuf) ++ beEnc 4 0
  let keylen := keylenFor base f
  let nbytes := keylen + (z payload).length
  let s : Stored :=
    { keylen := keylen, nbytes := nbytes, nevsize := b.nevsize, nevbuf := b.nevbuf,
      last := if adjust then last + 8 else last, payload := payload }
  (nbytes, f.fend,
    { fend := f.fend + nbytes, disk := fun p => if p = f.fend then some s else f.disk p })

/-- A branch being written: groot/rtree/branch.go:28-60 (`tbranch`).  `bk` is the current
basket, `none` for a nil pointer. -/
structure Branch where
  kind    : Kind
  base    : Nat
  bsize   : Int
  entries : Nat
  bk      : Option Basket
  bytes   : List Nat
  entry   : List Nat
  seek    : List Nat

/-- groot/rtree/branch.go:62-143 (`newBranchFromWVar`): `base` stands for the lengths of
the names, `bsize` for the configured basket size. -/
def newBranch (k : Kind) (base : Nat) (bsize : Int) (f : File) : Branch :=
  { kind := k, base := base, bsize := bsize, entries := 0, bk := some (newBasket k base f),
    bytes := [], entry := [0], seek := [] }

/-- groot/rtree/branch.go:740-763 (`flush`). -/
def Branch.flush (z : Bytes → Bytes) (b : Branch) (f : File) : Option (Branch × File) :=
  match b.bk with
  | none => none
  | some bk =>
    let r := bk.writeFile b.base z f
    some ({ b with bk := none, bytes := b.bytes ++ [r.1], entry := b.entry ++ [b.entries],
                   seek := b.seek ++ [r.2.1] }, r.2.2)

/-- groot/rtree/branch.go:691-698 (`createNewBasket`). -/
def Branch.createNewBasket (b : Branch) (f : File) : Branch :=
  { b with bk := some (newBasket b.kind b.base f) }

/-- The size bookkeeping after the leaves were written:
groot/rtree/branch.go:712-714 (`nevsize`) for plain branches,
groot/rtree/branch.go:1084-1086 (`grow`) for branch elements. -/
def Basket.fit (k : Kind) (b : Basket) (n : Nat) : Basket :=
  if n > b.nevsize then (if k.elem then b.grow n else { b with nevsize := n }) else b

/-- groot/rtree/branch.go:700-726 (`write`) and
groot/rtree/branch.go:1072-1098 (`write`): one entry whose leaves write the bytes `e`. -/
def Branch.write (z : Bytes → Bytes) (b : Branch) (f : File) (e : Bytes) :
    Option (Branch × File) :=
  match b.bk with
  | none => none
  | some bk =>
    match bk.update bk.wbuf.length with
    | none => none
    | some bk1 =>
      let bk2 := Basket.fit b.kind { bk1 with wbuf := bk1.wbuf ++ e } e.length
      let b2 : Branch := { b with entries := b.entries + 1, bk := some bk2 }
      if ((bk2.wbuf.length + e.length : Nat) : Int) ≥ b.bsize then
        match b2.flush z f with
        | none => none
        | some r => some (r.1.createNewBasket r.2, r.2)
      else some (b2, f)

/-- groot/rtree/writer.go:196-214 (`Write`): one value for every branch. -/
def writeRow (z : Bytes → Bytes) : List Branch → List Bytes → File → Option (List Branch × File)
  | [], [], f => some ([], f)
  | b :: bs, e :: es, f =>
    match b.write z f e with
    | none => none
    | some r =>
      match writeRow z bs es r.2 with
      | none => none
      | some r' => some (r.1 :: r'.1, r'.2)
  | _, _, _ => none

/-- groot/rtree/writer.go:217-225 (`Flush`). -/
def flushAll (z : Bytes → Bytes) : List Branch → File → Option (List Branch × File)
  | [], f => some ([], f)
  | b :: bs, f =>
    match b.flush z f with
    | none => none
    | some r =>
      match flushAll z bs r.2 with
      | none => none
      | some r' => some (r.1 :: r'.1, r'.2)

/-- What a program does with the file while the writer is open. -/
inductive Op where
  /-- `Writer.Write`, with the bytes of every branch. -/
  | write (row : List Bytes)
  /-- Something else is written to the file, `n` bytes. -/
  | other (n : Nat)

/-- One operation. -/
def step (z : Bytes → Bytes) (s : List Branch × File) : Op → Option (List Branch × File)
  | .write row => writeRow z s.1 row s.2
  | .other n => some (s.1, { s.2 with fend := s.2.fend + n })

/-- A sequence of operations. -/
def steps (z : Bytes → Bytes) : List Op → List Branch × File → Option (List Branch × File)
  | [], s => some s
  | o :: os, s =>
    match step z s o with
    | none => none
    | some s' => steps z os s'

/-! ## The tables of a branch in the file -/

/-- The part of a branch which is stored: groot/rtree/branch.go:240-340 (`MarshalROOT`). -/
structure Tables where
  eoff        : Nat
  writeBasket : Nat
  maxBaskets  : Nat
  entries     : Nat
  bytes       : List Nat
  entry       : List Nat
  seek        : List Nat
deriving DecidableEq

/-- groot/rtree/branch.go:240-340 (`MarshalROOT`): the tables are padded with zeros to
`maxBaskets` elements. -/
def Branch.marshal (b : Branch) : Tables :=
  let wb := b.bytes.length
  let maxb := max (wb + 1) 10
  let pad := fun (l : List Nat) => l ++ List.replicate (maxb - l.length) 0
  { eoff := b.kind.eoff, writeBasket := wb, maxBaskets := maxb, entries := b.entries,
    bytes := pad (b.bytes.take wb), entry := pad (b.entry.take (wb + 1)),
    seek := pad (b.seek.take wb) }

/-- groot/rtree/branch.go:344-557 (`UnmarshalROOT`): the tables are read with `maxBaskets`
elements and cut back. -/
def Tables.unmarshal (t : Tables) : Tables :=
  { t with bytes := (t.bytes.take t.maxBaskets).take t.writeBasket,
           entry := (t.entry.take t.maxBaskets).take (t.writeBasket + 1),
           seek := (t.seek.take t.maxBaskets).take t.writeBasket }

/-! ## The reader -/

/-- groot/rtree/bkreader.go:205-214 (`rspan`), for a basket which is in the file. -/
structure Span where
  beg : Nat
  fin : Nat
  pos : Nat
  sz  : Nat
deriving DecidableEq, Repr

/-- groot/rtree/bkreader.go:81-88 (`rspan`): the spans of a branch with one more entry
boundary than baskets (the recovery of unfinished branches is not modelled). -/
def spansOf : List Nat → List Nat → List Nat → List Span
  | b :: e :: es, p :: ps, n :: ns => ⟨b, e, p, n⟩ :: spansOf (e :: es) ps ns
  | _, _, _ => []

/-- groot/rtree/bkreader.go:148-166 (`findBaskets`), `ibeg`: the first span holding `beg`. -/
def findBeg (spans : List Span) (beg : Nat) : Option Nat :=
  spans.findIdx? (fun v => v.beg ≤ beg && beg < v.fin)

/-- groot/rtree/bkreader.go:148-166 (`findBaskets`), `iend`: one past the first span which
reaches `fin`. -/
def findEnd (spans : List Span) (fin : Nat) : Nat :=
  match spans.findIdx? (fun v => fin ≤ v.fin) with
  | some i => i + 1
  | none => spans.length

/-- groot/rtree/bkreader.go:37-146 (`newBkReader`): the spans handed to the prefetching
goroutine; `none` for a panic (no basket, or a slice expression out of range). -/
def requested (t : Tables) (beg fin : Nat) : Option (List Span) :=
  let spans := spansOf t.entry t.seek t.bytes
  match spans.getLast? with
  | none => if t.entries = 0 then some [] else none
  | some l =>
    if beg ≥ l.fin then some []
    else
      match findBeg spans beg with
      | none => none
      | some ibeg =>
        let iend := findEnd spans fin
        if ibeg ≤ iend then some ((spans.drop ibeg).take (iend - ibeg)) else none

/-- groot/rtree/rbasket.go:14-19 (`rbasket`), after `inflate`. -/
structure RBasket where
  span    : Span
  keylen  : Nat
  nevsize : Nat
  offsets : List Int
  data    : Bytes

/-- A 32-bit integer of the buffer, `RBuffer.ReadI32`. -/
def readI32 (bs : Bytes) : Int :=
  let n := beDec (bs.take 4)
  if n < 2 ^ 31 then (n : Int) else (n : Int) - 2 ^ 32

/-- `RBuffer.ReadArrayI32`: `n` integers, `none` if there are not enough bytes. -/
def readI32s : Nat → Bytes → Option (List Int)
  | 0, _ => some []
  | n + 1, bs =>
    if bs.length < 4 then none
    else (readI32s n (bs.drop 4)).map (readI32 bs :: ·)

/-- The buffer of a basket from an absolute position on: `SetPos` of the buffer, whose
bytes start at position `keylen`.  `none` outside of it. -/
def seekTo (keylen : Nat) (data : Bytes) (pos : Int) : Option Bytes :=
  let p := pos - keylen
  if 0 ≤ p ∧ p ≤ data.length then some (data.drop p.toNat) else none

/-- groot/rtree/rbasket.go:37-105 (`inflate`), for a basket in the file: the record is
read with the size of the table, and the offset table if the branch has one. -/
def inflate (f : File) (eoff : Nat) (sp : Span) : Option RBasket :=
  match f.disk sp.pos with
  | none => none
  | some s =>
    if sp.sz = 0 ∨ sp.sz ≠ s.nbytes then none
    else if eoff = 0 then some ⟨sp, s.keylen, s.nevsize, [], s.payload⟩
    else
      match seekTo s.keylen s.payload s.last with
      | none => none
      | some bs =>
        if bs.length < 4 then none
        else
          match readI32s (readI32 bs).toNat (bs.drop 4) with
          | none => none
          | some offs => some ⟨sp, s.keylen, s.nevsize, offs, s.payload⟩

/-- groot/rtree/rbasket.go:26-35 (`loadRLeaf`): the buffer handed to the leaf for the
`j`-th entry of the basket. -/
def RBasket.load (b : RBasket) (j : Int) : Option Bytes :=
  if j < 0 then none
  else if b.offsets = [] then seekTo b.keylen b.data (j * b.nevsize + b.keylen)
  else
    match b.offsets[j.toNat]? with
    | none => none
    | some o => seekTo b.keylen b.data o

/-- groot/rtree/rbranch.go:7-12 (`rbranch`): the current basket and the baskets the
read-ahead goroutine still delivers (that it delivers them in order is the subject of
the `BkReader` model). -/
structure RBranch where
  eoff : Nat
  cur  : Option RBasket
  rest : List Span

/-- Taking the next basket; `none` at the end or for a basket which cannot be read. -/
def RBranch.next (f : File) (b : RBranch) : Option RBranch :=
  match b.rest with
  | [] => none
  | s :: rest => (inflate f b.eoff s).map fun r => { b with cur := some r, rest := rest }

/-- groot/rtree/rbranch.go:42-69 (`read`). -/
def RBranch.read (f : File) (b : RBranch) (i : Nat) : Option (Bytes × RBranch) :=
  match b.cur with
  | none => none
  | some c =>
    if i ≥ c.span.fin then
      match b.next f with
      | none => none
      | some b' =>
        match b'.cur with
        | none => none
        | some c' => (c'.load ((i : Int) - c'.span.beg)).map fun v => (v, b')
    else (c.load ((i : Int) - c.span.beg)).map fun v => (v, b)

/-- groot/rtree/reader.go:453-462 (`read`): one entry of every branch. -/
def readRow (f : File) : List RBranch → Nat → Option (List Bytes × List RBranch)
  | [], _ => some ([], [])
  | b :: bs, i =>
    match b.read f i with
    | none => none
    | some r =>
      match readRow f bs i with
      | none => none
      | some r' => some (r.1 :: r'.1, r.2 :: r'.2)

/-- groot/rtree/reader.go:346-359 (`start`): the first basket of every branch; an empty
range of one branch ends the preparation. -/
def startAll (f : File) : List RBranch → Option (List RBranch)
  | [] => some []
  | b :: bs =>
    if b.rest = [] then some (b :: bs)
    else
      match b.next f with
      | none => none
      | some b' => (startAll f bs).map (b' :: ·)

/-- groot/rtree/reader.go:424-451 (`run`), the loop: `n` entries from `i` on, handed to
the callback with their numbers; `off` is the number of entries before this tree. The
callback is taken not to fail. -/
def runLoop (f : File) (off : Nat) : Nat → Nat → List RBranch →
    Option (List (Nat × List Bytes))
  | 0, _, _ => some []
  | n + 1, i, bs =>
    match readRow f bs i with
    | none => none
    | some r => (runLoop f off n (i + 1) r.2).map ((i + off, r.1) :: ·)

/-- The readers of all branches: groot/rtree/rbranch.go:14-21 (`newRBranch`). -/
def openAll (ts : List Tables) (beg fin : Nat) : Option (List RBranch) :=
  ts.mapM fun t => (requested t beg fin).map fun sp => ⟨t.eoff, none, sp⟩

/-- groot/rtree/reader.go:269-337 (`newRTree`) and
groot/rtree/reader.go:424-451 (`run`): reading `[beg, fin)`. -/
def readTree (f : File) (ts : List Tables) (off beg fin : Nat) :
    Option (List (Nat × List Bytes)) :=
  match openAll ts beg fin with
  | none => none
  | some bs =>
    match startAll f bs with
    | none => none
    | some bs' => runLoop f off (fin - beg) beg bs'

/-- groot/rtree/writer.go:228-245 (`Close`) and the tables another program reads back. -/
def closeTree (z : Bytes → Bytes) (s : List Branch × File) : Option (List Tables × File) :=
  (flushAll z s.1 s.2).map fun r => (r.1.map fun b => b.marshal.unmarshal, r.2)

end Verif.RTree
