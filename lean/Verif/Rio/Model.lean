import Verif.Common.Stream

/-!
# Model of `rio` streams

Payloads of blocks are byte strings: encoding values into blocks (rio/block.go:44-69, which
uses reflection) is not modelled.  Compressors and decompressors are parameters
(`Codec`).  A Go panic is `none` where it can occur.
-/

namespace Verif.Rio

abbrev Bytes := List UInt8

/-- rio/rio.go:37 (`recFrame`). -/
def recFrame : Bytes := [0xab, 0xad, 0xca, 0xfe]
/-- rio/rio.go:38 (`blkFrame`). -/
def blkFrame : Bytes := [0xde, 0xad, 0xbe, 0xef]
/-- rio/rio.go:39 (`ftrFrame`). -/
def ftrFrame : Bytes := [0xca, 0xfe, 0xba, 0xbe]
/-- rio/rio.go:35 (`rioMagic`). -/
def rioMagic : Bytes := [114, 105, 111, 0]

/-- rio/utils.go:17-19 (`rioAlign`); `sz & 3` is `sz % 4`. -/
def rioAlign (sz : Nat) : Nat := sz + (4 - sz % 4) % 4

/-- rio/utils.go:12-14 (`rioAlignU32`), in 32-bit arithmetic. -/
def rioAlignU32 (sz : Nat) : Nat := rioAlign sz % 2 ^ 32

/-! ## Options -/

/-- rio/rio.go:132-134 (`Options.CompressorKind`). -/
def compressorKind (o : BitVec 32) : Nat := ((o &&& 0xffff0000#32) >>> 16).toNat

/-- rio/rio.go:137-143 (`Options.CompressorLevel`). -/
def compressorLevel (o : BitVec 32) : Int :=
  let lvl := ((o &&& 0x0000f000#32) >>> 12).toNat
  if lvl = 0xf then -1 else lvl

/-- rio/rio.go:146-148 (`Options.CompressorCodec`). -/
def compressorCodec (o : BitVec 32) : Nat := (o &&& 0x00000fff#32).toNat

/-- rio/rio.go:152-166 (`NewOptions`); the kind is a 16-bit number, `flate.DefaultCompression`
is -1, `CompressDefault` is 0 and `CompressZlib` is 3. -/
def newOptions (compr : BitVec 16) (lvl codec : Int) : BitVec 32 :=
  let lvl := if lvl ≤ -1 ∨ lvl ≥ 0xf then 0xf else lvl
  let compr := if compr = 0#16 then 3#16 else compr
  (compr.setWidth 32 <<< 16) ||| (BitVec.ofInt 32 lvl <<< 12) ||| (BitVec.ofInt 32 codec &&& 0x00000fff#32)

/-! ## Blocks and records -/

/-- rio/rio.go:322-327 (`rioBlock`); the header is derived from the data, see rio/block.go:44-57. -/
structure Blk where
  version : Nat
  name : Bytes
  data : Bytes
deriving DecidableEq, Repr

/-- A record with its connected blocks, rio/record.go:15-27 (`Record`). -/
structure Rec where
  options : BitVec 32
  name : Bytes
  blocks : List Blk
deriving DecidableEq, Repr

/-- The compressors and decompressors of rio/compressor.go:92-107 and the readers of the Go
standard library behind them. -/
structure Codec where
  /-- What the compressor selected by the options has written after `Write` and `Flush`. -/
  comp : BitVec 32 → Bytes → Bytes
  /-- What the decompressor of a kind delivers when reading from these bytes. -/
  dec : Nat → Bytes → Bytes
  /-- How many of these bytes the decompressor has taken from its source once the given
  number of bytes was read from it. -/
  pulled : Nat → Bytes → Nat → Nat

/-- `CompressNone`, rio/compressor.go:56. -/
def kindNone : Nat := 1

/-- Padding up to the next multiple of four. -/
def padding (n : Nat) : Bytes := List.replicate (rioAlign n - n) 0

/-- rio/rio.go:88-102 (`rioHeader.RioMarshal`). -/
def encHeader (len : Nat) (frame : Bytes) : Bytes := leEnc 4 len ++ frame

/-- rio/rio.go:344-402 (`rioBlock.RioMarshal`) after rio/block.go:44-57 (`Block.Write`). -/
def encBlk (b : Blk) : Bytes :=
  encHeader b.data.length blkFrame ++ (leEnc 4 b.version ++ (leEnc 4 b.name.length ++
    (b.name ++ (padding b.name.length ++ (b.data ++ padding b.data.length)))))

/-- rio/rio.go:208-251 (`rioRecord.RioMarshal`). -/
def encRecHdr (len : Nat) (options : BitVec 32) (clen xlen : Nat) (name : Bytes) : Bytes :=
  encHeader len recFrame ++ (leEnc 4 options.toNat ++ (leEnc 4 clen ++ (leEnc 4 xlen ++
    (leEnc 4 name.length ++ (name ++ padding name.length)))))

/-- The blocks of a record, one after the other: the loop of rio/record.go:83-143 (`Record.Write`). -/
def encBlks : List Blk → Bytes
  | [] => []
  | b :: bs => encBlk b ++ encBlks bs

/-- The content of a record: rio/record.go:83-143 (`Record.Write`), with rio/record.go:247-249 (`Compress`). -/
def content (C : Codec) (r : Rec) : Bytes :=
  if compressorKind r.options ≠ kindNone then C.comp r.options (encBlks r.blocks) else encBlks r.blocks

/-- rio/record.go:83-143 (`Record.Write`) and rio/writer.go:127-149 (`Writer.writeRecord`): the
bytes added to the stream.  The compressor is known. -/
def encRec (C : Codec) (r : Rec) : Bytes :=
  let c := content C r
  encRecHdr c.length r.options c.length (encBlks r.blocks).length r.name ++
    (c ++ List.replicate (rioAlignU32 (c.length % 2 ^ 32) - c.length % 2 ^ 32) 0)

/-- rio/rio.go:483-497 (`rioFooter.RioMarshal`), with the footer of rio/writer.go:85-124 (`Writer.Close`). -/
def encFooter (pos : Nat) : Bytes := encHeader 16 ftrFrame ++ leEnc 8 pos

/-! ## Reading -/

/-- rio/rio.go:104-121 (`rioHeader.RioUnmarshal`): length and frame. -/
def readHeader (s : Bytes) : Res (Nat × Bytes) :=
  (readFull 4 s).bind fun l s => (readFull 4 s).wrap.bind fun f s => .ok (leDec l, f) s

/-- rio/rio.go:404-452 (`rioBlock.RioUnmarshal`). -/
def readBlk (s : Bytes) : Res Blk :=
  (readHeader s).bind fun h s =>
  if h.2 ≠ blkFrame then .fail else
  (readFull 4 s).wrap.bind fun v s =>
  (readFull 4 s).wrap.bind fun n s =>
  (readFull (rioAlign (leDec n)) s).wrap.bind fun name s =>
  (readFull (rioAlign h.1) s).wrap.bind fun data s =>
  .ok ⟨leDec v, name.take (leDec n), data.take h.1⟩ s

/-- What the header of a record says. -/
structure Raw where
  options : BitVec 32
  clen : Nat
  xlen : Nat
  name : Bytes
deriving DecidableEq, Repr

/-- rio/rio.go:284-315 (`rioRecord.unmarshalData`).  The name is read with one `Read`, which
the reader of rio/reader.go:29-40 completes with a second one. -/
def readRaw (s : Bytes) : Res Raw :=
  (readFull 4 s).wrap.bind fun o s =>
  (readFull 4 s).wrap.bind fun c s =>
  (readFull 4 s).wrap.bind fun x s =>
  (readFull 4 s).wrap.bind fun n s =>
  (readFull (rioAlign (leDec n)) s).wrap.bind fun name s =>
  .ok ⟨BitVec.ofNat 32 (leDec o), leDec c, leDec x, name.take (leDec n)⟩ s

/-- Replacing or adding a block, rio/record.go:215-221. -/
def setBlock : List Blk → Blk → List Blk
  | [], b => [b]
  | a :: l, b => if a.name = b.name then b :: l else a :: setBlock l b

/-- rio/record.go:73-80 (`Record.Block`); `none` is the nil block. -/
def findBlock (l : List Blk) (name : Bytes) : Option Blk := l.find? fun b => b.name = name

/-- The loop of rio/record.go:172-229 (`Record.readBlocks`): `n` bytes are left, every round
reads at least one byte, so that `fuel > n` rounds are enough. -/
def blkLoop : Nat → Nat → Bytes → List Blk → Option (List Blk)
  | 0, _, _, _ => none
  | fuel + 1, n, s, bl =>
    if n = 0 then some bl
    else match readBlk s with
      | .ok b rest => blkLoop fuel (n - (s.length - rest.length)) rest (setBlock bl b)
      | _ => none

/-- What a decompressor of the given kind delivers. -/
def Codec.out (C : Codec) (kind : Nat) (input : Bytes) : Bytes :=
  if kind = kindNone then input else C.dec kind input

/-- How many bytes of its source it has used after delivering `n` bytes. -/
def Codec.used (C : Codec) (kind : Nat) (input : Bytes) (n : Nat) : Nat :=
  if kind = kindNone then min n input.length else C.pulled kind input n

/-- rio/record.go:172-229 (`Record.readBlocks`): the blocks, and what is left of the stream.
`xr` is the kind of the decompressor kept from an earlier call. -/
def readBlocks (C : Codec) (xr : Option Nat) (raw : Raw) (bl : List Blk) (s : Bytes) :
    Option (List Blk × Nat × Bytes) :=
  let kind := xr.getD (compressorKind raw.options)
  let input := s.take (rioAlignU32 raw.clen)
  match blkLoop (raw.xlen + 1) raw.xlen ((C.out kind input).take raw.xlen) bl with
  | none => none
  | some bl => some (bl, kind, s.drop (C.used kind input raw.xlen))

/-! ## Scanner -/

/-- rio/scanner.go:19-25 (`Scanner`) with the stream of its reader; `xr` is the kind of the
decompressor of the record. -/
structure Scn where
  input : Bytes
  raw : Raw
  blocks : List Blk
  xr : Option Nat
deriving DecidableEq, Repr

/-- Result of one round of the loop of rio/scanner.go:49-119 (`Scanner.Scan`). -/
inductive Step
  | stop (isEOF : Bool)
  | panic
  | next (s : Scn)
  | found (s : Scn)

/-- The map made by rio/scanner.go:41-46 (`Scanner.Select`): the last selector of a name wins. -/
def lookup (sel : List (Bytes × Bool)) (name : Bytes) : Option Bool :=
  (sel.reverse.find? fun p => p.1 = name).map (·.2)

/-- Skipping `n` bytes with rio/scanner.go:125-135 (`Scanner.seek`), which copies them. -/
def skip (n : Nat) (s : Bytes) : Option Bytes := if s.length < n then none else some (s.drop n)

/-- The case of a record in rio/scanner.go:49-119 (`Scanner.Scan`). -/
def scanRecord (C : Codec) (sel : List (Bytes × Bool)) (st : Scn) (raw : Raw) (s : Bytes) : Step :=
  if sel.length > 0 ∧ lookup sel raw.name = none then
    match skip (rioAlignU32 raw.clen) s with
    | none => .stop true
    | some s => .next { st with raw := raw, input := s }
  else if lookup sel raw.name = some true then
    match readBlocks C st.xr raw st.blocks s with
    | none => .stop false
    | some (bl, kind, s) => .found ⟨s, raw, bl, some kind⟩
  else
    match skip (rioAlignU32 raw.clen) s with
    | none => .stop true
    | some s => .found { st with raw := raw, input := s }

/-- One round of the loop of rio/scanner.go:49-119 (`Scanner.Scan`).  When the stream ends
within a content that is skipped, `io.CopyN` gives `io.EOF`, as at the end of the records. -/
def scanStep (C : Codec) (sel : List (Bytes × Bool)) (st : Scn) : Step :=
  match readHeader st.input with
  | .eof => .stop true
  | .fail => .stop false
  | .ok h s =>
    if h.2 = ftrFrame then
      match readFull 8 s with
      | .ok _ s => .next { st with input := s }
      | _ => .stop false
    else if h.2 = recFrame then
      match readRaw s with
      | .ok raw s => scanRecord C sel st raw s
      | _ => .stop false
    else .panic

/-- Outcome of `Scan`: a record was found, the end was reached (`Err` is nil), an error. -/
inductive Scanned
  | found (s : Scn)
  | done
  | error
  | panic

/-- rio/scanner.go:49-119 (`Scanner.Scan`): every round reads at least eight bytes, so that
`fuel > input.length` rounds are enough. -/
def scan (C : Codec) (sel : List (Bytes × Bool)) : Nat → Scn → Scanned
  | 0, _ => .error
  | fuel + 1, st => match scanStep C sel st with
    | .stop true => .done
    | .stop false => .error
    | .panic => .panic
    | .found s => .found s
    | .next s => scan C sel fuel s

/-- What a user sees of the record of the scanner. -/
structure Seen where
  name : Bytes
  options : BitVec 32
  blocks : List Blk
deriving DecidableEq, Repr

/-- `for s.Scan() { ... s.Record() ... }`: the records seen and whether the scan ended
normally; `none` is a panic. -/
def scanAll (C : Codec) (sel : List (Bytes × Bool)) : Nat → Scn → Option (List Seen × Bool)
  | 0, _ => some ([], false)
  | fuel + 1, st => match scan C sel (st.input.length + 1) st with
    | .found s => match scanAll C sel fuel s with
      | none => none
      | some (l, e) => some (⟨s.raw.name, s.raw.options, s.blocks⟩ :: l, e)
    | .done => some ([], true)
    | .error => some ([], false)
    | .panic => none

/-- rio/scanner.go:28-38 (`NewScanner`) on the stream after the magic header, see
rio/reader.go:43-57 (`NewReader`). -/
def newScanner (s : Bytes) : Scn := ⟨s, ⟨0#32, 0, 0, [60, 78, 47, 65, 62]⟩, [], none⟩

/-- Scanning a whole stream. -/
def scanStream (C : Codec) (sel : List (Bytes × Bool)) (s : Bytes) : Option (List Seen × Bool) :=
  match readFull 4 s with
  | .ok m s => if m = rioMagic then scanAll C sel (s.length + 1) (newScanner s) else some ([], false)
  | _ => some ([], false)

/-! ## Reading record by record -/

/-- rio/record.go:151-169 (`Record.readRecord`) on a record that unpacks (`unpack` is true) or
skips its content, for a reader that is not an `io.Seeker`. -/
def readRecord (C : Codec) (unpack : Bool) (xr : Option Nat) (bl : List Blk) (s : Bytes) :
    Option (Raw × List Blk × Option Nat × Bytes) :=
  match readHeader s with
  | .ok h s =>
    if h.2 ≠ recFrame then none
    else match readRaw s with
      | .ok raw s =>
        if unpack then
          match readBlocks C xr raw bl s with
          | none => none
          | some (bl, kind, s) => some (raw, bl, some kind, s)
        else
          match skip (rioAlignU32 raw.clen) s with
          | none => none
          | some s => some (raw, bl, xr, s)
      | _ => none
  | _ => none

/-! ## Files -/

/-- rio/writer.go:31-40 (`Writer`): the bytes written and where the records are. -/
structure Wr where
  out : Bytes
  offsets : List (Bytes × Nat × Nat)
deriving DecidableEq, Repr

/-- rio/writer.go:127-149 (`Writer.writeRecord`). -/
def Wr.write (C : Codec) (w : Wr) (r : Rec) : Wr :=
  let out := w.out ++ encRec C r
  ⟨out, w.offsets ++ [(r.name, w.out.length, out.length - w.out.length)]⟩

/-- rio/writer.go:43-58 (`NewWriter`). -/
def newWriter : Wr := ⟨rioMagic, []⟩

/-- `MetaRecord`, rio/rio.go:25. -/
def metaRecord : Bytes := [46, 114, 105, 111, 46, 109, 101, 116, 97]

/-- The descriptions of the records in the metadata, with the offsets, as a block payload
(rio/writer.go:181-190) and back (rio/reader.go:106-115). -/
structure MetaCodec where
  enc : List (Bytes × Nat × Nat) → Bytes
  dec : Bytes → Option (List (Bytes × Nat × Nat))

/-- rio/writer.go:85-124 (`Writer.Close`). -/
def Wr.close (C : Codec) (M : MetaCodec) (options : BitVec 32) (w : Wr) : Bytes :=
  (w.write C ⟨options, metaRecord, [⟨0, metaRecord, M.enc w.offsets⟩]⟩).out ++ encFooter w.out.length

/-- rio/file.go:20-79 (`Open`): the offsets found in the metadata.  The outer `none` is a panic. -/
def openFile (C : Codec) (M : MetaCodec) (file : Bytes) : Option (Option (List (Bytes × Nat × Nat))) :=
  match readFull 4 file with
  | .ok m _ =>
    if m ≠ rioMagic then some none
    else if file.length < 16 then some none
    else match readHeader (file.drop (file.length - 16)) with
      | .ok h s =>
        if h.2 ≠ ftrFrame then some none
        else match readFull 8 s with
          | .ok p _ =>
            match readRecord C true none [] (file.drop (leDec p)) with
            | none => some none
            | some (_, bl, _, _) => match findBlock bl metaRecord with
              | none => none
              | some b => some (M.dec b.data)
          | _ => some none
      | _ => some none
  | _ => some none

/-- rio/file.go:90-120 (`File.Get`): the payload handed to the decoder of the value.  The outer
`none` is a panic, the inner one an error. -/
def fileGet (C : Codec) (offsets : List (Bytes × Nat × Nat)) (file : Bytes) (name : Bytes) :
    Option (Option Bytes) :=
  match offsets.filter fun o => o.1 = name with
  | [o] => match readRecord C true none [] (file.drop o.2.1) with
    | none => some none
    | some (_, bl, _, _) => match findBlock bl name with
      | none => none
      | some b => some (some b.data)
  | _ => some none

/-- rio/file.go:123-126 (`File.Has`). -/
def fileHas (offsets : List (Bytes × Nat × Nat)) (name : Bytes) : Bool := offsets.any fun o => o.1 = name

end Verif.Rio
