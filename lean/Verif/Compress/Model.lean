import Verif.Common.Bytes

/-!
# Model of the ROOT payload compression layer (groot/internal/rcompress)

The third-party codecs are parameters (`Codec`).  A streaming compressor (zlib, xz, zstd)
is the list of chunks it hands to its `io.Writer`, split into those handed over by `Write`
and those handed over by `Close`; it ignores how many bytes of a chunk were accepted.
After a block was decompressed the reader stands at the end of that block (the code
drains it for xz, checks it for zstd; assumed for zlib).
-/

namespace Verif.Compress

open Verif

/-- Outcome of a call: run-time panic, an error value, the error value
`errNoCompression`, or a result. -/
inductive Res (α : Type) where
  | panic
  | err
  | noComp
  | ok (a : α)
deriving DecidableEq, Repr

/-- groot/internal/rcompress/rcompress.go:30-39: the algorithm numbers. -/
def algZLIB : Int := 1
def algLZMA : Int := 2
def algOld : Int := 3
def algLZ4 : Int := 4
def algZSTD : Int := 5

/-- groot/internal/rcompress/rcompress.go:55-58 (`Settings`). -/
structure Settings where
  alg : Int
  lvl : Int
deriving DecidableEq, Repr

/-- groot/internal/rcompress/rcompress.go:135-142 (`rootCompressAlgLvl`); Go's `/` and `%` truncate. -/
def rootCompressAlgLvl (v : Int) : Int × Int := (v.tdiv 100, v.tmod 100)

/-- groot/internal/rcompress/rcompress.go:63-66 (`SettingsFrom`). -/
def settingsFrom (v : Int) : Settings :=
  let r := rootCompressAlgLvl v
  { alg := r.1, lvl := r.2 }

/-- groot/internal/rcompress/rcompress.go:72-104 (`Compression`); `none` is the panic on
an unknown algorithm with the default level.  `zstd.SpeedFastest` is 1 and
`zstd.SpeedBestCompression` is 4.  Integers are unbounded. -/
def Settings.compression (s : Settings) : Option Int :=
  let out (lvl : Int) : Int := s.alg * 100 + lvl
  if s.lvl = -1 then
    if s.alg = algZLIB then some (out 6)
    else if s.alg = algLZ4 then some (out 1)
    else if s.alg = algLZMA then some (out 1)
    else if s.alg = algZSTD then some (out 1)
    else none
  else if s.lvl = 1 then
    if s.alg = algZSTD then some (out 1) else some (out s.lvl)
  else if s.lvl = 9 then
    if s.alg = algZSTD then some (out 4) else some (out s.lvl)
  else if s.lvl > 99 then some (out 99)
  else some (out s.lvl)

/-- The third-party codecs. -/
structure Codec where
  /-- chunks written by `Write(src)` and by `Close()`; `none`: level rejected. -/
  stream : Int → Int → List UInt8 → Option (List (List UInt8) × List (List UInt8))
  /-- LZ4 block compression into a buffer slightly larger than the source;
  `some []` (n = 0): not compressible. -/
  lz4 : Int → List UInt8 → Option (List UInt8)
  hash : List UInt8 → List UInt8
  /-- read `n` bytes from the decompressor of a block. -/
  inflate : Int → List UInt8 → Nat → Option (List UInt8)
  unlz4 : List UInt8 → Nat → Option (List UInt8)

/-- Consecutive calls of groot/internal/rcompress/rcompress.go:445-452 (`Write`) on a
buffer of `room` bytes of which `c` were filled; `none`: `errNoCompression`. -/
def writeChunks (room : Nat) : List UInt8 → List (List UInt8) → Option (List UInt8)
  | c, [] => some c
  | c, p :: ps =>
    if c.length ≥ room then none
    else writeChunks room (c ++ p.take (room - c.length)) ps

/-- Go's `copy(tgt, bs)`. -/
def copyInto (tgt bs : List UInt8) : List UInt8 := bs.take tgt.length ++ tgt.drop bs.length

/-- groot/internal/rcompress/rcompress.go:107: bytes of a block header. -/
def hdrSize : Nat := 9

/-- groot/internal/rcompress/rcompress.go:114: largest block. -/
def kMaxBlock : Nat := 0xffffff

/-- The end of groot/internal/rcompress/rcompress.go:187-347 (`compressBlock`): the header
in front of the `dstsz` compressed bytes. -/
def finishBlock (tgt : List UInt8) (m0 m1 m2 : UInt8) (payload : List UInt8) (dstsz srcsz : Nat) :
    Res (List UInt8 × Nat) :=
  if dstsz > kMaxBlock then .noComp
  else .ok (copyInto tgt ([m0, m1, m2] ++ leEnc 3 dstsz ++ leEnc 3 srcsz ++ payload), hdrSize + dstsz)

/-- groot/internal/rcompress/rcompress.go:187-347 (`compressBlock`), the zlib, xz and zstd cases. -/
def compressStream (c : Codec) (alg lvl : Int) (tgt src : List UInt8) (m0 m1 m2 : UInt8) :
    Res (List UInt8 × Nat) :=
  let room := tgt.length - hdrSize
  match c.stream alg lvl src with
  | none => .err
  | some (ws, cs) =>
    match writeChunks room [] ws with
    | none => .err
    | some c1 =>
      match writeChunks room c1 cs with
      | none => .noComp
      | some out =>
        if alg = algZSTD ∧ out.length ≥ src.length then .noComp
        else finishBlock tgt m0 m1 m2 out out.length src.length

/-- groot/internal/rcompress/rcompress.go:187-347 (`compressBlock`).  The third magic byte
is left as it was for xz. -/
def compressBlock (c : Codec) (alg lvl : Int) (tgt src : List UInt8) : Res (List UInt8 × Nat) :=
  if tgt.length < hdrSize then .panic
  else if alg = algZLIB then compressStream c alg lvl tgt src 90 76 8
  else if alg = algLZMA then compressStream c alg lvl tgt src 88 90 (tgt.getD 2 0)
  else if alg = algLZ4 then
    match c.lz4 lvl src with
    | none => .err
    | some bs =>
      if bs.length = 0 then .noComp
      else
        let wrk := c.hash bs ++ bs
        finishBlock tgt 76 52 1 (wrk.take (tgt.length - hdrSize)) wrk.length src.length
  else if alg = algZSTD then compressStream c alg lvl tgt src 90 83 1
  else .err

/-- The loop of groot/internal/rcompress/rcompress.go:146-185 (`Compress`); the first
argument bounds the number of iterations. -/
def compressLoop (c : Codec) (alg lvl : Int) : Nat → List UInt8 → Nat → List UInt8 → Res (List UInt8 × Nat)
  | 0, dst, cur, _ => .ok (dst, cur)
  | n + 1, dst, cur, src =>
    if src.length = 0 then .ok (dst, cur)
    else if cur > dst.length then .panic
    else
      match compressBlock c alg lvl (dst.drop cur) (src.take kMaxBlock) with
      | .ok (tgt, k) => compressLoop c alg lvl n (dst.take cur ++ tgt) (cur + k) (src.drop kMaxBlock)
      | .noComp => .noComp
      | .err => .err
      | .panic => .panic

/-- groot/internal/rcompress/rcompress.go:146-185 (`Compress`).  `spare` stands for the
bytes between the length and the capacity of the allocated buffer. -/
def compress (c : Codec) (dst spare src : List UInt8) (compr : Int) : Res (List UInt8) :=
  let r := rootCompressAlgLvl compr
  if r.1 = 0 ∨ r.2 = 0 ∨ src.length < 512 then .ok src
  else
    let nblocks := src.length / kMaxBlock + 1
    let size := src.length + nblocks * hdrSize
    let dst := dst ++ List.replicate (size - dst.length) 0
    match compressLoop c r.1 r.2 nblocks dst 0 src with
    | .ok (dst, cur) =>
      if cur > dst.length + spare.length then .panic else .ok ((dst ++ spare).take cur)
    | .noComp => .ok src
    | .err => .err
    | .panic => .panic

/-- groot/internal/rcompress/rcompress.go:117-133 (`kindOf`). -/
def kindOf (m0 m1 : UInt8) : Int :=
  if m0 = 90 ∧ m1 = 76 then algZLIB
  else if m0 = 88 ∧ m1 = 90 then algLZMA
  else if m0 = 76 ∧ m1 = 52 then algLZ4
  else if m0 = 90 ∧ m1 = 83 then algZSTD
  else if m0 = 67 ∧ m1 = 83 then algOld
  else 6

/-- One iteration of groot/internal/rcompress/rcompress.go:350-438 (`Decompress`) once the
header was read: what goes into the `tgtsz` bytes `old` of the destination. -/
def decompressBlock (c : Codec) (kind : Int) (block old : List UInt8) (srcsz tgtsz : Nat) : Res (List UInt8) :=
  if kind = algZLIB ∨ kind = algLZMA ∨ kind = algZSTD then
    match c.inflate kind block tgtsz with
    | none => .err
    | some out => if out.length = tgtsz then .ok out else .err
  else if kind = algLZ4 then
    if block.length < srcsz then .err
    else if srcsz < 8 then .panic
    else match c.unlz4 (block.drop 8) tgtsz with
      | some out => .ok (copyInto old out)
      | none => if srcsz > tgtsz then .ok (copyInto old (block.drop 8)) else .err
  else .panic

/-- groot/internal/rcompress/rcompress.go:350-438 (`Decompress`), the loop; the first
argument bounds the number of iterations (each consumes at least a header). -/
def decompressLoop (c : Codec) : Nat → Nat → List UInt8 → List UInt8 → Res (List UInt8)
  | 0, _, _, _ => .err
  | n + 1, beg, dst, src =>
    if beg ≥ dst.length then .ok dst
    else if src.length < hdrSize then .err
    else
      let srcsz := leDec ((src.drop 3).take 3)
      let tgtsz := leDec ((src.drop 6).take 3)
      if beg + tgtsz > dst.length then .panic
      else
        match decompressBlock c (kindOf (src.getD 0 0) (src.getD 1 0)) ((src.drop hdrSize).take srcsz)
            ((dst.drop beg).take tgtsz) srcsz tgtsz with
        | .ok out => decompressLoop c n (beg + tgtsz) (dst.take beg ++ out ++ dst.drop (beg + tgtsz))
            (src.drop (hdrSize + srcsz))
        | .err => .err
        | .noComp => .err
        | .panic => .panic

/-- groot/internal/rcompress/rcompress.go:350-438 (`Decompress`). -/
def decompress (c : Codec) (dst src : List UInt8) : Res (List UInt8) :=
  decompressLoop c (src.length + 1) 0 dst src

end Verif.Compress
