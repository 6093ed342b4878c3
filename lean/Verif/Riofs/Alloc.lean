import Verif.Riofs.Records
import Verif.Compress.Model

/-!
# Model of record allocation, writing and loading in a ROOT file

The file contents are a list of bytes; `writeAt` and `readAt` are those of `os.File`.
-/

namespace Verif.Riofs

open Verif.RBytes Verif.FreeList Verif.Compress

/-- `os.File.WriteAt` (the file grows, filled with zeros, as needed). -/
def writeAt (d : List UInt8) (pos : Nat) (bs : List UInt8) : List UInt8 :=
  if bs.length = 0 then d
  else (d ++ List.replicate (pos - d.length) 0).take pos ++ bs ++ d.drop (pos + bs.length)

/-- `io.ReadFull` on a section of a file: `none` if fewer than `n` bytes are available. -/
def readAt (d : List UInt8) (pos n : Nat) : Option (List UInt8) :=
  if pos + n ≤ d.length then some ((d.drop pos).take n) else if n = 0 then some [] else none

/-- groot/riofs/file.go (`kBEGIN`). -/
def kBEGIN : Int := 100

/-- A file being written: recorded end of file, contents, compression setting. -/
structure WFile where
  end_ : Int
  disk : List UInt8
  compression : Int
deriving DecidableEq, Repr

/-- groot/riofs/file.go:237-253 (`setEnd`) on a file whose last free segment is the file
ending, as is the case from its creation (the segment list is not modelled here). -/
def WFile.setEnd (f : WFile) (pos : Int) : WFile := { f with end_ := pos }

/-- The directory a record belongs to. -/
structure DirRef where
  big : Bool
  seekdir : Int
deriving DecidableEq, Repr

/-- groot/riofs/key.go:75-103 (`Key`): the persistent fields and the payload buffer. -/
structure MKey where
  key : Key
  buf : List UInt8
deriving DecidableEq, Repr

/-- groot/riofs/key.go:105-141 (`newKey`).  `now` is the current time, 4 the key version
(groot/riofs/key.go: `rvers.Key`), `dir` the top directory. -/
def newKey (dir : DirRef) (name title cls : List UInt8) (objlen : Int) (now : Civil) (f : WFile) :
    MKey × WFile :=
  let keylen := keylenFor name title cls dir.big f.end_
  let nbytes := wrapS 4 (objlen + keylen)
  let k : Key := { rvers := if f.end_ > kStartBigFile then 4 + 1000 else 4
                   nbytes := nbytes, objlen := objlen, datetime := now, keylen := keylen, cycle := 1
                   seekkey := if objlen > 0 then f.end_ else 0
                   seekpdir := dir.seekdir, cls := cls, name := name, title := title }
  ({ key := k, buf := [] }, if objlen > 0 then f.setEnd (f.end_ + nbytes) else f)

/-- groot/riofs/key.go:222-274 (`newKeyFromBuf`), and groot/riofs/key.go:154-220 (`newKeyFrom`)
once the object was serialised into `payload` (which sets the cycle to 1).  `spare` is the
unused capacity of the buffer allocated by the compressor. -/
def newKeyFromBuf (c : Codec) (spare : List UInt8) (dir : DirRef) (name title cls : List UInt8)
    (cycle : Int) (payload : List UInt8) (compr : Int) (now : Civil) (f : WFile) : Res (MKey × WFile) :=
  let keylen := keylenFor name title cls dir.big f.end_
  let objlen := wrapS 4 payload.length
  match compress c [] spare payload compr with
  | .ok buf =>
    let nbytes := wrapS 4 (keylen + wrapS 4 buf.length)
    let k : Key := { rvers := if f.end_ > kStartBigFile then 4 + 1000 else 4
                     nbytes := nbytes, objlen := objlen, datetime := now, keylen := keylen, cycle := cycle
                     seekkey := f.end_, seekpdir := dir.seekdir, cls := cls, name := name, title := title }
    .ok ({ key := k, buf := buf }, f.setEnd (k.seekkey + nbytes))
  | .err => .err
  | .noComp => .err
  | .panic => .panic

/-- groot/riofs/key.go:616-641 (`writeFile`); the number of bytes left in a segment (`left`)
is always 0.  Negative offsets are errors. -/
def writeFile (k : MKey) (f : WFile) : Option (MKey × WFile) :=
  match k.key.marshal (newWBuffer [] 0 (fun _ => 0)) with
  | none => none
  | some w =>
    if k.key.seekkey < 0 ∨ k.key.seekkey + k.key.keylen < 0 then none
    else
      let d := writeAt f.disk k.key.seekkey.toNat w.bytes
      let d := writeAt d (k.key.seekkey + k.key.keylen).toNat k.buf
      some ({ key := k.key.bump, buf := [] }, { f with disk := d })

/-- groot/riofs/key.go:507-509 (`isCompressed`). -/
def isCompressed (k : Key) : Bool := decide (k.objlen ≠ wrapS 4 (k.nbytes - k.keylen))

/-- groot/riofs/key.go:456-478 (`load`); `buf` is the buffer after it was resized to the
length of the object (groot/rbytes/sliceops.go:56-63), its contents are arbitrary. -/
def load (c : Codec) (disk : List UInt8) (k : MKey) (buf : List UInt8) : Res (List UInt8) :=
  if k.key.objlen < 0 then .panic
  else if k.buf.length > 0 then .ok (copyInto buf k.buf)
  else
    let start := (k.key.seekkey + k.key.keylen).toNat
    if isCompressed k.key then
      decompress c buf ((disk.drop start).take (k.key.nbytes - k.key.keylen).toNat)
    else
      match readAt disk start buf.length with
      | some bs => .ok bs
      | none => .err

end Verif.Riofs
