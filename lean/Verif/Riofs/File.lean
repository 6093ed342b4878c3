import Verif.Riofs.Alloc
import Verif.Riofs.NameCycle

/-!
# Model of a whole ROOT file: creating, writing directories and objects, closing, opening

The file being written is its contents on disk (`WFile`) with the tree of directories in
memory; directories are addressed by their index in the order of creation (index 0 is the
top directory), which stands for the pointer a program holds.  What is left out: the
marshalling of objects (an object is the bytes it marshals to), the generation of streamer
infos (the marshalled list is a parameter of `close`), errors of the operating system.
-/

namespace Verif.Riofs

open Verif.RBytes Verif.FreeList Verif.Compress

/-- "TDirectory". -/
def tDirectory : List UInt8 := [84, 68, 105, 114, 101, 99, 116, 111, 114, 121]
/-- "TDirectoryFile". -/
def tDirectoryFile : List UInt8 := [84, 68, 105, 114, 101, 99, 116, 111, 114, 121, 70, 105, 108, 101]
/-- "TFile". -/
def tFile : List UInt8 := [84, 70, 105, 108, 101]
/-- "TList". -/
def tList : List UInt8 := [84, 76, 105, 115, 116]
/-- groot/rcont/list.go:54-56 (`Title`): "Doubly linked list". -/
def listTitle : List UInt8 := [68, 111, 117, 98, 108, 121, 32, 108, 105, 110, 107, 101, 100, 32, 108, 105, 115, 116]
/-- "StreamerInfo". -/
def nameStreamerInfo : List UInt8 := [83, 116, 114, 101, 97, 109, 101, 114, 73, 110, 102, 111]

/-- groot/rvers/versions_gen.go:9-10 (`ROOT`). -/
def rootVersion : Int := 63602

/-- The identifiers of a file and of its directories are never set: sixteen zeros. -/
def noUUID : List UInt8 := List.replicate 16 0

/-- What the `obj` field of groot/riofs/key.go:75-103 (`Key`) refers to: an object (the bytes
it marshals to), or a directory (its index). -/
inductive Content where
  | obj (payload : List UInt8)
  | dir (id : Nat)
deriving DecidableEq, Repr

/-- A key held by a directory in memory. -/
structure FKey where
  key : Key
  what : Content
deriving DecidableEq, Repr

/-- The part of a key that lookups use. -/
def FKey.toD (k : FKey) : DKey Content := ⟨k.key.name, k.key.cycle, k.key.cls, k.what⟩

/-- groot/riofs/dir.go:80-96 (`tdirectoryFile`); `subs` are the `dirs`. -/
structure FDir where
  name : List UInt8
  title : List UInt8
  hdr : DirHdr
  keys : List FKey
  subs : List Nat
deriving DecidableEq, Repr

/-- groot/riofs/file.go:94-122 (`File`) being written.  `dirs` are all its directories, the
first one being `f.dir`.  The list of free segments has one element, from the end of the file
to `kStartBigFile`: groot/riofs/file.go:237-253 (`setEnd`) moves its start, and nothing is
released before the streamer infos and free segments were written once. -/
structure FFile where
  w : WFile
  id : List UInt8
  nbytesname : Int
  seekfree : Int
  nbytesfree : Int
  seekinfo : Int
  nbytesinfo : Int
  dirs : List FDir
deriving DecidableEq, Repr

/-- groot/riofs/dir.go:151-171 (`recordSize`). -/
def recordSize (version : Int) : Int :=
  2 + 4 + 4 + 4 + 4 + (if version ≥ 40000 then 8 + 8 + 8 else 4 + 4 + 4) + 18

/-- groot/riofs/dir.go:146-148 (`isBigFile`). -/
def FDir.big (d : FDir) : Bool := decide (d.hdr.rvers > 1000)

/-- `f.dir.isBigFile()`, used by groot/riofs/key.go:516-518 (`sizeof`). -/
def FFile.topBig (f : FFile) : Bool := match f.dirs with
  | [] => false
  | d :: _ => d.big

/-- The fields of the file header. -/
def FFile.hdr (f : FFile) : FileHdr :=
  { version := rootVersion, begin := kBEGIN, end_ := f.w.end_, seekfree := f.seekfree
    nbytesfree := f.nbytesfree, nfree := 1, nbytesname := f.nbytesname, units := 4
    compression := f.w.compression, seekinfo := f.seekinfo, nbytesinfo := f.nbytesinfo, uuid := noUUID }

/-- groot/riofs/file.go:370-432 (`writeHeader`). -/
def FFile.writeHeader (f : FFile) : Option FFile :=
  (f.hdr.marshal (newWBuffer (List.replicate 100 0) 0 (fun _ => 0))).bind fun b =>
    some { f with w := { f.w with
      disk := writeAt (writeAt f.w.disk 0 (List.replicate 100 0)) 0 b.bytes } }

/-- The fields of a new directory, groot/riofs/dir.go:98-112 (`newDirectoryFile`). -/
def newHdr (now : Civil) : DirHdr :=
  { rvers := 5, ctime := now, mtime := now, nbyteskeys := 0, nbytesname := 0, seekdir := 0
    seekparent := 0, seekkeys := 0, uuid := noUUID }

/-- The payload of the record of a directory: groot/riofs/file.go:217-221 (`WriteString`) and
groot/riofs/dir.go:125-129 (`WriteString`): two strings and the header of the directory. -/
def dirPayload (objlen : Int) (name title : List UInt8) (hdr : DirHdr) : Option (List UInt8) :=
  ((newWBuffer (List.replicate objlen.toNat 0) 0 (fun _ => 0)).writeString name).bind fun b =>
  (b.writeString title).bind fun b =>
  (hdr.marshal b).bind fun b => some b.bytes

/-- groot/riofs/file.go:166-235 (`Create`) once the options were applied. -/
def create (id : List UInt8) (compression : Int) (now : Civil) : Option FFile :=
  let namelen := tstringSizeof id + tstringSizeof []
  let objlen := namelen + recordSize rootVersion
  let kw := newKey ⟨false, 0⟩ id [] tFile objlen now ⟨kBEGIN, [], compression⟩
  let nbn := kw.1.key.keylen + namelen
  let hdr := { newHdr now with nbytesname := nbn, seekdir := kw.1.key.seekkey }
  let f : FFile := { w := kw.2, id := id, nbytesname := nbn, seekfree := 0, nbytesfree := 0
                     seekinfo := 0, nbytesinfo := 0, dirs := [⟨id, [], hdr, [], []⟩] }
  f.writeHeader.bind fun f =>
  (dirPayload objlen id [] hdr).bind fun buf =>
  (writeFile { kw.1 with buf := buf } f.w).bind fun q => some { f with w := q.2 }

/-- groot/riofs/dir.go:98-144 (`newDirectoryFile`) below the directory `d` with index `i`; the
title of a sub-directory is its name.  The record has room for the header only, but the name
and title of the file are written in front of it, too. -/
def newSubdir (f : FFile) (i : Nat) (d : FDir) (name : List UInt8) (now : Civil) : Option FFile :=
  let objlen := recordSize rootVersion
  let kw := newKey ⟨f.topBig, d.hdr.seekdir⟩ name name tDirectory objlen now f.w
  let hdr := { newHdr now with seekparent := d.hdr.seekdir, nbytesname := kw.1.key.keylen
                               seekdir := kw.1.key.seekkey }
  (dirPayload objlen f.id [] hdr).bind fun buf =>
  (writeFile { kw.1 with buf := buf } kw.2).bind fun q =>
  let j := f.dirs.length
  some { f with w := q.2
                dirs := f.dirs.set i { d with keys := d.keys ++ [⟨kw.1.key, .dir j⟩], subs := d.subs ++ [j] }
                  ++ [⟨name, name, hdr, [], []⟩] }

/-- groot/riofs/dir.go:488-501 (`Mkdir`).  `err` is also the answer for an index that is not
that of a directory. -/
def mkdir (f : FFile) (i : Nat) (name : List UInt8) (now : Civil) : Res FFile :=
  match f.dirs[i]? with
  | none => .err
  | some d =>
    match get (d.keys.map FKey.toD) name with
    | .panic => .panic
    | .found _ => .err
    | .noKey =>
      if 47 ∈ name then .err
      else match newSubdir f i d name now with
        | none => .panic
        | some f => .ok f

/-- groot/riofs/dir.go:410-480 (`Put`) into the directory with index `i`; see `put` for the
arguments.  `c` are the codecs, `spare` the unused capacity of the compression buffer. -/
def fput (c : Codec) (spare : List UInt8) (f : FFile) (i : Nat) (name objName title cls keyCls payload : List UInt8)
    (now : Civil) : Res FFile :=
  match f.dirs[i]? with
  | none => .err
  | some d =>
    if 47 ∈ name then .err
    else
      let name := if name = [] then objName else name
      if name = [] then .err
      else match scanCycle name cls (d.keys.map FKey.toD) 0 with
        | none => .err
        | some cyc =>
          match newKeyFromBuf c spare ⟨d.big, d.hdr.seekdir⟩ name title keyCls 1 payload f.w.compression now f.w with
          | .ok (k, w) =>
            let k := { k with key := { k.key with cycle := Int.bmod (cyc + 1) (2 ^ 16) } }
            match writeFile k w with
            | none => .panic
            | some q => .ok { f with w := q.2, dirs := f.dirs.set i { d with keys := d.keys ++ [⟨q.1.key, .obj payload⟩] } }
          | .panic => .panic
          | _ => .err

/-- Marshalling keys one after the other, groot/riofs/dir.go:608-642 (`writeKeys`). -/
def marshalKeys : List FKey → WBuf → Option WBuf
  | [], b => some b
  | k :: ks, b => (k.key.marshal b).bind (marshalKeys ks)

/-- groot/riofs/dir.go:608-642 (`writeKeys`). -/
def FFile.writeKeys (f : FFile) (i : Nat) (d : FDir) (now : Civil) : Option FFile :=
  let nbytes := 4 + (if f.w.end_ > kStartBigFile then 8 else 0) + (d.keys.map (fun k => k.key.keylen)).sum
  let kw := newKey ⟨f.topBig, d.hdr.seekdir⟩ d.name d.title tDirectory nbytes now f.w
  ((newWBuffer (List.replicate nbytes.toNat 0) 0 (fun _ => 0)).writeInt 4 (wrapS 4 d.keys.length)).bind fun b =>
  (marshalKeys d.keys b).bind fun b =>
  (writeFile { kw.1 with buf := b.bytes } kw.2).bind fun q =>
  some { f with w := q.2
                dirs := f.dirs.set i { d with hdr := { d.hdr with seekkeys := kw.1.key.seekkey, nbyteskeys := kw.1.key.nbytes } } }

/-- groot/riofs/dir.go:331-350 (`writeHeader`). -/
def FFile.writeDirHeader (f : FFile) (i : Nat) (d : FDir) (now : Civil) : Option FFile :=
  let hdr := { d.hdr with mtime := now }
  (hdr.marshal (newWBuffer (List.replicate (recordSize rootVersion).toNat 0) 0 (fun _ => 0))).bind fun b =>
  if hdr.seekdir + hdr.nbytesname < 0 then none
  else some { f with w := { f.w with disk := writeAt f.w.disk (hdr.seekdir + hdr.nbytesname).toNat b.bytes }
                     dirs := f.dirs.set i { d with hdr := hdr } }

/-- groot/riofs/dir.go:316-328 (`saveSelf`). -/
def FFile.saveSelf (f : FFile) (i : Nat) (now : Civil) : Option FFile :=
  (f.dirs[i]?).bind fun d =>
  (f.writeKeys i d now).bind fun f =>
  (f.dirs[i]?).bind fun d => f.writeDirHeader i d now

/-- groot/riofs/dir.go:300-314 (`save`): the directory, then its sub-directories, recursively;
`fuel` bounds the depth. -/
def FFile.save (now : Civil) : Nat → FFile → Nat → Option FFile
  | 0, _, _ => none
  | fuel + 1, f, i =>
    (f.saveSelf i now).bind fun f =>
    (f.dirs[i]?).bind fun d =>
    d.subs.foldlM (fun f j => f.save now fuel j) f

/-- groot/riofs/dir.go:276-298 (`close`): the version of the top directory announces the
64-bit layout if the file is big. -/
def FFile.closeDir (f : FFile) (now : Civil) : Option FFile :=
  (f.dirs[0]?).bind fun d =>
  let d := if f.w.end_ > kStartBigFile ∧ d.hdr.rvers < 1000 then { d with hdr := { d.hdr with rvers := d.hdr.rvers + 1000 } } else d
  let f := { f with dirs := f.dirs.set 0 d }
  f.save now (f.dirs.length + 1) 0

/-- groot/riofs/file.go:539-591 (`writeStreamerInfo`); `si` is the marshalled list of streamer
infos. -/
def FFile.writeStreamerInfo (c : Codec) (spare : List UInt8) (f : FFile) (si : List UInt8) (now : Civil) : Option FFile :=
  (f.dirs[0]?).bind fun d =>
  match newKeyFromBuf c spare ⟨d.big, d.hdr.seekdir⟩ nameStreamerInfo listTitle tList 1 si f.w.compression now f.w with
  | .ok (k, w) =>
    (writeFile k w).bind fun q => some { f with w := q.2, seekinfo := k.key.seekkey, nbytesinfo := k.key.nbytes }
  | _ => none

/-- groot/riofs/file.go:705-769 (`writeFreeSegments`); `none` also stands for the panic when the
record itself makes the file cross `kStartBigFile`. -/
def FFile.writeFreeSegments (f : FFile) (now : Civil) : Option FFile :=
  (f.dirs[0]?).bind fun d =>
  let nbytes := segSizeof ⟨f.w.end_, kStartBigFile⟩
  let kw := newKey ⟨f.topBig, d.hdr.seekdir⟩ d.name d.title tFile nbytes now f.w
  if ¬ f.w.end_ > kStartBigFile ∧ kw.2.end_ > kStartBigFile then none
  else
    (segMarshal ⟨kw.2.end_, kStartBigFile⟩ (newWBuffer (List.replicate nbytes.toNat 0) 0 (fun _ => 0))).bind fun b =>
    (writeFile { kw.1 with buf := b.bytes } kw.2).bind fun q =>
    some { f with w := q.2, nbytesfree := kw.1.key.nbytes, seekfree := kw.1.key.seekkey }

/-- groot/riofs/file.go:436-475 (`Close`) of a file being written. -/
def FFile.close (c : Codec) (spare : List UInt8) (f : FFile) (si : List UInt8) (now : Civil) : Option FFile :=
  (f.closeDir now).bind fun f =>
  (f.writeStreamerInfo c spare si now).bind fun f =>
  (f.writeFreeSegments now).bind fun f => f.writeHeader

/-! ## Reading -/

/-- A directory read from a file. -/
structure RDir where
  name : List UInt8
  title : List UInt8
  hdr : DirHdr
  keys : List Key
deriving DecidableEq, Repr

/-- A file opened for reading. -/
structure RFile where
  hdr : FileHdr
  dir : RDir
  spans : List Seg
  sinfo : List UInt8
deriving DecidableEq, Repr

/-- `f.ReadAt(make([]byte, n), pos)`: a negative length panics, a negative position or a short
file is an error. -/
def readAtI (disk : List UInt8) (pos n : Int) : Option (List UInt8) :=
  if pos < 0 ∨ n < 0 then none else readAt disk pos.toNat n.toNat

/-- groot/riofs/dir.go:173-228 (`readDirInfo`); `none` is an error or a panic. -/
def readDirInfo (disk : List UInt8) (h : FileHdr) : Option RDir :=
  let nbytes := h.nbytesname + recordSize h.version
  if nbytes + h.begin > h.end_ then none
  else
  (readAtI disk h.begin nbytes).bind fun data =>
  if h.nbytesname < 0 ∨ h.nbytesname > data.length then none
  else
  (DirHdr.unmarshal noUUID (newRBuffer (data.drop h.nbytesname.toNat) [] 0)).bind fun hdr =>
  if hdr.2.err then none
  else
  ((newRBuffer (data.drop 4) [] 0).readInt 2).bind fun keyversion =>
  let nk := if keyversion.1 > 1000 then 4 + 2 + 2 * 4 + 2 * 2 + 2 * 8 else 4 + 2 + 2 * 4 + 2 * 2 + 2 * 4
  ((newRBuffer (data.drop nk) [] 0).readString).bind fun classname =>
  (classname.2.readString).bind fun name =>
  (name.2.readString).bind fun title =>
  if hdr.1.nbytesname < 10 ∨ hdr.1.nbytesname > 1000 then none
  else some ⟨name.1, title.1, hdr.1, []⟩

/-- The loop of groot/riofs/dir.go:230-274 (`readKeys`). -/
def readKeysLoop : Nat → RBuf → Option (List Key)
  | 0, _ => some []
  | n + 1, r =>
    (Key.unmarshal r).bind fun k =>
    if k.2.err then none
    else (readKeysLoop n k.2).bind fun ks =>
      some ((if k.1.cls = tDirectory then { k.1 with cls := tDirectoryFile } else k.1) :: ks)

/-- groot/riofs/dir.go:230-274 (`readKeys`). -/
def readKeys (disk : List UInt8) (hdr : DirHdr) : Option (List Key) :=
  if hdr.seekkeys ≤ 0 then some []
  else
  (readAtI disk hdr.seekkeys hdr.nbyteskeys).bind fun buf =>
  (Key.unmarshal (newRBuffer buf [] 0)).bind fun k =>
  (readAtI disk (hdr.seekkeys + k.1.keylen) k.1.objlen).bind fun buf =>
  ((newRBuffer buf [] 0).readInt 4).bind fun nkeys =>
  if nkeys.1 < 0 then none else readKeysLoop nkeys.1.toNat nkeys.2

/-- groot/riofs/key.go:444-450 (`Bytes`): a fresh buffer. -/
def keyBytes (c : Codec) (disk : List UInt8) (k : Key) : Option (List UInt8) :=
  match load c disk ⟨k, []⟩ (List.replicate k.objlen.toNat 0) with
  | .ok bs => some bs
  | _ => none

/-- The loop of groot/riofs/file.go:666-703 (`readFreeSegments`); `fuel` is at least the number
of bytes. -/
def readSegsLoop : Nat → RBuf → Option (List Seg)
  | 0, _ => some []
  | fuel + 1, r =>
    if r.len = 0 then some []
    else (segUnmarshal r).bind fun s => (readSegsLoop fuel s.2).bind fun ss => some (s.1 :: ss)

/-- groot/riofs/file.go:666-703 (`readFreeSegments`). -/
def readFreeSegments (c : Codec) (disk : List UInt8) (h : FileHdr) : Option (List Seg) :=
  (readAtI disk h.seekfree h.nbytesfree).bind fun buf =>
  (Key.unmarshal (newRBuffer buf [] 0)).bind fun k =>
  (keyBytes c disk k.1).bind fun bs => readSegsLoop bs.length (newRBuffer bs [] 0)

/-- groot/riofs/file.go:501-532 (`readStreamerInfo`) up to the bytes of the list. -/
def readStreamerInfo (c : Codec) (disk : List UInt8) (h : FileHdr) : Option (List UInt8) :=
  if h.seekinfo ≤ 0 ∨ h.seekinfo ≥ h.end_ then none
  else
  (readAtI disk h.seekinfo h.nbytesinfo).bind fun buf =>
  (Key.unmarshal (newRBuffer buf [] 0)).bind fun k => keyBytes c disk k.1

/-- groot/riofs/file.go:127-146 (`Open`) with groot/riofs/file.go:290-368 (`readHeader`). -/
def openFile (c : Codec) (disk : List UInt8) : Option RFile :=
  (readAt disk 0 76).bind fun buf =>
  (FileHdr.unmarshal (newRBuffer buf [] 0)).bind fun h =>
  if h.2.err then none
  else
  (readDirInfo disk h.1).bind fun dir =>
  (if h.1.seekfree > 0 then readFreeSegments c disk h.1 else some []).bind fun spans =>
  (if h.1.seekinfo > 0 then readStreamerInfo c disk h.1 else some []).bind fun sinfo =>
  (readKeys disk dir.hdr).bind fun keys =>
  some ⟨h.1, { dir with keys := keys }, spans, sinfo⟩

/-- groot/riofs/key.go:391-441 (`Object`) of a key of class `TDirectoryFile`. -/
def objectDir (c : Codec) (disk : List UInt8) (k : Key) : Option RDir :=
  (keyBytes c disk k).bind fun bs =>
  (DirHdr.unmarshal noUUID (newRBuffer bs [] 0)).bind fun h =>
  if h.2.err then none
  else (readKeys disk h.1).bind fun keys => some ⟨k.name, k.name, h.1, keys⟩

end Verif.Riofs
