import Verif.Xrootd.Messages

/-!
# Model of `xrdfs/stat.go` and of the directory listings
-/

namespace Verif.Xrootd

/-- xrootd/xrdfs/stat.go:42-49 (`EntryStat`). -/
structure EntryStat where
  name : Bytes
  hasStat : Bool
  id : BitVec 64
  size : BitVec 64
  flags : BitVec 32
  mtime : BitVec 64
deriving DecidableEq

/-- The zero value with a name, as in xrootd/xrdproto/dirlist/dirlist.go:115-117 (`EntryName`). -/
def EntryStat.named (n : Bytes) : EntryStat := ⟨n, false, 0, 0, 0, 0⟩

/-- xrootd/xrdfs/stat.go:144-156 (`EntryStat.MarshalXrd`). -/
def EntryStat.marshal (o : EntryStat) : Bytes :=
  if !o.hasStat then []
  else intEnc o.id.toInt ++ 32 :: (intEnc o.size.toInt ++ 32 :: (intEnc o.flags.toInt ++ 32 :: intEnc o.mtime.toInt))

/-- The loop reading up to a NUL byte or a line feed of xrootd/xrdfs/stat.go:159-198
(`EntryStat.UnmarshalXrd`); `rest` is what lies between the position and the end. -/
def lineOf : Bytes → Bytes
  | [] => []
  | b :: rest => if b = 0 ∨ b = 10 then [] else b :: lineOf rest

/-- The same loop as a reader. -/
def rLine : Rd Bytes := fun r =>
  if r.pos ≤ r.buf.length then
    let l := lineOf (r.buf.drop r.pos)
    .ok (l, { r with pos := min r.buf.length (r.pos + l.length + 1) })
  else .panic

/-- The part of xrootd/xrdfs/stat.go:159-198 (`EntryStat.UnmarshalXrd`) after the fields were
split. -/
def statFields (o : EntryStat) (fs : List Bytes) : Out EntryStat :=
  match fs with
  | a :: b :: c :: d :: _ =>
    match atoi a, atoi b, atoi c, atoi d with
    | some id, some size, some flags, some mtime =>
      .ok ⟨o.name, true, BitVec.ofInt 64 id, BitVec.ofInt 64 size, BitVec.ofInt 32 flags, BitVec.ofInt 64 mtime⟩
    | _, _, _, _ => .err
  | _ => .err

/-- xrootd/xrdfs/stat.go:159-198 (`EntryStat.UnmarshalXrd`), into the entry `o`. -/
def dStatInfo (o : EntryStat) : Rd EntryStat := fun r =>
  match rLine r with
  | .ok (l, r') => match statFields o (splitOn 32 l) with
    | .ok v => .ok (v, r')
    | .err => .err
    | .panic => .panic
  | .err => .err
  | .panic => .panic

/-- xrootd/xrdfs/stat.go:201-208 (`VirtualFSStat`). -/
structure VirtualStat where
  numberRW : BitVec 64
  freeRW : BitVec 64
  utilRW : BitVec 64
  numberStaging : BitVec 64
  freeStaging : BitVec 64
  utilStaging : BitVec 64
deriving DecidableEq

/-- xrootd/xrdfs/stat.go:211-220 (`VirtualFSStat.MarshalXrd`). -/
def VirtualStat.marshal (o : VirtualStat) : Bytes :=
  intEnc o.numberRW.toInt ++ 32 :: (intEnc o.freeRW.toInt ++ 32 :: (intEnc o.utilRW.toInt ++ 32 ::
    (intEnc o.numberStaging.toInt ++ 32 :: (intEnc o.freeStaging.toInt ++ 32 :: intEnc o.utilStaging.toInt))))

/-- The part of xrootd/xrdfs/stat.go:223-271 (`VirtualFSStat.UnmarshalXrd`) after the fields were
split. -/
def virtualFields (fs : List Bytes) : Out VirtualStat :=
  match fs with
  | a :: b :: c :: d :: e :: f :: _ =>
    match atoi a, atoi b, atoi c, atoi d, atoi e, atoi f with
    | some a, some b, some c, some d, some e, some f =>
      .ok ⟨BitVec.ofInt 64 a, BitVec.ofInt 64 b, BitVec.ofInt 64 c, BitVec.ofInt 64 d, BitVec.ofInt 64 e,
        BitVec.ofInt 64 f⟩
    | _, _, _, _, _, _ => .err
  | _ => .err

/-- xrootd/xrdfs/stat.go:223-271 (`VirtualFSStat.UnmarshalXrd`). -/
def dVirtual : Rd VirtualStat := fun r =>
  match rLine r with
  | .ok (l, r') => match virtualFields (splitOn 32 l) with
    | .ok v => .ok (v, r')
    | .err => .err
    | .panic => .panic
  | .err => .err
  | .panic => .panic

/-! ## Directory listings -/

/-- The entry prepended by xrootd/xrdproto/dirlist/dirlist.go:35-80 (`Response.MarshalXrd`). -/
def dotEntry : EntryStat := ⟨[46], true, 0, 0, 0, 0⟩

/-- The loop of xrootd/xrdproto/dirlist/dirlist.go:35-80 (`Response.MarshalXrd`). -/
def marshalEntries (withStat : Bool) : List EntryStat → Bytes
  | [] => []
  | [e] => if withStat then e.name ++ 10 :: (e.marshal ++ [0]) else e.name ++ [0]
  | e :: f :: es =>
    (if withStat then e.name ++ 10 :: (e.marshal ++ [10]) else e.name ++ [10]) ++ marshalEntries withStat (f :: es)

/-- xrootd/xrdproto/dirlist/dirlist.go:35-80 (`Response.MarshalXrd`); `none` is an error. -/
def marshalList (withStat : Bool) (es : List EntryStat) : Option Bytes :=
  let es := if withStat then dotEntry :: es else es
  if es.all fun e => e.hasStat == withStat then some (marshalEntries withStat es) else none

/-- `bytes.TrimRight(b, "\x00")` (Go standard library). -/
def trimNul (b : Bytes) : Bytes := (b.reverse.dropWhile (· == 0)).reverse

/-- The bytes `".\n0 0 0 0"`, xrootd/xrdproto/dirlist/dirlist.go:110 (`HasPrefix`). -/
def dotStat : Bytes := [46, 10, 48, 32, 48, 32, 48, 32, 48]

/-- The last loop of xrootd/xrdproto/dirlist/dirlist.go:99-138 (`Response.UnmarshalXrd`); the number
of lines is even. -/
def statLines : List Bytes → Out (List EntryStat)
  | n :: s :: ls => match (dStatInfo (EntryStat.named [])).run s with
    | .ok e => match statLines ls with
      | .ok es => .ok ({ e with name := n } :: es)
      | .err => .err
      | .panic => .panic
    | .err => .err
    | .panic => .panic
  | _ => .ok []

/-- xrootd/xrdproto/dirlist/dirlist.go:99-138 (`Response.UnmarshalXrd`) on the bytes of a response,
into a zero `Response`. -/
def unmarshalList (b : Bytes) : Out (List EntryStat × Bool) :=
  if b = [] then .ok ([], false)
  else
    let data := trimNul b
    let lines := splitOn 10 data
    if ¬ ((dotStat ++ [10]).isPrefixOf data ∨ data = dotStat) then .ok (lines.map EntryStat.named, false)
    else if lines.length % 2 ≠ 0 then .err
    else match statLines (lines.drop 2) with
      | .ok es => .ok (es, true)
      | .err => .err
      | .panic => .panic

end Verif.Xrootd
