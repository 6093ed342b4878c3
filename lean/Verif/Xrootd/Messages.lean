import Verif.Xrootd.Enc
import Verif.Common.Decimal

/-!
# Model of the requests and responses of `xrootd/xrdproto/...`

One constructor of `Req` per request package, one decoder per `UnmarshalXrd`.  Arrays of
bytes are vectors, Go strings and slices of bytes are lists of bytes; a `nil` slice and an
empty one are the same list.  Unmarshalling starts from the zero value of the struct.
-/

namespace Verif.Xrootd

/-- A Go array `[n]byte`. -/
abbrev Arr (n : Nat) := Vector UInt8 n

/-- `WriteBytes(a[:])`, xrootd/internal/xrdenc/xrdenc.go:50-52 (`WBuffer.WriteBytes`). -/
def wArr {n : Nat} (a : Arr n) : Bytes := a.toList

/-- `ReadBytes(a[:])`, xrootd/internal/xrdenc/xrdenc.go:116-122 (`RBuffer.ReadBytes`). -/
def rArr (n : Nat) : Rd (Arr n) := fun r =>
  match rSlice n r with
  | .ok (b, r') => if h : b.length = n then .ok (⟨b.toArray, by simpa using h⟩, r') else .panic
  | .err => .err
  | .panic => .panic

/-- xrootd/xrdproto/read/read.go:105-109 (`ReadAhead`). -/
structure ReadAhead where
  handle : Arr 4
  length : BitVec 32
  offset : BitVec 64
deriving DecidableEq

/-- xrootd/xrdproto/read/read.go:56-63 (`OptionalArgs`). -/
structure ReadArgs where
  pathID : BitVec 8
  aheads : List ReadAhead
deriving DecidableEq

/-- The request structs of the packages under xrootd/xrdproto. -/
inductive Req
  | auth (type : Arr 4) (credentials : Bytes)
  | query (query : BitVec 16) (handle : Arr 4) (args : Bytes)
  | chmod (mode : BitVec 16) (path : Bytes)
  | close (handle : Arr 4) (size : BitVec 64)
  | dirlist (options : BitVec 8) (path : Bytes)
  | protocol (version : BitVec 32) (options : BitVec 8)
  | login (pid : BitVec 32) (username : Arr 8) (ability capabilities role : BitVec 8) (token : Bytes)
  | mkdir (options : BitVec 8) (mode : BitVec 16) (path : Bytes)
  | mv (oldPath newPath : Bytes)
  | open (mode options : BitVec 16) (path : Bytes)
  | ping
  | read (handle : Arr 4) (offset : BitVec 64) (length : BitVec 32) (args : Option ReadArgs)
  | rm (path : Bytes)
  | rmdir (path : Bytes)
  | sync (handle : Arr 4)
  | stat (options : BitVec 8) (handle : Arr 4) (path : Bytes)
  | write (handle : Arr 4) (offset : BitVec 64) (pathID : BitVec 8) (data : Bytes)
  | admin (req : Bytes)
  | prepare (options priority : BitVec 8) (port : BitVec 16) (paths : List Bytes)
  | statx (paths : Bytes)
  | endsess (sessionID : Arr 16)
  | bind (sessionID : Arr 16)
  | verifyw (handle : Arr 4) (offset : BitVec 64) (pathID verification : BitVec 8) (data : Bytes)
  | locate (options : BitVec 16) (path : Bytes)
  | truncate (handle : Arr 4) (size : BitVec 64) (path : Bytes)
  | sigver (id : BitVec 16) (version flags : BitVec 8) (seqID : BitVec 64) (crypto : BitVec 8) (signature : Bytes)
  | decrypt
deriving DecidableEq

/-- The constants `RequestID` of the packages, returned by `ReqID`. -/
def Req.id : Req → BitVec 16
  | .auth .. => 3000#16     -- xrootd/xrdproto/auth/auth.go:14 (`RequestID`)
  | .query .. => 3001#16    -- xrootd/xrdproto/query/query.go:31 (`RequestID`)
  | .chmod .. => 3002#16    -- xrootd/xrdproto/chmod/chmod.go:17 (`RequestID`)
  | .close .. => 3003#16    -- xrootd/xrdproto/xrdclose/xrdclose.go:16 (`RequestID`)
  | .dirlist .. => 3004#16  -- xrootd/xrdproto/dirlist/dirlist.go:21 (`RequestID`)
  | .protocol .. => 3006#16 -- xrootd/xrdproto/protocol/protocol.go:27 (`RequestID`)
  | .login .. => 3007#16    -- xrootd/xrdproto/login/login.go:23 (`RequestID`)
  | .mkdir .. => 3008#16    -- xrootd/xrdproto/mkdir/mkdir.go:17 (`RequestID`)
  | .mv .. => 3009#16       -- xrootd/xrdproto/mv/mv.go:20 (`RequestID`)
  | .open .. => 3010#16     -- xrootd/xrdproto/open/open.go:17 (`RequestID`)
  | .ping => 3011#16        -- xrootd/xrdproto/ping/ping.go:15 (`RequestID`)
  | .read .. => 3013#16     -- xrootd/xrdproto/read/read.go:19 (`RequestID`)
  | .rm .. => 3014#16       -- xrootd/xrdproto/rm/rm.go:16 (`RequestID`)
  | .rmdir .. => 3015#16    -- xrootd/xrdproto/rmdir/rmdir.go:16 (`RequestID`)
  | .sync .. => 3016#16     -- xrootd/xrdproto/sync/sync.go:16 (`RequestID`)
  | .stat .. => 3017#16     -- xrootd/xrdproto/stat/stat.go:17 (`RequestID`)
  | .write .. => 3019#16    -- xrootd/xrdproto/write/write.go:17 (`RequestID`)
  | .admin .. => 3020#16    -- xrootd/xrdproto/admin/admin.go:15 (`RequestID`)
  | .prepare .. => 3021#16  -- xrootd/xrdproto/prepare/prepare.go:28 (`RequestID`)
  | .statx .. => 3022#16    -- xrootd/xrdproto/statx/statx.go:19 (`RequestID`)
  | .endsess .. => 3023#16  -- xrootd/xrdproto/endsess/endsess.go:15 (`RequestID`)
  | .bind .. => 3024#16     -- xrootd/xrdproto/bind/bind.go:15 (`RequestID`)
  | .verifyw .. => 3026#16  -- xrootd/xrdproto/verifyw/verifyw.go:19 (`RequestID`)
  | .locate .. => 3027#16   -- xrootd/xrdproto/locate/locate.go:23 (`RequestID`)
  | .truncate .. => 3028#16 -- xrootd/xrdproto/truncate/truncate.go:17 (`RequestID`)
  | .sigver .. => 3029#16   -- xrootd/xrdproto/sigver/sigver.go:19 (`RequestID`)
  | .decrypt => 3030#16     -- xrootd/xrdproto/decrypt/decrypt.go:15 (`RequestID`)

/-! ## Marshalling requests -/

/-- xrootd/xrdproto/read/read.go:112-117 (`ReadAhead.MarshalXrd`). -/
def ReadAhead.marshal (a : ReadAhead) : Bytes := wArr a.handle ++ (wI32 a.length ++ wI64 a.offset)

/-- The loop over the read-aheads of xrootd/xrdproto/read/read.go:66-78 (`OptionalArgs.MarshalXrd`). -/
def marshalAheads : List ReadAhead → Bytes
  | [] => []
  | a :: as => a.marshal ++ marshalAheads as

/-- xrootd/xrdproto/read/read.go:66-78 (`OptionalArgs.MarshalXrd`). -/
def ReadArgs.marshal (o : ReadArgs) : Bytes :=
  wLen (o.aheads.length * 16 + 8) ++ (wU8 o.pathID ++ (wNext 7 ++ marshalAheads o.aheads))

/-- `strings.Join(paths, "\n")` and the loop of xrootd/xrdproto/prepare/prepare.go:40-61
(`Request.MarshalXrd`). -/
def joinLines : List Bytes → Bytes
  | [] => []
  | [p] => p
  | p :: q :: ps => p ++ 10 :: joinLines (q :: ps)

/-- The `MarshalXrd` methods of the requests. -/
def Req.marshal : Req → Bytes
  -- xrootd/xrdproto/auth/auth.go:30-35 (`MarshalXrd`)
  | .auth t c => wNext 12 ++ (wArr t ++ wStr c)
  -- xrootd/xrdproto/query/query.go:49-57 (`MarshalXrd`)
  | .query q h a => wU16 q ++ (wNext 2 ++ (wArr h ++ (wNext 8 ++ (wLen a.length ++ a))))
  -- xrootd/xrdproto/chmod/chmod.go:27-32 (`MarshalXrd`)
  | .chmod m p => wNext 14 ++ (wU16 m ++ wStr p)
  -- xrootd/xrdproto/xrdclose/xrdclose.go:31-36 (`MarshalXrd`)
  | .close h s => wArr h ++ (wI64 s ++ wNext 8)
  -- xrootd/xrdproto/dirlist/dirlist.go:167-172 (`MarshalXrd`)
  | .dirlist o p => wNext 15 ++ (wU8 o ++ wStr p)
  -- xrootd/xrdproto/protocol/protocol.go:82-87 (`MarshalXrd`)
  | .protocol v o => wI32 v ++ (wU8 o ++ wNext 15)
  -- xrootd/xrdproto/login/login.go:85-95 (`MarshalXrd`)
  | .login pid u a c r t =>
    wI32 pid ++ (wArr u ++ (wNext 1 ++ (wU8 a ++ (wU8 c ++ (wU8 r ++ (wLen t.length ++ t))))))
  -- xrootd/xrdproto/mkdir/mkdir.go:37-43 (`MarshalXrd`)
  | .mkdir o m p => wU8 o ++ (wNext 13 ++ (wU16 m ++ wStr p))
  -- xrootd/xrdproto/mv/mv.go:30-38 (`MarshalXrd`)
  | .mv o n => wNext 14 ++ (wU16 (BitVec.ofNat 16 o.length)
      ++ (wLen (o.length + n.length + 1) ++ (o ++ 32 :: n)))
  -- xrootd/xrdproto/open/open.go:94-100 (`MarshalXrd`)
  | .open m o p => wU16 m ++ (wU16 o ++ (wNext 12 ++ wStr p))
  -- xrootd/xrdproto/ping/ping.go:24-27 (`MarshalXrd`)
  | .ping => wNext 20
  -- xrootd/xrdproto/read/read.go:134-143 (`MarshalXrd`)
  | .read h off len none => wArr h ++ (wI64 off ++ (wI32 len ++ wLen 0))
  | .read h off len (some a) => wArr h ++ (wI64 off ++ (wI32 len ++ a.marshal))
  -- xrootd/xrdproto/rm/rm.go:25-29 (`MarshalXrd`)
  | .rm p => wNext 16 ++ wStr p
  -- xrootd/xrdproto/rmdir/rmdir.go:25-29 (`MarshalXrd`)
  | .rmdir p => wNext 16 ++ wStr p
  -- xrootd/xrdproto/sync/sync.go:26-30 (`MarshalXrd`)
  | .sync h => wArr h ++ wNext 16
  -- xrootd/xrdproto/stat/stat.go:59-65 (`MarshalXrd`)
  | .stat o h p => wU8 o ++ (wNext 11 ++ (wArr h ++ wStr p))
  -- xrootd/xrdproto/write/write.go:29-42 (`MarshalXrd`): the data only without a path id
  | .write h off pid d =>
    wArr h ++ (wI64 off ++ (wU8 pid ++ (wNext 3 ++ (wLen d.length ++ (if pid = 0#8 then d else [])))))
  -- xrootd/xrdproto/admin/admin.go:30-34 (`MarshalXrd`)
  | .admin r => wNext 16 ++ wStr r
  -- xrootd/xrdproto/prepare/prepare.go:40-61 (`MarshalXrd`)
  | .prepare o pr port ps =>
    wU8 o ++ (wU8 pr ++ (wU16 port ++ (wNext 12 ++ (wLen (joinLines ps).length ++ joinLines ps))))
  -- xrootd/xrdproto/statx/statx.go:59-63 (`MarshalXrd`)
  | .statx ps => wNext 16 ++ wStr ps
  -- xrootd/xrdproto/endsess/endsess.go:30-34 (`MarshalXrd`)
  | .endsess s => wArr s ++ wI32 0#32
  -- xrootd/xrdproto/bind/bind.go:30-34 (`MarshalXrd`)
  | .bind s => wArr s ++ wNext 4
  -- xrootd/xrdproto/verifyw/verifyw.go:40-50 (`MarshalXrd`)
  | .verifyw h off pid v d =>
    wArr h ++ (wI64 off ++ (wU8 pid ++ (wU8 v ++ (wNext 2 ++ (wLen d.length ++ d)))))
  -- xrootd/xrdproto/locate/locate.go:39-44 (`MarshalXrd`)
  | .locate o p => wU16 o ++ (wNext 14 ++ wStr p)
  -- xrootd/xrdproto/truncate/truncate.go:29-35 (`MarshalXrd`)
  | .truncate h s p => wArr h ++ (wI64 s ++ (wNext 4 ++ wStr p))
  -- xrootd/xrdproto/sigver/sigver.go:46-56 (`MarshalXrd`)
  | .sigver id v f s c sig =>
    wU16 id ++ (wU8 v ++ (wU8 f ++ (wI64 s ++ (wU8 c ++ (wNext 3 ++ (wLen sig.length ++ sig))))))
  -- xrootd/xrdproto/decrypt/decrypt.go:30-34 (`MarshalXrd`)
  | .decrypt => wNext 16 ++ wI32 0#32

/-! ## Unmarshalling requests -/

/-- xrootd/xrdproto/read/read.go:120-125 (`ReadAhead.UnmarshalXrd`). -/
def dAhead : Rd ReadAhead := do
  let h ← rArr 4
  let l ← rI32
  let o ← rI64
  Rd.pure ⟨h, l, o⟩

/-- The loop of xrootd/xrdproto/read/read.go:81-100 (`OptionalArgs.UnmarshalXrd`). -/
def dAheads : Nat → Rd (List ReadAhead)
  | 0 => Rd.pure []
  | n + 1 => do
    let a ← dAhead
    let as ← dAheads n
    Rd.pure (a :: as)

/-- xrootd/xrdproto/read/read.go:81-100 (`OptionalArgs.UnmarshalXrd`). -/
def dArgs : Rd ReadArgs := do
  let alen ← rLen
  let p ← rU8
  rSkip 7
  if alen < 8 ∨ (alen - 8) % 16 ≠ 0 then fail
  else do
    let as ← dAheads ((alen - 8) / 16).toNat
    Rd.pure ⟨p, as⟩

/-- xrootd/xrdproto/read/read.go:146-159 (`Request.UnmarshalXrd`). -/
def dRead : Rd Req := do
  let h ← rArr 4
  let off ← rI64
  let len ← rI32
  let n ← rRemaining
  if n > 4 then do
    let a ← dArgs
    Rd.pure (.read h off len (some a))
  else do
    let alen ← rLen
    if alen = 0 then Rd.pure (.read h off len none) else fail

/-- The last two assignments of xrootd/xrdproto/mv/mv.go:41-57 (`Request.UnmarshalXrd`): slicing from
beyond the end of the string is a panic. -/
def cutMv (fromLen : Nat) (paths : Bytes) : Rd Req :=
  if fromLen + 1 ≤ paths.length then Rd.pure (.mv (paths.take fromLen) (paths.drop (fromLen + 1))) else crash

/-- xrootd/xrdproto/mv/mv.go:41-57 (`Request.UnmarshalXrd`): the last part, with `paths` and
`fromLen` read; `strings.Index(paths, " ")` is `paths.idxOf? 32`. -/
def splitMv (fromLen : Nat) (paths : Bytes) : Rd Req :=
  if fromLen ≥ paths.length then fail
  else if fromLen = 0 then
    match paths.idxOf? 32 with
    | none => fail
    | some k => cutMv k paths
  else cutMv fromLen paths

/-- xrootd/xrdproto/mv/mv.go:41-57 (`Request.UnmarshalXrd`). -/
def dMv : Rd Req := do
  rSkip 14
  let n ← rU16
  let paths ← rStr
  splitMv n.toNat paths

/-- xrootd/xrdproto/prepare/prepare.go:64-79 (`Request.UnmarshalXrd`). -/
def dPrepare : Rd Req := do
  let o ← rU8
  let pr ← rU8
  let port ← rU16
  rSkip 12
  let n ← rLen
  let raw ← rMake n
  Rd.pure (.prepare o pr port (if n = 0 then [] else splitOn 10 raw))

/-- The `if n > 0` of xrootd/xrdproto/query/query.go:60-71 (`Request.UnmarshalXrd`). -/
def rArgs (n : Int) : Rd Bytes := if n > 0 then rMake n else Rd.pure []

/-- xrootd/xrdproto/query/query.go:60-71 (`Request.UnmarshalXrd`). -/
def dQuery : Rd Req := do
  let q ← rU16
  rSkip 2
  let h ← rArr 4
  rSkip 8
  let n ← rLen
  let a ← rArgs n
  Rd.pure (.query q h a)

/-- xrootd/xrdproto/auth/auth.go:38-43 (`UnmarshalXrd`). -/
def dAuth : Rd Req := do
  rSkip 12
  let t ← rArr 4
  let c ← rStr
  Rd.pure (.auth t c)
/-- xrootd/xrdproto/chmod/chmod.go:35-40 (`UnmarshalXrd`). -/
def dChmod : Rd Req := do
  rSkip 14
  let m ← rU16
  let p ← rStr
  Rd.pure (.chmod m p)
/-- xrootd/xrdproto/xrdclose/xrdclose.go:39-44 (`UnmarshalXrd`). -/
def dClose : Rd Req := do
  let h ← rArr 4
  let s ← rI64
  rSkip 8
  Rd.pure (.close h s)
/-- xrootd/xrdproto/dirlist/dirlist.go:175-180 (`UnmarshalXrd`). -/
def dDirlist : Rd Req := do
  rSkip 15
  let o ← rU8
  let p ← rStr
  Rd.pure (.dirlist o p)
/-- xrootd/xrdproto/protocol/protocol.go:90-95 (`UnmarshalXrd`). -/
def dProtocol : Rd Req := do
  let v ← rI32
  let o ← rU8
  rSkip 15
  Rd.pure (.protocol v o)
/-- xrootd/xrdproto/login/login.go:98-108 (`UnmarshalXrd`). -/
def dLogin : Rd Req := do
  let pid ← rI32
  let u ← rArr 8
  rSkip 1
  let a ← rU8
  let c ← rU8
  let r ← rU8
  let n ← rLen
  let t ← rMake n
  Rd.pure (.login pid u a c r t)
/-- xrootd/xrdproto/mkdir/mkdir.go:46-52 (`UnmarshalXrd`). -/
def dMkdir : Rd Req := do
  let o ← rU8
  rSkip 13
  let m ← rU16
  let p ← rStr
  Rd.pure (.mkdir o m p)
/-- xrootd/xrdproto/open/open.go:103-109 (`UnmarshalXrd`). -/
def dOpen : Rd Req := do
  let m ← rU16
  let o ← rU16
  rSkip 12
  let p ← rStr
  Rd.pure (.open m o p)
/-- xrootd/xrdproto/ping/ping.go:30-33 (`UnmarshalXrd`). -/
def dPing : Rd Req := do
  rSkip 20
  Rd.pure .ping
/-- xrootd/xrdproto/rm/rm.go:32-36 (`UnmarshalXrd`). -/
def dRm : Rd Req := do
  rSkip 16
  let p ← rStr
  Rd.pure (.rm p)
/-- xrootd/xrdproto/rmdir/rmdir.go:32-36 (`UnmarshalXrd`). -/
def dRmdir : Rd Req := do
  rSkip 16
  let p ← rStr
  Rd.pure (.rmdir p)
/-- xrootd/xrdproto/sync/sync.go:33-37 (`UnmarshalXrd`). -/
def dSync : Rd Req := do
  let h ← rArr 4
  rSkip 16
  Rd.pure (.sync h)
/-- xrootd/xrdproto/stat/stat.go:68-74 (`UnmarshalXrd`). -/
def dStat : Rd Req := do
  let o ← rU8
  rSkip 11
  let h ← rArr 4
  let p ← rStr
  Rd.pure (.stat o h p)
/-- xrootd/xrdproto/write/write.go:45-53 (`UnmarshalXrd`). -/
def dWrite : Rd Req := do
  let h ← rArr 4
  let off ← rI64
  let pid ← rU8
  rSkip 3
  let n ← rLen
  let d ← rMake n
  Rd.pure (.write h off pid d)
/-- xrootd/xrdproto/admin/admin.go:37-41 (`UnmarshalXrd`). -/
def dAdmin : Rd Req := do
  rSkip 16
  let p ← rStr
  Rd.pure (.admin p)
/-- xrootd/xrdproto/statx/statx.go:66-70 (`UnmarshalXrd`). -/
def dStatx : Rd Req := do
  rSkip 16
  let p ← rStr
  Rd.pure (.statx p)
/-- xrootd/xrdproto/endsess/endsess.go:37-41 (`UnmarshalXrd`). -/
def dEndsess : Rd Req := do
  let s ← rArr 16
  let _ ← rI32
  Rd.pure (.endsess s)
/-- xrootd/xrdproto/bind/bind.go:37-41 (`UnmarshalXrd`). -/
def dBind : Rd Req := do
  let s ← rArr 16
  rSkip 4
  Rd.pure (.bind s)
/-- xrootd/xrdproto/verifyw/verifyw.go:53-62 (`UnmarshalXrd`). -/
def dVerifyw : Rd Req := do
  let h ← rArr 4
  let off ← rI64
  let pid ← rU8
  let v ← rU8
  rSkip 2
  let n ← rLen
  let d ← rMake n
  Rd.pure (.verifyw h off pid v d)
/-- xrootd/xrdproto/locate/locate.go:47-52 (`UnmarshalXrd`). -/
def dLocate : Rd Req := do
  let o ← rU16
  rSkip 14
  let p ← rStr
  Rd.pure (.locate o p)
/-- xrootd/xrdproto/truncate/truncate.go:38-44 (`UnmarshalXrd`). -/
def dTruncate : Rd Req := do
  let h ← rArr 4
  let s ← rI64
  rSkip 4
  let p ← rStr
  Rd.pure (.truncate h s p)
/-- xrootd/xrdproto/sigver/sigver.go:59-69 (`UnmarshalXrd`). -/
def dSigver : Rd Req := do
  let id ← rU16
  let v ← rU8
  let f ← rU8
  let s ← rI64
  let c ← rU8
  rSkip 3
  let n ← rLen
  let sig ← rMake n
  Rd.pure (.sigver id v f s c sig)
/-- xrootd/xrdproto/decrypt/decrypt.go:37-41 (`UnmarshalXrd`). -/
def dDecrypt : Rd Req := do
  rSkip 16
  let _ ← rI32
  Rd.pure .decrypt

/-- The `UnmarshalXrd` method of the request package with the given `RequestID`. -/
def decoder (id : Nat) : Option (Rd Req) :=
  if id = 3000 then some dAuth else if id = 3001 then some dQuery
  else if id = 3002 then some dChmod else if id = 3003 then some dClose
  else if id = 3004 then some dDirlist else if id = 3006 then some dProtocol
  else if id = 3007 then some dLogin else if id = 3008 then some dMkdir
  else if id = 3009 then some dMv else if id = 3010 then some dOpen
  else if id = 3011 then some dPing else if id = 3013 then some dRead
  else if id = 3014 then some dRm else if id = 3015 then some dRmdir
  else if id = 3016 then some dSync else if id = 3017 then some dStat
  else if id = 3019 then some dWrite else if id = 3020 then some dAdmin
  else if id = 3021 then some dPrepare else if id = 3022 then some dStatx
  else if id = 3023 then some dEndsess else if id = 3024 then some dBind
  else if id = 3026 then some dVerifyw else if id = 3027 then some dLocate
  else if id = 3028 then some dTruncate else if id = 3029 then some dSigver
  else if id = 3030 then some dDecrypt else none

/-- The cases of xrootd/server.go:242-356 (`Server.handleRequest`). -/
def served : List Nat := [3007, 3006, 3004, 3010, 3003, 3013, 3019, 3017, 3016, 3028, 3009, 3008, 3011, 3014, 3015]

/-- What xrootd/server.go:242-356 (`Server.handleRequest`) passes to the handler: the unmarshalled
request, or an error reported to the client (`.err`: unknown id or unmarshalling error). -/
def serve (id : BitVec 16) : Rd Req :=
  if served.contains id.toNat then
    match decoder id.toNat with
    | some d => d
    | none => fail
  else fail

/-! ## Headers and framing -/

/-- xrootd/xrdproto/xrdproto.go:192-196 (`RequestHeader.MarshalXrd`). -/
def wReqHeader (sid : Arr 2) (id : BitVec 16) : Bytes := wArr sid ++ wU16 id

/-- xrootd/xrdproto/xrdproto.go:199-203 (`RequestHeader.UnmarshalXrd`). -/
def dReqHeader : Rd (Arr 2 × BitVec 16) := do
  let s ← rArr 2
  let id ← rU16
  Rd.pure (s, id)

/-- The bytes of a request as written to the connection, xrootd/session.go:344-389
(`cliSession.Send`), without signature and without data sent over a separate socket. -/
def Req.wire (sid : Arr 2) (q : Req) : Bytes := wReqHeader sid q.id ++ q.marshal

/-- What xrootd/server.go:134-210 (`Server.handleConnection`) does with the bytes of one request:
header first, then the request. -/
def handle : Rd (Arr 2 × Req) := do
  let h ← dReqHeader
  let q ← serve h.2
  Rd.pure (h.1, q)

/-- xrootd/xrdproto/xrdproto.go:147-152 (`ResponseHeader.MarshalXrd`). -/
def wRespHeader (sid : Arr 2) (status : BitVec 16) (n : BitVec 32) : Bytes :=
  wArr sid ++ (wU16 status ++ wI32 n)

/-- xrootd/xrdproto/xrdproto.go:155-160 (`ResponseHeader.UnmarshalXrd`). -/
def dRespHeader : Rd (Arr 2 × BitVec 16 × BitVec 32) := do
  let s ← rArr 2
  let st ← rU16
  let n ← rI32
  Rd.pure (s, st, n)

/-- A reader failing in the middle. -/
inductive RdRes (α : Type)
  | ok (v : α) (rest : Bytes)
  | err
  | panic
deriving DecidableEq, Repr

/-- xrootd/xrdproto/xrdproto.go:332-351 (`ReadRequest`); any read error is `.err`. -/
def readRequest (s : Bytes) : RdRes Bytes :=
  if s.length < 24 then .err
  else
    let n := beDec ((s.drop 20).take 4)
    if s.length < 24 + n then .err else .ok (s.take (24 + n)) (s.drop (24 + n))

/-- xrootd/xrdproto/xrdproto.go:358-382 (`WriteResponse`). -/
def writeResponse (sid : Arr 2) (status : BitVec 16) (data : Bytes) : Bytes :=
  wRespHeader sid status (BitVec.ofNat 32 data.length) ++ data

/-- xrootd/xrdproto/xrdproto.go:397-413 (`ReadResponseWithReuse`); a negative length panics. -/
def readResponse (s : Bytes) : RdRes (Arr 2 × BitVec 16 × Bytes) :=
  if s.length < 8 then .err
  else match dRespHeader.run (s.take 8) with
    | .ok (sid, st, n) =>
      if n = 0#32 then .ok (sid, st, []) (s.drop 8)
      else if n.toInt < 0 then .panic
      else if s.length < 8 + n.toNat then .err
      else .ok (sid, st, (s.drop 8).take n.toNat) (s.drop (8 + n.toNat))
    | .err => .err
    | .panic => .panic

end Verif.Xrootd
