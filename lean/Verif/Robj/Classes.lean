import Verif.Robj.Rd

/-!
# Writing and reading ROOT classes

The `MarshalROOT` and `UnmarshalROOT` methods of the classes, as values of `Wr` and
`Rd`. A pointer to an object is the name of the object (`none` is nil). The types
of the objects pointed to (`obj.(*H1F)` and the like) are not represented. Fields
that are not read, because of the version of the class that wrote them, keep the
value they have in a new object; they are zero here.
-/

namespace Verif.Robj

open Verif.RBytes Verif.RBytes.Refs

/-- A pointer that must not be nil. -/
def rSome : Rd Nat := do
  match ← rRef with
  | some i => pure i
  | none => .fail

/-! ### Objects and containers -/

structure Object where
  id : BitVec 32
  bits : BitVec 32
deriving DecidableEq, Repr

/-- groot/rbase/object.go:54-70 (`Object.MarshalROOT`); `kIsReferenced` is bit 4
(groot/rbase/consts.go:8-11). -/
def objectW (o : Object) : Wr :=
  if o.bits &&& 0x10#32 = 0#32 then seq [w16 1, w32 o.id, w32 o.bits]
  else seq [w16 1, w32 (o.id &&& 0xffffff#32), w32 o.bits, w16 0]

/-- groot/rbytes/rbuffer.go:517-532 (`SkipVersion`), for the empty class name. -/
def skipVersionR : Rd Unit := do
  let vers ← r16
  if vers &&& 0x4000#16 = 0#16 then pure ()
  else do
    let _ ← r16
    let _ ← r16
    pure ()

/-- groot/rbase/object.go:43-52 (`Object.UnmarshalROOT`). -/
def objectR : Rd Object := do
  skipVersionR
  let id ← r32
  let b ← r32
  if (b ||| 0x01000000#32) &&& 0x10#32 = 0#32 then return ⟨id, b ||| 0x01000000#32⟩
  else do
    let _ ← r16
    return ⟨id, b ||| 0x01000000#32⟩

/-- groot/rcont/array_gen.go:48-58, 116-126, 184-194, 252-262, 320-330, 388-398, 456-466 (`MarshalROOT`
of the arrays). -/
def arrW {α : Type} (w : α → Wr) (xs : List α) : Wr := seq [wInt xs.length, wAll w xs]

/-- groot/rcont/array_gen.go:60-70, 128-138, 196-206, 264-274, 332-342, 400-410, 468-478
(`UnmarshalROOT` of the arrays). -/
def arrR {α : Type} (r : Rd α) : Rd (List α) := do
  let n ← rInt
  rMake r n

/-- groot/rbytes/wbuffer_gen.go:409-430 (`WriteStdVectorF64`), groot/rbytes/wbuffer.go:564-582
(`WriteStdVectorStrs`), groot/rhist/graph.go:974-1011 (`writeStdVectorTArrayD` and the
like), groot/rhist/formula.go:166-177 (`writeStdVectorObjP`). -/
def vecW {α : Type} (w : α → Wr) (xs : List α) : Wr := wBlock 10 [wInt xs.length, wAll w xs]

/-- groot/rbytes/rbuffer_gen.go:441-461 (`ReadStdVectorF64`), groot/rbytes/rbuffer.go:503-515
(`ReadStdVectorStrs`), groot/rhist/graph.go:1013-1033 (`readStdVectorTArrayD` and the like, where
the members are not split), groot/rhist/formula.go:134-149 (`readStdVectorObjP`). -/
def vecR {α : Type} (r : Rd α) : Rd (List α) := rBlock 10 fun _ => do
  let n ← rInt
  rMake r n

/-- groot/rcont/list.go:75-90 (`List.MarshalROOT`), groot/rcont/list.go:154-156
(`HashList.MarshalROOT`). An element with its option. -/
structure RList where
  obj : Object
  name : List UInt8
  elems : List (Option Nat × List UInt8)
deriving DecidableEq, Repr

def listElemW (e : Option Nat × List UInt8) : Wr := seq [wRef e.1, wStr e.2]

/-- groot/rcont/list.go:75-90 (`List.MarshalROOT`). -/
def listW (a : RList) : Wr :=
  wBlock 5 [objectW a.obj, wStr a.name, wInt a.elems.length, wAll listElemW a.elems]

/-- An element of a list that was read: a nil object is a panic. -/
def listElemR : Rd (Option Nat × List UInt8) := do
  let i ← rSome
  let s ← rStr
  return (some i, s)

/-- groot/rcont/list.go:92-122 (`List.UnmarshalROOT`), groot/rcont/list.go:158-160
(`HashList.UnmarshalROOT`). -/
def listR : Rd RList := rBlock 5 fun v =>
  if v.toInt ≤ 3 then .fail else do
  let obj ← objectR
  let name ← rStr
  let n ← rInt
  let elems ← rMake listElemR n
  return { obj, name, elems }

/-- groot/rcont/objarray.go:17-23 (`ObjArray`). -/
structure ObjArray where
  obj : Object
  name : List UInt8
  last : Int
  low : BitVec 32
  objs : List (Option Nat)
deriving DecidableEq, Repr

/-- groot/rcont/objarray.go:83-100 (`ObjArray.MarshalROOT`). -/
def objArrayW (a : ObjArray) : Wr :=
  wBlock 3 [objectW a.obj, wStr a.name, wInt a.objs.length, w32 a.low, wAll wRef a.objs]

/-- The loops of groot/rcont/objarray.go:104-136 (`ObjArray.UnmarshalROOT`) and
groot/rcont/refarray.go:90-117 (`RefArray.UnmarshalROOT`): the last index `i` for which something was
found, -1 if there is none. -/
def lastOf (ps : List Bool) : Int :=
  (ps.foldl (fun q p => (q.1 + 1, if p then q.1 else q.2)) ((0 : Int), (-1 : Int))).2

/-- groot/rcont/objarray.go:104-136 (`ObjArray.UnmarshalROOT`). -/
def objArrayR : Rd ObjArray := rBlock 3 fun v => do
  let obj ← if 2 < v.toInt then objectR else pure ⟨0, 0⟩
  let name ← if 1 < v.toInt then rStr else pure []
  let n ← rInt
  let low ← r32
  let objs ← rMake rRef n
  return { obj, name, last := lastOf (objs.map Option.isSome), low, objs }

/-- groot/rcont/refarray.go:17-25 (`RefArray`). -/
structure RefArray where
  obj : Object
  name : List UInt8
  refs : List (BitVec 32)
  lower : BitVec 32
  last : Int
deriving DecidableEq, Repr

/-- groot/rcont/refarray.go:73-88 (`RefArray.MarshalROOT`). -/
def refArrayW (a : RefArray) : Wr :=
  wBlock 1 [objectW a.obj, wStr a.name, wInt a.refs.length, w32 a.lower, w16 0, wAll w32 a.refs]

/-- groot/rcont/refarray.go:90-117 (`RefArray.UnmarshalROOT`). -/
def refArrayR : Rd RefArray := rBlock 1 fun v =>
  if v.toInt < 1 then .fail else do
  let obj ← objectR
  let name ← rStr
  let n ← rInt
  let lower ← r32
  let _ ← r16
  let refs ← rMake r32 n
  return { obj, name, refs, lower, last := lastOf (refs.map (· != 0)) }

/-- Storing under a key in a Go map, as an association list. -/
def put {κ ν : Type} [DecidableEq κ] (tbl : List (κ × ν)) (k : κ) (v : ν) : List (κ × ν) :=
  tbl.filter (fun e => e.1 ≠ k) ++ [(k, v)]

/-- groot/rcont/map.go:19-23 (`Map`). The entries in the order in which the map is
ranged over. -/
structure RMap where
  obj : Object
  name : List UInt8
  tbl : List (Option Nat × Option Nat)
deriving DecidableEq, Repr

def mapElemW (e : Option Nat × Option Nat) : Wr := seq [wRef e.1, wRef e.2]

def mapElemR : Rd (Option Nat × Option Nat) := do
  let k ← rRef
  let v ← rRef
  return (k, v)

/-- groot/rcont/map.go:46-63 (`Map.MarshalROOT`). -/
def mapW (a : RMap) : Wr :=
  wBlock 3 [objectW a.obj, wStr a.name, wInt a.tbl.length, wAll mapElemW a.tbl]

/-- The loop body of groot/rcont/map.go:67-98 (`Map.UnmarshalROOT`): nothing is stored under a
nil key. -/
def mapStep (tbl : List (Option Nat × Option Nat)) (e : Option Nat × Option Nat) :
    List (Option Nat × Option Nat) :=
  if e.1.isSome then put tbl e.1 e.2 else tbl

/-- `for range n` does nothing when `n` is negative. -/
def rLoop {α : Type} (r : Rd α) (n : Int) : Rd (List α) := rAll r n.toNat

/-- groot/rcont/map.go:67-98 (`Map.UnmarshalROOT`). -/
def mapR : Rd RMap := rBlock 3 fun v => do
  let obj ← if 2 < v.toInt then objectR else pure ⟨0, 0⟩
  let name ← if 1 < v.toInt then rStr else pure []
  let n ← rInt
  let es ← rLoop mapElemR n
  return { obj, name, tbl := es.foldl mapStep [] }

/-- groot/rbase/ref.go:34-37 (`Ref`), without the process it belongs to. -/
structure TRef where
  obj : Object
deriving DecidableEq, Repr

/-- groot/rbase/ref.go:85-101 (`Ref.MarshalROOT`), for a reference without the bit `kHasUUID`
(with it, the method panics: see `TRef.OK`). The identifier is cut to 16 bits. -/
def tRefW (a : TRef) : Wr := seq [objectW a.obj, w16 (a.obj.id.truncate 16)]

/-- groot/rbase/ref.go:68-83 (`Ref.UnmarshalROOT`); `kHasUUID` is bit 5. -/
def tRefR : Rd TRef := do
  let obj ← objectR
  if obj.bits &&& 0x20#32 = 0#32 then do
    let _ ← r16
    return ⟨obj⟩
  else do
    let _ ← rStr
    return ⟨obj⟩

/-- groot/rbase/uuid.go:32-42 (`UUID.MarshalROOT`): sixteen bytes. -/
def uuidW (a : List UInt8) : Wr := seq [w16 1, bytesW a]

/-- groot/rbase/uuid.go:54-63 (`UUID.UnmarshalROOT`). -/
def uuidR : Rd (List UInt8) := do
  let _ ← r16
  bytesR 16

/-- groot/rhist/formula.go:151-164 (`writeMapStringInt`): the parameters in the order in which
the map is ranged over. -/
def parmElemW (e : List UInt8 × BitVec 32) : Wr := seq [wStr e.1, w32 e.2]

def parmsW (xs : List (List UInt8 × BitVec 32)) : Wr := wBlock 10 [wInt xs.length, wAll parmElemW xs]

def parmElemR : Rd (List UInt8 × BitVec 32) := do
  let k ← rStr
  let v ← r32
  return (k, v)

/-- groot/rhist/formula.go:115-132 (`readMapStringInt`). -/
def parmsR : Rd (List (List UInt8 × BitVec 32)) := rBlock 10 fun _ => do
  let n ← rInt
  let es ← rLoop parmElemR n
  return es.foldl (fun tbl e => put tbl e.1 e.2) []

/-! ### Names and attributes -/

structure Named where
  obj : Object
  name : List UInt8
  title : List UInt8
deriving DecidableEq, Repr

/-- groot/rbase/named.go:89-99 (`Named.MarshalROOT`). -/
def namedW (a : Named) : Wr :=
  wBlock 1 [objectW a.obj, wStr a.name, wStr a.title]

/-- groot/rbase/named.go:73-87 (`Named.UnmarshalROOT`). -/
def namedR : Rd Named := rBlock 1 fun _ => do
  let obj ← objectR
  let name ← rStr
  let title ← rStr
  return ⟨obj, name, title⟩

structure ObjString where
  obj : Object
  str : List UInt8
deriving DecidableEq, Repr

/-- groot/rbase/objstring.go:64-73 (`ObjString.MarshalROOT`). -/
def objStringW (a : ObjString) : Wr :=
  wBlock 1 [objectW a.obj, wStr a.str]

/-- groot/rbase/objstring.go:55-62 (`ObjString.UnmarshalROOT`). -/
def objStringR : Rd ObjString := rBlock 1 fun _ => do
  let obj ← objectR
  let str ← rStr
  return ⟨obj, str⟩

structure ProcessID where
  named : Named
deriving DecidableEq, Repr

/-- groot/rbase/processid.go:66-74 (`ProcessID.MarshalROOT`). -/
def processIDW (a : ProcessID) : Wr :=
  wBlock 1 [namedW a.named]

/-- groot/rbase/processid.go:53-64 (`ProcessID.UnmarshalROOT`). -/
def processIDR : Rd ProcessID := rBlock 1 fun _ => do
  let named ← namedR
  return ⟨named⟩

structure AttAxis where
  ndivs : BitVec 32
  axisColor : BitVec 16
  labelColor : BitVec 16
  labelFont : BitVec 16
  labelOffset : BitVec 32
  labelSize : BitVec 32
  ticks : BitVec 32
  titleOffset : BitVec 32
  titleSize : BitVec 32
  titleColor : BitVec 16
  titleFont : BitVec 16
deriving DecidableEq, Repr

/-- groot/rbase/attaxis.go:54-73 (`AttAxis.MarshalROOT`). -/
def attAxisW (a : AttAxis) : Wr :=
  wBlock 4 [w32 a.ndivs, w16 a.axisColor, w16 a.labelColor, w16 a.labelFont, w32 a.labelOffset,
    w32 a.labelSize, w32 a.ticks, w32 a.titleOffset, w32 a.titleSize, w16 a.titleColor,
    w16 a.titleFont]

/-- groot/rbase/attaxis.go:75-96 (`AttAxis.UnmarshalROOT`). -/
def attAxisR : Rd AttAxis := rBlock 4 fun _ => do
  let ndivs ← r32
  let axisColor ← r16
  let labelColor ← r16
  let labelFont ← r16
  let labelOffset ← r32
  let labelSize ← r32
  let ticks ← r32
  let titleOffset ← r32
  let titleSize ← r32
  let titleColor ← r16
  let titleFont ← r16
  return ⟨ndivs, axisColor, labelColor, labelFont, labelOffset, labelSize, ticks, titleOffset,
    titleSize, titleColor, titleFont⟩

structure AttFill where
  color : BitVec 16
  style : BitVec 16
deriving DecidableEq, Repr

/-- groot/rbase/attfill.go:36-45 (`AttFill.MarshalROOT`). -/
def attFillW (a : AttFill) : Wr :=
  wBlock 2 [w16 a.color, w16 a.style]

/-- groot/rbase/attfill.go:47-59 (`AttFill.UnmarshalROOT`). -/
def attFillR : Rd AttFill := rBlock 2 fun _ => do
  let color ← r16
  let style ← r16
  return ⟨color, style⟩

structure AttLine where
  color : BitVec 16
  style : BitVec 16
  width : BitVec 16
deriving DecidableEq, Repr

/-- groot/rbase/attline.go:39-49 (`AttLine.MarshalROOT`). -/
def attLineW (a : AttLine) : Wr :=
  wBlock 2 [w16 a.color, w16 a.style, w16 a.width]

/-- groot/rbase/attline.go:51-64 (`AttLine.UnmarshalROOT`). -/
def attLineR : Rd AttLine := rBlock 2 fun _ => do
  let color ← r16
  let style ← r16
  let width ← r16
  return ⟨color, style, width⟩

structure AttMarker where
  color : BitVec 16
  style : BitVec 16
  width : BitVec 32
deriving DecidableEq, Repr

/-- groot/rbase/attmarker.go:38-48 (`AttMarker.MarshalROOT`). -/
def attMarkerW (a : AttMarker) : Wr :=
  wBlock 3 [w16 a.color, w16 a.style, w32 a.width]

/-- groot/rbase/attmarker.go:50-63 (`AttMarker.UnmarshalROOT`). -/
def attMarkerR : Rd AttMarker := rBlock 3 fun _ => do
  let color ← r16
  let style ← r16
  let width ← r32
  return ⟨color, style, width⟩

structure AttPad where
  left : BitVec 32
  right : BitVec 32
  bottom : BitVec 32
  top : BitVec 32
  xfile : BitVec 32
  yfile : BitVec 32
  afile : BitVec 32
  xstat : BitVec 32
  ystat : BitVec 32
  astat : BitVec 32
  fillColor : BitVec 16
  lineColor : BitVec 16
  fillStyle : BitVec 16
  lineStyle : BitVec 16
  lineWidth : BitVec 16
  borderSize : BitVec 16
  borderMode : BitVec 32
deriving DecidableEq, Repr

/-- groot/rbase/attpad.go:44-70 (`AttPad.MarshalROOT`). -/
def attPadW (a : AttPad) : Wr :=
  wBlock 4 [w32 a.left, w32 a.right, w32 a.bottom, w32 a.top, w32 a.xfile, w32 a.yfile,
    w32 a.afile, w32 a.xstat, w32 a.ystat, w32 a.astat, w16 a.fillColor, w16 a.lineColor,
    w16 a.fillStyle, w16 a.lineStyle, w16 a.lineWidth, w16 a.borderSize, w32 a.borderMode]

/-- groot/rbase/attpad.go:72-101 (`AttPad.UnmarshalROOT`): the frame came with version 2. -/
def attPadR : Rd AttPad := rBlock 4 fun v => do
  let left ← r32
  let right ← r32
  let bottom ← r32
  let top ← r32
  let xfile ← r32
  let yfile ← r32
  let afile ← r32
  let xstat ← r32
  let ystat ← r32
  let astat ← r32
  let fillColor ← if 1 < v.toInt then r16 else pure 0
  let lineColor ← if 1 < v.toInt then r16 else pure 0
  let fillStyle ← if 1 < v.toInt then r16 else pure 0
  let lineStyle ← if 1 < v.toInt then r16 else pure 0
  let lineWidth ← if 1 < v.toInt then r16 else pure 0
  let borderSize ← if 1 < v.toInt then r16 else pure 0
  let borderMode ← if 1 < v.toInt then r32 else pure 0
  return ⟨left, right, bottom, top, xfile, yfile, afile, xstat, ystat, astat, fillColor, lineColor,
    fillStyle, lineStyle, lineWidth, borderSize, borderMode⟩

structure RefTable where
  obj : Object
  size : BitVec 32
  parents : Option Nat
  owner : Option Nat
  guids : List (List UInt8)
deriving DecidableEq, Repr

/-- groot/rcont/reftable.go:53-78 (`RefTable.MarshalROOT`). -/
def refTableW (a : RefTable) : Wr :=
  wBlock 3 [objectW a.obj, w32 a.size, wRef a.parents, wRef a.owner, vecW wStr a.guids]

/-- groot/rcont/reftable.go:80-110 (`RefTable.UnmarshalROOT`). -/
def refTableR : Rd RefTable := rBlock 3 fun v =>
  if v.toInt < 3 then .fail else do
  let obj ← objectR
  let size ← r32
  let parents ← rRef
  let owner ← rRef
  let guids ← vecR rStr
  return ⟨obj, size, parents, owner, guids⟩

/-! ### Vectors -/

structure Vector2 where
  obj : Object
  x : BitVec 64
  y : BitVec 64
deriving DecidableEq, Repr

/-- groot/rphys/vector2.go:46-57 (`Vector2.MarshalROOT`). -/
def vector2W (a : Vector2) : Wr :=
  wBlock 3 [objectW a.obj, w64 a.x, w64 a.y]

/-- groot/rphys/vector2.go:59-75 (`Vector2.UnmarshalROOT`): version 2 had no `TObject`. -/
def vector2R : Rd Vector2 := rBlock 3 fun v => do
  let obj ← if v.toInt = 1 ∨ 2 < v.toInt then objectR else pure ⟨0, 0⟩
  let x ← r64
  let y ← r64
  return ⟨obj, x, y⟩

structure Vector3 where
  obj : Object
  x : BitVec 64
  y : BitVec 64
  z : BitVec 64
deriving DecidableEq, Repr

/-- groot/rphys/vector3.go:50-62 (`Vector3.MarshalROOT`). -/
def vector3W (a : Vector3) : Wr :=
  wBlock 3 [objectW a.obj, w64 a.x, w64 a.y, w64 a.z]

/-- groot/rphys/vector3.go:64-81 (`Vector3.UnmarshalROOT`): version 2 had no `TObject`. -/
def vector3R : Rd Vector3 := rBlock 3 fun v => do
  let obj ← if v.toInt = 1 ∨ 2 < v.toInt then objectR else pure ⟨0, 0⟩
  let x ← r64
  let y ← r64
  let z ← r64
  return ⟨obj, x, y, z⟩

structure LorentzVector where
  obj : Object
  p : Vector3
  e : BitVec 64
deriving DecidableEq, Repr

/-- groot/rphys/lorentzvector.go:52-63 (`LorentzVector.MarshalROOT`). -/
def lorentzVectorW (a : LorentzVector) : Wr :=
  wBlock 4 [objectW a.obj, vector3W a.p, w64 a.e]

/-- groot/rphys/lorentzvector.go:65-78 (`LorentzVector.UnmarshalROOT`). -/
def lorentzVectorR : Rd LorentzVector := rBlock 4 fun _ => do
  let obj ← objectR
  let p ← vector3R
  let e ← r64
  return ⟨obj, p, e⟩

structure FeldmanCousins where
  obj : Object
  cl : BitVec 64
  upLim : BitVec 64
  loLim : BitVec 64
  nobs : BitVec 64
  nbkg : BitVec 64
  muMin : BitVec 64
  muMax : BitVec 64
  muStep : BitVec 64
  nMuStep : BitVec 32
  nMax : BitVec 32
  quick : BitVec 32
deriving DecidableEq, Repr

/-- groot/rphys/feldmancousins.go:47-67 (`FeldmanCousins.MarshalROOT`). -/
def feldmanCousinsW (a : FeldmanCousins) : Wr :=
  wBlock 1 [objectW a.obj, w64 a.cl, w64 a.upLim, w64 a.loLim, w64 a.nobs, w64 a.nbkg, w64 a.muMin,
    w64 a.muMax, w64 a.muStep, w32 a.nMuStep, w32 a.nMax, w32 a.quick]

/-- groot/rphys/feldmancousins.go:69-91 (`FeldmanCousins.UnmarshalROOT`). -/
def feldmanCousinsR : Rd FeldmanCousins := rBlock 1 fun _ => do
  let obj ← objectR
  let cl ← r64
  let upLim ← r64
  let loLim ← r64
  let nobs ← r64
  let nbkg ← r64
  let muMin ← r64
  let muMax ← r64
  let muStep ← r64
  let nMuStep ← r32
  let nMax ← r32
  let quick ← r32
  return ⟨obj, cl, upLim, loLim, nobs, nbkg, muMin, muMax, muStep, nMuStep, nMax, quick⟩

/-! ### Histograms -/

structure Axis where
  named : Named
  attaxis : AttAxis
  nbins : Int
  xmin : BitVec 64
  xmax : BitVec 64
  xbins : List (BitVec 64)
  first : Int
  last : Int
  bits2 : BitVec 16
  time : Bool
  tfmt : List UInt8
  labels : Option Nat
  modlabs : Option Nat
deriving DecidableEq, Repr

/-- groot/rhist/axis.go:102-128 (`taxis.MarshalROOT`). -/
def axisW (a : Axis) : Wr :=
  wBlock 10 [namedW a.named, attAxisW a.attaxis, wInt a.nbins, w64 a.xmin, w64 a.xmax,
    arrW w64 a.xbins, wInt a.first, wInt a.last, w16 a.bits2, wBool a.time, wStr a.tfmt,
    wRef a.labels, wRef a.modlabs]

/-- groot/rhist/axis.go:130-174 (`taxis.UnmarshalROOT`). -/
def axisR : Rd Axis := rBlock 10 fun v =>
  if v.toInt < 6 then .fail else do
  let named ← namedR
  let attaxis ← attAxisR
  let nbins ← rInt
  let xmin ← r64
  let xmax ← r64
  let xbins ← arrR r64
  let first ← rInt
  let last ← rInt
  let bits2 ← if 9 ≤ v.toInt then r16 else pure 0
  let time ← rBool
  let tfmt ← rStr
  let labels ← if 9 ≤ v.toInt then rRef else pure none
  let modlabs ← if 10 ≤ v.toInt then rRef else pure none
  return ⟨named, attaxis, nbins, xmin, xmax, xbins, first, last, bits2, time, tfmt, labels,
    modlabs⟩

structure H1 where
  named : Named
  attline : AttLine
  attfill : AttFill
  attmarker : AttMarker
  ncells : Int
  xaxis : Axis
  yaxis : Axis
  zaxis : Axis
  boffset : BitVec 16
  bwidth : BitVec 16
  entries : BitVec 64
  tsumw : BitVec 64
  tsumw2 : BitVec 64
  tsumwx : BitVec 64
  tsumwx2 : BitVec 64
  max : BitVec 64
  min : BitVec 64
  normf : BitVec 64
  contour : List (BitVec 64)
  sumw2 : List (BitVec 64)
  opt : List UInt8
  funcs : RList
  buffer : List (BitVec 64)
  erropt : BitVec 32
  oflow : BitVec 32
deriving DecidableEq, Repr

/-- groot/rhist/hist.go:102-142 (`th1.MarshalROOT`). -/
def h1W (a : H1) : Wr :=
  wBlock 8 [namedW a.named, attLineW a.attline, attFillW a.attfill, attMarkerW a.attmarker,
    wInt a.ncells, axisW a.xaxis, axisW a.yaxis, axisW a.zaxis, w16 a.boffset, w16 a.bwidth,
    w64 a.entries, w64 a.tsumw, w64 a.tsumw2, w64 a.tsumwx, w64 a.tsumwx2, w64 a.max, w64 a.min,
    w64 a.normf, arrW w64 a.contour, arrW w64 a.sumw2, wStr a.opt, listW a.funcs,
    wInt a.buffer.length, w8 0, wAll w64 a.buffer, w32 a.erropt, w32 a.oflow]

/-- groot/rhist/hist.go:144-202 (`th1.UnmarshalROOT`), for version 2 and above (version 1
has 32-bit floating-point numbers). -/
def h1R : Rd H1 := rBlock 8 fun v =>
  if v.toInt < 2 then .fail else do
  let named ← namedR
  let attline ← attLineR
  let attfill ← attFillR
  let attmarker ← attMarkerR
  let ncells ← rInt
  let xaxis ← axisR
  let yaxis ← axisR
  let zaxis ← axisR
  let boffset ← r16
  let bwidth ← r16
  let entries ← r64
  let tsumw ← r64
  let tsumw2 ← r64
  let tsumwx ← r64
  let tsumwx2 ← r64
  let max ← r64
  let min ← r64
  let normf ← r64
  let contour ← arrR r64
  let sumw2 ← arrR r64
  let opt ← rStr
  let funcs ← listR
  let n ← if 3 < v.toInt then rInt else pure 0
  let _ ← if 3 < v.toInt then r8 else pure 0
  let buffer ← if 3 < v.toInt then rMake r64 n else pure []
  let erropt ← if 6 < v.toInt then r32 else pure 0
  let oflow ← if 7 < v.toInt then r32 else pure 0
  return ⟨named, attline, attfill, attmarker, ncells, xaxis, yaxis, zaxis, boffset, bwidth,
    entries, tsumw, tsumw2, tsumwx, tsumwx2, max, min, normf, contour, sumw2, opt, funcs, buffer,
    erropt, oflow⟩

structure H2 where
  h1 : H1
  scale : BitVec 64
  tsumwy : BitVec 64
  tsumwy2 : BitVec 64
  tsumwxy : BitVec 64
deriving DecidableEq, Repr

/-- groot/rhist/hist.go:287-301 (`th2.MarshalROOT`). -/
def h2W (a : H2) : Wr :=
  wBlock 5 [h1W a.h1, w64 a.scale, w64 a.tsumwy, w64 a.tsumwy2, w64 a.tsumwxy]

/-- groot/rhist/hist.go:303-321 (`th2.UnmarshalROOT`). -/
def h2R : Rd H2 := rBlock 5 fun v =>
  if v.toInt < 3 then .fail else do
  let h1 ← h1R
  let scale ← r64
  let tsumwy ← r64
  let tsumwy2 ← r64
  let tsumwxy ← r64
  return ⟨h1, scale, tsumwy, tsumwy2, tsumwxy⟩

structure H1F where
  h1 : H1
  arr : List (BitVec 32)
deriving DecidableEq, Repr

/-- groot/rhist/h1_gen.go:88-99 (`H1F`). -/
def h1FW (a : H1F) : Wr :=
  wBlock 3 [h1W a.h1, arrW w32 a.arr]

/-- groot/rhist/h1_gen.go:101-113 (`H1F`). -/
def h1FR : Rd H1F := rBlock 3 fun _ => do
  let h1 ← h1R
  let arr ← arrR r32
  return ⟨h1, arr⟩

structure H2F where
  h2 : H2
  arr : List (BitVec 32)
deriving DecidableEq, Repr

/-- groot/rhist/h2_gen.go:359-369 (`H2F`). -/
def h2FW (a : H2F) : Wr :=
  wBlock 4 [h2W a.h2, arrW w32 a.arr]

/-- groot/rhist/h2_gen.go:371-386 (`H2F`). -/
def h2FR : Rd H2F := rBlock 4 fun v =>
  if v.toInt < 1 then .fail else do
  let h2 ← h2R
  let arr ← arrR r32
  return ⟨h2, arr⟩

structure H1D where
  h1 : H1
  arr : List (BitVec 64)
deriving DecidableEq, Repr

/-- groot/rhist/h1_gen.go:371-382 (`H1D`). -/
def h1DW (a : H1D) : Wr :=
  wBlock 3 [h1W a.h1, arrW w64 a.arr]

/-- groot/rhist/h1_gen.go:384-396 (`H1D`). -/
def h1DR : Rd H1D := rBlock 3 fun _ => do
  let h1 ← h1R
  let arr ← arrR r64
  return ⟨h1, arr⟩

structure H2D where
  h2 : H2
  arr : List (BitVec 64)
deriving DecidableEq, Repr

/-- groot/rhist/h2_gen.go:750-760 (`H2D`). -/
def h2DW (a : H2D) : Wr :=
  wBlock 4 [h2W a.h2, arrW w64 a.arr]

/-- groot/rhist/h2_gen.go:762-777 (`H2D`). -/
def h2DR : Rd H2D := rBlock 4 fun v =>
  if v.toInt < 1 then .fail else do
  let h2 ← h2R
  let arr ← arrR r64
  return ⟨h2, arr⟩

structure H1I where
  h1 : H1
  arr : List (BitVec 32)
deriving DecidableEq, Repr

/-- groot/rhist/h1_gen.go:654-665 (`H1I`). -/
def h1IW (a : H1I) : Wr :=
  wBlock 3 [h1W a.h1, arrW w32 a.arr]

/-- groot/rhist/h1_gen.go:667-679 (`H1I`). -/
def h1IR : Rd H1I := rBlock 3 fun _ => do
  let h1 ← h1R
  let arr ← arrR r32
  return ⟨h1, arr⟩

structure H2I where
  h2 : H2
  arr : List (BitVec 32)
deriving DecidableEq, Repr

/-- groot/rhist/h2_gen.go:1141-1151 (`H2I`). -/
def h2IW (a : H2I) : Wr :=
  wBlock 4 [h2W a.h2, arrW w32 a.arr]

/-- groot/rhist/h2_gen.go:1153-1168 (`H2I`). -/
def h2IR : Rd H2I := rBlock 4 fun v =>
  if v.toInt < 1 then .fail else do
  let h2 ← h2R
  let arr ← arrR r32
  return ⟨h2, arr⟩

structure Profile1D where
  h1d : H1D
  binEntries : List (BitVec 64)
  errMode : BitVec 32
  ymin : BitVec 64
  ymax : BitVec 64
  sumwy : BitVec 64
  sumwy2 : BitVec 64
  binSumw2 : List (BitVec 64)
deriving DecidableEq, Repr

/-- groot/rhist/p1d.go:45-62 (`Profile1D`). -/
def profile1DW (a : Profile1D) : Wr :=
  wBlock 7 [h1DW a.h1d, arrW w64 a.binEntries, w32 a.errMode, w64 a.ymin, w64 a.ymax, w64 a.sumwy,
    w64 a.sumwy2, arrW w64 a.binSumw2]

/-- groot/rhist/p1d.go:65-87 (`Profile1D`). -/
def profile1DR : Rd Profile1D := rBlock 7 fun v =>
  if v.toInt < 7 then .fail else do
  let h1d ← h1DR
  let binEntries ← arrR r64
  let errMode ← r32
  let ymin ← r64
  let ymax ← r64
  let sumwy ← r64
  let sumwy2 ← r64
  let binSumw2 ← arrR r64
  return ⟨h1d, binEntries, errMode, ymin, ymax, sumwy, sumwy2, binSumw2⟩

structure Profile2D where
  h2d : H2D
  binEntries : List (BitVec 64)
  errMode : BitVec 32
  zmin : BitVec 64
  zmax : BitVec 64
  sumwz : BitVec 64
  sumwz2 : BitVec 64
  binSumw2 : List (BitVec 64)
deriving DecidableEq, Repr

/-- groot/rhist/p2d.go:45-62 (`Profile2D`). -/
def profile2DW (a : Profile2D) : Wr :=
  wBlock 8 [h2DW a.h2d, arrW w64 a.binEntries, w32 a.errMode, w64 a.zmin, w64 a.zmax, w64 a.sumwz,
    w64 a.sumwz2, arrW w64 a.binSumw2]

/-- groot/rhist/p2d.go:65-87 (`Profile2D`). -/
def profile2DR : Rd Profile2D := rBlock 8 fun v =>
  if v.toInt < 8 then .fail else do
  let h2d ← h2DR
  let binEntries ← arrR r64
  let errMode ← r32
  let zmin ← r64
  let zmax ← r64
  let sumwz ← r64
  let sumwz2 ← r64
  let binSumw2 ← arrR r64
  return ⟨h2d, binEntries, errMode, zmin, zmax, sumwz, sumwz2, binSumw2⟩

/-! ### Graphs -/

structure Graph where
  named : Named
  attline : AttLine
  attfill : AttFill
  attmarker : AttMarker
  npoints : BitVec 32
  x : List (BitVec 64)
  y : List (BitVec 64)
  funcs : Option Nat
  histo : Option Nat
  min : BitVec 64
  max : BitVec 64
  opt : List UInt8
deriving DecidableEq, Repr

/-- groot/rhist/graph.go:120-149 (`tgraph.MarshalROOT`). -/
def graphW (a : Graph) : Wr :=
  wBlock 5 [namedW a.named, attLineW a.attline, attFillW a.attfill, attMarkerW a.attmarker,
    w32 a.npoints, w8 1, wAll w64 a.x, w8 1, wAll w64 a.y, wRef a.funcs, wRef a.histo, w64 a.min,
    w64 a.max, wStr a.opt]

/-- groot/rhist/graph.go:153-213 (`tgraph.UnmarshalROOT`), for version 2 and above (version 1
has 32-bit floating-point numbers). `maxsize`, which is `npoints` after reading, is left out. -/
def graphR : Rd Graph := rBlock 5 fun v =>
  if v.toInt < 2 then .fail else do
  let named ← namedR
  let attline ← attLineR
  let attfill ← attFillR
  let attmarker ← attMarkerR
  let npoints ← r32
  let _ ← r8
  let x ← rMake r64 npoints.toInt
  let _ ← r8
  let y ← rMake r64 npoints.toInt
  let funcs ← rRef
  let histo ← rRef
  let min ← r64
  let max ← r64
  let opt ← if 4 < v.toInt then rStr else pure []
  return ⟨named, attline, attfill, attmarker, npoints, x, y, funcs, histo, min, max, opt⟩

structure GraphErrors where
  graph : Graph
  xerr : List (BitVec 64)
  yerr : List (BitVec 64)
deriving DecidableEq, Repr

/-- groot/rhist/graph.go:368-384 (`tgrapherrs.MarshalROOT`). -/
def graphErrorsW (a : GraphErrors) : Wr :=
  wBlock 3 [graphW a.graph, w8 1, wAll w64 a.xerr, w8 1, wAll w64 a.yerr]

/-- groot/rhist/graph.go:388-422 (`tgrapherrs.UnmarshalROOT`), for version 2 and above. -/
def graphErrorsR : Rd GraphErrors := rBlock 3 fun v =>
  if v.toInt < 2 then .fail else do
  let graph ← graphR
  let _ ← r8
  let xerr ← rMake r64 graph.npoints.toInt
  let _ ← r8
  let yerr ← rMake r64 graph.npoints.toInt
  return ⟨graph, xerr, yerr⟩

structure GraphAsymmErrors where
  graph : Graph
  xerrlo : List (BitVec 64)
  xerrhi : List (BitVec 64)
  yerrlo : List (BitVec 64)
  yerrhi : List (BitVec 64)
deriving DecidableEq, Repr

/-- groot/rhist/graph.go:555-575 (`tgraphasymmerrs.MarshalROOT`). -/
def graphAsymmErrorsW (a : GraphAsymmErrors) : Wr :=
  wBlock 3 [graphW a.graph, w8 1, wAll w64 a.xerrlo, w8 1, wAll w64 a.xerrhi, w8 1,
    wAll w64 a.yerrlo, w8 1, wAll w64 a.yerrhi]

/-- groot/rhist/graph.go:579-639 (`tgraphasymmerrs.UnmarshalROOT`), for version 2 and above: in version 2 the
second and third slices are the other way round. -/
def graphAsymmErrorsR : Rd GraphAsymmErrors := rBlock 3 fun v =>
  if v.toInt < 2 then .fail else do
  let graph ← graphR
  let _ ← r8
  let xerrlo ← rMake r64 graph.npoints.toInt
  let _ ← r8
  let e2 ← rMake r64 graph.npoints.toInt
  let _ ← r8
  let e3 ← rMake r64 graph.npoints.toInt
  let _ ← r8
  let yerrhi ← rMake r64 graph.npoints.toInt
  if v.toInt = 2 then return ⟨graph, xerrlo, e3, e2, yerrhi⟩
  else return ⟨graph, xerrlo, e2, e3, yerrhi⟩

structure GraphMultiErrors where
  graph : Graph
  nyerr : BitVec 32
  sumErrMode : BitVec 32
  xerrlo : List (BitVec 64)
  xerrhi : List (BitVec 64)
  yerrlo : List (List (BitVec 64))
  yerrhi : List (List (BitVec 64))
  attfills : List AttFill
  attlines : List AttLine
deriving DecidableEq, Repr

/-- groot/rhist/graph.go:772-791 (`tgraphmultierrs.MarshalROOT`), for slices of `npoints` errors. -/
def graphMultiErrorsW (a : GraphMultiErrors) : Wr :=
  wBlock 1 [graphW a.graph, w32 a.nyerr, w32 a.sumErrMode, w8 1, wAll w64 a.xerrlo, w8 1,
    wAll w64 a.xerrhi, vecW (arrW w64) a.yerrlo, vecW (arrW w64) a.yerrhi,
    vecW attFillW a.attfills, vecW attLineW a.attlines]

/-- groot/rhist/graph.go:794-818 (`tgraphmultierrs.UnmarshalROOT`). -/
def graphMultiErrorsR : Rd GraphMultiErrors := rBlock 1 fun _ => do
  let graph ← graphR
  let nyerr ← r32
  let sumErrMode ← r32
  let _ ← r8
  let xerrlo ← rMake r64 graph.npoints.toInt
  let _ ← r8
  let xerrhi ← rMake r64 graph.npoints.toInt
  let yerrlo ← vecR (arrR r64)
  let yerrhi ← vecR (arrR r64)
  let attfills ← vecR attFillR
  let attlines ← vecR attLineR
  return ⟨graph, nyerr, sumErrMode, xerrlo, xerrhi, yerrlo, yerrhi, attfills, attlines⟩

structure MultiGraph where
  named : Named
  graphs : Option Nat
  funcs : Option Nat
  histo : Option Nat
  ymax : BitVec 64
  ymin : BitVec 64
deriving DecidableEq, Repr

/-- groot/rhist/multigraph.go:65-80 (`tmultigraph.MarshalROOT`). -/
def multiGraphW (a : MultiGraph) : Wr :=
  wBlock 2 [namedW a.named, wRef a.graphs, wRef a.funcs, wRef a.histo, w64 a.ymax, w64 a.ymin]

/-- groot/rhist/multigraph.go:83-114 (`tmultigraph.UnmarshalROOT`). -/
def multiGraphR : Rd MultiGraph := rBlock 2 fun _ => do
  let named ← namedR
  let graphs ← rRef
  let funcs ← rRef
  let histo ← rRef
  let ymax ← r64
  let ymin ← r64
  return ⟨named, graphs, funcs, histo, ymax, ymin⟩

structure Scatter where
  named : Named
  attline : AttLine
  attfill : AttFill
  attmarker : AttMarker
  npoints : BitVec 32
  histo : Option Nat
  graph : Option Nat
  color : List (BitVec 64)
  size : List (BitVec 64)
  maxMarkerSize : BitVec 64
  minMarkerSize : BitVec 64
  margin : BitVec 64
deriving DecidableEq, Repr

/-- groot/rhist/scatter.go:88-114 (`Scatter.MarshalROOT`). -/
def scatterW (a : Scatter) : Wr :=
  wBlock 2 [namedW a.named, attLineW a.attline, attFillW a.attfill, attMarkerW a.attmarker,
    w32 a.npoints, wRef a.histo, wRef a.graph, w8 1, wAll w64 a.color, w8 1, wAll w64 a.size,
    w64 a.maxMarkerSize, w64 a.minMarkerSize, w64 a.margin]

/-- groot/rhist/scatter.go:118-158 (`Scatter.UnmarshalROOT`). -/
def scatterR : Rd Scatter := rBlock 2 fun v =>
  if v.toInt < 2 then .fail else do
  let named ← namedR
  let attline ← attLineR
  let attfill ← attFillR
  let attmarker ← attMarkerR
  let npoints ← r32
  let histo ← rRef
  let graph ← rRef
  let _ ← r8
  let color ← rMake r64 npoints.toInt
  let _ ← r8
  let size ← rMake r64 npoints.toInt
  let maxMarkerSize ← r64
  let minMarkerSize ← r64
  let margin ← r64
  return ⟨named, attline, attfill, attmarker, npoints, histo, graph, color, size, maxMarkerSize,
    minMarkerSize, margin⟩

/-! ### Functions and limits -/

structure Formula where
  named : Named
  clingParams : List (BitVec 64)
  allParamsSet : Bool
  params : List (List UInt8 × BitVec 32)
  formula : List UInt8
  ndim : BitVec 32
  numID : BitVec 32
  linearParts : List (Option Nat)
  vectorized : Bool
deriving DecidableEq, Repr

/-- groot/rhist/formula.go:58-75 (`Formula.MarshalROOT`). -/
def formulaW (a : Formula) : Wr :=
  wBlock 14 [namedW a.named, vecW w64 a.clingParams, wBool a.allParamsSet, parmsW a.params,
    wStr a.formula, w32 a.ndim, w32 a.numID, vecW wRef a.linearParts, wBool a.vectorized]

/-- groot/rhist/formula.go:77-109 (`Formula.UnmarshalROOT`). -/
def formulaR : Rd Formula := rBlock 14 fun v =>
  if v.toInt < 12 then .fail else do
  let named ← namedR
  let clingParams ← vecR r64
  let allParamsSet ← rBool
  let params ← parmsR
  let formula ← rStr
  let ndim ← r32
  let numID ← if 13 < v.toInt then r32 else pure 0
  let linearParts ← vecR rRef
  let vectorized ← rBool
  return ⟨named, clingParams, allParamsSet, params, formula, ndim, numID, linearParts, vectorized⟩

structure F1 where
  named : Named
  attline : AttLine
  attfill : AttFill
  attmark : AttMarker
  xmin : BitVec 64
  xmax : BitVec 64
  npar : BitVec 32
  ndim : BitVec 32
  npx : BitVec 32
  typ : BitVec 32
  npfits : BitVec 32
  ndf : BitVec 32
  chi2 : BitVec 64
  fmin : BitVec 64
  fmax : BitVec 64
  parErrs : List (BitVec 64)
  parMin : List (BitVec 64)
  parMax : List (BitVec 64)
  save : List (BitVec 64)
  normalized : Bool
  normIntegral : BitVec 64
  formula : Option Nat
  params : Option Nat
  compos : Option Nat
deriving DecidableEq, Repr

/-- groot/rhist/func1.go:81-117 (`F1.MarshalROOT`). -/
def f1W (a : F1) : Wr :=
  wBlock 12 [namedW a.named, attLineW a.attline, attFillW a.attfill, attMarkerW a.attmark,
    w64 a.xmin, w64 a.xmax, w32 a.npar, w32 a.ndim, w32 a.npx, w32 a.typ, w32 a.npfits, w32 a.ndf,
    w64 a.chi2, w64 a.fmin, w64 a.fmax, vecW w64 a.parErrs, vecW w64 a.parMin, vecW w64 a.parMax,
    vecW w64 a.save, wBool a.normalized, w64 a.normIntegral, wRef a.formula, wRef a.params,
    wRef a.compos]

/-- groot/rhist/func1.go:119-170 (`F1.UnmarshalROOT`). -/
def f1R : Rd F1 := rBlock 12 fun v =>
  if v.toInt < 10 then .fail else do
  let named ← namedR
  let attline ← attLineR
  let attfill ← attFillR
  let attmark ← attMarkerR
  let xmin ← r64
  let xmax ← r64
  let npar ← r32
  let ndim ← r32
  let npx ← r32
  let typ ← r32
  let npfits ← r32
  let ndf ← r32
  let chi2 ← r64
  let fmin ← r64
  let fmax ← r64
  let parErrs ← vecR r64
  let parMin ← vecR r64
  let parMax ← vecR r64
  let save ← vecR r64
  let normalized ← rBool
  let normIntegral ← r64
  let formula ← rRef
  let params ← rRef
  let compos ← rRef
  return ⟨named, attline, attfill, attmark, xmin, xmax, npar, ndim, npx, typ, npfits, ndf, chi2,
    fmin, fmax, parErrs, parMin, parMax, save, normalized, normIntegral, formula, params, compos⟩

structure Limit where
deriving DecidableEq, Repr

/-- groot/rhist/limit.go:29-36 (`Limit.MarshalROOT`). -/
def limitW (a : Limit) : Wr :=
  wBlock 2 []

/-- groot/rhist/limit.go:39-48 (`Limit.UnmarshalROOT`). -/
def limitR : Rd Limit := rBlock 2 fun _ => do
  return ⟨⟩

structure LimitDataSource where
  base : Object
  sig : ObjArray
  bkg : ObjArray
  data : ObjArray
  sigErr : ObjArray
  bkgErr : ObjArray
  ids : ObjArray
  dummyTA : ObjArray
  dummyIDs : ObjArray
deriving DecidableEq, Repr

/-- groot/rhist/limit.go:71-89 (`LimitDataSource.MarshalROOT`). -/
def limitDataSourceW (a : LimitDataSource) : Wr :=
  wBlock 2 [objectW a.base, objArrayW a.sig, objArrayW a.bkg, objArrayW a.data, objArrayW a.sigErr,
    objArrayW a.bkgErr, objArrayW a.ids, objArrayW a.dummyTA, objArrayW a.dummyIDs]

/-- groot/rhist/limit.go:92-111 (`LimitDataSource.UnmarshalROOT`). -/
def limitDataSourceR : Rd LimitDataSource := rBlock 2 fun _ => do
  let base ← objectR
  let sig ← objArrayR
  let bkg ← objArrayR
  let data ← objArrayR
  let sigErr ← objArrayR
  let bkgErr ← objArrayR
  let ids ← objArrayR
  let dummyTA ← objArrayR
  let dummyIDs ← objArrayR
  return ⟨base, sig, bkg, data, sigErr, bkgErr, ids, dummyTA, dummyIDs⟩

structure ConfidenceLevel where
  base : Object
  nnmc : BitVec 32
  dtot : BitVec 32
  stot : BitVec 64
  btot : BitVec 64
  tsd : BitVec 64
  nmc : BitVec 64
  mcl3s : BitVec 64
  mcl5s : BitVec 64
  tsb : List (BitVec 64)
  tss : List (BitVec 64)
  lrs : List (BitVec 64)
  lrb : List (BitVec 64)
  iss : List (BitVec 32)
  isb : List (BitVec 32)
deriving DecidableEq, Repr

/-- groot/rhist/confidence_level.go:45-75 (`ConfidenceLevel.MarshalROOT`), for slices of `fNNMC` elements. -/
def confidenceLevelW (a : ConfidenceLevel) : Wr :=
  wBlock 1 [objectW a.base, w32 a.nnmc, w32 a.dtot, w64 a.stot, w64 a.btot, w64 a.tsd, w64 a.nmc,
    w64 a.mcl3s, w64 a.mcl5s, w8 1, wAll w64 a.tsb, w8 1, wAll w64 a.tss, w8 1, wAll w64 a.lrs,
    w8 1, wAll w64 a.lrb, w8 1, wAll w32 a.iss, w8 1, wAll w32 a.isb]

/-- groot/rhist/confidence_level.go:78-115 (`ConfidenceLevel.UnmarshalROOT`). -/
def confidenceLevelR : Rd ConfidenceLevel := rBlock 1 fun _ => do
  let base ← objectR
  let nnmc ← r32
  let dtot ← r32
  let stot ← r64
  let btot ← r64
  let tsd ← r64
  let nmc ← r64
  let mcl3s ← r64
  let mcl5s ← r64
  let _ ← r8
  let tsb ← rMake r64 nnmc.toInt
  let _ ← r8
  let tss ← rMake r64 nnmc.toInt
  let _ ← r8
  let lrs ← rMake r64 nnmc.toInt
  let _ ← r8
  let lrb ← rMake r64 nnmc.toInt
  let _ ← r8
  let iss ← rMake r32 nnmc.toInt
  let _ ← r8
  let isb ← rMake r32 nnmc.toInt
  return ⟨base, nnmc, dtot, stot, btot, tsd, nmc, mcl3s, mcl5s, tsb, tss, lrs, lrb, iss, isb⟩

/-! ### Streamers -/

/-- groot/rdict/rdict.go:460-472 (`StreamerElement`). The range (`xmin`, `xmax`, `factor`), which is
computed from the title (see `Verif.Rdict.Range`; for some titles that panics), is not represented. -/
structure StreamerElement where
  named : Named
  etype : BitVec 32
  esize : BitVec 32
  arrlen : BitVec 32
  arrdim : BitVec 32
  maxidx : List (BitVec 32)
  ename : List UInt8
deriving DecidableEq, Repr

/-- groot/rdict/rdict.go:528-553 (`StreamerElement.MarshalROOT`); `maxidx` has five elements. -/
def streamerElementW (a : StreamerElement) : Wr :=
  wBlock 4 [namedW a.named, w32 a.etype, w32 a.esize, w32 a.arrlen, w32 a.arrdim,
    wAll w32 a.maxidx, wStr a.ename]

/-- `Bool_t`, `bool`. -/
def boolNames : List (List UInt8) := [[66, 111, 111, 108, 95, 116], [98, 111, 111, 108]]

/-- groot/rdict/rdict.go:555-598 (`StreamerElement.UnmarshalROOT`), for version 2 and above
(version 1 has an array with its own length). -/
def streamerElementR : Rd StreamerElement := rBlock 4 fun v =>
  if v.toInt < 2 then .fail else do
  let named ← namedR
  let t ← r32
  let esize ← r32
  let arrlen ← r32
  let arrdim ← r32
  let maxidx ← rAll r32 5
  let ename ← rStr
  let _ ← if v.toInt = 3 then rAll r64 3 else pure []
  let etype := if t = 11 ∧ ename ∈ boolNames then 18 else t
  return { named, etype, esize, arrlen, arrdim, maxidx, ename }

structure StreamerBase where
  elem : StreamerElement
  vbase : BitVec 32
deriving DecidableEq, Repr

/-- groot/rdict/rdict.go:620-630 (`StreamerBase.MarshalROOT`). -/
def streamerBaseW (a : StreamerBase) : Wr :=
  wBlock 3 [streamerElementW a.elem, w32 a.vbase]

/-- groot/rdict/rdict.go:632-647 (`StreamerBase.UnmarshalROOT`). -/
def streamerBaseR : Rd StreamerBase := rBlock 3 fun v => do
  let elem ← streamerElementR
  let vbase ← if 2 < v.toInt then r32 else pure 0
  return ⟨elem, vbase⟩

/-- The sizes of the basic types, in groot/rdict/rdict.go:670-709 (`StreamerBasicType.UnmarshalROOT`), by
the numbers of groot/rmeta/consts.go:14-40 (`Char`, `Counter`, and so on). -/
def basicSize (t : Int) : Option Int :=
  if t = 18 ∨ t = 11 ∨ t = 1 then some 1
  else if t = 12 ∨ t = 2 then some 2
  else if t = 15 ∨ t = 13 ∨ t = 3 ∨ t = 6 then some 4
  else if t = 14 ∨ t = 17 ∨ t = 4 ∨ t = 16 then some 8
  else if t = 5 ∨ t = 19 then some 4
  else if t = 8 ∨ t = 9 then some 8
  else if t = 7 then some 8
  else none

/-- groot/rdict/rdict.go:659-668 (`StreamerBasicType.MarshalROOT`). -/
def streamerBasicTypeW (a : StreamerElement) : Wr := wBlock 2 [streamerElementW a]

/-- The size computed in groot/rdict/rdict.go:670-709 (`StreamerBasicType.UnmarshalROOT`); pointers have 8
bytes, `OffsetL` is 20 and `OffsetP` is 40. -/
def basicFix (a : StreamerElement) : StreamerElement :=
  match basicSize (if 20 < a.etype.toInt ∧ a.etype.toInt < 40 then a.etype.toInt - 20 else a.etype.toInt) with
  | none => a
  | some n =>
    if 0 < a.arrlen.toInt then { a with esize := BitVec.ofInt 32 n * a.arrlen }
    else { a with esize := BitVec.ofInt 32 n }

/-- groot/rdict/rdict.go:670-709 (`StreamerBasicType.UnmarshalROOT`). -/
def streamerBasicTypeR : Rd StreamerElement := rBlock 2 fun _ => do
  let a ← streamerElementR
  return basicFix a

structure StreamerBasicPointer where
  elem : StreamerElement
  cvers : BitVec 32
  cname : List UInt8
  ccls : List UInt8
deriving DecidableEq, Repr

/-- groot/rdict/rdict.go:737-749 (`StreamerBasicPointer`). -/
def streamerBasicPointerW (a : StreamerBasicPointer) : Wr :=
  wBlock 2 [streamerElementW a.elem, w32 a.cvers, wStr a.cname, wStr a.ccls]

/-- groot/rdict/rdict.go:751-766 (`StreamerBasicPointer`). -/
def streamerBasicPointerR : Rd StreamerBasicPointer := rBlock 2 fun _ => do
  let elem ← streamerElementR
  let cvers ← r32
  let cname ← rStr
  let ccls ← rStr
  return ⟨elem, cvers, cname, ccls⟩

structure StreamerLoop where
  elem : StreamerElement
  cvers : BitVec 32
  cname : List UInt8
  cclass : List UInt8
deriving DecidableEq, Repr

/-- groot/rdict/rdict.go:796-808 (`StreamerLoop`). -/
def streamerLoopW (a : StreamerLoop) : Wr :=
  wBlock 2 [streamerElementW a.elem, w32 a.cvers, wStr a.cname, wStr a.cclass]

/-- groot/rdict/rdict.go:810-824 (`StreamerLoop`). -/
def streamerLoopR : Rd StreamerLoop := rBlock 2 fun _ => do
  let elem ← streamerElementR
  let cvers ← r32
  let cname ← rStr
  let cclass ← rStr
  return ⟨elem, cvers, cname, cclass⟩

structure StreamerObject where
  elem : StreamerElement
deriving DecidableEq, Repr

/-- groot/rdict/rdict.go:836-844 (`StreamerObject`). -/
def streamerObjectW (a : StreamerObject) : Wr :=
  wBlock 2 [streamerElementW a.elem]

/-- groot/rdict/rdict.go:846-857 (`StreamerObject`). -/
def streamerObjectR : Rd StreamerObject := rBlock 2 fun _ => do
  let elem ← streamerElementR
  return ⟨elem⟩

structure StreamerObjectPointer where
  elem : StreamerElement
deriving DecidableEq, Repr

/-- groot/rdict/rdict.go:869-877 (`StreamerObjectPointer`). -/
def streamerObjectPointerW (a : StreamerObjectPointer) : Wr :=
  wBlock 2 [streamerElementW a.elem]

/-- groot/rdict/rdict.go:879-890 (`StreamerObjectPointer`). -/
def streamerObjectPointerR : Rd StreamerObjectPointer := rBlock 2 fun _ => do
  let elem ← streamerElementR
  return ⟨elem⟩

structure StreamerObjectAny where
  elem : StreamerElement
deriving DecidableEq, Repr

/-- groot/rdict/rdict.go:902-911 (`StreamerObjectAny`). -/
def streamerObjectAnyW (a : StreamerObjectAny) : Wr :=
  wBlock 2 [streamerElementW a.elem]

/-- groot/rdict/rdict.go:913-924 (`StreamerObjectAny`). -/
def streamerObjectAnyR : Rd StreamerObjectAny := rBlock 2 fun _ => do
  let elem ← streamerElementR
  return ⟨elem⟩

structure StreamerObjectAnyPointer where
  elem : StreamerElement
deriving DecidableEq, Repr

/-- groot/rdict/rdict.go:936-945 (`StreamerObjectAnyPointer`). -/
def streamerObjectAnyPointerW (a : StreamerObjectAnyPointer) : Wr :=
  wBlock 1 [streamerElementW a.elem]

/-- groot/rdict/rdict.go:947-958 (`StreamerObjectAnyPointer`). -/
def streamerObjectAnyPointerR : Rd StreamerObjectAnyPointer := rBlock 1 fun _ => do
  let elem ← streamerElementR
  return ⟨elem⟩

structure StreamerString where
  elem : StreamerElement
deriving DecidableEq, Repr

/-- groot/rdict/rdict.go:970-979 (`StreamerString`). -/
def streamerStringW (a : StreamerString) : Wr :=
  wBlock 2 [streamerElementW a.elem]

/-- groot/rdict/rdict.go:981-992 (`StreamerString`). -/
def streamerStringR : Rd StreamerString := rBlock 2 fun _ => do
  let elem ← streamerElementR
  return ⟨elem⟩

structure StreamerSTL where
  elem : StreamerElement
  vtype : BitVec 32
  ctype : BitVec 32
deriving DecidableEq, Repr

/-- groot/rdict/rdict.go:1040-1051 (`StreamerSTL.MarshalROOT`). -/
def streamerSTLW (a : StreamerSTL) : Wr :=
  wBlock 3 [streamerElementW a.elem, w32 a.vtype, w32 a.ctype]

/-- `std::set`, `set`. -/
def setNames : List (List UInt8) := [[115, 116, 100, 58, 58, 115, 101, 116], [115, 101, 116]]

/-- `std::multimap`, `multimap`. -/
def mmapNames : List (List UInt8) :=
  [[115, 116, 100, 58, 58, 109, 117, 108, 116, 105, 109, 97, 112], [109, 117, 108, 116, 105, 109, 97, 112]]

/-- The correction of the kind of container in groot/rdict/rdict.go:1053-1076
(`StreamerSTL.UnmarshalROOT`); `STLmultimap` is 5 and `STLset` is 6. -/
def stlFix (ename : List UInt8) (v : BitVec 32) : BitVec 32 :=
  if v = 5 ∨ v = 6 then
    if setNames.any (·.isPrefixOf ename) then 6
    else if mmapNames.any (·.isPrefixOf ename) then 5
    else v
  else v

/-- groot/rdict/rdict.go:1053-1076 (`StreamerSTL.UnmarshalROOT`). -/
def streamerSTLR : Rd StreamerSTL := rBlock 3 fun _ => do
  let elem ← streamerElementR
  let vtype ← r32
  let ctype ← r32
  return { elem, vtype := stlFix elem.ename vtype, ctype }

structure StreamerSTLstring where
  stl : StreamerSTL
deriving DecidableEq, Repr

/-- groot/rdict/rdict.go:1093-1102 (`StreamerSTLstring`). -/
def streamerSTLstringW (a : StreamerSTLstring) : Wr :=
  wBlock 2 [streamerSTLW a.stl]

/-- groot/rdict/rdict.go:1104-1115 (`StreamerSTLstring`). -/
def streamerSTLstringR : Rd StreamerSTLstring := rBlock 2 fun _ => do
  let stl ← streamerSTLR
  return ⟨stl⟩

structure StreamerInfo where
  named : Named
  chksum : BitVec 32
  clsver : BitVec 32
  elems : Nat
deriving DecidableEq, Repr

/-- groot/rdict/rdict.go:97-118 (`StreamerInfo.MarshalROOT`): the elements are put in an array of objects, which is
an object of its own. -/
def streamerInfoW (a : StreamerInfo) : Wr :=
  wBlock 10 [namedW a.named, w32 a.chksum, w32 a.clsver, wRef (some a.elems)]

/-- groot/rdict/rdict.go:120-149 (`StreamerInfo.UnmarshalROOT`). The elements are taken out of the array of
objects, which must not be nil. -/
def streamerInfoR : Rd StreamerInfo := rBlock 10 fun _ => do
  let named ← namedR
  let chksum ← r32
  let clsver ← r32
  let elems ← rSome
  return ⟨named, chksum, clsver, elems⟩

/-! ### Trees -/

/-- groot/rtree/tree.go:671-688 (`tioFeatures.MarshalROOT`). -/
def ioW (x : BitVec 8) : Wr :=
  if x = 0 then wBlock 1 [w8 x] else wBlock 1 [bytesW [0x1a, 0xa1, 0x2f, 0x10], w8 x]

/-- groot/rtree/tree.go:690-719 (`tioFeatures.UnmarshalROOT`). -/
def ioR : Rd (BitVec 8) := rBlock 1 fun _ => do
  let b ← rByte
  if b = 0 then pure 0
  else do
    let _ ← bytesR 3
    r8

/-- groot/rtree/branch.go:264-274, 276-287 and groot/rtree/tree.go:198-218: the branches, or the
leaves, in a new array of objects (groot/rbase/object.go:21-23, `NewObject`). -/
def objsW (xs : List Nat) : Wr := objArrayW ⟨⟨0, 0x03000000⟩, [], xs.length - 1, 0, xs.map some⟩

/-- None of them nil. -/
def allSome : List (Option Nat) → Option (List Nat)
  | [] => some []
  | none :: _ => none
  | some i :: os => (allSome os).map (i :: ·)

def rOpt {α : Type} : Option α → Rd α
  | some a => .ret a
  | none => .fail

/-- groot/rtree/branch.go:377-387, 389-400 and groot/rtree/tree.go:375-393: up to the last object which
is there; the type assertion panics on nil. -/
def objsR : Rd (List Nat) := do
  let a ← objArrayR
  rOpt (allSome (a.objs.take (a.last + 1).toNat))

/-- groot/rtree/branch.go:288-303: the baskets. -/
def basketsW (xs : List (Option Nat)) : Wr :=
  objArrayW ⟨⟨0, 0x03000000⟩, [], xs.length - 1, 0, xs⟩

/-- groot/rtree/branch.go:401-417: the baskets, which may be nil. -/
def basketsR : Rd (List (Option Nat)) := do
  let a ← objArrayR
  return a.objs.take (a.last + 1).toNat

/-- The part of a leaf common to all kinds (groot/rtree/leaf.go:23-33, `tleaf`), without the
shape, which is found again in the title. -/
structure Leaf where
  named : Named
  len : Int
  etype : Int
  offset : Int
  hasrange : Bool
  unsigned : Bool
  count : Option Nat
deriving DecidableEq, Repr

/-- groot/rtree/leaf.go:151-166 (`tleaf.MarshalROOT`). -/
def leafW (a : Leaf) : Wr :=
  wBlock 2 [namedW a.named, wInt a.len, wInt a.etype, wInt a.offset, wBool a.hasrange,
    wBool a.unsigned, wRef a.count]

/-- groot/rtree/leaf.go:168-195 (`tleaf.UnmarshalROOT`). -/
def leafR : Rd Leaf := rBlock 2 fun _ => do
  let named ← namedR
  let len ← rInt
  let etype ← rInt
  let offset ← rInt
  let hasrange ← rBool
  let unsigned ← rBool
  let count ← rRef
  return ⟨named, if len = 0 then 1 else len, etype, offset, hasrange, unsigned, count⟩

structure LeafO where
  rvers : BitVec 16
  leaf : Leaf
  min : Bool
  max : Bool
deriving DecidableEq, Repr

/-- groot/rtree/leaf_gen.go:76-87 (`LeafO`). -/
def leafOW (a : LeafO) : Wr :=
  wBlock a.rvers [leafW a.leaf, wBool a.min, wBool a.max]

/-- groot/rtree/leaf_gen.go:89-104 (`LeafO`). -/
def leafOR : Rd LeafO := rBlock 1 fun rvers => do
  let leaf ← leafR
  let min ← rBool
  let max ← rBool
  return ⟨rvers, leaf, min, max⟩

structure LeafB where
  rvers : BitVec 16
  leaf : Leaf
  min : BitVec 8
  max : BitVec 8
deriving DecidableEq, Repr

/-- groot/rtree/leaf_gen.go:283-294 (`LeafB`). -/
def leafBW (a : LeafB) : Wr :=
  wBlock a.rvers [leafW a.leaf, w8 a.min, w8 a.max]

/-- groot/rtree/leaf_gen.go:296-311 (`LeafB`). -/
def leafBR : Rd LeafB := rBlock 1 fun rvers => do
  let leaf ← leafR
  let min ← r8
  let max ← r8
  return ⟨rvers, leaf, min, max⟩

structure LeafS where
  rvers : BitVec 16
  leaf : Leaf
  min : BitVec 16
  max : BitVec 16
deriving DecidableEq, Repr

/-- groot/rtree/leaf_gen.go:502-513 (`LeafS`). -/
def leafSW (a : LeafS) : Wr :=
  wBlock a.rvers [leafW a.leaf, w16 a.min, w16 a.max]

/-- groot/rtree/leaf_gen.go:515-530 (`LeafS`). -/
def leafSR : Rd LeafS := rBlock 1 fun rvers => do
  let leaf ← leafR
  let min ← r16
  let max ← r16
  return ⟨rvers, leaf, min, max⟩

structure LeafI where
  rvers : BitVec 16
  leaf : Leaf
  min : BitVec 32
  max : BitVec 32
deriving DecidableEq, Repr

/-- groot/rtree/leaf_gen.go:721-732 (`LeafI`). -/
def leafIW (a : LeafI) : Wr :=
  wBlock a.rvers [leafW a.leaf, w32 a.min, w32 a.max]

/-- groot/rtree/leaf_gen.go:734-749 (`LeafI`). -/
def leafIR : Rd LeafI := rBlock 1 fun rvers => do
  let leaf ← leafR
  let min ← r32
  let max ← r32
  return ⟨rvers, leaf, min, max⟩

structure LeafL where
  rvers : BitVec 16
  leaf : Leaf
  min : BitVec 64
  max : BitVec 64
deriving DecidableEq, Repr

/-- groot/rtree/leaf_gen.go:940-951 (`LeafL`). -/
def leafLW (a : LeafL) : Wr :=
  wBlock a.rvers [leafW a.leaf, w64 a.min, w64 a.max]

/-- groot/rtree/leaf_gen.go:953-968 (`LeafL`). -/
def leafLR : Rd LeafL := rBlock 1 fun rvers => do
  let leaf ← leafR
  let min ← r64
  let max ← r64
  return ⟨rvers, leaf, min, max⟩

structure LeafG where
  rvers : BitVec 16
  leaf : Leaf
  min : BitVec 64
  max : BitVec 64
deriving DecidableEq, Repr

/-- groot/rtree/leaf_gen.go:1159-1170 (`LeafG`). -/
def leafGW (a : LeafG) : Wr :=
  wBlock a.rvers [leafW a.leaf, w64 a.min, w64 a.max]

/-- groot/rtree/leaf_gen.go:1172-1187 (`LeafG`). -/
def leafGR : Rd LeafG := rBlock 1 fun rvers => do
  let leaf ← leafR
  let min ← r64
  let max ← r64
  return ⟨rvers, leaf, min, max⟩

structure LeafF where
  rvers : BitVec 16
  leaf : Leaf
  min : BitVec 32
  max : BitVec 32
deriving DecidableEq, Repr

/-- groot/rtree/leaf_gen.go:1358-1369 (`LeafF`). -/
def leafFW (a : LeafF) : Wr :=
  wBlock a.rvers [leafW a.leaf, w32 a.min, w32 a.max]

/-- groot/rtree/leaf_gen.go:1371-1386 (`LeafF`). -/
def leafFR : Rd LeafF := rBlock 1 fun rvers => do
  let leaf ← leafR
  let min ← r32
  let max ← r32
  return ⟨rvers, leaf, min, max⟩

structure LeafD where
  rvers : BitVec 16
  leaf : Leaf
  min : BitVec 64
  max : BitVec 64
deriving DecidableEq, Repr

/-- groot/rtree/leaf_gen.go:1548-1559 (`LeafD`). -/
def leafDW (a : LeafD) : Wr :=
  wBlock a.rvers [leafW a.leaf, w64 a.min, w64 a.max]

/-- groot/rtree/leaf_gen.go:1561-1576 (`LeafD`). -/
def leafDR : Rd LeafD := rBlock 1 fun rvers => do
  let leaf ← leafR
  let min ← r64
  let max ← r64
  return ⟨rvers, leaf, min, max⟩

structure LeafC where
  rvers : BitVec 16
  leaf : Leaf
  min : BitVec 32
  max : BitVec 32
deriving DecidableEq, Repr

/-- groot/rtree/leaf_gen.go:2140-2151 (`LeafC`). -/
def leafCW (a : LeafC) : Wr :=
  wBlock a.rvers [leafW a.leaf, w32 a.min, w32 a.max]

/-- groot/rtree/leaf_gen.go:2153-2168 (`LeafC`). -/
def leafCR : Rd LeafC := rBlock 1 fun rvers => do
  let leaf ← leafR
  let min ← r32
  let max ← r32
  return ⟨rvers, leaf, min, max⟩

structure LeafElement where
  rvers : BitVec 16
  leaf : Leaf
  id : BitVec 32
  ltype : BitVec 32
deriving DecidableEq, Repr

/-- groot/rtree/leaf.go:334-345 (`tleafElement.MarshalROOT`). -/
def leafElementW (a : LeafElement) : Wr :=
  wBlock a.rvers [leafW a.leaf, w32 a.id, w32 a.ltype]

/-- groot/rtree/leaf.go:347-361 (`tleafElement.UnmarshalROOT`). -/
def leafElementR : Rd LeafElement := rBlock 1 fun rvers => do
  let leaf ← leafR
  let id ← r32
  let ltype ← r32
  return ⟨rvers, leaf, id, ltype⟩

structure LeafObject where
  leaf : Leaf
  virt : Bool
deriving DecidableEq, Repr

/-- groot/rtree/leaf.go:244-254 (`tleafObject.MarshalROOT`). -/
def leafObjectW (a : LeafObject) : Wr :=
  wBlock 4 [leafW a.leaf, wBool a.virt]

/-- groot/rtree/leaf.go:256-282 (`tleafObject.UnmarshalROOT`); the class named by the title
is taken to exist. -/
def leafObjectR : Rd LeafObject := rBlock 4 fun v =>
  if v.toInt < 4 then .fail else do
  let leaf ← leafR
  let virt ← rBool
  return ⟨leaf, virt⟩

/-- groot/rtree/branch.go:28-59 (`tbranch`), what is kept in the file. The baskets held in
memory are objects of their own. -/
structure Branch where
  named : Named
  attfill : AttFill
  compress : Int
  basketSize : Int
  entryOffsetLen : Int
  writeBasket : Int
  entryNumber : BitVec 64
  iobits : BitVec 8
  offset : Int
  maxBaskets : Int
  splitLevel : Int
  entries : BitVec 64
  firstEntry : BitVec 64
  totBytes : BitVec 64
  zipBytes : BitVec 64
  branches : List Nat
  leaves : List Nat
  baskets : List (Option Nat)
  basketBytes : List (BitVec 32)
  basketEntry : List (BitVec 64)
  basketSeek : List (BitVec 64)
  fname : List UInt8
deriving DecidableEq, Repr

/-- groot/rtree/branch.go:305-313: the first `n` elements, filled up with zeros to `m`
elements. -/
def padTo {w : Nat} (m n : Int) (xs : List (BitVec w)) : List (BitVec w) :=
  xs.take n.toNat ++ List.replicate (m - (xs.take n.toNat).length).toNat 0

/-- groot/rtree/branch.go:240-338 (`tbranch.MarshalROOT`), for slices that have at least the
number of elements that are written. -/
def branchW (a : Branch) : Wr :=
  wBlock 13 [namedW a.named, attFillW a.attfill, wInt a.compress, wInt a.basketSize,
    wInt a.entryOffsetLen, wInt a.writeBasket, w64 a.entryNumber, ioW a.iobits, wInt a.offset,
    wInt (max (a.writeBasket + 1) 10), wInt a.splitLevel, w64 a.entries, w64 a.firstEntry,
    w64 a.totBytes, w64 a.zipBytes, objsW a.branches, objsW a.leaves, basketsW a.baskets,
    w8 1, wAll w32 (padTo (max (a.writeBasket + 1) 10) a.writeBasket a.basketBytes),
    w8 1, wAll w64 (padTo (max (a.writeBasket + 1) 10) (a.writeBasket + 1) a.basketEntry),
    w8 1, wAll w64 (padTo (max (a.writeBasket + 1) 10) a.writeBasket a.basketSeek),
    wStr a.fname]

/-- `xs[:n:n]`. -/
def cutTo {α : Type} (xs : List α) (n : Int) : Option (List α) :=
  if 0 ≤ n ∧ n ≤ xs.length then some (xs.take n.toNat) else none

/-- groot/rtree/branch.go:342-547 (`tbranch.UnmarshalROOT`), for version 10 and above (versions
6 to 9 have floating-point numbers of entries). -/
def branchR : Rd Branch := rBlock 13 fun v =>
  if v.toInt < 10 then .fail else do
  let named ← namedR
  let attfill ← attFillR
  let compress ← rInt
  let basketSize ← rInt
  let entryOffsetLen ← rInt
  let writeBasket ← rInt
  let entryNumber ← r64
  let iobits ← if 13 ≤ v.toInt then ioR else pure 0
  let offset ← rInt
  let maxBaskets ← rInt
  let splitLevel ← rInt
  let entries ← r64
  let firstEntry ← if 11 ≤ v.toInt then r64 else pure 0
  let totBytes ← r64
  let zipBytes ← r64
  let branches ← objsR
  let leaves ← objsR
  let baskets ← basketsR
  let _ ← r8
  let bytes ← rMake r32 maxBaskets
  let basketBytes ← rOpt (cutTo bytes writeBasket)
  let _ ← r8
  let entry ← rMake r64 maxBaskets
  let basketEntry ← rOpt (cutTo entry (writeBasket + 1))
  let _ ← r8
  let seek ← rMake r64 maxBaskets
  let basketSeek ← rOpt (cutTo seek writeBasket)
  let fname ← rStr
  return ⟨named, attfill, compress, basketSize, entryOffsetLen, writeBasket, entryNumber, iobits,
    offset, maxBaskets, if splitLevel = 0 ∧ branches ≠ [] then 1 else splitLevel, entries, firstEntry,
    totBytes, zipBytes, branches, leaves, baskets, basketBytes, basketEntry, basketSeek, fname⟩

structure BranchObject where
  branch : Branch
  cls : List UInt8
deriving DecidableEq, Repr

/-- groot/rtree/branch.go:779-789 (`tbranchObject.MarshalROOT`). -/
def branchObjectW (a : BranchObject) : Wr :=
  wBlock 1 [branchW a.branch, wStr a.cls]

/-- groot/rtree/branch.go:793-822 (`tbranchObject.UnmarshalROOT`). -/
def branchObjectR : Rd BranchObject := rBlock 1 fun v =>
  if v.toInt < 1 then .fail else do
  let branch ← branchR
  let cls ← rStr
  return ⟨branch, cls⟩

structure BranchElement where
  branch : Branch
  cls : List UInt8
  parent : List UInt8
  clones : List UInt8
  chksum : BitVec 32
  clsver : BitVec 16
  id : BitVec 32
  btype : BitVec 32
  stype : BitVec 32
  max : BitVec 32
  bcount1 : Option Nat
  bcount2 : Option Nat
deriving DecidableEq, Repr

/-- groot/rtree/branch.go:892-925 (`tbranchElement.MarshalROOT`). -/
def branchElementW (a : BranchElement) : Wr :=
  wBlock 10 [branchW a.branch, wStr a.cls, wStr a.parent, wStr a.clones, w32 a.chksum,
    w16 a.clsver, w32 a.id, w32 a.btype, w32 a.stype, w32 a.max, wRef a.bcount1, wRef a.bcount2]

/-- groot/rtree/branch.go:929-983 (`tbranchElement.UnmarshalROOT`). -/
def branchElementR : Rd BranchElement := rBlock 10 fun v =>
  if v.toInt < 1 then .fail else do
  let branch ← branchR
  let cls ← rStr
  let parent ← if 1 < v.toInt then rStr else pure []
  let clones ← if 1 < v.toInt then rStr else pure []
  let chksum ← if 1 < v.toInt then r32 else pure 0
  let clsver ← if 10 ≤ v.toInt then r16 else (do return (← r32).truncate 16)
  let id ← r32
  let btype ← r32
  let stype ← r32
  let max ← if 1 < v.toInt then r32 else pure 0
  let bcount1 ← if 1 < v.toInt then rRef else pure none
  let bcount2 ← if 1 < v.toInt then rRef else pure none
  return ⟨branch, cls, parent, clones, chksum, clsver, id, btype, stype, max, bcount1, bcount2⟩

structure Tree where
  named : Named
  attline : AttLine
  attfill : AttFill
  attmarker : AttMarker
  entries : BitVec 64
  totBytes : BitVec 64
  zipBytes : BitVec 64
  savedBytes : BitVec 64
  flushedBytes : BitVec 64
  weight : BitVec 64
  timerInterval : BitVec 32
  scanField : BitVec 32
  update : BitVec 32
  defOffsetLen : BitVec 32
  maxEntries : BitVec 64
  maxEntryLoop : BitVec 64
  maxVirtualSize : BitVec 64
  autoSave : BitVec 64
  autoFlush : BitVec 64
  estimate : BitVec 64
  ranges : List (BitVec 64)
  sizes : List (BitVec 64)
  iobits : BitVec 8
  branches : List Nat
  leaves : List Nat
  aliases : Option Nat
  indexValues : Option Nat
  index : Option Nat
  treeIndex : Option Nat
  friends : Option Nat
  userInfo : Option Nat
  branchRef : Option Nat
deriving DecidableEq, Repr

/-- groot/rtree/tree.go:157-278 (`ttree.MarshalROOT`). -/
def treeW (a : Tree) : Wr :=
  wBlock 20 [namedW a.named, attLineW a.attline, attFillW a.attfill, attMarkerW a.attmarker,
    w64 a.entries, w64 a.totBytes, w64 a.zipBytes, w64 a.savedBytes, w64 a.flushedBytes,
    w64 a.weight, w32 a.timerInterval, w32 a.scanField, w32 a.update, w32 a.defOffsetLen,
    wInt a.ranges.length, w64 a.maxEntries, w64 a.maxEntryLoop, w64 a.maxVirtualSize,
    w64 a.autoSave, w64 a.autoFlush, w64 a.estimate, w8 0, wAll w64 a.ranges, w8 0,
    wAll w64 a.sizes, ioW a.iobits, objsW a.branches, objsW a.leaves, wRef a.aliases,
    wRef a.indexValues, wRef a.index, wRef a.treeIndex, wRef a.friends, wRef a.userInfo,
    wRef a.branchRef]

/-- groot/rtree/tree.go:282-439 (`ttree.UnmarshalROOT`), for version 6 and above (version 5 has
floating-point numbers of entries). Attaching the streamers to the branches is left out. -/
def treeR : Rd Tree := rBlock 20 fun v =>
  if v.toInt < 6 then .fail else do
  let named ← namedR
  let attline ← attLineR
  let attfill ← attFillR
  let attmarker ← attMarkerR
  let entries ← r64
  let totBytes ← r64
  let zipBytes ← r64
  let savedBytes ← r64
  let flushedBytes ← if 18 ≤ v.toInt then r64 else pure 0
  let weight ← if 16 ≤ v.toInt then r64 else pure 0
  let timerInterval ← r32
  let scanField ← r32
  let update ← r32
  let defOffsetLen ← if 17 ≤ v.toInt then r32 else pure 0
  let n ← if 19 ≤ v.toInt then rInt else pure 0
  let maxEntries ← r64
  let maxEntryLoop ← r64
  let maxVirtualSize ← r64
  let autoSave ← r64
  let autoFlush ← if 18 ≤ v.toInt then r64 else pure 0
  let estimate ← r64
  let _ ← if 19 ≤ v.toInt then r8 else pure 0
  let ranges ← if 19 ≤ v.toInt then rMake r64 n else pure []
  let _ ← if 19 ≤ v.toInt then r8 else pure 0
  let sizes ← if 19 ≤ v.toInt then rMake r64 n else pure []
  let iobits ← if 20 ≤ v.toInt then ioR else pure 0
  let branches ← objsR
  let leaves ← objsR
  let aliases ← rRef
  let indexValues ← rRef
  let index ← rRef
  let treeIndex ← rRef
  let friends ← rRef
  let userInfo ← rRef
  let branchRef ← rRef
  return ⟨named, attline, attfill, attmarker, entries, totBytes, zipBytes, savedBytes,
    flushedBytes, weight, timerInterval, scanField, update, defOffsetLen, maxEntries, maxEntryLoop,
    maxVirtualSize, autoSave, autoFlush, estimate, ranges, sizes, iobits, branches, leaves,
    aliases, indexValues, index, treeIndex, friends, userInfo, branchRef⟩

end Verif.Robj
