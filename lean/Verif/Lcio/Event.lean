import Verif.Lcio.RecordsProps

/-!
# Model of the events of `lcio` and of reading and writing them

The collections of an event are numbered in the order in which they were added.
-/

namespace Verif.Lcio

open Verif.Sio (Bytes Blk Rec Blocks Cfg)

/-- The types of collections. -/
inductive Kind
  | mc
  | simTrk
  | simCalo
  | floats
  | ints
  | strs
  | rawCalo
  | calo
  | trkData
  | trk
  | trkPlane
  | trkZCyl
  | pulse
  | trkRaw
  | track
  | cluster
  | vertex
  | recPart
  | generic
  | relation
  | refs
deriving DecidableEq, Repr

/-- A collection. -/
inductive Coll (P : Type)
  | mc (c : Cont (McPart P))
  | simTrk (c : Cont (SimTrkHit P))
  | simCalo (c : Cont (SimCaloHit P))
  | floats (c : Cont (List W32))
  | ints (c : Cont (List W32))
  | strs (c : Cont (List Str))
  | rawCalo (c : Cont RawCaloHit)
  | calo (c : Cont (CaloHit P))
  | trkData (c : Cont TrkData)
  | trk (c : Cont (TrkHit P))
  | trkPlane (c : Cont (TrkHitPlane P))
  | trkZCyl (c : Cont (TrkHitZCyl P))
  | pulse (c : Cont (TrkPulse P))
  | trkRaw (c : Cont TrkRaw)
  | track (c : Cont (Track P))
  | cluster (c : Cont (Cluster P))
  | vertex (c : Cont (Vertex P))
  | recPart (c : Cont (RecPart P))
  | generic (c : Cont Generic)
  | relation (c : Cont (Relation P))
  | refs (c : Cont P)
deriving DecidableEq

/-- The type of a collection. -/
def Coll.kind {P : Type} : Coll P → Kind
  | .mc _ => .mc
  | .simTrk _ => .simTrk
  | .simCalo _ => .simCalo
  | .floats _ => .floats
  | .ints _ => .ints
  | .strs _ => .strs
  | .rawCalo _ => .rawCalo
  | .calo _ => .calo
  | .trkData _ => .trkData
  | .trk _ => .trk
  | .trkPlane _ => .trkPlane
  | .trkZCyl _ => .trkZCyl
  | .pulse _ => .pulse
  | .trkRaw _ => .trkRaw
  | .track _ => .track
  | .cluster _ => .cluster
  | .vertex _ => .vertex
  | .recPart _ => .recPart
  | .generic _ => .generic
  | .relation _ => .relation
  | .refs _ => .refs

/-- A collection through a function on pointers. -/
def Coll.map {P Q : Type} (f : P → Q) : Coll P → Coll Q
  | .mc c => .mc (c.map fun x => x.map f)
  | .simTrk c => .simTrk (c.map fun x => x.map f)
  | .simCalo c => .simCalo (c.map fun x => x.map f)
  | .floats c => .floats c
  | .ints c => .ints c
  | .strs c => .strs c
  | .rawCalo c => .rawCalo c
  | .calo c => .calo (c.map fun x => x.map f)
  | .trkData c => .trkData c
  | .trk c => .trk (c.map fun x => x.map f)
  | .trkPlane c => .trkPlane (c.map fun x => x.map f)
  | .trkZCyl c => .trkZCyl (c.map fun x => x.map f)
  | .pulse c => .pulse (c.map fun x => x.map f)
  | .trkRaw c => .trkRaw c
  | .track c => .track (c.map fun x => x.map f)
  | .cluster c => .cluster (c.map fun x => x.map f)
  | .vertex c => .vertex (c.map fun x => x.map f)
  | .recPart c => .recPart (c.map fun x => x.map f)
  | .generic c => .generic c
  | .relation c => .relation (c.map fun x => x.map f)
  | .refs c => .refs (c.map f)

/-- lcio/types.go:12-60 (`typeFrom`): `none` is the panic for other names. -/
def typeFrom (name : Str) : Option Kind :=
  -- "MCParticle"
  if name = [77, 67, 80, 97, 114, 116, 105, 99, 108, 101] then some .mc else
  -- "SimTrackerHit"
  if name = [83, 105, 109, 84, 114, 97, 99, 107, 101, 114, 72, 105, 116] then some .simTrk else
  -- "SimCalorimeterHit"
  if name = [83, 105, 109, 67, 97, 108, 111, 114, 105, 109, 101, 116, 101, 114, 72, 105, 116] then some .simCalo else
  -- "LCFloatVec"
  if name = [76, 67, 70, 108, 111, 97, 116, 86, 101, 99] then some .floats else
  -- "LCIntVec"
  if name = [76, 67, 73, 110, 116, 86, 101, 99] then some .ints else
  -- "LCStrVec"
  if name = [76, 67, 83, 116, 114, 86, 101, 99] then some .strs else
  -- "RawCalorimeterHit"
  if name = [82, 97, 119, 67, 97, 108, 111, 114, 105, 109, 101, 116, 101, 114, 72, 105, 116] then some .rawCalo else
  -- "CalorimeterHit"
  if name = [67, 97, 108, 111, 114, 105, 109, 101, 116, 101, 114, 72, 105, 116] then some .calo else
  -- "TrackerData"
  if name = [84, 114, 97, 99, 107, 101, 114, 68, 97, 116, 97] then some .trkData else
  -- "TrackerHit"
  if name = [84, 114, 97, 99, 107, 101, 114, 72, 105, 116] then some .trk else
  -- "TrackerHitPlane"
  if name = [84, 114, 97, 99, 107, 101, 114, 72, 105, 116, 80, 108, 97, 110, 101] then some .trkPlane else
  -- "TrackerHitZCylinder"
  if name = [84, 114, 97, 99, 107, 101, 114, 72, 105, 116, 90, 67, 121, 108, 105, 110, 100, 101, 114] then some .trkZCyl else
  -- "TrackerPulse"
  if name = [84, 114, 97, 99, 107, 101, 114, 80, 117, 108, 115, 101] then some .pulse else
  -- "TrackerRawData"
  if name = [84, 114, 97, 99, 107, 101, 114, 82, 97, 119, 68, 97, 116, 97] then some .trkRaw else
  -- "Track"
  if name = [84, 114, 97, 99, 107] then some .track else
  -- "Cluster"
  if name = [67, 108, 117, 115, 116, 101, 114] then some .cluster else
  -- "Vertex"
  if name = [86, 101, 114, 116, 101, 120] then some .vertex else
  -- "ReconstructedParticle"
  if name = [82, 101, 99, 111, 110, 115, 116, 114, 117, 99, 116, 101, 100, 80, 97, 114, 116, 105, 99, 108, 101] then some .recPart else
  -- "LCGenericObject"
  if name = [76, 67, 71, 101, 110, 101, 114, 105, 99, 79, 98, 106, 101, 99, 116] then some .generic else
  -- "LCRelation"
  if name = [76, 67, 82, 101, 108, 97, 116, 105, 111, 110] then some .relation else
  -- the suffix "_References"
  if [95, 82, 101, 102, 101, 114, 101, 110, 99, 101, 115] <:+ name then some .refs else none

/-- lcio/types.go:62-107 (`typeName`): `none` is the panic for references. -/
def typeName : Kind → Option Str
  | .mc => some [77, 67, 80, 97, 114, 116, 105, 99, 108, 101]
  | .simTrk => some [83, 105, 109, 84, 114, 97, 99, 107, 101, 114, 72, 105, 116]
  | .simCalo => some [83, 105, 109, 67, 97, 108, 111, 114, 105, 109, 101, 116, 101, 114, 72, 105, 116]
  | .floats => some [76, 67, 70, 108, 111, 97, 116, 86, 101, 99]
  | .ints => some [76, 67, 73, 110, 116, 86, 101, 99]
  | .strs => some [76, 67, 83, 116, 114, 86, 101, 99]
  | .rawCalo => some [82, 97, 119, 67, 97, 108, 111, 114, 105, 109, 101, 116, 101, 114, 72, 105, 116]
  | .calo => some [67, 97, 108, 111, 114, 105, 109, 101, 116, 101, 114, 72, 105, 116]
  | .trkData => some [84, 114, 97, 99, 107, 101, 114, 68, 97, 116, 97]
  | .trk => some [84, 114, 97, 99, 107, 101, 114, 72, 105, 116]
  | .trkPlane => some [84, 114, 97, 99, 107, 101, 114, 72, 105, 116, 80, 108, 97, 110, 101]
  | .trkZCyl => some [84, 114, 97, 99, 107, 101, 114, 72, 105, 116, 90, 67, 121, 108, 105, 110, 100, 101, 114]
  | .pulse => some [84, 114, 97, 99, 107, 101, 114, 80, 117, 108, 115, 101]
  | .trkRaw => some [84, 114, 97, 99, 107, 101, 114, 82, 97, 119, 68, 97, 116, 97]
  | .track => some [84, 114, 97, 99, 107]
  | .cluster => some [67, 108, 117, 115, 116, 101, 114]
  | .vertex => some [86, 101, 114, 116, 101, 120]
  | .recPart => some [82, 101, 99, 111, 110, 115, 116, 114, 117, 99, 116, 101, 100, 80, 97, 114, 116, 105, 99, 108, 101]
  | .generic => some [76, 67, 71, 101, 110, 101, 114, 105, 99, 79, 98, 106, 101, 99, 116]
  | .relation => some [76, 67, 82, 101, 108, 97, 116, 105, 111, 110]
  | .refs => none

/-- A new collection, as made by lcio/types.go:12-60 (`typeFrom`). -/
def Kind.empty {P : Type} : Kind → Coll P
  | .mc => .mc ⟨0, ⟨[], [], []⟩, []⟩
  | .simTrk => .simTrk ⟨0, ⟨[], [], []⟩, []⟩
  | .simCalo => .simCalo ⟨0, ⟨[], [], []⟩, []⟩
  | .floats => .floats ⟨0, ⟨[], [], []⟩, []⟩
  | .ints => .ints ⟨0, ⟨[], [], []⟩, []⟩
  | .strs => .strs ⟨0, ⟨[], [], []⟩, []⟩
  | .rawCalo => .rawCalo ⟨0, ⟨[], [], []⟩, []⟩
  | .calo => .calo ⟨0, ⟨[], [], []⟩, []⟩
  | .trkData => .trkData ⟨0, ⟨[], [], []⟩, []⟩
  | .trk => .trk ⟨0, ⟨[], [], []⟩, []⟩
  | .trkPlane => .trkPlane ⟨0, ⟨[], [], []⟩, []⟩
  | .trkZCyl => .trkZCyl ⟨0, ⟨[], [], []⟩, []⟩
  | .pulse => .pulse ⟨0, ⟨[], [], []⟩, []⟩
  | .trkRaw => .trkRaw ⟨0, ⟨[], [], []⟩, []⟩
  | .track => .track ⟨0, ⟨[], [], []⟩, []⟩
  | .cluster => .cluster ⟨0, ⟨[], [], []⟩, []⟩
  | .vertex => .vertex ⟨0, ⟨[], [], []⟩, []⟩
  | .recPart => .recPart ⟨0, ⟨[], [], []⟩, []⟩
  | .generic => .generic ⟨0, ⟨[], [], []⟩, []⟩
  | .relation => .relation ⟨0, ⟨[], [], []⟩, []⟩
  | .refs => .refs ⟨0, ⟨[], [], []⟩, []⟩

/-- The `MarshalSio` methods of the collections; `none` is a panic. -/
def Coll.write (E : Env) (b : Nat) : Coll Ref → Option Ws
  | .mc c => some (writeMcs E b c)
  | .simTrk c => some (writeSimTrkHits E b c)
  | .simCalo c => some (writeSimCaloHits E b c)
  | .floats c => some (writeVec E b (versionSio version) c)
  | .ints c => some (writeVec E b (versionSio version) c)
  | .strs c => some (writeVec E b (versionSio version) c)
  | .rawCalo c => some (writeRawCaloHits E b c)
  | .calo c => some (writeCaloHits E b c)
  | .trkData c => some (writeTrkData E b c)
  | .trk c => some (writeTrkHits E b c)
  | .trkPlane c => some (writeTrkHitPlanes E b c)
  | .trkZCyl c => some (writeTrkHitZCyls E b c)
  | .pulse c => some (writeTrkPulses E b c)
  | .trkRaw c => some (writeTrkRaws E b c)
  | .track c => some (writeTracks E b c)
  | .cluster c => writeClusters E b c
  | .vertex c => some (writeVertices E b c)
  | .recPart c => some (writeRecParts E b c)
  | .generic c => some (writeGenerics E b c)
  | .relation c => some (writeRelations E c)
  | .refs c => some (writeReferences E c)

/-- The `UnmarshalSio` methods of the collections. -/
def readColl (E : Env) (b ver : Nat) : Kind → Rd (Coll Nat)
  | .mc => readMcs E b ver >>= fun c => pure (.mc c)
  | .simTrk => readSimTrkHits b ver >>= fun c => pure (.simTrk c)
  | .simCalo => readSimCaloHits b ver >>= fun c => pure (.simCalo c)
  | .floats => readVec b ver >>= fun c => pure (.floats c)
  | .ints => readVec b ver >>= fun c => pure (.ints c)
  | .strs => readVec b ver >>= fun c => pure (.strs c)
  | .rawCalo => readRawCaloHits b ver >>= fun c => pure (.rawCalo c)
  | .calo => readCaloHits b ver >>= fun c => pure (.calo c)
  | .trkData => readTrkData b >>= fun c => pure (.trkData c)
  | .trk => readTrkHits E b ver >>= fun c => pure (.trk c)
  | .trkPlane => readTrkHitPlanes b ver >>= fun c => pure (.trkPlane c)
  | .trkZCyl => readTrkHitZCyls b ver >>= fun c => pure (.trkZCyl c)
  | .pulse => readTrkPulses b ver >>= fun c => pure (.pulse c)
  | .trkRaw => readTrkRaws b >>= fun c => pure (.trkRaw c)
  | .track => readTracks b ver >>= fun c => pure (.track c)
  | .cluster => readClusters b ver >>= fun c => pure (.cluster c)
  | .vertex => readVertices b >>= fun c => pure (.vertex c)
  | .recPart => readRecParts b ver >>= fun c => pure (.recPart c)
  | .generic => readGenerics b >>= fun c => pure (.generic c)
  | .relation => readRelations >>= fun c => pure (.relation c)
  | .refs => readReferences >>= fun c => pure (.refs c)

/-! ## Headers and events -/

/-- lcio/event.go:19-25 (`RunHeader`). -/
structure RunHeader where
  run : W32
  detector : Str
  descr : Str
  subDetectors : List Str
  params : Params
deriving DecidableEq

/-- lcio/event.go:64-71 (`EventHeader`); blocks are names with types (lcio/event.go:129-132). -/
structure EventHeader where
  run : W32
  event : W32
  time : W64
  detector : Str
  blocks : List (Str × Str)
  params : Params
deriving DecidableEq

/-- lcio/event.go:266-274 (`Event`): the names in order, with their collections. -/
structure Event (P : Type) where
  run : W32
  event : W32
  time : W64
  detector : Str
  params : Params
  colls : List (Str × Coll P)
deriving DecidableEq

/-- lcio/event.go:43-51 (`RunHeader.MarshalSio`). -/
def writeRun (E : Env) (h : RunHeader) : Ws :=
  List.flatten [encode h.run, encode h.detector, encode h.descr, encode h.subDetectors, writeParams E h.params]

/-- lcio/event.go:53-61 (`RunHeader.UnmarshalSio`). -/
def readRun : Rd RunHeader := do
  let run ← decode
  let detector ← decode
  let descr ← decode
  let subDetectors ← decode
  let params ← readParams
  pure ⟨run, detector, descr, subDetectors, params⟩

/-- lcio/event.go:97-106 (`EventHeader.MarshalSio`). -/
def writeHeader (E : Env) (h : EventHeader) : Ws :=
  List.flatten [encode h.run, encode h.event, encode h.time, encode h.detector, encode h.blocks, writeParams E h.params]

/-- lcio/event.go:108-117 (`EventHeader.UnmarshalSio`). -/
def readHeader : Rd EventHeader := do
  let run ← decode
  let event ← decode
  let time ← decode
  let detector ← decode
  let blocks ← decode
  let params ← readParams
  pure ⟨run, event, time, detector, blocks, params⟩

/-- lcio/event.go:296-308 (`Event.Add`): `none` is the panic for a name in use.  Only collections of this package
are added here. -/
def Event.add {P : Type} (e : Event P) (name : Str) (c : Coll P) : Option (Event P) :=
  if e.colls.any (fun x => x.1 = name) then none else some { e with colls := e.colls ++ [(name, c)] }

/-- lcio/event.go:282-284 (`Event.Get`). -/
def Event.get {P : Type} (e : Event P) (name : Str) : Option (Coll P) := e.colls.lookup name

/-! ## Writing -/

/-- The names of the records and of the blocks of headers, lcio/meta.go:17-41. -/
def rRun : Str := [76, 67, 82, 117, 110, 72, 101, 97, 100, 101, 114]
def rHeader : Str := [76, 67, 69, 118, 101, 110, 116, 72, 101, 97, 100, 101, 114]
def rEvent : Str := [76, 67, 69, 118, 101, 110, 116]
def bRun : Str := [82, 117, 110, 72, 101, 97, 100, 101, 114]
def bHeader : Str := [69, 118, 101, 110, 116, 72, 101, 97, 100, 101, 114]

/-- sio/record.go:225-286 (`Record.write`): the blocks with their bytes, identifiers being carried from block to block.
`none` is an error. -/
def marshal (w : Sio.Writer Ref) : List (Str × Ws) → Option (List Blk × Sio.Writer Ref)
  | [] => some ([], w)
  | b :: bs =>
    match Sio.write w b.2 with
    | none => none
    | some (data, w) => (marshal w bs).map fun p => (⟨version.toNat, b.1, data⟩ :: p.1, p.2)

/-- A record with these blocks, written with a new `sio.writer` (sio/stream.go:305-393). -/
def record (opts : W32) (name : Str) (bs : List (Str × Ws)) : Option Rec :=
  (marshal Sio.Writer.new bs).map fun p => ⟨opts, name, p.1⟩

/-- The calls for the collections of an event, numbered from `b`. -/
def writeColls (E : Env) : Nat → List (Str × Coll Ref) → Option (List (Str × Ws))
  | _, [] => some []
  | b, x :: l =>
    match x.2.write E b with
    | none => none
    | some w => (writeColls E (b + 1) l).map fun r => (x.1, w) :: r

/-- The blocks announced in the header. -/
def describe : List (Str × Coll Ref) → Option (List (Str × Str))
  | [] => some []
  | x :: l =>
    match typeName x.2.kind with
    | none => none
    | some t => (describe l).map fun r => (x.1, t) :: r

/-- What a user writes: run headers and events. -/
inductive Item
  | run (h : RunHeader)
  | event (e : Event Ref)

/-- lcio/writer.go:136-146 (`Writer.WriteRunHeader`) and lcio/writer.go:148-183 (`Writer.WriteEvent`): the records written; `none` is
a panic or an error.  `opts` are the options of the records, set by lcio/writer.go:118-134 (`SetCompressionLevel`). -/
def writeItem (E : Env) (opts : W32) : Item → Option (List Rec)
  | .run h => (record opts rRun [(bRun, writeRun E h)]).map fun r => [r]
  | .event e =>
    match describe e.colls, writeColls E 0 e.colls with
    | some blocks, some ws =>
      match record opts rHeader [(bHeader, writeHeader E ⟨e.run, e.event, e.time, e.detector, blocks, e.params⟩)],
        record opts rEvent ws with
      | some r, some s => some [r, s]
      | _, _ => none
    | _, _ => none

/-- All the records of a file. -/
def writeItems (E : Env) (opts : W32) : List Item → Option (List Rec)
  | [] => some []
  | x :: l =>
    match writeItem E opts x with
    | none => none
    | some rs => (writeItems E opts l).map fun r => rs ++ r

/-! ## Reading -/

/-- lcio/reader.go:28-36 (`Reader`): headers, the collections connected to the record of events (name, type and number), the
collections, and the event; and the tags of `sio.reader` (sio/sio.go:68-73), which is new for every record.
Collections of earlier events stay connected in Go and are left out here: blocks that are not announced in the header are
skipped. -/
structure St where
  rhdr : RunHeader
  ehdr : EventHeader
  conn : List (Str × Nat)
  names : List Str
  heap : List (Coll Nat)
  tags : List (Ref × Nat)
  /-- blocks of the record of events were read. -/
  fresh : Bool
  evt : Event (Option Ref)

/-- lcio/reader.go:144-172 (`Reader.remap`): new collections, connected by name; `none` is the panic for an
unknown type. -/
def kindsOf : List (Str × Str) → Option (List Kind)
  | [] => some []
  | x :: l =>
    match typeFrom x.2 with
    | none => none
    | some k => (kindsOf l).map fun r => k :: r

/-- Connecting names to collections numbered from `b`; a name connected again replaces the collection
(sio/record.go:80-125, `Record.Connect`). -/
def connect : Nat → List (Str × Str) → List (Str × Nat) → List (Str × Nat)
  | _, [], m => m
  | b, x :: l, m => connect (b + 1) l (setEntry m (x.1, b))

/-- The collections by their names. -/
def byName {P : Type} (names : List Str) (conn : List (Str × Nat)) (h : List (Coll P)) : List (Str × Coll P) :=
  names.filterMap fun n => (conn.lookup n).bind fun b => (h[b]?).map fun c => (n, c)

/-- lcio/reader.go:144-172 (`Reader.remap`). -/
def remap (st : St) : Option St :=
  (kindsOf st.ehdr.blocks).map fun ks =>
    let conn := connect 0 st.ehdr.blocks []
    let names := st.ehdr.blocks.map (·.1)
    { st with
      conn := conn
      names := names
      heap := ks.map Kind.empty
      evt := ⟨st.ehdr.run, st.ehdr.event, st.ehdr.time, st.ehdr.detector, st.ehdr.params,
        byName names conn (ks.map Kind.empty)⟩ }

/-- The `UnmarshalSio` method of a block acting on the state. -/
def block {α : Type} (p : Nat → St → Rd α) (upd : St → α → St) : St → Nat → Bytes → Option (St × Bytes) := fun st ver s =>
  match p (versionSio (BitVec.ofNat 32 ver)) st ⟨s, st.tags⟩ with
  | none => none
  | some (v, r) => some ({ upd st v with tags := r.tags }, r.buf)

/-- The blocks connected to a record, lcio/reader.go:42-90 (`Reader.init`) and lcio/reader.go:144-172 (`Reader.remap`). -/
def connected (E : Env) (st0 : St) (recName : Str) : Blocks St := fun name =>
  if recName = rRun then
    if name = bRun then some (block (fun _ _ => readRun) fun st h => { st with rhdr := h }) else none
  else if recName = rHeader then
    if name = bHeader then some (block (fun _ _ => readHeader) fun st h => { st with ehdr := h }) else none
  else
    match st0.conn.lookup name with
    | none => none
    | some b =>
      match st0.heap[b]? with
      | none => none
      | some c => some (block (fun ver _ => readColl E b ver c.kind) fun st v => { st with heap := st.heap.set b v, fresh := true })

/-- sio/sio.go:137-149 (`reader.relocate`), for one variable; `ord` is the order of the `range` over the tags.  Types are not
compared: in Go, a variable for pointers to some type was written from such a variable. -/
def reloc (ord : List (Ref × Nat) → List (Ref × Nat)) (tags : List (Ref × Nat)) (pid : Nat) : Option Ref :=
  if pid = 0 then none else ((ord tags).find? fun t => t.2 = pid).map (·.1)

/-- `mom.Children = append(mom.Children, p)`. -/
def McPart.addKid (kid : Ref) (m : McPart (Option Ref)) : McPart (Option Ref) := { m with children := m.children ++ [some kid] }

/-- `c.Parents = append(c.Parents, p)`. -/
def McPart.addMom (mom : Ref) (m : McPart (Option Ref)) : McPart (Option Ref) := { m with parents := m.parents ++ [some mom] }

/-- Changing particle number `i` of a collection. -/
def Coll.onMc (f : McPart (Option Ref) → McPart (Option Ref)) (i : Nat) : Coll (Option Ref) → Coll (Option Ref)
  | .mc c => .mc { c with elems := c.elems.modify i f }
  | c => c

/-- Changing the particle a pointer points to. -/
def onRef (f : McPart (Option Ref) → McPart (Option Ref)) (r : Ref) (h : List (Coll (Option Ref))) : List (Coll (Option Ref)) :=
  match r with
  | .obj b i => h.modify b (Coll.onMc f i)
  | _ => h

/-- A loop over the particles of a collection, numbered from `i`, and some pointers of each that are not `nil`. -/
def pairsFrom (b : Nat) (sel : McPart (Option Ref) → List (Option Ref)) : Nat → List (McPart (Option Ref)) → List (Ref × Ref)
  | _, [] => []
  | i, m :: l => (sel m).filterMap (fun r => r.map fun k => (k, Ref.obj b i)) ++ pairsFrom b sel (i + 1) l

/-- lcio/mc.go:124-150 (`McParticleContainer.LinkSio`). -/
def linkMc (vers b : Nat) (c : Cont (McPart (Option Ref))) (h : List (Coll (Option Ref))) : List (Coll (Option Ref)) :=
  if vers ≤ 8 then (pairsFrom b (·.children) 0 c.elems).foldl (fun h p => onRef (McPart.addMom p.2) p.1 h) h
  else (pairsFrom b (·.parents) 0 c.elems).foldl (fun h p => onRef (McPart.addKid p.2) p.1 h) h

/-- sio/record.go:214-219: linking after relocation, for a block read. -/
def linkOne (conn : List (Str × Nat)) (h : List (Coll (Option Ref))) (x : Bytes × Nat) : List (Coll (Option Ref)) :=
  match conn.lookup x.1 with
  | none => h
  | some b =>
    match h[b]? with
    | some (.mc c) => linkMc x.2 b c h
    | _ => h

/-- Relocation (sio/sio.go:137-149) and linking (sio/record.go:214-219) after the blocks `seen` were read. -/
def resolve (ord : List (Ref × Nat) → List (Ref × Nat)) (seen : List (Bytes × Nat)) (st : St) : Event (Option Ref) :=
  { st.evt with
    colls := byName st.names st.conn (seen.foldl (linkOne st.conn) (st.heap.map (Coll.map (reloc ord st.tags)))) }

/-- The end of sio/record.go:128-223 (`Record.read`); the event has the collections, if it was its record that was
read. -/
def finish (ord : List (Ref × Nat) → List (Ref × Nat)) (seen : List (Bytes × Nat)) (st : St) : Option St :=
  some { st with
    tags := []
    fresh := false
    evt := if st.fresh then resolve ord seen st else st.evt }

/-- The configuration of the stream in some state. -/
def cfg (E : Env) (ord : List (Ref × Nat) → List (Ref × Nat)) (st : St) : Cfg St :=
  ⟨fun n => n = rRun || n = rHeader || n = rEvent, connected E st, finish ord⟩

/-- What the calls of `Next` have come to. -/
inductive Next
  /-- an event, to be asked for with `RunHeader` and `Event`. -/
  | event (st : St) (rest : Bytes)
  /-- the end of the file. -/
  | eof (st : St)
  | fail
  | panic

/-- lcio/reader.go:92-142 (`Reader.Next`); `fuel` bounds the number of records of headers passed.  Records of indices and of random
access are not modelled (`lcio.Writer` writes none). -/
def next (C : Sio.Codec) (E : Env) (ord : List (Ref × Nat) → List (Ref × Nat)) : Nat → St → Bytes → Next
  | 0, _, _ => .fail
  | fuel + 1, st, s =>
    match Sio.readRecord C (cfg E ord st) (s.length + 1) st s with
    | .panic => .panic
    | .eof st => .eof st
    | .fail _ => .fail
    | .got name _ st rest =>
      if name = rHeader then
        match remap st with
        | none => .panic
        | some st => next C E ord fuel st rest
      else if name = rRun then next C E ord fuel st rest
      else .event st rest

/-- One more event in the list. -/
def consEvent (st : St) (r : List (RunHeader × Event (Option Ref)) × Option St) : List (RunHeader × Event (Option Ref)) × Option St :=
  ((st.rhdr, st.evt) :: r.1, r.2)

/-- `for r.Next() { ... }`: the run header and the event at every turn, and the last state if the loop ended
at the end of the file. -/
def readEvents (C : Sio.Codec) (E : Env) (ord : List (Ref × Nat) → List (Ref × Nat)) :
    Nat → St → Bytes → List (RunHeader × Event (Option Ref)) × Option St
  | 0, _, _ => ([], none)
  | fuel + 1, st, s =>
    match next C E ord (s.length + 1) st s with
    | .event st rest => consEvent st (readEvents C E ord fuel st rest)
    | .eof st => ([], some st)
    | _ => ([], none)

/-- A reader just opened. -/
def St.new : St :=
  ⟨⟨0, [], [], [], ⟨[], [], []⟩⟩, ⟨0, 0, 0, [], [], ⟨[], [], []⟩⟩, [], [], [], [], false, ⟨0, 0, 0, [], ⟨[], [], []⟩, []⟩⟩

end Verif.Lcio
