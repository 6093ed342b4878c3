import Verif.Lcio.Codec

/-!
# Model of the collections of `lcio`

For every collection: the structure, its `MarshalSio` and its `UnmarshalSio`.  `b` is the number
of the collection in its event, `ver` is what `r.VersionSio()` returns.  All numbers of 32 bits are
bit vectors, whatever their type.
-/

namespace Verif.Lcio

/-- lcio/bits.go:84-86 (`Flags.Test`). -/
def test (flags bit : W32) : Bool := flags &&& bit != 0#32

/-- Bit number `n` as in lcio/bits.go:11-81, where all flags are written `1 << n`. -/
def bit (n : Nat) : W32 := 1#32 <<< n

/-- sio/sio.go:99-103 (`reader.VersionSio`): the version in the header of a block as a number. -/
def versionSio (v : W32) : Nat := ((v &&& 0xffff0000#32) >>> 16).toNat * 1000 + (v &&& 0x0000ffff#32).toNat

/-- lcio/meta.go:14-16 (`Version`), the version of all blocks written. -/
def version : W32 := (2#32 <<< 16) + 8#32

/-- What the Go language adds: conversions `float32(x)` and `float64(y)`, and the order in which a `range`
goes over the entries of a map. -/
structure Env where
  to32 : W64 → W32
  to64 : W32 → W64
  ord : {V : Type} → List (Str × V) → List (Str × V)

/-- An array through a function. -/
def Arr.map {n : Nat} {α β : Type} (f : α → β) (a : Arr n α) : Arr n β := ⟨a.val.map f, by simp [a.len]⟩

/-! ## Parameters -/

/-- Order of strings. -/
def ltStr : Str → Str → Bool
  | [], [] => false
  | [], _ :: _ => true
  | _ :: _, [] => false
  | a :: s, b :: t => if a.toNat < b.toNat then true else if b.toNat < a.toNat then false else ltStr s t

/-- Insertion into entries sorted by key. -/
def insKey {V : Type} (e : Str × V) : List (Str × V) → List (Str × V)
  | [] => [e]
  | x :: l => if ltStr x.1 e.1 then x :: insKey e l else e :: x :: l

/-- The entries of a map in the order of `sort.Strings` of its keys. -/
def sortKeys {V : Type} : List (Str × V) → List (Str × V)
  | [] => []
  | e :: l => insKey e (sortKeys l)

/-- Setting an entry of a map. -/
def setEntry {V : Type} (m : List (Str × V)) (e : Str × V) : List (Str × V) :=
  if m.any (fun x => x.1 = e.1) then m.map fun x => if x.1 = e.1 then e else x else m ++ [e]

/-- lcio/event.go:134-138 (`Params`); maps are given by their entries in the order of their keys. -/
structure Params where
  ints : List (Str × List W32)
  floats : List (Str × List W32)
  strings : List (Str × List Str)
deriving DecidableEq

/-- lcio/event.go:205-219, and likewise for the other maps. -/
def writeMap {V : Type} [Bin V] (E : Env) (m : List (Str × V)) : Ws :=
  List.flatten [encLen m.length, each (sortKeys (E.ord m)) fun _ e => List.flatten [encode e.1, encode e.2]]

/-- lcio/event.go:203-254 (`Params.MarshalSio`). -/
def writeParams (E : Env) (p : Params) : Ws :=
  List.flatten [writeMap E p.ints, writeMap E p.floats, writeMap E p.strings]

/-- sio/decoder.go:124-152: the entries are set one after the other. -/
def readMap {V : Type} [Bin V] : Rd (List (Str × V)) := do
  let l ← (decode : Rd (List (Str × V)))
  pure (l.foldl setEntry [])

/-- lcio/event.go:256-262 (`Params.UnmarshalSio`). -/
def readParams : Rd Params := do
  let ints ← readMap
  let floats ← readMap
  let strings ← readMap
  pure ⟨ints, floats, strings⟩

/-- The containers of lcio, which all have flags, parameters and elements. -/
structure Cont (E : Type) where
  flags : W32
  params : Params
  elems : List E
deriving DecidableEq

/-- A container through a function on elements. -/
def Cont.map {E F : Type} (f : E → F) (c : Cont E) : Cont F := ⟨c.flags, c.params, c.elems.map f⟩

/-! ## CalorimeterHit -/

/-- lcio/calohit.go:136-145 (`CalorimeterHit`). -/
structure CaloHit (P : Type) where
  id0 : W32
  id1 : W32
  energy : W32
  energyErr : W32
  time : W32
  pos : Arr 3 W32
  type : W32
  raw : P
deriving DecidableEq

def CaloHit.map {P Q : Type} (f : P → Q) (h : CaloHit P) : CaloHit Q :=
  ⟨h.id0, h.id1, h.energy, h.energyErr, h.time, h.pos, h.type, f h.raw⟩

/-- lcio/calohit.go:65-93 (`CalorimeterHitContainer.MarshalSio`). -/
def writeCaloHits (E : Env) (b : Nat) (c : Cont (CaloHit Ref)) : Ws :=
  List.flatten [encode c.flags, writeParams E c.params, encLen c.elems.length, each c.elems fun i h => List.flatten [
    encode h.id0,
    onlyIf (test c.flags (bit 29)) (encode h.id1),
    encode h.energy,
    onlyIf (test c.flags (bit 26)) (encode h.energyErr),
    onlyIf (test c.flags (bit 27)) (encode h.time),
    onlyIf (test c.flags (bit 31)) (encode h.pos),
    encode h.type,
    encPtr h.raw,
    onlyIf (!test c.flags (bit 28)) (encTag (.obj b i))]]

/-- lcio/calohit.go:95-134 (`CalorimeterHitContainer.UnmarshalSio`). -/
def readCaloHits (b ver : Nat) : Rd (Cont (CaloHit Nat)) := do
  let flags ← (decode : Rd W32)
  let params ← readParams
  let n ← decLen
  let elems ← rep n fun i => do
    let id0 ← decode
    let id1 ← readIf (ver = 8 || test flags (bit 29)) decode default
    let energy ← decode
    let energyErr ← readIf (ver > 1009 && test flags (bit 26)) decode default
    let time ← readIf (ver > 1002 && test flags (bit 27)) decode default
    let pos ← readIf (test flags (bit 31)) decode default
    let type ← readIf (ver > 1002) decode default
    let raw ← readIf (ver > 1002) decPtr 0
    let _ ← readIf (if ver > 1002 then !test flags (bit 28) else test flags (bit 28)) (decTag (.obj b i)) ()
    pure ⟨id0, id1, energy, energyErr, time, pos, type, raw⟩
  pure ⟨flags, params, elems⟩

/-! ## SimCalorimeterHit -/

/-- lcio/simcalohit.go:157-163 (`Contrib`). -/
structure Contrib (P : Type) where
  mc : P
  energy : W32
  time : W32
  pdg : W32
  stepPos : Arr 3 W32
deriving DecidableEq

/-- lcio/simcalohit.go:145-152 (`SimCalorimeterHit`); its field `Params` is neither written nor read. -/
structure SimCaloHit (P : Type) where
  id0 : W32
  id1 : W32
  energy : W32
  pos : Arr 3 W32
  contribs : List (Contrib P)
deriving DecidableEq

def Contrib.map {P Q : Type} (f : P → Q) (c : Contrib P) : Contrib Q := ⟨f c.mc, c.energy, c.time, c.pdg, c.stepPos⟩

def SimCaloHit.map {P Q : Type} (f : P → Q) (h : SimCaloHit P) : SimCaloHit Q :=
  ⟨h.id0, h.id1, h.energy, h.pos, h.contribs.map (·.map f)⟩

/-- lcio/simcalohit.go:75-104 (`SimCalorimeterHitContainer.MarshalSio`). -/
def writeSimCaloHits (E : Env) (b : Nat) (c : Cont (SimCaloHit Ref)) : Ws :=
  List.flatten [encode c.flags, writeParams E c.params, encLen c.elems.length, each c.elems fun i h => List.flatten [
    encode h.id0,
    onlyIf (test c.flags (bit 29)) (encode h.id1),
    encode h.energy,
    onlyIf (test c.flags (bit 31)) (encode h.pos),
    encLen h.contribs.length,
    each h.contribs fun _ x => List.flatten [
      encPtr x.mc,
      encode x.energy,
      encode x.time,
      onlyIf (test c.flags (bit 28)) (encode x.pdg),
      onlyIf (test c.flags (bit 28)) (encode x.stepPos)],
    encTag (.obj b i)]]

/-- lcio/simcalohit.go:106-143 (`SimCalorimeterHitContainer.UnmarshalSio`). -/
def readSimCaloHits (b ver : Nat) : Rd (Cont (SimCaloHit Nat)) := do
  let flags ← (decode : Rd W32)
  let params ← readParams
  let n ← decLen
  let elems ← rep n fun i => do
    let id0 ← decode
    let id1 ← readIf (ver < 9 || test flags (bit 29)) decode default
    let energy ← decode
    let pos ← readIf (test flags (bit 31)) decode default
    let n ← decLen
    let contribs ← rep n fun _ => do
      let mc ← decPtr
      let energy ← decode
      let time ← decode
      let pdg ← readIf (test flags (bit 28)) decode default
      let stepPos ← readIf (test flags (bit 28) && ver > 1051) decode default
      pure ⟨mc, energy, time, pdg, stepPos⟩
    let _ ← readIf (ver > 1000) (decTag (.obj b i)) ()
    pure ⟨id0, id1, energy, pos, contribs⟩
  pure ⟨flags, params, elems⟩

/-! ## RawCalorimeterHit -/

/-- lcio/rawcalohit.go:101-106 (`RawCalorimeterHit`). -/
structure RawCaloHit where
  id0 : W32
  id1 : W32
  amplitude : W32
  timeStamp : W32
deriving DecidableEq

/-- lcio/rawcalohit.go:55-75 (`RawCalorimeterHitContainer.MarshalSio`). -/
def writeRawCaloHits (E : Env) (b : Nat) (c : Cont RawCaloHit) : Ws :=
  List.flatten [encode c.flags, writeParams E c.params, encLen c.elems.length, each c.elems fun i h => List.flatten [
    encode h.id0,
    onlyIf (test c.flags (bit 29)) (encode h.id1),
    encode h.amplitude,
    onlyIf (test c.flags (bit 27)) (encode h.timeStamp),
    onlyIf (!test c.flags (bit 28)) (encTag (.obj b i))]]

/-- lcio/rawcalohit.go:77-99 (`RawCalorimeterHitContainer.UnmarshalSio`). -/
def readRawCaloHits (b ver : Nat) : Rd (Cont RawCaloHit) := do
  let flags ← (decode : Rd W32)
  let params ← readParams
  let n ← decLen
  let elems ← rep n fun i => do
    let id0 ← decode
    let id1 ← readIf (ver = 8 || test flags (bit 29)) decode default
    let amplitude ← decode
    let timeStamp ← readIf (test flags (bit 27)) decode default
    let _ ← readIf (!test flags (bit 28)) (decTag (.obj b i)) ()
    pure ⟨id0, id1, amplitude, timeStamp⟩
  pure ⟨flags, params, elems⟩

/-! ## Cluster -/

/-- lcio/recparticle.go:38-44 (`ParticleID`). -/
structure PID where
  likelihood : W32
  type : W32
  pdg : W32
  algType : W32
  params : List W32
deriving DecidableEq

/-- lcio/cluster.go:21-39 (`Cluster`). -/
structure Cluster (P : Type) where
  type : W32
  energy : W32
  energyErr : W32
  pos : Arr 3 W32
  posErr : Arr 6 W32
  theta : W32
  phi : W32
  dirErr : Arr 3 W32
  shape : List W32
  pids : List PID
  clusters : List P
  hits : List P
  weights : List W32
  subDetEnes : List W32
deriving DecidableEq

def Cluster.map {P Q : Type} (f : P → Q) (c : Cluster P) : Cluster Q :=
  ⟨c.type, c.energy, c.energyErr, c.pos, c.posErr, c.theta, c.phi, c.dirErr, c.shape, c.pids, c.clusters.map f,
    c.hits.map f, c.weights, c.subDetEnes⟩

/-- lcio/cluster.go:116-124, the fields of an identification. -/
def writePID (p : PID) : Ws :=
  List.flatten [encode p.likelihood, encode p.type, encode p.pdg, encode p.algType, encode p.params]

/-- lcio/cluster.go:179-188. -/
def readPID : Rd PID := do
  let likelihood ← decode
  let type ← decode
  let pdg ← decode
  let algType ← decode
  let params ← decode
  pure ⟨likelihood, type, pdg, algType, params⟩

/-- The calls of lcio/cluster.go:100-144 (`ClusterContainer.MarshalSio`), if there are enough weights. -/
def writeClusters' (E : Env) (b : Nat) (c : Cont (Cluster Ref)) : Ws :=
  List.flatten [encode c.flags, writeParams E c.params, encLen c.elems.length, each c.elems fun i x => List.flatten [
    encode x.type,
    encode x.energy,
    encode x.energyErr,
    encode x.pos,
    encode x.posErr,
    encode x.theta,
    encode x.phi,
    encode x.dirErr,
    encode x.shape,
    encLen x.pids.length,
    each x.pids fun _ p => writePID p,
    encLen x.clusters.length,
    each x.clusters fun _ k => encPtr k,
    onlyIf (test c.flags (bit 31)) (List.flatten [
      encLen x.hits.length,
      each (x.hits.zip x.weights) fun _ p => List.flatten [encPtr p.1, encode p.2]]),
    encode x.subDetEnes,
    encTag (.obj b i)]]

/-- lcio/cluster.go:100-144 (`ClusterContainer.MarshalSio`): a hit without a weight panics (`none`). -/
def writeClusters (E : Env) (b : Nat) (c : Cont (Cluster Ref)) : Option Ws :=
  if test c.flags (bit 31) && c.elems.any (fun x => x.weights.length < x.hits.length) then none
  else some (writeClusters' E b c)

/-- lcio/cluster.go:146-215 (`ClusterContainer.UnmarshalSio`). -/
def readClusters (b ver : Nat) : Rd (Cont (Cluster Nat)) := do
  let flags ← (decode : Rd W32)
  let params ← readParams
  let n ← decLen
  let elems ← rep n fun i => do
    let type ← decode
    let energy ← decode
    let energyErr ← readIf (ver > 1051) decode default
    let pos ← decode
    let posErr ← decode
    let theta ← decode
    let phi ← decode
    let dirErr ← decode
    let shape ← (readIf (ver > 1002) decLen 6 >>= fun n => rep n fun _ => decode)
    let pids ← (if ver > 1002 then decLen >>= fun n => rep n fun _ => readPID
      else (decode : Rd (Arr 3 W32)) >>= fun _ => pure [])
    let n ← decLen
    let clusters ← rep n fun _ => decPtr
    let hits ← readIf (test flags (bit 31)) (do
      let n ← decLen
      rep n fun _ => do
        let k ← decPtr
        let w ← decode
        pure (k, w)) []
    let subDetEnes ← decode
    let _ ← decTag (.obj b i)
    pure ⟨type, energy, energyErr, pos, posErr, theta, phi, dirErr, shape, pids, clusters, hits.map (·.1), hits.map (·.2),
      subDetEnes⟩
  pure ⟨flags, params, elems⟩

/-! ## McParticle -/

/-- lcio/mc.go:152-167 (`McParticle`). -/
structure McPart (P : Type) where
  parents : List P
  children : List P
  pdg : W32
  genStatus : W32
  simStatus : W32
  vertex : Arr 3 W64
  time : W32
  p : Arr 3 W64
  mass : W64
  charge : W32
  endPoint : Arr 3 W64
  pEndPoint : Arr 3 W64
  spin : Arr 3 W32
  colorFlow : Arr 2 W32
deriving DecidableEq

def McPart.map {P Q : Type} (f : P → Q) (m : McPart P) : McPart Q :=
  ⟨m.parents.map f, m.children.map f, m.pdg, m.genStatus, m.simStatus, m.vertex, m.time, m.p, m.mass, m.charge, m.endPoint,
    m.pEndPoint, m.spin, m.colorFlow⟩

/-- lcio/mc.go:260-285 (`McParticle.MarshalSio`). -/
def writeMc (E : Env) (k : Ref) (m : McPart Ref) : Ws := List.flatten [
  encTag k,
  encLen m.parents.length,
  each m.parents fun _ k => encPtr k,
  encode m.pdg,
  encode m.genStatus,
  encode m.simStatus,
  encode m.vertex,
  encode m.time,
  encode (m.p.map E.to32),
  encode (E.to32 m.mass),
  encode m.charge,
  onlyIf (test m.simStatus (bit 31)) (encode m.endPoint),
  onlyIf (test m.simStatus (bit 31)) (encode (m.pEndPoint.map E.to32)),
  encode m.spin,
  encode m.colorFlow]

/-- lcio/mc.go:287-336 (`McParticle.UnmarshalSio`). -/
def readMc (E : Env) (ver : Nat) (k : Ref) : Rd (McPart Nat) := do
  let _ ← decTag k
  let n ← decLen
  let parents ← rep n fun _ => decPtr
  let pdg ← decode
  let genStatus ← decode
  let simStatus ← (decode : Rd W32)
  let vertex ← decode
  let time ← readIf (ver > 1002) decode default
  let mom ← (decode : Rd (Arr 3 W32))
  let mass ← (decode : Rd W32)
  let charge ← decode
  let endPoint ← readIf (test simStatus (bit 31)) decode default
  let pend ← readIf (test simStatus (bit 31) && ver > 2006) ((decode : Rd (Arr 3 W32)) >>= fun a => pure (a.map E.to64)) default
  let spin ← readIf (ver > 1051) decode default
  let colorFlow ← readIf (ver > 1051) decode default
  pure ⟨parents, [], pdg, genStatus, simStatus, vertex, time, mom.map E.to64, E.to64 mass, charge, endPoint, pend, spin,
    colorFlow⟩

/-- lcio/mc.go:108-114 (`McParticleContainer.MarshalSio`), with sio/encoder.go:95-112 for the slice of particles. -/
def writeMcs (E : Env) (b : Nat) (c : Cont (McPart Ref)) : Ws :=
  List.flatten [encode c.flags, writeParams E c.params, encLen c.elems.length, each c.elems fun i m => writeMc E (.obj b i) m]

/-- lcio/mc.go:116-122 (`McParticleContainer.UnmarshalSio`), with sio/decoder.go:107-122 for the slice of particles
(whose length is not signed; lengths of 2^31 and more are errors here). -/
def readMcs (E : Env) (b ver : Nat) : Rd (Cont (McPart Nat)) := do
  let flags ← (decode : Rd W32)
  let params ← readParams
  let n ← decLen
  let elems ← rep n fun i => readMc E ver (.obj b i)
  pure ⟨flags, params, elems⟩

/-! ## Track -/

/-- lcio/track.go:69-78 (`TrackState`). -/
structure TrackState where
  loc : W32
  d0 : W32
  phi : W32
  omega : W32
  z0 : W32
  tanL : W32
  cov : Arr 15 W32
  ref : Arr 3 W32
deriving DecidableEq

/-- lcio/track.go:21-32 (`Track`). -/
structure Track (P : Type) where
  type : W32
  states : List TrackState
  chi2 : W32
  ndf : W32
  dEdx : W32
  dEdxErr : W32
  radius : W32
  subDetHits : List W32
  tracks : List P
  hits : List P
deriving DecidableEq

def Track.map {P Q : Type} (f : P → Q) (t : Track P) : Track Q :=
  ⟨t.type, t.states, t.chi2, t.ndf, t.dEdx, t.dEdxErr, t.radius, t.subDetHits, t.tracks.map f, t.hits.map f⟩

/-- lcio/track.go:116-157 (`TrackContainer.MarshalSio`). -/
def writeTracks (E : Env) (b : Nat) (c : Cont (Track Ref)) : Ws :=
  List.flatten [encode c.flags, writeParams E c.params, encLen c.elems.length, each c.elems fun i t => List.flatten [
    encode t.type,
    encLen t.states.length,
    each t.states fun _ s => List.flatten [encode s.loc, encode s.d0, encode s.phi, encode s.omega, encode s.z0,
      encode s.tanL, encode s.cov, encode s.ref],
    encode t.chi2,
    encode t.ndf,
    encode t.dEdx,
    encode t.dEdxErr,
    encode t.radius,
    encode t.subDetHits,
    encLen t.tracks.length,
    each t.tracks fun _ k => encPtr k,
    onlyIf (test c.flags (bit 31)) (List.flatten [encLen t.hits.length, each t.hits fun _ k => encPtr k]),
    encTag (.obj b i)]]

/-- lcio/track.go:159-210 (`TrackContainer.UnmarshalSio`). -/
def readTracks (b ver : Nat) : Rd (Cont (Track Nat)) := do
  let flags ← (decode : Rd W32)
  let params ← readParams
  let n ← decLen
  let elems ← rep n fun i => do
    let type ← decode
    let n ← readIf (ver ≥ 2000) decLen 1
    let states ← rep n fun _ => do
      let loc ← readIf (ver ≥ 2000) decode default
      let d0 ← decode
      let phi ← decode
      let omega ← decode
      let z0 ← decode
      let tanL ← decode
      let cov ← decode
      let ref ← decode
      pure ⟨loc, d0, phi, omega, z0, tanL, cov, ref⟩
    let chi2 ← decode
    let ndf ← decode
    let dEdx ← decode
    let dEdxErr ← decode
    let radius ← decode
    let subDetHits ← decode
    let n ← decLen
    let tracks ← rep n fun _ => decPtr
    let hits ← readIf (test flags (bit 31)) (do
      let n ← decLen
      let hits ← rep n fun _ => decPtr
      pure hits) []
    let _ ← decTag (.obj b i)
    pure ⟨type, states, chi2, ndf, dEdx, dEdxErr, radius, subDetHits, tracks, hits⟩
  pure ⟨flags, params, elems⟩

/-! ## RecParticle -/

/-- lcio/recparticle.go:21-36 (`RecParticle`). -/
structure RecPart (P : Type) where
  type : W32
  p : Arr 3 W32
  energy : W32
  cov : Arr 10 W32
  mass : W32
  charge : W32
  ref : Arr 3 W32
  pids : List PID
  pidUsed : P
  goodness : W32
  recs : List P
  tracks : List P
  clusters : List P
  startVtx : P
deriving DecidableEq

def RecPart.map {P Q : Type} (f : P → Q) (r : RecPart P) : RecPart Q :=
  ⟨r.type, r.p, r.energy, r.cov, r.mass, r.charge, r.ref, r.pids, f r.pidUsed, r.goodness, r.recs.map f, r.tracks.map f,
    r.clusters.map f, f r.startVtx⟩

/-- lcio/recparticle.go:82-130 (`RecParticleContainer.MarshalSio`). -/
def writeRecParts (E : Env) (b : Nat) (c : Cont (RecPart Ref)) : Ws :=
  List.flatten [encode c.flags, writeParams E c.params, encLen c.elems.length, each c.elems fun i r => List.flatten [
    encode r.type,
    encode r.p,
    encode r.energy,
    encode r.cov,
    encode r.mass,
    encode r.charge,
    encode r.ref,
    encLen r.pids.length,
    each r.pids fun j p => List.flatten [encode p.likelihood, encode p.type, encode p.pdg, encode p.algType, encode p.params,
      encTag (.sub b i j)],
    encPtr r.pidUsed,
    encode r.goodness,
    encLen r.recs.length,
    each r.recs fun _ k => encPtr k,
    encLen r.tracks.length,
    each r.tracks fun _ k => encPtr k,
    encLen r.clusters.length,
    each r.clusters fun _ k => encPtr k,
    encPtr r.startVtx,
    encTag (.obj b i)]]

/-- lcio/recparticle.go:132-194 (`RecParticleContainer.UnmarshalSio`). -/
def readRecParts (b ver : Nat) : Rd (Cont (RecPart Nat)) := do
  let flags ← (decode : Rd W32)
  let params ← readParams
  let n ← decLen
  let elems ← (if ver ≤ 1002 then (fun _ => none) else rep n fun i => do
    let type ← decode
    let p ← decode
    let energy ← decode
    let cov ← decode
    let mass ← decode
    let charge ← decode
    let ref ← decode
    let n ← decLen
    let pids ← rep n fun j => do
      let likelihood ← decode
      let type ← decode
      let pdg ← decode
      let algType ← decode
      let params ← decode
      let _ ← decTag (.sub b i j)
      pure ⟨likelihood, type, pdg, algType, params⟩
    let pidUsed ← decPtr
    let goodness ← decode
    let n ← decLen
    let recs ← rep n fun _ => decPtr
    let n ← decLen
    let tracks ← rep n fun _ => decPtr
    let n ← decLen
    let clusters ← rep n fun _ => decPtr
    let startVtx ← readIf (ver > 1007) decPtr 0
    let _ ← decTag (.obj b i)
    pure ⟨type, p, energy, cov, mass, charge, ref, pids, pidUsed, goodness, recs, tracks, clusters, startVtx⟩ : Rd (List (RecPart Nat)))
  pure ⟨flags, params, elems⟩

/-! ## Vertex -/

/-- lcio/vertex.go:21-30 (`Vertex`). -/
structure Vertex (P : Type) where
  primary : W32
  algType : W32
  chi2 : W32
  prob : W32
  pos : Arr 3 W32
  cov : Arr 6 W32
  params : List W32
  recPart : P
deriving DecidableEq

def Vertex.map {P Q : Type} (f : P → Q) (v : Vertex P) : Vertex Q :=
  ⟨v.primary, v.algType, v.chi2, v.prob, v.pos, v.cov, v.params, f v.recPart⟩

/-- lcio/vertex.go:68-86 (`VertexContainer.MarshalSio`). -/
def writeVertices (E : Env) (b : Nat) (c : Cont (Vertex Ref)) : Ws :=
  List.flatten [encode c.flags, writeParams E c.params, encLen c.elems.length, each c.elems fun i v => List.flatten [
    encode v.primary,
    encode v.algType,
    encode v.chi2,
    encode v.prob,
    encode v.pos,
    encode v.cov,
    encode v.params,
    encPtr v.recPart,
    encTag (.obj b i)]]

/-- lcio/vertex.go:88-108 (`VertexContainer.UnmarshalSio`). -/
def readVertices (b : Nat) : Rd (Cont (Vertex Nat)) := do
  let flags ← (decode : Rd W32)
  let params ← readParams
  let n ← decLen
  let elems ← rep n fun i => do
    let primary ← decode
    let algType ← decode
    let chi2 ← decode
    let prob ← decode
    let pos ← decode
    let cov ← decode
    let params ← decode
    let recPart ← decPtr
    let _ ← decTag (.obj b i)
    pure ⟨primary, algType, chi2, prob, pos, cov, params, recPart⟩
  pure ⟨flags, params, elems⟩

/-! ## SimTrackerHit -/

/-- lcio/simtrackerhit.go:21-31 (`SimTrackerHit`). -/
structure SimTrkHit (P : Type) where
  id0 : W32
  id1 : W32
  pos : Arr 3 W64
  eDep : W32
  time : W32
  mc : P
  momentum : Arr 3 W32
  pathLength : W32
  quality : W32
deriving DecidableEq

def SimTrkHit.map {P Q : Type} (f : P → Q) (h : SimTrkHit P) : SimTrkHit Q :=
  ⟨h.id0, h.id1, h.pos, h.eDep, h.time, f h.mc, h.momentum, h.pathLength, h.quality⟩

/-- lcio/simtrackerhit.go:83-106 (`SimTrackerHitContainer.MarshalSio`). -/
def writeSimTrkHits (E : Env) (b : Nat) (c : Cont (SimTrkHit Ref)) : Ws :=
  List.flatten [encode c.flags, writeParams E c.params, encLen c.elems.length, each c.elems fun i h => List.flatten [
    encode h.id0,
    onlyIf (test c.flags (bit 29)) (encode h.id1),
    encode h.pos,
    encode h.eDep,
    encode h.time,
    encPtr h.mc,
    onlyIf (test c.flags (bit 30)) (encode h.momentum),
    onlyIf (test c.flags (bit 30)) (encode h.pathLength),
    encode h.quality,
    encTag (.obj b i)]]

/-- lcio/simtrackerhit.go:108-139 (`SimTrackerHitContainer.UnmarshalSio`). -/
def readSimTrkHits (b ver : Nat) : Rd (Cont (SimTrkHit Nat)) := do
  let flags ← (decode : Rd W32)
  let params ← readParams
  let n ← decLen
  let elems ← rep n fun i => do
    let id0 ← decode
    let id1 ← readIf (ver > 1051 && test flags (bit 29)) decode default
    let pos ← decode
    let eDep ← decode
    let time ← decode
    let mc ← decPtr
    let momentum ← readIf (test flags (bit 30)) decode default
    let pathLength ← readIf (test flags (bit 30) && ver > 1006) decode default
    let quality ← readIf (ver > 2007) decode default
    let _ ← readIf (ver > 1000) (decTag (.obj b i)) ()
    pure ⟨id0, id1, pos, eDep, time, mc, momentum, pathLength, quality⟩
  pure ⟨flags, params, elems⟩

/-! ## TrackerData -/

/-- lcio/trackerdata.go:20-25 (`TrackerData`). -/
structure TrkData where
  id0 : W32
  id1 : W32
  time : W32
  charges : List W32
deriving DecidableEq

/-- lcio/trackerdata.go:61-77 (`TrackerDataContainer.MarshalSio`). -/
def writeTrkData (E : Env) (b : Nat) (c : Cont TrkData) : Ws :=
  List.flatten [encode c.flags, writeParams E c.params, encLen c.elems.length, each c.elems fun i d => List.flatten [
    encode d.id0,
    onlyIf (test c.flags (bit 31)) (encode d.id1),
    encode d.time,
    encode d.charges,
    encTag (.obj b i)]]

/-- lcio/trackerdata.go:79-97 (`TrackerDataContainer.UnmarshalSio`). -/
def readTrkData (b : Nat) : Rd (Cont TrkData) := do
  let flags ← (decode : Rd W32)
  let params ← readParams
  let n ← decLen
  let elems ← rep n fun i => do
    let id0 ← decode
    let id1 ← readIf (test flags (bit 31)) decode default
    let time ← decode
    let charges ← decode
    let _ ← decTag (.obj b i)
    pure ⟨id0, id1, time, charges⟩
  pure ⟨flags, params, elems⟩

/-! ## TrackerHit -/

/-- lcio/trackerhit.go:21-32 (`TrackerHit`). -/
structure TrkHit (P : Type) where
  id0 : W32
  id1 : W32
  type : W32
  pos : Arr 3 W64
  cov : Arr 6 W64
  eDep : W32
  eDepErr : W32
  time : W32
  quality : W32
  rawHits : List P
deriving DecidableEq

def TrkHit.map {P Q : Type} (f : P → Q) (h : TrkHit P) : TrkHit Q :=
  ⟨h.id0, h.id1, h.type, h.pos, h.cov, h.eDep, h.eDepErr, h.time, h.quality, h.rawHits.map f⟩

/-- lcio/trackerhit.go:77-110 (`TrackerHitContainer.MarshalSio`). -/
def writeTrkHits (E : Env) (b : Nat) (c : Cont (TrkHit Ref)) : Ws :=
  List.flatten [encode c.flags, writeParams E c.params, encLen c.elems.length, each c.elems fun i h => List.flatten [
    encode h.id0,
    onlyIf (test c.flags (bit 29)) (encode h.id1),
    encode h.type,
    encode h.pos,
    encode (h.cov.map E.to32),
    encode h.eDep,
    encode h.eDepErr,
    encode h.time,
    encode h.quality,
    encLen h.rawHits.length,
    each h.rawHits fun _ k => encPtr k,
    encTag (.obj b i)]]

/-- lcio/trackerhit.go:112-161 (`TrackerHitContainer.UnmarshalSio`). -/
def readTrkHits (E : Env) (b ver : Nat) : Rd (Cont (TrkHit Nat)) := do
  let flags ← (decode : Rd W32)
  let params ← readParams
  let n ← decLen
  let elems ← rep n fun i => do
    let id0 ← readIf (ver > 1051) decode default
    let id1 ← readIf (ver > 1051 && test flags (bit 29)) decode default
    let type ← readIf (ver > 1002) decode default
    let pos ← decode
    let cov ← (decode : Rd (Arr 6 W32))
    let eDep ← decode
    let eDepErr ← readIf (ver > 1012) decode default
    let time ← decode
    let quality ← readIf (ver > 1011) decode default
    let n ← readIf (ver > 1002) decLen 1
    let rawHits ← rep n fun _ => decPtr
    let _ ← decTag (.obj b i)
    pure ⟨id0, id1, type, pos, cov.map E.to64, eDep, eDepErr, time, quality, rawHits⟩
  pure ⟨flags, params, elems⟩

/-! ## TrackerHitPlane -/

/-- lcio/trackerhitplane.go:21-35 (`TrackerHitPlane`). -/
structure TrkHitPlane (P : Type) where
  id0 : W32
  id1 : W32
  type : W32
  pos : Arr 3 W64
  u : Arr 2 W32
  v : Arr 2 W32
  du : W32
  dv : W32
  eDep : W32
  eDepErr : W32
  time : W32
  quality : W32
  rawHits : List P
deriving DecidableEq

def TrkHitPlane.map {P Q : Type} (f : P → Q) (h : TrkHitPlane P) : TrkHitPlane Q :=
  ⟨h.id0, h.id1, h.type, h.pos, h.u, h.v, h.du, h.dv, h.eDep, h.eDepErr, h.time, h.quality, h.rawHits.map f⟩

/-- lcio/trackerhitplane.go:82-111 (`TrackerHitPlaneContainer.MarshalSio`). -/
def writeTrkHitPlanes (E : Env) (b : Nat) (c : Cont (TrkHitPlane Ref)) : Ws :=
  List.flatten [encode c.flags, writeParams E c.params, encLen c.elems.length, each c.elems fun i h => List.flatten [
    encode h.id0,
    onlyIf (test c.flags (bit 29)) (encode h.id1),
    encode h.type,
    encode h.pos,
    encode h.u,
    encode h.v,
    encode h.du,
    encode h.dv,
    encode h.eDep,
    encode h.eDepErr,
    encode h.time,
    encode h.quality,
    encLen h.rawHits.length,
    each h.rawHits fun _ k => encPtr k,
    encTag (.obj b i)]]

/-- lcio/trackerhitplane.go:113-155 (`TrackerHitPlaneContainer.UnmarshalSio`). -/
def readTrkHitPlanes (b ver : Nat) : Rd (Cont (TrkHitPlane Nat)) := do
  let flags ← (decode : Rd W32)
  let params ← readParams
  let n ← decLen
  let elems ← rep n fun i => do
    let id0 ← readIf (ver > 1051) decode default
    let id1 ← readIf (ver > 1051 && test flags (bit 29)) decode default
    let type ← readIf (ver > 1002) decode default
    let pos ← decode
    let u ← decode
    let v ← decode
    let du ← decode
    let dv ← decode
    let eDep ← decode
    let eDepErr ← decode
    let time ← decode
    let quality ← readIf (ver > 1011) decode default
    let n ← readIf (ver > 1002) decLen 1
    let rawHits ← rep n fun _ => decPtr
    let _ ← decTag (.obj b i)
    pure ⟨id0, id1, type, pos, u, v, du, dv, eDep, eDepErr, time, quality, rawHits⟩
  pure ⟨flags, params, elems⟩

/-! ## TrackerHitZCylinder -/

/-- lcio/trackerhitzcylinder.go:21-34 (`TrackerHitZCylinder`). -/
structure TrkHitZCyl (P : Type) where
  id0 : W32
  id1 : W32
  type : W32
  pos : Arr 3 W64
  center : Arr 2 W32
  dRPhi : W32
  dZ : W32
  eDep : W32
  eDepErr : W32
  time : W32
  quality : W32
  rawHits : List P
deriving DecidableEq

def TrkHitZCyl.map {P Q : Type} (f : P → Q) (h : TrkHitZCyl P) : TrkHitZCyl Q :=
  ⟨h.id0, h.id1, h.type, h.pos, h.center, h.dRPhi, h.dZ, h.eDep, h.eDepErr, h.time, h.quality, h.rawHits.map f⟩

/-- lcio/trackerhitzcylinder.go:80-108 (`TrackerHitZCylinderContainer.MarshalSio`). -/
def writeTrkHitZCyls (E : Env) (b : Nat) (c : Cont (TrkHitZCyl Ref)) : Ws :=
  List.flatten [encode c.flags, writeParams E c.params, encLen c.elems.length, each c.elems fun i h => List.flatten [
    encode h.id0,
    onlyIf (test c.flags (bit 29)) (encode h.id1),
    encode h.type,
    encode h.pos,
    encode h.center,
    encode h.dRPhi,
    encode h.dZ,
    encode h.eDep,
    encode h.eDepErr,
    encode h.time,
    encode h.quality,
    encLen h.rawHits.length,
    each h.rawHits fun _ k => encPtr k,
    encTag (.obj b i)]]

/-- lcio/trackerhitzcylinder.go:110-151 (`TrackerHitZCylinderContainer.UnmarshalSio`). -/
def readTrkHitZCyls (b ver : Nat) : Rd (Cont (TrkHitZCyl Nat)) := do
  let flags ← (decode : Rd W32)
  let params ← readParams
  let n ← decLen
  let elems ← rep n fun i => do
    let id0 ← readIf (ver > 1051) decode default
    let id1 ← readIf (ver > 1051 && test flags (bit 29)) decode default
    let type ← readIf (ver > 1002) decode default
    let pos ← decode
    let center ← decode
    let dRPhi ← decode
    let dZ ← decode
    let eDep ← decode
    let eDepErr ← decode
    let time ← decode
    let quality ← readIf (ver > 1011) decode default
    let n ← readIf (ver > 1002) decLen 1
    let rawHits ← rep n fun _ => decPtr
    let _ ← decTag (.obj b i)
    pure ⟨id0, id1, type, pos, center, dRPhi, dZ, eDep, eDepErr, time, quality, rawHits⟩
  pure ⟨flags, params, elems⟩

/-! ## TrackerPulse -/

/-- lcio/trackerpulse.go:20-28 (`TrackerPulse`). -/
structure TrkPulse (P : Type) where
  id0 : W32
  id1 : W32
  time : W32
  charge : W32
  cov : Arr 3 W32
  quality : W32
  tpc : P
deriving DecidableEq

def TrkPulse.map {P Q : Type} (f : P → Q) (h : TrkPulse P) : TrkPulse Q :=
  ⟨h.id0, h.id1, h.time, h.charge, h.cov, h.quality, f h.tpc⟩

/-- lcio/trackerpulse.go:67-88 (`TrackerPulseContainer.MarshalSio`). -/
def writeTrkPulses (E : Env) (b : Nat) (c : Cont (TrkPulse Ref)) : Ws :=
  List.flatten [encode c.flags, writeParams E c.params, encLen c.elems.length, each c.elems fun i h => List.flatten [
    encode h.id0,
    onlyIf (test c.flags (bit 31)) (encode h.id1),
    encode h.time,
    encode h.charge,
    onlyIf (test c.flags (bit 30)) (encode h.cov),
    encode h.quality,
    encPtr h.tpc,
    encTag (.obj b i)]]

/-- lcio/trackerpulse.go:90-113 (`TrackerPulseContainer.UnmarshalSio`). -/
def readTrkPulses (b ver : Nat) : Rd (Cont (TrkPulse Nat)) := do
  let flags ← (decode : Rd W32)
  let params ← readParams
  let n ← decLen
  let elems ← rep n fun i => do
    let id0 ← decode
    let id1 ← readIf (test flags (bit 31)) decode default
    let time ← decode
    let charge ← decode
    let cov ← readIf (ver > 1012 && test flags (bit 30)) decode default
    let quality ← decode
    let tpc ← decPtr
    let _ ← decTag (.obj b i)
    pure ⟨id0, id1, time, charge, cov, quality, tpc⟩
  pure ⟨flags, params, elems⟩

/-! ## TrackerRawData -/

/-- lcio/trackerrawdata.go:20-25 (`TrackerRawData`). -/
structure TrkRaw where
  id0 : W32
  id1 : W32
  time : W32
  adcs : List W16
deriving DecidableEq

/-- lcio/trackerrawdata.go:61-85 (`TrackerRawDataContainer.MarshalSio`). -/
def writeTrkRaws (E : Env) (b : Nat) (c : Cont TrkRaw) : Ws :=
  List.flatten [encode c.flags, writeParams E c.params, encLen c.elems.length, each c.elems fun i d => List.flatten [
    encode d.id0,
    onlyIf (test c.flags (bit 31)) (encode d.id1),
    encode d.time,
    encLen d.adcs.length,
    each d.adcs fun _ v => encode v,
    onlyIf (d.adcs.length % 2 = 1) (encode (0#16 : W16)),
    encTag (.obj b i)]]

/-- lcio/trackerrawdata.go:87-114 (`TrackerRawDataContainer.UnmarshalSio`). -/
def readTrkRaws (b : Nat) : Rd (Cont TrkRaw) := do
  let flags ← (decode : Rd W32)
  let params ← readParams
  let n ← decLen
  let elems ← rep n fun i => do
    let id0 ← decode
    let id1 ← readIf (test flags (bit 31)) decode default
    let time ← decode
    let n ← decLen
    let adcs ← rep n fun _ => decode
    let _ ← readIf (n % 2 = 1) (decode : Rd W16) default
    let _ ← decTag (.obj b i)
    pure ⟨id0, id1, time, adcs⟩
  pure ⟨flags, params, elems⟩

/-! ## Vectors -/

/-- lcio/collections.go:66-82 (`FloatVec.MarshalSio`), lcio/collections.go:146-162 (`IntVec.MarshalSio`) and
lcio/collections.go:226-242 (`StrVec.MarshalSio`): the elements are written twice, first by `enc.Encode(vec.Elements)`. -/
def writeVec {V : Type} [Bin V] (E : Env) (b ver : Nat) (c : Cont (List V)) : Ws :=
  List.flatten [encode c.flags, writeParams E c.params, encode c.elems, encLen c.elems.length, each c.elems fun i v => List.flatten [
    encLen v.length,
    each v fun _ x => encode x,
    onlyIf (ver > 1002) (encTag (.obj b i))]]

/-- lcio/collections.go:84-103 (`FloatVec.UnmarshalSio`), lcio/collections.go:164-183 (`IntVec.UnmarshalSio`) and
lcio/collections.go:244-263 (`StrVec.UnmarshalSio`). -/
def readVec {V : Type} [Bin V] (b ver : Nat) : Rd (Cont (List V)) := do
  let flags ← (decode : Rd W32)
  let params ← readParams
  let n ← decLen
  let elems ← rep n fun i => do
    let n ← decLen
    let v ← rep n fun _ => decode
    let _ ← readIf (ver > 1002) (decTag (.obj b i)) ()
    pure v
  pure ⟨flags, params, elems⟩

/-! ## GenericObject -/

/-- lcio/collections.go:271-275 (`GenericObjectData`). -/
structure Generic where
  i32s : List W32
  f32s : List W32
  f64s : List W64
deriving DecidableEq

/-- Three lengths. -/
def writeLens (g : Generic) : Ws := List.flatten [encLen g.i32s.length, encLen g.f32s.length, encLen g.f64s.length]

/-- Three lengths. -/
def readLens : Rd (Nat × Nat × Nat) := do
  let ni ← decLen
  let nf ← decLen
  let nd ← decLen
  pure (ni, nf, nd)

/-- lcio/collections.go:326-369 (`GenericObject.MarshalSio`). -/
def writeGenerics (E : Env) (b : Nat) (c : Cont Generic) : Ws :=
  List.flatten [encode c.flags, writeParams E c.params,
    onlyIf (test c.flags (bit 31)) (writeLens (c.elems.headD ⟨[], [], []⟩)),
    encLen c.elems.length, each c.elems fun i g => List.flatten [
      onlyIf (!test c.flags (bit 31)) (writeLens g),
      each g.i32s fun _ v => encode v,
      each g.f32s fun _ v => encode v,
      each g.f64s fun _ v => encode v,
      encTag (.obj b i)]]

/-- lcio/collections.go:371-414 (`GenericObject.UnmarshalSio`). -/
def readGenerics (b : Nat) : Rd (Cont Generic) := do
  let flags ← (decode : Rd W32)
  let params ← readParams
  let fixed ← readIf (test flags (bit 31)) readLens (0, 0, 0)
  let n ← decLen
  let elems ← rep n fun i => do
    let lens ← readIf (!test flags (bit 31)) readLens fixed
    let i32s ← rep lens.1 fun _ => decode
    let f32s ← rep lens.2.1 fun _ => decode
    let f64s ← rep lens.2.2 fun _ => decode
    let _ ← decTag (.obj b i)
    pure ⟨i32s, f32s, f64s⟩
  pure ⟨flags, params, elems⟩

/-! ## Relations and references -/

/-- lcio/collections.go:422-426 (`Relation`). -/
structure Relation (P : Type) where
  src : P
  dst : P
  weight : W32
deriving DecidableEq

def Relation.map {P Q : Type} (f : P → Q) (r : Relation P) : Relation Q := ⟨f r.src, f r.dst, r.weight⟩

/-- lcio/collections.go:455-469 (`RelationContainer.MarshalSio`). -/
def writeRelations (E : Env) (c : Cont (Relation Ref)) : Ws :=
  List.flatten [encode c.flags, writeParams E c.params, encLen c.elems.length, each c.elems fun _ r => List.flatten [
    encPtr r.src,
    encPtr r.dst,
    onlyIf (test c.flags (bit 31)) (encode r.weight)]]

/-- lcio/collections.go:471-487 (`RelationContainer.UnmarshalSio`). -/
def readRelations : Rd (Cont (Relation Nat)) := do
  let flags ← (decode : Rd W32)
  let params ← readParams
  let n ← decLen
  let elems ← rep n fun _ => do
    let src ← decPtr
    let dst ← decPtr
    let weight ← readIf (test flags (bit 31)) decode default
    pure ⟨src, dst, weight⟩
  pure ⟨flags, params, elems⟩

/-- lcio/collections.go:499-509 (`References.MarshalSio`). -/
def writeReferences (E : Env) (c : Cont Ref) : Ws :=
  List.flatten [encode c.flags, writeParams E c.params, encLen c.elems.length, each c.elems fun _ k => encPtr k]

/-- lcio/collections.go:511-523 (`References.UnmarshalSio`). -/
def readReferences : Rd (Cont Nat) := do
  let flags ← (decode : Rd W32)
  let params ← readParams
  let n ← decLen
  let elems ← rep n fun _ => decPtr
  pure ⟨flags, params, elems⟩

end Verif.Lcio
