import Verif.HepMC.Heap

/-!
# Writing HepMC events as text (`hepmc/encoder.go`)

Errors of the underlying writer are not modelled.
-/

namespace Verif.HepMC

/-- Bytes of an ASCII string. -/
def str (s : String) : List UInt8 := s.toList.map fun c => UInt8.ofNat c.toNat

/-- How numbers and names are printed and parsed (`fmt` and `strconv` of the Go standard
library): `fF`/`pF` is `%1.16e` of a `float64` and `ParseFloat(s, 64)`, `fG`/`pG` the same
for a `float32` with the conversion of `hepmc/utils.go:42-46 (`float32`)`, `q`/`uq` is `%q`
and `Unquote`; `zero` is `0.`, `noName` the empty string. -/
structure Fmt (F G N : Type) where
  fF : F → List UInt8
  pF : List UInt8 → Option F
  fG : G → List UInt8
  pG : List UInt8 → Option G
  q : N → List UInt8
  uq : List UInt8 → Option N
  zero : F
  noName : N

/-- What the Go documentation promises about them: printing loses nothing, what is printed
contains no blank and no end of line (blanks may occur in quoted names). -/
structure Fmt.Lawful {F G N : Type} (c : Fmt F G N) : Prop where
  F_rt : ∀ x, c.pF (c.fF x) = some x
  G_rt : ∀ x, c.pG (c.fG x) = some x
  q_rt : ∀ n, c.uq (c.q n) = some n
  F_clean : ∀ x, ∀ b ∈ c.fF x, b ≠ 32 ∧ b ≠ 10 ∧ b ≠ 13
  G_clean : ∀ x, ∀ b ∈ c.fG x, b ≠ 32 ∧ b ≠ 10 ∧ b ≠ 13
  q_clean : ∀ n, ∀ b ∈ c.q n, b ≠ 10 ∧ b ≠ 13

/-- Words separated by blanks. -/
def joinSp : List (List UInt8) → List UInt8
  | [] => []
  | [w] => w
  | w :: ws => w ++ 32 :: joinSp ws

/-- One line of the file: the `Fprintf` calls making it print words separated by blanks and
an end of line. -/
def textLine (ws : List (List UInt8)) : List UInt8 := joinSp ws ++ [10]

/-- Lines of the file. -/
def textOf (ls : List (List (List UInt8))) : List UInt8 := (ls.map textLine).flatten

/-- `%d` of the length of a list. -/
def lenEnc {α : Type} (l : List α) : List UInt8 := intEnc l.length

variable {F G N : Type}

/-- `hepmc/encoder.go:266-285 (`encodeFlow`)`. -/
def flowWords (flow : List (Int × Int)) : List (List UInt8) :=
  lenEnc flow :: (sortBy Prod.fst flow).flatMap fun q => [intEnc q.1, intEnc q.2]

/-- Barcode of a vertex that may be nil: `hepmc/encoder.go:238-241 (`endBc`)`,
`hepmc/encoder.go:61-64 (`sigBc`)`. -/
def vBc (h : Heap F G N) (v : Option Nat) : Int :=
  match v with
  | none => 0
  | some v => (h.v v).data.barcode

/-- Barcode of a particle that may be nil: `hepmc/encoder.go:65-72 (`bp1`)`. -/
def pBc (h : Heap F G N) (p : Option Nat) : Int :=
  match p with
  | none => 0
  | some p => (h.p p).data.barcode

/-- `hepmc/encoder.go:235-264 (`encodeParticle`)`. -/
def partWords (c : Fmt F G N) (h : Heap F G N) (p : Nat) : List (List UInt8) :=
  let d := (h.p p).data
  [str "P", intEnc d.barcode, intEnc d.pdg, c.fF d.px, c.fF d.py, c.fF d.pz, c.fF d.en, c.fF d.mass, intEnc d.status,
    c.fF d.theta, c.fF d.phi, intEnc (vBc h (h.p p).fin)] ++ flowWords d.flow

/-- The incoming particles that come from no vertex: `hepmc/encoder.go:184-233 (`orphans`)`. -/
def orphans (h : Heap F G N) (v : Nat) : List Nat := (h.v v).pin.filter fun p => (h.p p).prod.isNone

/-- The first line of a vertex: `hepmc/encoder.go:184-216 (`encodeVertex`)`. -/
def vtxWords (c : Fmt F G N) (h : Heap F G N) (v : Nat) : List (List UInt8) :=
  let d := (h.v v).data
  [str "V", intEnc d.barcode, intEnc d.id, c.fF d.x, c.fF d.y, c.fF d.z, c.fF d.t, lenEnc (orphans h v),
    lenEnc (h.v v).pout, lenEnc d.weights] ++ d.weights.map c.fF

/-- `hepmc/encoder.go:184-233 (`encodeVertex`)`. -/
def vtxLines (c : Fmt F G N) (h : Heap F G N) (v : Nat) : List (List (List UInt8)) :=
  vtxWords c h v :: ((orphans h v).map (partWords c h) ++ (h.v v).pout.map (partWords c h))

/-- `hepmc/encoder.go:287-296 (`encodeCrossSection`)`. -/
def crossWords (c : Fmt F G N) (x : CrossSection F) : List (List UInt8) := [str "C", c.fF x.value, c.fF x.error]

/-- `hepmc/encoder.go:298-318 (`encodeHeavyIon`)`. -/
def heavyWords (c : Fmt F G N) (x : HeavyIon G) : List (List UInt8) :=
  [str "H", intEnc x.nCollHard, intEnc x.nPartProj, intEnc x.nPartTarg, intEnc x.nColl, intEnc x.nNwColl,
    intEnc x.nwNColl, intEnc x.nwNwColl, intEnc x.specNeutrons, intEnc x.specProtons, c.fG x.impact, c.fG x.planeAngle,
    c.fG x.ecc, c.fG x.sigmaNN]

/-- `hepmc/encoder.go:320-344 (`encodePdfInfo`)`: zeros stand for a nil pointer. -/
def pdfWords (c : Fmt F G N) (x : Option (PdfInfo F)) : List (List UInt8) :=
  let y := x.getD ⟨0, 0, 0, 0, c.zero, c.zero, c.zero, c.zero, c.zero⟩
  [str "F", intEnc y.id1, intEnc y.id2, c.fF y.x1, c.fF y.x2, c.fF y.scale, c.fF y.pdf1, c.fF y.pdf2, intEnc y.lha1,
    intEnc y.lha2]

/-- `hepmc/units.go:31-39 (`String`)`. -/
def MUnit.str : MUnit → List UInt8
  | .mev => HepMC.str "MEV"
  | .gev => HepMC.str "GEV"

/-- `hepmc/units.go:52-60 (`String`)`. -/
def LUnit.str : LUnit → List UInt8
  | .mm => HepMC.str "MM"
  | .cm => HepMC.str "CM"

/-- The inverse of the map of weight names, `hepmc/encoder.go:119-123 (`names`)`: of several
names with one index the last one visited stays; the order of the list is the order the map
is visited in. -/
def nameAt (c : Fmt F G N) (m : List (N × Nat)) (i : Nat) : N :=
  m.foldl (fun a q => if q.2 = i then q.1 else a) c.noName

/-- The line of weight names, with the blank printed after each of them:
`hepmc/encoder.go:118-138 (`names`)`. -/
def nameWords (c : Fmt F G N) (n : Nat) (m : List (N × Nat)) : List (List UInt8) :=
  [str "N", intEnc n] ++ (List.range n).map (fun i => c.q (nameAt c m i)) ++ [[]]

/-- The first line of an event: `hepmc/encoder.go:61-117 (`sigBc`)`. -/
def evtWords (c : Fmt F G N) (h : Heap F G N) (e : Evt F G N) : List (List UInt8) :=
  [str "E", intEnc e.number, intEnc e.mpi, c.fF e.scale, c.fF e.aqcd, c.fF e.aqed, intEnc e.sigId, intEnc (vBc h e.sig),
    lenEnc (mlist e.vertices), intEnc (pBc h e.beam1), intEnc (pBc h e.beam2), lenEnc e.rnd] ++ e.rnd.map intEnc ++
    lenEnc (e.weights.getD []) :: (e.weights.getD []).map c.fF

/-- The vertices in the order they are written, highest barcode first:
`hepmc/encoder.go:169-174 (`vertices`)`; the order of the list is the order the map is
visited in. -/
def vtxOrder (h : Heap F G N) (e : Evt F G N) : List Nat :=
  sortBy (fun v => -(h.v v).data.barcode) ((mlist e.vertices).map Prod.snd)

/-- The lines before the vertices: `hepmc/encoder.go:75-167 (`encodePdfInfo`)`. -/
def headLines (c : Fmt F G N) (h : Heap F G N) (e : Evt F G N) : List (List (List UInt8)) :=
  [evtWords c h e] ++
  (if (e.weights.getD []).length > 0 then [nameWords c (e.weights.getD []).length e.wmap] else []) ++
  [[str "U", e.mu.str, e.lu.str]] ++
  (match e.cross with
    | none => []
    | some x => [crossWords c x]) ++
  (match e.heavy with
    | none => []
    | some x => [heavyWords c x]) ++
  [pdfWords c e.pdf]

/-- `hepmc/encoder.go:41-182 (`Encode`)` after the header of the file. -/
def evtLines (c : Fmt F G N) (h : Heap F G N) (e : Evt F G N) : List (List (List UInt8)) :=
  headLines c h e ++ (vtxOrder h e).flatMap (vtxLines c h)

/-- `hepmc/filetype.go:8-8 (`startGenEvent`)`. -/
def startGenEvent : List UInt8 := str "HepMC::IO_GenEvent-START_EVENT_LISTING"
/-- `hepmc/filetype.go:9-9 (`startASCII`)`. -/
def startASCII : List UInt8 := str "HepMC::IO_Ascii-START_EVENT_LISTING"
/-- `hepmc/filetype.go:10-10 (`startExtendedASCII`)`. -/
def startExtendedASCII : List UInt8 := str "HepMC::IO_ExtendedAscii-START_EVENT_LISTING"
/-- `hepmc/filetype.go:12-12 (`endGenEvent`)`. -/
def endGenEvent : List UInt8 := str "HepMC::IO_GenEvent-END_EVENT_LISTING"
/-- `hepmc/filetype.go:13-13 (`endASCII`)`. -/
def endASCII : List UInt8 := str "HepMC::IO_Ascii-END_EVENT_LISTING"
/-- `hepmc/filetype.go:14-14 (`endExtendedASCII`)`. -/
def endExtendedASCII : List UInt8 := str "HepMC::IO_ExtendedAscii-END_EVENT_LISTING"
/-- `hepmc/filetype.go:16-16 (`startPdt`)`. -/
def startPdt : List UInt8 := str "HepMC::IO_Ascii-START_PARTICLE_DATA"
/-- `hepmc/filetype.go:17-17 (`startExtendedASCIIPdt`)`. -/
def startExtendedASCIIPdt : List UInt8 := str "HepMC::IO_ExtendedAscii-START_PARTICLE_DATA"
/-- `hepmc/filetype.go:18-18 (`endPdt`)`. -/
def endPdt : List UInt8 := str "HepMC::IO_Ascii-END_PARTICLE_DATA"
/-- `hepmc/filetype.go:19-19 (`endExtendedASCIIPdt`)`. -/
def endExtendedASCIIPdt : List UInt8 := str "HepMC::IO_ExtendedAscii-END_PARTICLE_DATA"

/-- The header of the file: `hepmc/encoder.go:44-59 (`VersionName`)`. -/
def fileHeader : List (List (List UInt8)) := [[[]], [str "HepMC::Version", str "2.06.09"], [startGenEvent]]

/-- `hepmc/encoder.go:41-182 (`Encode`)` with the state of the encoder (`seenEvtHdr`):
the new state and the bytes written. -/
def encode (c : Fmt F G N) (seen : Bool) (h : Heap F G N) (e : Evt F G N) : Bool × List UInt8 :=
  (true, textOf ((if seen then [] else fileHeader) ++ evtLines c h e))

/-- `hepmc/encoder.go:25-38 (`Close`)`. -/
def closeEnc (seen : Bool) : List UInt8 := if seen then textOf [[endGenEvent]] else []

/-- `Encode` of one event after the other, then `Close`.  Every event comes with the heap as
it is when the event is written. -/
def encodeAll (c : Fmt F G N) : Bool → List (Heap F G N × Evt F G N) → List UInt8
  | seen, [] => closeEnc seen
  | seen, (h, e) :: es => (encode c seen h e).2 ++ encodeAll c (encode c seen h e).1 es

end Verif.HepMC
