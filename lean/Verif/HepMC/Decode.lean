import Verif.HepMC.Encode

/-!
# Reading HepMC events from text (`hepmc/decoder.go`)

The goroutine feeding lines through a channel is the list of the lines to come; after the
last line it sends one error and ends, so that a further receive blocks for ever (`hang`).
What a failing `Decode` leaves in the event is not modelled.
-/

namespace Verif.HepMC

/-- `hepmc/filetype.go:22-31 (`hepmcFileType`)`. -/
inductive FType where
  | unknown
  | genEvent
  | ascii
  | extASCII
  | asciiPdt
  | extASCIIPdt
  deriving DecidableEq

/-- `hepmc/decoder.go:22-30 (`Decoder`)`.  `rest` are the lines still to come, `long` says
that after them comes a line the scanner refuses, `done` that the final error was received. -/
structure Dec where
  rest : List (List UInt8)
  long : Bool
  done : Bool
  seen : Bool
  ftype : FType
  sigBc : Int
  bp1 : Int
  bp2 : Int
  deriving DecidableEq

/-- Outcome of reading; `eof` keeps the decoder, to be used again. -/
inductive R (α : Type) where
  | ok (a : α)
  | eof (d : Dec)
  | err
  | panic
  | hang
  deriving DecidableEq

/-- Continue when nothing went wrong. -/
def R.bind {α β : Type} (r : R α) (f : α → R β) : R β :=
  match r with
  | .ok a => f a
  | .eof d => .eof d
  | .err => .err
  | .panic => .panic
  | .hang => .hang

/-- A parse error is returned as an error. -/
def R.ofOption {α : Type} : Option α → R α
  | none => .err
  | some a => .ok a

/-- The longest line `bufio.Scanner` accepts is one byte shorter than
`bufio.MaxScanTokenSize` (Go standard library). -/
def maxLine : Nat := 65535

/-- A line without its end, `\r` before the end dropped (`bufio.ScanLines`). -/
def dropCR (l : List UInt8) : List UInt8 := if l.getLast? = some 13 then l.dropLast else l

/-- Lines of a text (`bufio.ScanLines`): a last line without end counts unless it is empty.
`cur` is the current line, reversed. -/
def rawLines : List UInt8 → List UInt8 → List (List UInt8)
  | cur, [] => if cur = [] then [] else [cur.reverse]
  | cur, b :: bs => if b = 10 then cur.reverse :: rawLines [] bs else rawLines (b :: cur) bs

/-- What the scanner delivers before it stops: `hepmc/decoder.go:42-59 (`readlines`)`. -/
def scan (bs : List UInt8) : List (List UInt8) :=
  ((rawLines [] bs).takeWhile fun l => decide (l.length ≤ maxLine)).map dropCR

/-- Whether it stops at a line that is too long. -/
def scanLong (bs : List UInt8) : Bool := (rawLines [] bs).any fun l => decide (maxLine < l.length)

/-- `hepmc/decoder.go:33-40 (`NewDecoder`)`. -/
def newDecoder (bs : List UInt8) : Dec := ⟨scan bs, scanLong bs, false, false, .unknown, 0, 0, 0⟩

/-- What a receive yields when no line is left. -/
def atEnd {α : Type} (d : Dec) : R α :=
  if d.done then .hang else if d.long then .err else .eof { d with done := true }

/-- `hepmc/decoder.go:61-64 (`readline`)`, with the split into words of `readlines`. -/
def readline (d : Dec) : R (List (List UInt8) × Dec) :=
  match d.rest with
  | [] => atEnd d
  | l :: ls => .ok (splitOn 32 l, { d with rest := ls })

/-- `strconv.Atoi`, without a limit on the size. -/
def parseInt (bs : List UInt8) : Option Int :=
  match bs with
  | 45 :: ds => (parseNat ds).map fun (n : Nat) => -(n : Int)
  | 43 :: ds => (parseNat ds).map fun (n : Nat) => (n : Int)
  | ds => (parseNat ds).map fun (n : Nat) => (n : Int)

/-- Words still to be consumed: `hepmc/utils.go:12-15 (`tokens`)`, the words before `pos`
dropped. -/
abbrev Toks := List (List UInt8)

/-- `hepmc/utils.go:24-31 (`next`)`. -/
def tnext : Toks → List UInt8 × Toks
  | [] => ([], [])
  | t :: ts => (t, ts)

/-- A function consuming words; `none` is an error. -/
abbrev P (α : Type) := Toks → Option (α × Toks)

/-- One value after the other. -/
def P.bind {α β : Type} (m : P α) (f : α → P β) : P β := fun ts =>
  match m ts with
  | none => none
  | some (a, ts) => f a ts

/-- A value without consuming words. -/
def P.pure {α : Type} (a : α) : P α := fun ts => some (a, ts)

/-- `hepmc/utils.go:48-51 (`int`)` and `hepmc/utils.go:53-56 (`int64`)`. -/
def pInt : P Int := fun ts => (parseInt (tnext ts).1).map fun x => (x, (tnext ts).2)

variable {F G N : Type}

/-- `hepmc/utils.go:37-40 (`float64`)`. -/
def pF (c : Fmt F G N) : P F := fun ts => (c.pF (tnext ts).1).map fun x => (x, (tnext ts).2)

/-- `hepmc/utils.go:42-46 (`float32`)`. -/
def pG (c : Fmt F G N) : P G := fun ts => (c.pG (tnext ts).1).map fun x => (x, (tnext ts).2)

/-- A loop reading `n` values. -/
def pMany {α : Type} (m : P α) : Nat → P (List α)
  | 0 => P.pure []
  | n + 1 => P.bind m fun a => P.bind (pMany m n) fun as => P.pure (a :: as)

/-- `hepmc/decoder.go:667-685 (`decodeFlow`)`. -/
def pFlow : P (List (Int × Int)) :=
  P.bind pInt fun n =>
  P.bind (pMany (P.bind pInt fun k => P.bind pInt fun v => P.pure (k, v)) n.toNat) fun l =>
  P.pure (l.foldl (fun m q => mset m q.1 q.2) [])

/-- The words of a particle after the first: `hepmc/decoder.go:584-665 (`decodeParticle`)`;
the second component is the barcode of the end vertex. -/
def pPart (c : Fmt F G N) (ft : FType) : P (PData F × Int) :=
  P.bind pInt fun bc => P.bind pInt fun pdg =>
  P.bind (pF c) fun px => P.bind (pF c) fun py => P.bind (pF c) fun pz => P.bind (pF c) fun en =>
  P.bind (if ft = .ascii then P.pure c.zero else pF c) fun mass =>
  P.bind pInt fun st => P.bind (pF c) fun th => P.bind (pF c) fun ph =>
  P.bind pInt fun bcEnd => P.bind pFlow fun flow =>
  P.pure (⟨bc, pdg, px, py, pz, en, mass, st, th, ph, flow⟩, bcEnd)

/-- Words of a vertex. -/
structure VWords (F : Type) where
  data : VData F
  orphans : Int
  nout : Int

/-- `make([]T, n)` panics when `n` is negative; otherwise the loop reads `n` values. -/
def pSlice {α : Type} (m : P α) (n : Int) : Toks → R (List α × Toks) := fun ts =>
  if n < 0 then .panic else R.ofOption (pMany m n.toNat ts)

/-- The words of a vertex after the first: `hepmc/decoder.go:481-547 (`decodeVertex`)`. -/
def rVtx (c : Fmt F G N) (ts : Toks) : R (VWords F) :=
  (R.ofOption ((P.bind pInt fun bc => P.bind pInt fun id =>
    P.bind (pF c) fun x => P.bind (pF c) fun y => P.bind (pF c) fun z => P.bind (pF c) fun t =>
    P.bind pInt fun orph => P.bind pInt fun nout => P.bind pInt fun nw =>
    P.pure ((bc, id, x, y, z, t), (orph, nout, nw))) ts)).bind fun q =>
  (pSlice (pF c) q.1.2.2.2 q.2).bind fun w =>
  .ok ⟨⟨q.1.1.1, q.1.1.2.1, q.1.1.2.2.1, q.1.1.2.2.2.1, q.1.1.2.2.2.2.1, q.1.1.2.2.2.2.2, w.1⟩, q.1.2.1, q.1.2.2.1⟩

/-- What the vertices are read into: decoder, heap, and the map from particle barcodes to
barcodes of end vertices (`pidxToEndVtx`). -/
structure Acc (F G N : Type) where
  d : Dec
  h : Heap F G N
  pend : List (Int × Int)

/-- Change the event `e`. -/
def Heap.modE (h : Heap F G N) (e : Nat) (f : Evt F G N → Evt F G N) : Heap F G N := { h with e := put h.e e (f (h.e e)) }

/-- A first word must start with a given letter: `peek[0] != 'P'`; an empty word makes the
index panic. -/
def header (b : UInt8) (ts : Toks) : R Toks :=
  match (tnext ts).1 with
  | [] => .panic
  | x :: _ => if x = b then .ok (tnext ts).2 else .err

/-- A new particle, entered in the event: `hepmc/decoder.go:584-665 (`decodeParticle`)` after
reading the words, and `hepmc/decoder.go:559-580 (`Particle`)`. -/
def addPart (a : Acc F G N) (e : Nat) (prod : Option Nat) (q : PData F × Int) : Acc F G N :=
  { a with
    h := { a.h with
      np := a.h.np + 1
      p := put a.h.p a.h.np ⟨q.1, prod, none⟩
      e := put a.h.e e { a.h.e e with particles := some (mset (mlist (a.h.e e).particles) q.1.barcode a.h.np) } }
    pend := if q.2 ≠ 0 then mset a.pend q.1.barcode q.2 else a.pend }

/-- A loop reading particles, one per line: `hepmc/decoder.go:549-580 (`decodeParticle`)`;
the numbers of the new particles. -/
def readParts (c : Fmt F G N) (e : Nat) (prod : Option Nat) : Nat → Acc F G N → R (List Nat × Acc F G N)
  | 0, a => .ok ([], a)
  | n + 1, a =>
    (readline a.d).bind fun ld =>
    (header 80 ld.1).bind fun ts =>
    (R.ofOption (pPart c ld.2.ftype ts)).bind fun q =>
    (readParts c e prod n (addPart { a with d := ld.2 } e prod q.1)).bind fun r =>
    .ok (a.h.np :: r.1, r.2)

/-- `hepmc/decoder.go:481-582 (`decodeVertex`)` and the end of the loop body of `Decode`,
`hepmc/decoder.go:208-216 (`decodeVertex`)`.  `ts` are the words of the first line. -/
def readVtx (c : Fmt F G N) (e : Nat) (a : Acc F G N) (ts : Toks) : R (Acc F G N) :=
  (header 86 ts).bind fun ts =>
  (rVtx c ts).bind fun w =>
  let v := a.h.nv
  let a := { a with h := { a.h with nv := v + 1 } }
  (readParts c e none w.orphans.toNat a).bind fun r =>
  if w.nout < 0 then .panic else
  (readParts c e (some v) w.nout.toNat r.2).bind fun o =>
  let h := o.2.h
  .ok { o.2 with h := { h with
    v := put h.v v ⟨w.data, [], sortBy (fun p => (h.p p).data.barcode) o.1, some e⟩
    e := put h.e e { h.e e with vertices := some (mset (mlist (h.e e).vertices) w.data.barcode v) } } }

/-- The vertices after the first: `hepmc/decoder.go:200-216 (`nVtx`)`. -/
def readVtxs (c : Fmt F G N) (e : Nat) : Nat → Acc F G N → R (Acc F G N)
  | 0, a => .ok a
  | n + 1, a =>
    (readline a.d).bind fun ld =>
    (readVtx c e { a with d := ld.2 } ld.1).bind fun a => readVtxs c e n a

/-- `hepmc/decoder.go:200-216 (`nVtx`)`: the words of the line of the first vertex were read
before. -/
def readAllVtxs (c : Fmt F G N) (e : Nat) (n : Int) (a : Acc F G N) (ts : Toks) : R (Acc F G N) :=
  match n.toNat with
  | 0 => .ok a
  | k + 1 => (readVtx c e a ts).bind fun a => readVtxs c e k a

/-- The signal vertex: `hepmc/decoder.go:218-229 (`sigProcBc`)`. -/
def setSignal (d : Dec) (h : Heap F G N) (e : Nat) : R (Heap F G N) :=
  if d.sigBc = 0 then .ok h else
  match (mlist (h.e e).vertices).find? fun q => decide ((h.v q.2).data.barcode = d.sigBc) with
  | some q => .ok (h.modE e fun x => { x with sig := some q.2 })
  | none => if (h.e e).sig.isNone then .err else .ok h

/-- One particle is connected to its end vertex: `hepmc/decoder.go:231-245 (`EndVertex`)`. -/
def connect1 (d : Dec) (h : Heap F G N) (e : Nat) (q : Int × Int) : R (Heap F G N) :=
  match mget (mlist (h.e e).particles) q.1, mget (mlist (h.e e).vertices) q.2 with
  | some p, some v =>
    let x := h.e e
    .ok { h with
      v := put h.v v { h.v v with pin := sortBy (fun p => (h.p p).data.barcode) ((h.v v).pin ++ [p]) }
      p := put h.p p { h.p p with fin := some v }
      e := put h.e e { x with
        beam1 := if (h.p p).data.barcode = d.bp1 then some p else x.beam1
        beam2 := if (h.p p).data.barcode = d.bp2 then some p else x.beam2 } }
  | _, _ => .panic

/-- `hepmc/decoder.go:231-245 (`pidxToEndVtx`)`, the entries in the order the map is visited. -/
def connect (d : Dec) (e : Nat) : List (Int × Int) → Heap F G N → R (Heap F G N)
  | [], h => .ok h
  | q :: qs, h => (connect1 d h e q).bind fun h => connect d e qs h

/-- Words of the first line of an event. -/
structure EWords (F : Type) where
  number : Int
  mpi : Int
  scale : F
  aqcd : F
  aqed : F
  sigId : Int
  sigBc : Int
  nVtx : Int
  bp1 : Int
  bp2 : Int
  rnd : List Int
  weights : List F

/-- The words after the first of the first line of an event:
`hepmc/decoder.go:369-461 (`decodeEvent`)`. -/
def rEvt (c : Fmt F G N) (ts : Toks) : R (EWords F) :=
  (R.ofOption ((P.bind pInt fun number => P.bind pInt fun mpi =>
    P.bind (pF c) fun scale => P.bind (pF c) fun aqcd => P.bind (pF c) fun aqed =>
    P.bind pInt fun sigId => P.bind pInt fun sigBc => P.bind pInt fun nVtx =>
    P.bind pInt fun bp1 => P.bind pInt fun bp2 => P.bind pInt fun nr =>
    P.pure (EWords.mk number mpi scale aqcd aqed sigId sigBc nVtx bp1 bp2 [] [], nr)) ts)).bind fun q =>
  (pSlice pInt q.1.2 q.2).bind fun r =>
  (R.ofOption (pInt r.2)).bind fun n =>
  (pSlice (pF c) n.1 n.2).bind fun w =>
  .ok { q.1.1 with rnd := r.1, weights := w.1 }

/-- The words of the first line of an event in the `IO_Ascii` format, read from the letter `E`
on: `hepmc/decoder.go:824-895 (`decodeASCII`)`. -/
def rASCII (c : Fmt F G N) (ts : Toks) : R (EWords F) :=
  (R.ofOption ((P.bind pInt fun number =>
    P.bind (pF c) fun scale => P.bind (pF c) fun aqcd => P.bind (pF c) fun aqed =>
    P.bind pInt fun sigId => P.bind pInt fun sigBc => P.bind pInt fun nVtx => P.bind pInt fun nr =>
    P.pure (EWords.mk number 0 scale aqcd aqed sigId sigBc nVtx 0 0 [] [], nr)) ts)).bind fun q =>
  (pSlice pInt q.1.2 q.2).bind fun r =>
  (R.ofOption (pInt r.2)).bind fun n =>
  (pSlice (pF c) n.1 n.2).bind fun w =>
  .ok { q.1.1 with rnd := r.1, weights := w.1 }

/-- The event takes the values over: `hepmc/decoder.go:463-478 (`Vertices`)`. -/
def fillEvt (w : EWords F) (x : Evt F G N) : Evt F G N :=
  { x with
    sigId := w.sigId
    number := w.number
    mpi := w.mpi
    wmap := if x.weights.isNone then [] else x.wmap
    weights := some w.weights
    rnd := w.rnd
    scale := w.scale
    aqcd := w.aqcd
    aqed := w.aqed
    vertices := some []
    particles := some [] }

/-- `hepmc/units.go:42-50 (`MomentumUnitFromString`)`. -/
def MUnit.ofStr (s : List UInt8) : Option MUnit :=
  if s = HepMC.str "MEV" then some .mev else if s = HepMC.str "GEV" then some .gev else none

/-- `hepmc/units.go:63-71 (`LengthUnitFromString`)`. -/
def LUnit.ofStr (s : List UInt8) : Option LUnit :=
  if s = HepMC.str "MM" then some .mm else if s = HepMC.str "CM" then some .cm else none

/-- The words after `H`: `hepmc/decoder.go:687-763 (`decodeHeavyIon`)`. -/
def pHeavy (c : Fmt F G N) : P (HeavyIon G) :=
  P.bind pInt fun a1 => P.bind pInt fun a2 => P.bind pInt fun a3 => P.bind pInt fun a4 => P.bind pInt fun a5 =>
  P.bind pInt fun a6 => P.bind pInt fun a7 => P.bind pInt fun a8 => P.bind pInt fun a9 =>
  P.bind (pG c) fun b1 => P.bind (pG c) fun b2 => P.bind (pG c) fun b3 => P.bind (pG c) fun b4 =>
  P.pure ⟨a1, a2, a3, a4, a5, a6, a7, a8, a9, b1, b2, b3, b4⟩

/-- The words after `F`: `hepmc/decoder.go:765-822 (`decodePdfInfo`)`. -/
def pPdf (c : Fmt F G N) : P (PdfInfo F) :=
  P.bind pInt fun id1 => P.bind pInt fun id2 =>
  P.bind (pF c) fun x1 => P.bind (pF c) fun x2 => P.bind (pF c) fun sc => P.bind (pF c) fun p1 => P.bind (pF c) fun p2 =>
  P.bind pInt fun l1 => P.bind pInt fun l2 =>
  P.pure ⟨id1, id2, l1, l2, x1, x2, sc, p1, p2⟩

/-- The words after `C`: `hepmc/decoder.go:350-367 (`decodeCrossSection`)`. -/
def pCross (c : Fmt F G N) : P (CrossSection F) := P.bind (pF c) fun x => P.bind (pF c) fun y => P.pure ⟨x, y⟩

/-- The names after the number: `hepmc/decoder.go:132-140 (`Unquote`)`. -/
def pNames [DecidableEq N] (c : Fmt F G N) : Nat → Nat → List (N × Nat) → Toks → Option (List (N × Nat))
  | 0, _, m, _ => some m
  | n + 1, i, m, ts =>
    match c.uq (tnext ts).1 with
    | none => none
    | some x => pNames c n (i + 1) (mset m x i) (tnext ts).2

/-- What the loop over the lines before the vertices keeps. -/
structure HAcc (F G N : Type) where
  d : Dec
  h : Heap F G N
  nVtx : Int

/-- One line before the vertices: the `switch` of `hepmc/decoder.go:104-173 (`loop`)`; `none`
when the line belongs to a vertex or a particle. -/
def headStep [DecidableEq N] (c : Fmt F G N) (e : Nat) (a : HAcc F G N) (ts : Toks) : R (Option (HAcc F G N)) :=
  match ts with
  | [] => .panic
  | [] :: _ => .panic
  | (b :: _) :: ts' =>
    if b = 69 then
      let r := match a.d.ftype with
        | .genEvent => rEvt c ts'
        | .ascii => rASCII c ts
        | .extASCII => rEvt c ts'
        | .asciiPdt => .err
        | .extASCIIPdt => .err
        | .unknown => .err
      r.bind fun w => .ok (some ⟨{ a.d with sigBc := w.sigBc, bp1 := w.bp1, bp2 := w.bp2 },
        a.h.modE e (fillEvt w), w.nVtx⟩)
    else if b = 78 then
      (R.ofOption (pInt ts')).bind fun n =>
      (R.ofOption (pNames c n.1.toNat 0 [] n.2)).bind fun m =>
      .ok (some { a with h := a.h.modE e fun x => { x with wmap := m } })
    else if b = 85 then
      if a.d.ftype = .genEvent then
        (R.ofOption (MUnit.ofStr (tnext ts').1)).bind fun mu =>
        (R.ofOption (LUnit.ofStr (tnext (tnext ts').2).1)).bind fun lu =>
        .ok (some { a with h := a.h.modE e fun x => { x with mu := mu, lu := lu } })
      else .ok (some a)
    else if b = 67 then
      (R.ofOption (pCross c ts')).bind fun q => .ok (some { a with h := a.h.modE e fun x => { x with cross := some q.1 } })
    else if b = 72 then
      if a.d.ftype = .genEvent ∨ a.d.ftype = .extASCII then
        (R.ofOption (pHeavy c ts')).bind fun q =>
        .ok (some { a with h := a.h.modE e fun x => { x with heavy := some q.1 } })
      else .ok (some a)
    else if b = 70 then
      if a.d.ftype = .genEvent ∨ a.d.ftype = .extASCII then
        (R.ofOption (pPdf c ts')).bind fun q => .ok (some { a with h := a.h.modE e fun x => { x with pdf := some q.1 } })
      else .ok (some a)
    else if b = 86 ∨ b = 80 then .ok none
    else .err

/-- The loop over the lines before the vertices, `hepmc/decoder.go:104-180 (`loop`)`; the
words of the line that ended it.  The second argument are the lines still to come. -/
def headLoop [DecidableEq N] (c : Fmt F G N) (e : Nat) (a : HAcc F G N) (ts : Toks) :
    List (List UInt8) → R (HAcc F G N × Toks)
  | [] => (headStep c e a ts).bind fun r =>
    match r with
    | none => .ok ({ a with d := { a.d with rest := [] } }, ts)
    | some a => atEnd { a.d with rest := [] }
  | l :: ls => (headStep c e a ts).bind fun r =>
    match r with
    | none => .ok ({ a with d := { a.d with rest := l :: ls } }, ts)
    | some a => headLoop c e a (splitOn 32 l) ls

/-- Type of a file by its first key: `hepmc/decoder.go:249-288 (`findFileType`)`. -/
def startKey (w : List UInt8) : Option FType :=
  if w = startGenEvent then some .genEvent
  else if w = startASCII then some .ascii
  else if w = startExtendedASCII then some .extASCII
  else if w = startPdt then some .asciiPdt
  else if w = startExtendedASCIIPdt then some .extASCIIPdt
  else none

/-- Type of a file by its last key: `hepmc/decoder.go:290-327 (`findEndKey`)`. -/
def endKey (w : List UInt8) : Option FType :=
  if w = endGenEvent then some .genEvent
  else if w = endASCII then some .ascii
  else if w = endExtendedASCII then some .extASCII
  else if w = endPdt then some .asciiPdt
  else if w = endExtendedASCIIPdt then some .extASCIIPdt
  else none

/-- `hepmc/decoder.go:249-288 (`findFileType`)`: an end of file is an error. -/
def findType (d : Dec) : List (List UInt8) → R Dec
  | [] => if d.done then .hang else .err
  | l :: ls =>
    match startKey (tnext (splitOn 32 l)).1 with
    | some t => .ok { d with rest := ls, ftype := t, seen := true }
    | none => findType d ls

/-- `hepmc/decoder.go:67-247 (`Decode`)` into the event `e`; `ord` is the order in which the
map of end vertices is visited. -/
def decode [DecidableEq N] (c : Fmt F G N) (ord : List (Int × Int) → List (Int × Int)) (d : Dec) (h : Heap F G N) (e : Nat) :
    R (Dec × Heap F G N) :=
  (if d.seen then .ok d else findType d d.rest).bind fun d =>
  (readline { d with sigBc := 0, bp1 := 0, bp2 := 0 }).bind fun ld =>
  match ld.1 with
  | [] => .panic
  | [] :: _ => .panic
  | (b :: w) :: _ =>
    if b ≠ 69 then
      if b ≠ 72 then .err
      else if endKey (b :: w) = some ld.2.ftype then .eof ld.2 else .err
    else
      (headLoop c e ⟨ld.2, h, 0⟩ ld.1 ld.2.rest).bind fun r =>
      (readAllVtxs c e r.1.nVtx ⟨r.1.d, r.1.h, []⟩ r.2).bind fun a =>
      (setSignal a.d a.h e).bind fun h =>
      (connect a.d e (ord a.pend) h).bind fun h => .ok (a.d, h)

end Verif.HepMC
