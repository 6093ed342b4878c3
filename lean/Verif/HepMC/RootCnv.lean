import Verif.HepMC.Spec

/-!
# HepMC events in ROOT trees (package `hepmc/rootcnv`)

An event is flattened into columns of numbers, and an event is made of such columns again.  The columns
of particles all have one length, and so have those of vertices: they are kept as lists of rows here.
Writing a tree and reading it is not modelled here: the values of the columns are read as they were written.

`int32(x)` wraps around.  `F` stands for `float64`, `G` for `float32`, `N` for strings; only the test
for zero is needed on numbers.
-/

namespace Verif.HepMC.Root

open Verif.HepMC

variable {F G N : Type} [DecidableEq N]

/-- `int32(x)`. -/
def i32 (x : Int) : Int := Int.bmod x 4294967296

/-- What is needed of numbers. -/
structure Num (F G : Type) where
  zeroF : F
  zeroG : G
  /-- `x == 0` -/
  isZeroF : F → Bool
  isZeroG : G → Bool

/-- A heap, with the maps `Weights.Map` of vertices. -/
structure Mem (F G N : Type) where
  heap : Heap F G N
  vmap : Nat → List (N × Int)

/-- A row of the columns of particles, hepmc/rootcnv/rootcnv.go:77-92 (`Particle_bc`). -/
structure PRow (F : Type) where
  bc : Int
  pid : Int
  px : F
  py : F
  pz : F
  ene : F
  mass : F
  flow : List Int
  theta : F
  phi : F
  status : Int
  pvtx : Int
  evtx : Int

/-- A row of the columns of vertices, hepmc/rootcnv/rootcnv.go:65-75 (`Vertex_x`). -/
structure VRow (F N : Type) where
  x : F
  y : F
  z : F
  t : F
  id : Int
  wsli : List F
  wmap : List (N × Int)
  bc : Int
  nin : Int
  nout : Int

/-- hepmc/rootcnv/rootcnv.go:17-95 (`event`); the keys and values of the weights are kept in pairs, units are kept as such. -/
structure Flat (F G N : Type) where
  sigId : Int
  number : Int
  mpi : Int
  scale : F
  aqcd : F
  aqed : F
  spv : Int
  bp1 : Int
  bp2 : Int
  nvtx : Int
  npart : Int
  inbcs : List Int
  outbcs : List Int
  weights : List F
  wmap : List (N × Int)
  rnd : List Int
  xsec : CrossSection F
  hi : HeavyIon G
  pdf : PdfInfo F
  mu : MUnit
  lu : LUnit
  vrows : List (VRow F N)
  prows : List (PRow F)

/-- What the order of Go's `range` over maps is. -/
structure Order (N : Type) where
  w : List (N × Int) → List (N × Int)
  f : List (Int × Int) → List (Int × Int)

/-- The barcode a pointer to a vertex is replaced with. -/
def vbc (h : Heap F G N) : Option Nat → Int
  | none => 0
  | some v => i32 (h.v v).data.barcode

/-- The barcode a pointer to a particle is replaced with. -/
def pbc (h : Heap F G N) : Option Nat → Int
  | none => 0
  | some p => i32 (h.p p).data.barcode

/-- hepmc/rootcnv/rootcnv.go:313-342 (`HeavyIon`): the numbers are `int32`. -/
def hiRow (n : Num F G) : Option (HeavyIon G) → HeavyIon G
  | none => ⟨0, 0, 0, 0, 0, 0, 0, 0, 0, n.zeroG, n.zeroG, n.zeroG, n.zeroG⟩
  | some x => ⟨i32 x.nCollHard, i32 x.nPartProj, i32 x.nPartTarg, i32 x.nColl, i32 x.nNwColl, i32 x.nwNColl, i32 x.nwNwColl,
      i32 x.specNeutrons, i32 x.specProtons, x.impact, x.planeAngle, x.ecc, x.sigmaNN⟩

/-- hepmc/rootcnv/rootcnv.go:304-311 (`xsect`). -/
def xsecRow (n : Num F G) : Option (CrossSection F) → CrossSection F
  | none => ⟨n.zeroF, n.zeroF⟩
  | some x => x

/-- hepmc/rootcnv/rootcnv.go:344-352 (`PdfInfo`). -/
def pdfRow (x : PdfInfo F) : PdfInfo F :=
  ⟨i32 x.id1, i32 x.id2, i32 x.lha1, i32 x.lha2, x.x1, x.x2, x.scale, x.pdf1, x.pdf2⟩

/-- Entries of a map of weights with values as `int32`. -/
def wRow (o : Order N) (m : List (N × Int)) : List (N × Int) := (o.w m).map fun q => (q.1, i32 q.2)

/-- hepmc/rootcnv/rootcnv.go:376-404 (`vtx`), but for the barcodes of its particles. -/
def vRow (o : Order N) (m : Mem F G N) (v : Nat) : VRow F N :=
  let d := (m.heap.v v).data
  { x := d.x, y := d.y, z := d.z, t := d.t, id := i32 d.id, wsli := d.weights, wmap := wRow o (m.vmap v), bc := i32 d.barcode,
    nin := i32 (m.heap.v v).pin.length, nout := i32 (m.heap.v v).pout.length }

/-- hepmc/rootcnv/rootcnv.go:445-448 (`flow`). -/
def flowRow (o : Order N) (m : List (Int × Int)) : List Int := (o.f m).flatMap fun q => [i32 q.1, i32 q.2]

/-- hepmc/rootcnv/rootcnv.go:428-459 (`p`). -/
def pRow (o : Order N) (m : Mem F G N) (p : Nat) : PRow F :=
  let q := m.heap.p p
  let d := q.data
  { bc := i32 d.barcode, pid := d.pdg, px := d.px, py := d.py, pz := d.pz, ene := d.en, mass := d.mass, flow := flowRow o d.flow,
    theta := d.theta, phi := d.phi, status := i32 d.status, pvtx := vbc m.heap q.prod, evtx := vbc m.heap q.fin }

/-- The vertices in the order of their barcodes, the largest first: hepmc/rootcnv/rootcnv.go:357-361 (`barcodes`). -/
def vOrder (x : Evt F G N) : List Nat := (sortBy (fun q => -q.1) (mlist x.vertices)).map Prod.snd

/-- The particles in the order of their barcodes: hepmc/rootcnv/rootcnv.go:406-410 (`barcodes`). -/
def pOrder (x : Evt F G N) : List Nat := (sortBy (fun q => q.1) (mlist x.particles)).map Prod.snd

/-- What hepmc/rootcnv/rootcnv.go:265-462 (`read`) sets columns that held `old` to, given the parton data.  Barcodes of particles at
vertices are appended to what is there, all other columns are set. -/
def columns (n : Num F G) (o : Order N) (old : Flat F G N) (m : Mem F G N) (x : Evt F G N) (pdf : PdfInfo F) : Flat F G N where
  sigId := i32 x.sigId
  number := i32 x.number
  mpi := i32 x.mpi
  scale := x.scale
  aqcd := x.aqcd
  aqed := x.aqed
  spv := vbc m.heap x.sig
  bp1 := pbc m.heap x.beam1
  bp2 := pbc m.heap x.beam2
  nvtx := i32 (mlist x.vertices).length
  npart := i32 (mlist x.particles).length
  inbcs := old.inbcs ++ (vOrder x).flatMap fun v => (m.heap.v v).pin.map fun p => pbc m.heap (some p)
  outbcs := old.outbcs ++ (vOrder x).flatMap fun v => (m.heap.v v).pout.map fun p => pbc m.heap (some p)
  weights := x.weights.getD []
  wmap := wRow o (x.wmap.map fun q => (q.1, (q.2 : Int)))
  rnd := x.rnd
  xsec := xsecRow n x.cross
  hi := hiRow n x.heavy
  pdf := pdfRow pdf
  mu := x.mu
  lu := x.lu
  vrows := (vOrder x).map (vRow o m)
  prows := (pOrder x).map (pRow o m)

/-- hepmc/rootcnv/rootcnv.go:265-462 (`read`) into columns that held `old`; `none` is the panic for an event without parton data. -/
def read (n : Num F G) (o : Order N) (old : Flat F G N) (m : Mem F G N) (x : Evt F G N) : Option (Flat F G N) :=
  x.pdf.map (columns n o old m x)

/-- hepmc/rootcnv/rootcnv.go:464-498 (`reset`): the columns of lists are emptied. -/
def Flat.reset (f : Flat F G N) : Flat F G N :=
  { f with inbcs := [], outbcs := [], weights := [], wmap := [], rnd := [], vrows := [], prows := [] }

/-! ## From columns to events -/

/-- hepmc/rootcnv/rootcnv.go:500-502 (`hasXSect`). -/
def hasXSect (n : Num F G) (x : CrossSection F) : Bool := !(n.isZeroF x.error && n.isZeroF x.value)

/-- hepmc/rootcnv/rootcnv.go:504-510 (`hasHI`). -/
def hasHI (n : Num F G) (x : HeavyIon G) : Bool :=
  !(x.nCollHard = 0 && x.nPartProj = 0 && x.nPartTarg = 0 && x.nColl = 0 && x.nNwColl = 0 && x.nwNColl = 0 && x.nwNwColl = 0 &&
    x.specNeutrons = 0 && x.specProtons = 0 && n.isZeroG x.impact && n.isZeroG x.planeAngle && n.isZeroG x.ecc &&
    n.isZeroG x.sigmaNN)

/-- A Go map made of entries. -/
def toMap {κ ν : Type} [DecidableEq κ] (l : List (κ × ν)) : List (κ × ν) := l.foldl (fun m q => mset m q.1 q.2) []

/-- hepmc/rootcnv/rootcnv.go:187-189 (`flow`): keys and values in turn; an odd number of them is an index out of range. -/
def pairs : List Int → Option (List (Int × Int))
  | [] => some []
  | [_] => none
  | a :: b :: l => (pairs l).map fun r => (a, b) :: r

/-- hepmc/rootcnv/rootcnv.go:167-186 (`p`). -/
def newPart (r : PRow F) (flow : List (Int × Int)) : Part F :=
  ⟨⟨r.bc, r.pid, r.px, r.py, r.pz, r.ene, r.mass, r.status, r.theta, r.phi, toMap flow⟩, none, none⟩

/-- Making a particle of the event `e`. -/
def addPart (e : Nat) (m : Mem F G N) (r : PRow F) (flow : List (Int × Int)) : Mem F G N :=
  { m with
    heap := { m.heap with
      np := m.heap.np + 1
      p := put m.heap.p m.heap.np (newPart r flow)
      e := put m.heap.e e { m.heap.e e with particles := some (mset (mlist (m.heap.e e).particles) r.bc m.heap.np) } } }

/-- hepmc/rootcnv/rootcnv.go:165-191 (`Particle_bc`): the loop over the rows of particles. -/
def addParts (e : Nat) : List (PRow F) → Mem F G N → Option (Mem F G N)
  | [], m => some m
  | r :: rs, m => (pairs r.flow).bind fun flow => addParts e rs (addPart e m r flow)

/-- hepmc/rootcnv/rootcnv.go:218-222 (`ParticlesIn`): the particles with these barcodes; a barcode that is not in the event is a nil pointer. -/
def linkIn (e v : Nat) : List Int → Mem F G N → Option (Mem F G N × List Nat)
  | [], m => some (m, [])
  | b :: bs, m =>
    match mget (mlist (m.heap.e e).particles) b with
    | none => none
    | some p =>
      (linkIn e v bs { m with heap := { m.heap with p := put m.heap.p p { m.heap.p p with fin := some v } } }).map fun r =>
        (r.1, p :: r.2)

/-- hepmc/rootcnv/rootcnv.go:225-229 (`ParticlesOut`). -/
def linkOut (e v : Nat) : List Int → Mem F G N → Option (Mem F G N × List Nat)
  | [], m => some (m, [])
  | b :: bs, m =>
    match mget (mlist (m.heap.e e).particles) b with
    | none => none
    | some p =>
      (linkOut e v bs { m with heap := { m.heap with p := put m.heap.p p { m.heap.p p with prod := some v } } }).map fun r =>
        (r.1, p :: r.2)

/-- Making a vertex of the event `e`, with its particles. -/
def putVtx (e : Nat) (m : Mem F G N) (r : VRow F N) (pin pout : List Nat) : Mem F G N :=
  let v := m.heap.nv
  { heap := { m.heap with
      nv := v + 1
      v := put m.heap.v v ⟨⟨r.bc, r.id, r.x, r.y, r.z, r.t, r.wsli⟩, pin, pout, some e⟩
      e := put m.heap.e e { m.heap.e e with vertices := some (mset (mlist (m.heap.e e).vertices) r.bc v) } }
    vmap := put m.vmap v (toMap r.wmap) }

/-- hepmc/rootcnv/rootcnv.go:193-239 (`Vertex_bc`): the loop over the rows of vertices; negative lengths and lists of barcodes that
are too short panic. -/
def addVerts (e : Nat) : List (VRow F N) → List Int → List Int → Mem F G N → Option (Mem F G N)
  | [], _, _, m => some m
  | r :: rs, pin, pout, m =>
    if r.nin < 0 ∨ r.nout < 0 then none
    else if pin.length < r.nin.toNat ∨ pout.length < r.nout.toNat then none
    else
      (linkIn e m.heap.nv (pin.take r.nin.toNat) m).bind fun a =>
        (linkOut e m.heap.nv (pout.take r.nout.toNat) a.1).bind fun b =>
          addVerts e rs (pin.drop r.nin.toNat) (pout.drop r.nout.toNat) (putVtx e b.1 r a.2 b.2)

/-- A pointer made of a barcode: hepmc/rootcnv/rootcnv.go:241-260 (`SignalVertex`, `Beams`). -/
def pick (l : List (Int × Nat)) (b : Int) : Option Nat := if b = 0 then none else mget l b

/-- hepmc/rootcnv/rootcnv.go:97-159 (`write`): the values of the event; it has no vertices and particles yet. -/
def values (n : Num F G) (f : Flat F G N) (x : Evt F G N) : Evt F G N :=
  { x with
    sigId := f.sigId, number := f.number, mpi := f.mpi, scale := f.scale, aqcd := f.aqcd, aqed := f.aqed
    vertices := some [], particles := some []
    weights := some f.weights, wmap := (toMap f.wmap).map fun q => (q.1, q.2.toNat), rnd := f.rnd
    cross := if hasXSect n f.xsec then some f.xsec else none
    heavy := if hasHI n f.hi then some f.hi else none
    pdf := some f.pdf, mu := f.mu, lu := f.lu }

/-- The end of hepmc/rootcnv/rootcnv.go:97-263 (`write`). -/
def ends (f : Flat F G N) (x : Evt F G N) : Evt F G N :=
  { x with
    sig := pick (mlist x.vertices) f.spv
    beam1 := pick (mlist x.particles) f.bp1
    beam2 := pick (mlist x.particles) f.bp2 }

/-- hepmc/rootcnv/rootcnv.go:97-263 (`write`), into the event `e`; `none` is a panic.  The index of a weight is not negative
here. -/
def write (n : Num F G) (f : Flat F G N) (e : Nat) (m : Mem F G N) : Option (Mem F G N) :=
  let m := { m with heap := { m.heap with e := put m.heap.e e (values n f (m.heap.e e)) } }
  (addParts e f.prows m).bind fun m =>
    (addVerts e f.vrows f.inbcs f.outbcs m).map fun m =>
      { m with heap := { m.heap with e := put m.heap.e e (ends f (m.heap.e e)) } }

/-! ## Writers and readers -/

/-- hepmc/rootcnv/writer.go:42-56 (`Write`) one event after the other: the rows of the tree; `none` is a panic. -/
def writeAll (n : Num F G) (o : Order N) : Flat F G N → List (Mem F G N × Evt F G N) → Option (List (Flat F G N))
  | _, [] => some []
  | old, x :: l => (read n o old.reset x.1 x.2).bind fun f => (writeAll n o f l).map fun r => f :: r

/-- What a call of hepmc/rootcnv/reader.go:69-79 (`Read`) does: an event, the end of file, or a panic. -/
inductive Got (F G N : Type)
  | evt (m : Mem F G N)
  | eof
  | panic

/-- The state of hepmc/rootcnv/reader.go:20-28 (`FlatTreeReader`): the rows left; `done` after the end of file was sent, when
the channel is closed. -/
structure Reader (F G N : Type) where
  rows : List (Flat F G N)
  done : Bool

/-- The zero event. -/
def zeroEvt (n : Num F G) : Evt F G N :=
  ⟨0, 0, 0, n.zeroF, n.zeroF, n.zeroF, none, none, none, none, [], [], none, none, none, none, none, .mev, .mm, 0, 0⟩

/-- hepmc/rootcnv/reader.go:69-79 (`Read`) into the event `user`: the event is made by the goroutine of
hepmc/rootcnv/reader.go:29-62 (`NewFlatTreeReader`) in a variable of its own, `e`, and copied.  A closed channel gives a zero event and no
error. -/
def readOne (n : Num F G) (r : Reader F G N) (e user : Nat) (m : Mem F G N) : Reader F G N × Got F G N :=
  if r.done then (r, .evt { m with heap := { m.heap with e := put m.heap.e user (zeroEvt n) } })
  else
    match r.rows with
    | [] => (⟨[], true⟩, .eof)
    | f :: rows =>
      match write n f e { m with heap := { m.heap with e := put m.heap.e e (zeroEvt n) } } with
      | none => (⟨rows, false⟩, .panic)
      | some m => (⟨rows, false⟩, .evt { m with heap := { m.heap with e := put m.heap.e user (m.heap.e e) } })

/-- Calls of `Read` for events `user`, each made in `e`, until one gives no event: the state, and whether the last call was
the end of file. -/
def readAll (n : Num F G) : Reader F G N → List (Nat × Nat) → Mem F G N → Option (Reader F G N × Mem F G N)
  | r, [], m => some (r, m)
  | r, k :: ks, m =>
    match readOne n r k.1 k.2 m with
    | (r, .evt m) => readAll n r ks m
    | _ => none

end Verif.HepMC.Root
