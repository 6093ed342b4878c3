import Verif.Common.Decimal

/-!
# HepMC events in memory (package `hepmc`)

`hepmc/hepmc.go` keeps an event as a graph: an `Event` holds maps from barcodes to
vertices and to particles, a vertex holds lists of its incoming and outgoing particles, a
particle holds pointers to the vertex it comes from and to the vertex it ends in.  Here a
pointer is a number and a `Heap` says what every number stands for; a nil pointer is
`none`.  Maps are association lists; a nil map is `none`.

`F` stands for `float64`, `G` for `float32` and `N` for the strings naming weights.
Not modelled: the back pointer `Flow.Particle`, the field `Weights.Map` of a vertex (no
function of the package reads or writes it), `Event.Print`, `Vertex.Print`, `Delete`.
Integers are not limited to 64 bits: every `int` a Go program can hold is one of them.
-/

namespace Verif.HepMC

/-- What a particle carries besides pointers: `hepmc/hepmc.go:288-298 (`Particle`)`,
`hepmc/hepmc.go:709-712 (`Flow`)` (its map, key and value), `hepmc/hepmc.go:715-718 (`Polarization`)`. -/
structure PData (F : Type) where
  barcode : Int
  pdg : Int
  px : F
  py : F
  pz : F
  en : F
  mass : F
  status : Int
  theta : F
  phi : F
  flow : List (Int × Int)
  deriving DecidableEq

/-- `hepmc/hepmc.go:288-298 (`Particle`)`; `prod` is `ProdVertex`, `fin` is `EndVertex`. -/
structure Part (F : Type) where
  data : PData F
  prod : Option Nat
  fin : Option Nat
  deriving DecidableEq

/-- What a vertex carries besides pointers: `hepmc/hepmc.go:357-365 (`Vertex`)`. -/
structure VData (F : Type) where
  barcode : Int
  id : Int
  x : F
  y : F
  z : F
  t : F
  weights : List F
  deriving DecidableEq

/-- `hepmc/hepmc.go:357-365 (`Vertex`)`. -/
structure Vtx (F : Type) where
  data : VData F
  pin : List Nat
  pout : List Nat
  event : Option Nat
  deriving DecidableEq

/-- `hepmc/hepmc.go:629-643 (`HeavyIon`)`. -/
structure HeavyIon (G : Type) where
  nCollHard : Int
  nPartProj : Int
  nPartTarg : Int
  nColl : Int
  nNwColl : Int
  nwNColl : Int
  nwNwColl : Int
  specNeutrons : Int
  specProtons : Int
  impact : G
  planeAngle : G
  ecc : G
  sigmaNN : G
  deriving DecidableEq

/-- `hepmc/hepmc.go:649-653 (`CrossSection`)`. -/
structure CrossSection (F : Type) where
  value : F
  error : F
  deriving DecidableEq

/-- `hepmc/hepmc.go:656-666 (`PdfInfo`)`. -/
structure PdfInfo (F : Type) where
  id1 : Int
  id2 : Int
  lha1 : Int
  lha2 : Int
  x1 : F
  x2 : F
  scale : F
  pdf1 : F
  pdf2 : F
  deriving DecidableEq

/-- `hepmc/units.go:17-22 (`MEV`)`; other values of the Go type make `Encode` panic and are
left out. -/
inductive MUnit where
  | mev
  | gev
  deriving DecidableEq

/-- `hepmc/units.go:24-29 (`MM`)`. -/
inductive LUnit where
  | mm
  | cm
  deriving DecidableEq

/-- `hepmc/hepmc.go:59-83 (`Event`)`.  `weights` and `wmap` are `Weights.Slice` (`none` when
nil) and `Weights.Map`. -/
structure Evt (F G N : Type) where
  sigId : Int
  number : Int
  mpi : Int
  scale : F
  aqcd : F
  aqed : F
  sig : Option Nat
  beam1 : Option Nat
  beam2 : Option Nat
  weights : Option (List F)
  wmap : List (N × Nat)
  rnd : List Int
  vertices : Option (List (Int × Nat))
  particles : Option (List (Int × Nat))
  cross : Option (CrossSection F)
  heavy : Option (HeavyIon G)
  pdf : Option (PdfInfo F)
  mu : MUnit
  lu : LUnit
  bcparts : Nat
  bcverts : Nat

/-- Everything that exists: vertices numbered below `nv`, particles below `np`, events. -/
structure Heap (F G N : Type) where
  nv : Nat
  np : Nat
  v : Nat → Vtx F
  p : Nat → Part F
  e : Nat → Evt F G N

/-- Change what one number stands for. -/
def put {α : Type} (f : Nat → α) (i : Nat) (x : α) : Nat → α := fun j => if j = i then x else f j

/-- A map, nil or not, as a list. -/
def mlist (m : Option (List (Int × Nat))) : List (Int × Nat) := m.getD []

/-- Go's `m[k] = v` on an association list. -/
def mset {κ ν : Type} [DecidableEq κ] (m : List (κ × ν)) (k : κ) (v : ν) : List (κ × ν) :=
  (k, v) :: m.filter fun q => decide (q.1 ≠ k)

/-- Go's `m[k]`. -/
def mget {κ ν : Type} [DecidableEq κ] (m : List (κ × ν)) (k : κ) : Option ν :=
  match m with
  | [] => none
  | q :: m => if q.1 = k then some q.2 else mget m k

/-- Go's `delete(m, k)`. -/
def mdel {κ ν : Type} [DecidableEq κ] (m : List (κ × ν)) (k : κ) : List (κ × ν) :=
  m.filter fun q => decide (q.1 ≠ k)

/-- Insert into a list sorted by `key`. -/
def insertBy {α : Type} (key : α → Int) (a : α) : List α → List α
  | [] => [a]
  | b :: l => if key a ≤ key b then a :: b :: l else b :: insertBy key a l

/-- `sort.Sort` with an order given by an integer key (Go standard library); the order of
elements with equal keys, which Go leaves open, is that of the input. -/
def sortBy {α : Type} (key : α → Int) : List α → List α
  | [] => []
  | a :: l => insertBy key a (sortBy key l)

end Verif.HepMC
