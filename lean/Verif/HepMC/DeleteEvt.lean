/-!
# Model of the deletion of an event (hepmc/hepmc.go, C183)

Particles and vertices are behind pointers; a pointer is a number here and the heap a function of it.
-/

namespace Verif.HepMC.DeleteEvt

/-- What a particle is linked to (hepmc/hepmc.go, `Particle`); its momentum and the like are left out. -/
structure Part where
  barcode : Int
  prod : Option Nat
  fin : Option Nat
  /-- `Flow.Particle` -/
  flow : Option Nat
deriving DecidableEq

/-- What a vertex is linked to (hepmc/hepmc.go, `Vertex`); its position and the like are left out. -/
structure Vtx where
  barcode : Int
  /-- Whether it points to an event. -/
  event : Option Nat
  inn : List Nat
  out : List Nat
deriving DecidableEq

/-- hepmc/hepmc.go:59-83 (`Event`), of which the fields that are not pointers are left out; a map is the list of its entries. -/
structure Evt where
  signal : Option Nat
  beams : Option Nat × Option Nat
  parts : List (Int × Nat)
  verts : List (Int × Nat)

structure Heap where
  part : Nat → Part
  vtx : Nat → Vtx

/-- hepmc/hepmc.go:36-38 (`Flow.Particle`) -/
def clearP (p : Part) : Part := { p with prod := none, fin := none, flow := none }

/-- hepmc/hepmc.go:42-44 (`ParticlesIn`) -/
def clearV (v : Vtx) : Vtx := { v with event := none, inn := [], out := [] }

def upd {α : Type} (f : Nat → α) (i : Nat) (x : α) : Nat → α := fun j => if j = i then x else f j

/-- hepmc/hepmc.go:35-40 and 41-46 (`range`): the entries come in some order; one that was removed before it is reached does not
come. `keys` are the keys that are in the map. -/
def loop {α : Type} (bc : α → Int) (clear : α → α) : List (Int × Nat) → List Int → (Nat → α) → (Nat → α)
  | [], _, f => f
  | (k, i) :: es, keys, f =>
    if k ∈ keys then loop bc clear es (keys.filter (fun k' => k' ≠ bc (f i))) (upd f i (clear (f i)))
    else loop bc clear es keys f

/-- hepmc/hepmc.go:28-30 -/
def unsignal (h : Heap) : Option Nat → Heap
  | none => h
  | some v => { h with vtx := upd h.vtx v { h.vtx v with event := none } }

/-- hepmc/hepmc.go:23-51 (`Delete`) of an event that is not nil, the orders of the two maps given -/
def delete (op ov : List (Int × Nat)) (e : Evt) (h : Heap) : Evt × Heap :=
  (⟨none, (none, none), [], []⟩,
   { part := loop Part.barcode clearP op (e.parts.map Prod.fst) (unsignal h e.signal).part
     vtx := loop Vtx.barcode clearV ov (e.verts.map Prod.fst) (unsignal h e.signal).vtx })

end Verif.HepMC.DeleteEvt
