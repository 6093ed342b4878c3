import Verif.HepMC.Spec

/-!
# Building HepMC events (`hepmc/hepmc.go`)

`Event.AddVertex`, `Vertex.AddParticleIn` and `Vertex.AddParticleOut` on the heap.  `none`
stands for a panic; the arguments are not nil.
-/

namespace Verif.HepMC

variable {F G N : Type}

/-- `evt.Particles[p.Barcode] = p`; a nil map makes it panic. -/
def regPart (h : Heap F G N) (e p : Nat) : Option (Heap F G N) :=
  (h.e e).particles.map fun m =>
    { h with e := put h.e e { h.e e with particles := some (mset m (h.p p).data.barcode p) } }

/-- `hepmc/hepmc.go:268-271 (`removeParticle`)` when the vertex comes from another event. -/
def unregPart (h : Heap F G N) (orig : Option Nat) (e p : Nat) : Heap F G N :=
  match orig with
  | none => h
  | some o =>
    if o = e then h else
    { h with e := put h.e o { h.e o with particles := (h.e o).particles.map fun m => mdel m (h.p p).data.barcode } }

/-- The loop over the incoming particles: `hepmc/hepmc.go:385-394 (`ParticlesIn`)`. -/
def regIn (orig : Option Nat) (e : Nat) : List Nat → Heap F G N → Option (Heap F G N)
  | [], h => some h
  | p :: ps, h =>
    if (h.p p).prod.isNone then (regPart h e p).bind fun h => regIn orig e ps (unregPart h orig e p)
    else regIn orig e ps h

/-- The loop over the outgoing particles: `hepmc/hepmc.go:396-403 (`ParticlesOut`)`. -/
def regOut (orig : Option Nat) (e : Nat) : List Nat → Heap F G N → Option (Heap F G N)
  | [], h => some h
  | p :: ps, h => (regPart h e p).bind fun h => regOut orig e ps (unregPart h orig e p)

/-- The barcode of a vertex, made when it is 0: `hepmc/hepmc.go:374-377 (`vBarcode`)`,
`hepmc/hepmc.go:273-277 (`vBarcode`)`. -/
def giveVBc (h : Heap F G N) (e v : Nat) : Heap F G N :=
  if (h.v v).data.barcode = 0 then
    { h with
      e := put h.e e { h.e e with bcverts := (h.e e).bcverts + 1 }
      v := put h.v v { h.v v with data := { (h.v v).data with barcode := -(((h.e e).bcverts : Int) + 1) } } }
  else h

/-- `hepmc/hepmc.go:91-99 (`AddVertex`)` and `hepmc/hepmc.go:367-405 (`setParentEvent`)`. -/
def addVertex (h : Heap F G N) (e v : Nat) : Option (Heap F G N) :=
  let orig := (h.v v).event
  let h := giveVBc { h with v := put h.v v { h.v v with event := some e } } e v
  (h.e e).vertices.bind fun m =>
  let h := { h with e := put h.e e { h.e e with vertices := some (mset m (h.v v).data.barcode v) } }
  let h := match orig with
    | none => h
    | some o =>
      if o = e then h else
      { h with e := put h.e o { h.e o with vertices := (h.e o).vertices.map fun m => mdel m (h.v v).data.barcode } }
  (regIn orig e (h.v v).pin h).bind fun h => regOut orig e (h.v v).pout h

/-- `hepmc/hepmc.go:461-482 (`removeParticleIn`)`: the first occurrence is removed. -/
def removeIn (h : Heap F G N) (v p : Nat) : Heap F G N :=
  { h with v := put h.v v { h.v v with pin := (h.v v).pin.erase p } }

/-- `hepmc/hepmc.go:484-506 (`removeParticleOut`)`. -/
def removeOut (h : Heap F G N) (v p : Nat) : Heap F G N :=
  { h with v := put h.v v { h.v v with pout := (h.v v).pout.erase p } }

/-- The barcode of a particle, made when it is 0: `hepmc/hepmc.go:426-428 (`pBarcode`)`,
`hepmc/hepmc.go:279-283 (`pBarcode`)`. -/
def givePBc (h : Heap F G N) (e p : Nat) : Heap F G N :=
  if (h.p p).data.barcode = 0 then
    { h with
      e := put h.e e { h.e e with bcparts := (h.e e).bcparts + 1 }
      p := put h.p p { h.p p with data := { (h.p p).data with barcode := ((h.e e).bcparts : Int) + 1 } } }
  else h

/-- `hepmc/hepmc.go:408-432 (`AddParticleIn`)`. -/
def addIn (h : Heap F G N) (v p : Nat) : Option (Heap F G N) :=
  let h := match (h.p p).fin with
    | none => h
    | some w => removeIn h w p
  let h := removeIn h v p
  (h.v v).event.bind fun e =>
  let h := givePBc h e p
  regPart { h with
    p := put h.p p { h.p p with fin := some v }
    v := put h.v v { h.v v with pin := (h.v v).pin ++ [p] } } e p

/-- `hepmc/hepmc.go:435-459 (`AddParticleOut`)`. -/
def addOut (h : Heap F G N) (v p : Nat) : Option (Heap F G N) :=
  let h := match (h.p p).prod with
    | none => h
    | some w => removeOut h w p
  let h := removeOut h v p
  (h.v v).event.bind fun e =>
  let h := givePBc h e p
  regPart { h with
    p := put h.p p { h.p p with prod := some v }
    v := put h.v v { h.v v with pout := (h.v v).pout ++ [p] } } e p

/-- What a program building one event does: make vertices and particles without barcodes
(`&hepmc.Vertex{...}`, `&hepmc.Particle{...}`), and put them together. -/
inductive Op (F : Type) where
  | newVertex (d : VData F)
  | newParticle (d : PData F)
  | addVertex (v : Nat)
  | addIn (v p : Nat)
  | addOut (v p : Nat)

/-- One operation on the event `e`; a program has no pointers to things not yet made. -/
def op (e : Nat) (h : Heap F G N) : Op F → Option (Heap F G N)
  | .newVertex d => some { h with nv := h.nv + 1, v := put h.v h.nv ⟨{ d with barcode := 0 }, [], [], none⟩ }
  | .newParticle d => some { h with np := h.np + 1, p := put h.p h.np ⟨{ d with barcode := 0 }, none, none⟩ }
  | .addVertex v => if v < h.nv then addVertex h e v else none
  | .addIn v p => if v < h.nv ∧ p < h.np then addIn h v p else none
  | .addOut v p => if v < h.nv ∧ p < h.np then addOut h v p else none

/-- A program building the event `e`. -/
def build (e : Nat) : List (Op F) → Heap F G N → Option (Heap F G N)
  | [], h => some h
  | o :: os, h => (op e h o).bind (build e os)

end Verif.HepMC
