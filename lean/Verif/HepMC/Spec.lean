import Verif.HepMC.Decode

/-!
# When two HepMC events are the same, and which events can be written

Nothing here refers to the text format, except the conditions that a file imposes on names
(no blanks) and on the length of lines.
-/

namespace Verif.HepMC

variable {F G N : Type}

/-- The vertices of an event. -/
def evVerts (e : Evt F G N) : List Nat := (mlist e.vertices).map Prod.snd

/-- The particles of an event. -/
def evParts (e : Evt F G N) : List Nat := (mlist e.particles).map Prod.snd

/-- The graph of an event is consistent: vertices and particles are found under their own
barcodes, the lists of a vertex contain exactly the particles of the event pointing to it,
each once, and particles point to vertices of the event only. -/
structure Sound (h : Heap F G N) (e : Evt F G N) : Prop where
  vkey : ∀ b v, (b, v) ∈ mlist e.vertices → (h.v v).data.barcode = b
  vnodup : ((mlist e.vertices).map Prod.fst).Nodup
  vne0 : ∀ v ∈ evVerts e, (h.v v).data.barcode ≠ 0
  pkey : ∀ b p, (b, p) ∈ mlist e.particles → (h.p p).data.barcode = b
  pnodup : ((mlist e.particles).map Prod.fst).Nodup
  pne0 : ∀ p ∈ evParts e, (h.p p).data.barcode ≠ 0
  in_iff : ∀ v ∈ evVerts e, ∀ p, p ∈ (h.v v).pin ↔ p ∈ evParts e ∧ (h.p p).fin = some v
  out_iff : ∀ v ∈ evVerts e, ∀ p, p ∈ (h.v v).pout ↔ p ∈ evParts e ∧ (h.p p).prod = some v
  in_nodup : ∀ v ∈ evVerts e, (h.v v).pin.Nodup
  out_nodup : ∀ v ∈ evVerts e, (h.v v).pout.Nodup
  fin_reg : ∀ p ∈ evParts e, ∀ v, (h.p p).fin = some v → v ∈ evVerts e
  prod_reg : ∀ p ∈ evParts e, ∀ v, (h.p p).prod = some v → v ∈ evVerts e

/-- An event that survives being written: its graph is consistent, it has a vertex, every
particle touches a vertex, the signal vertex and the beams belong to the event and the beams
end in a vertex, flow codes are a map, each weight has exactly one name and the names, when
quoted, contain no blank. -/
structure Writable (c : Fmt F G N) (h : Heap F G N) (e : Evt F G N) : Prop extends Sound h e where
  nonempty : evVerts e ≠ []
  attached : ∀ p ∈ evParts e, (h.p p).prod ≠ none ∨ (h.p p).fin ≠ none
  sig_in : ∀ v, e.sig = some v → v ∈ evVerts e
  beam1_in : ∀ p, e.beam1 = some p → p ∈ evParts e ∧ (h.p p).fin ≠ none
  beam2_in : ∀ p, e.beam2 = some p → p ∈ evParts e ∧ (h.p p).fin ≠ none
  flow_nodup : ∀ p ∈ evParts e, ((h.p p).data.flow.map Prod.fst).Nodup
  names_nodup : (e.wmap.map Prod.fst).Nodup
  names_all : (e.wmap.map Prod.snd).Perm (List.range (e.weights.getD []).length)
  blanks : ∀ q ∈ e.wmap, (32 : UInt8) ∉ c.q q.1

/-- The lines of a text are short enough for the scanner. -/
def ShortLines (bs : List UInt8) : Prop := ∀ l ∈ splitOn 10 bs, l.length < 65536

/-- A particle read is a particle written, pointers to vertices renamed by `ψ`; the map of
flow codes has the same entries. -/
structure SamePart (ψ : Nat → Nat) (p p' : Part F) : Prop where
  data : p'.data = { p.data with flow := p'.data.flow }
  flow : p'.data.flow.Perm p.data.flow
  prod : p'.prod = p.prod.map ψ
  fin : p'.fin = p.fin.map ψ

/-- A vertex read is a vertex written, pointers to particles renamed by `φ`; the lists have the
same members. -/
structure SameVtx (φ : Nat → Nat) (v v' : Vtx F) : Prop where
  data : v'.data = v.data
  pin : v'.pin.Perm (v.pin.map φ)
  pout : v'.pout.Perm (v.pout.map φ)

/-- The event `x'` in `h'` has the same graph as the event `x` in `h`, pointers to particles
renamed by `φ`, pointers to vertices by `ψ`. -/
structure SameGraph (φ ψ : Nat → Nat) (h : Heap F G N) (x : Evt F G N) (h' : Heap F G N) (x' : Evt F G N) : Prop where
  vertices : (mlist x'.vertices).Perm ((mlist x.vertices).map fun q => (q.1, ψ q.2))
  particles : (mlist x'.particles).Perm ((mlist x.particles).map fun q => (q.1, φ q.2))
  vtx : ∀ v ∈ evVerts x, SameVtx φ (h.v v) (h'.v (ψ v))
  part : ∀ p ∈ evParts x, SamePart ψ (h.p p) (h'.p (φ p))

/-- The values of the first line and the units are the same. -/
structure SameValues (x x' : Evt F G N) : Prop where
  sigId : x'.sigId = x.sigId
  number : x'.number = x.number
  mpi : x'.mpi = x.mpi
  scale : x'.scale = x.scale
  aqcd : x'.aqcd = x.aqcd
  aqed : x'.aqed = x.aqed
  rnd : x'.rnd = x.rnd
  weights : x'.weights.getD [] = x.weights.getD []
  mu : x'.mu = x.mu
  lu : x'.lu = x.lu

/-- The event `x'` is the event `x`: same graph, same values, same signal vertex and beams, same
names of weights, same cross section and heavy-ion data, and the same parton data, zeros
standing for none. -/
structure SameEvent (c : Fmt F G N) (φ ψ : Nat → Nat) (h : Heap F G N) (x : Evt F G N) (h' : Heap F G N) (x' : Evt F G N) :
    Prop where
  graph : SameGraph φ ψ h x h' x'
  values : SameValues x x'
  sig : x'.sig = x.sig.map ψ
  beam1 : x'.beam1 = x.beam1.map φ
  beam2 : x'.beam2 = x.beam2.map φ
  wmap : x'.wmap.Perm x.wmap
  cross : x'.cross = x.cross
  heavy : x'.heavy = x.heavy
  pdf : x'.pdf = some (x.pdf.getD ⟨0, 0, 0, 0, c.zero, c.zero, c.zero, c.zero, c.zero⟩)

/-- `var evt hepmc.Event`. -/
def zeroEvt (c : Fmt F G N) : Evt F G N :=
  ⟨0, 0, 0, c.zero, c.zero, c.zero, none, none, none, none, [], [], none, none, none, none, none, .mev, .mm, 0, 0⟩

end Verif.HepMC
