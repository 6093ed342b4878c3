import Verif.Fads.Grid
import Mathlib.Algebra.Field.Defs
import Mathlib.Order.Nat

/-!
# Towers of the calorimeter

Model of `Calorimeter.Process` of `fads`: particles and tracks are put into the cells of the grid as
numbers that hold the indices of the cell, flags and the index of the particle; the numbers of a
cell are sorted and unpacked.  The energies are then smeared with random numbers: that is a
parameter here.  Energies are elements of an ordered field.
-/

namespace Verif.Fads

section

variable {K : Type} [Field K] [LinearOrder K]

/-- What is used of a candidate: fads/datamodel.go:170-194 (`Candidate`), with the pseudo-rapidity,
the azimuthal angle and the time of its position, and its energy. -/
structure Part (K : Type) where
  pid : Int
  eta : K
  phi : K
  t : K
  e : K
deriving DecidableEq

/-- fads/calo.go:147-150 (`EneFrac`). -/
structure Frac (K : Type) where
  ecal : K
  hcal : K

/-- fads/calo.go:278-286 (`efrac`), fads/calo.go:321-329 (`efrac`): the fractions by kind of
particle. A missing entry of the map has zero fractions. -/
def fracOf (m : Int → Option (Frac K)) (pid : Int) : Frac K :=
  match m pid.natAbs with
  | some f => f
  | none => (m 0).getD ⟨0, 0⟩

/-- fads/calo.go:291-294 (`frac`), fads/calo.go:334-337 (`frac`). -/
def tooSmall (f : Frac K) : Bool :=
  decide (f.ecal < 1 / 10 ^ 9) && decide (f.hcal < 1 / 10 ^ 9)

/-- fads/calo.go:308-311 (`hit`), fads/calo.go:348-351 (`hit`): an `int64`, here a natural number,
as the indices of a cell that is found are not negative. -/
def pack (etabin phibin flags i : Nat) : Nat :=
  etabin <<< 48 ||| phibin <<< 32 ||| flags <<< 24 ||| i

/-- fads/calo.go:303-306 (`flags`). -/
def partFlags (pid : Int) : Nat := if pid.natAbs = 11 ∨ pid.natAbs = 22 then 2 else 0

/-- fads/calo.go:291-311 (`EtaPhiIndex`), fads/calo.go:334-351 (`EtaPhiIndex`). -/
def hitOf (g : Grid K) (m : Int → Option (Frac K)) (flags : Int → Nat) (x : Part K × Nat) :
    Option Nat :=
  if tooSmall (fracOf m x.1.pid) then none
  else
    match g.index x.1.eta x.1.phi with
    | (a, b, true) => some (pack a.toNat b.toNat (flags x.1.pid) x.2)
    | (_, _, false) => none

/-- fads/calo.go:312-312 (`towerid`), fads/calo.go:352-352 (`towerid`). -/
def towerId (hit : Nat) : Nat := hit >>> 32

/-- fads/calo.go:313-313 (`append`), fads/calo.go:353-353 (`append`): the map of hits. -/
def addHit (hit : Nat) : List (Nat × List Nat) → List (Nat × List Nat)
  | [] => [(towerId hit, [hit])]
  | p :: m => if p.1 = towerId hit then (p.1, p.2 ++ [hit]) :: m else p :: addHit hit m

/-- fads/calo.go:274-314 (`parts`), fads/calo.go:317-354 (`tracks`). -/
def allHits (g : Grid K) (m : Int → Option (Frac K)) (parts tracks : List (Part K)) : List Nat :=
  parts.zipIdx.filterMap (hitOf g m partFlags) ++ tracks.zipIdx.filterMap (hitOf g m fun _ => 1)

/-- fads/calo.go:117-128 (`etwData`), with the square root a parameter. -/
structure Etw (K : Type) where
  ene : K
  time : K
  weight : K

/-- fads/calo.go:123-128 (`Add`). -/
def Etw.add (sqrt : K → K) (w : Etw K) (ene t : K) : Etw K :=
  ⟨w.ene + ene, w.time + sqrt ene * t, w.weight + sqrt ene⟩

/-- fads/calo.go:135-145 (`caloTower`), with the candidates of the tower. -/
structure Tower (K : Type) where
  eta : K
  phi : K
  edges : List K
  ecal : Etw K
  hcal : Etw K
  trackHits : Nat
  photonHits : Nat
  parts : List (Part K)

/-- fads/calo.go:403-435 (`hit`): `none` is an index out of range.  The energies of tracks are summed
up as well, but the sums are not used. -/
def stepHit (m : Int → Option (Frac K)) (sqrt : K → K) (parts tracks : List (Part K)) (w : Tower K)
    (hit : Nat) : Option (Tower K) :=
  let flags := hit >>> 24 &&& 0xFF
  let n := hit &&& 0xFFFFFF
  if flags &&& 1 ≠ 0 then
    match tracks[n]? with
    | none => none
    | some _ => some { w with trackHits := w.trackHits + 1 }
  else
    match parts[n]? with
    | none => none
    | some p =>
      some { w with
        photonHits := if flags &&& 2 ≠ 0 then w.photonHits + 1 else w.photonHits
        ecal := w.ecal.add sqrt (p.e * (fracOf m p.pid).ecal) p.t
        hcal := w.hcal.add sqrt (p.e * (fracOf m p.pid).hcal) p.t
        parts := w.parts ++ [p] }

/-- All hits of a tower. -/
def stepHits (m : Int → Option (Frac K)) (sqrt : K → K) (parts tracks : List (Part K)) :
    Tower K → List Nat → Option (Tower K)
  | w, [] => some w
  | w, h :: hs =>
    match stepHit m sqrt parts tracks w h with
    | none => none
    | some w' => stepHits m sqrt parts tracks w' hs

/-- The result of a step: a value, an error or a panic. -/
inductive Res (α : Type) where
  | ok (a : α)
  | err
  | panic

/-- fads/calo.go:374-395 (`calotower`): the tower of a cell without its hits. -/
def emptyTower (g : Grid K) (ieta iphi : Nat) : Res (Tower K) :=
  match g.bin ieta iphi with
  | none => .panic
  | some (_, _, false) => .err
  | some (eta, phi, true) =>
    match g.eta[ieta - 1]?, g.eta[ieta]? with
    | some e0, some e =>
      match (g.phis e)[iphi - 1]?, (g.phis e)[iphi]? with
      | some p0, some p => .ok ⟨eta, phi, [e0, e, p0, p], ⟨0, 0, 0⟩, ⟨0, 0, 0⟩, 0, 0, []⟩
      | _, _ => .panic
    | _, _ => .panic

/-- fads/calo.go:373-435 (`towerid`): one tower, with its sorted hits. -/
def towerOf (g : Grid K) (m : Int → Option (Frac K)) (sqrt : K → K) (parts tracks : List (Part K))
    (x : Nat × List Nat) : Res (Tower K) :=
  match emptyTower g (x.1 >>> 16 &&& 0xFFFF) (x.1 &&& 0xFFFF) with
  | .err => .err
  | .panic => .panic
  | .ok w =>
    match stepHits m sqrt parts tracks w x.2 with
    | none => .panic
    | some w' => .ok w'

/-- One tower after the other; an error ends the loop.  (What was done so far is still put into the
store, together with the error.) -/
def towersOf (g : Grid K) (m : Int → Option (Frac K)) (sqrt : K → K) (parts tracks : List (Part K)) :
    List (Nat × List Nat) → Res (List (Tower K))
  | [] => .ok []
  | x :: xs =>
    match towerOf g m sqrt parts tracks x with
    | .err => .err
    | .panic => .panic
    | .ok w =>
      match towersOf g m sqrt parts tracks xs with
      | .err => .err
      | .panic => .panic
      | .ok ws => .ok (w :: ws)

/-- Looking up hits in the map. -/
def hitsAt (k : Nat) : List (Nat × List Nat) → List Nat
  | [] => []
  | p :: m => if p.1 = k then p.2 else hitsAt k m

/-- fads/calo.go:356-368 (`sort`): the towers with their hits.  `order` are the keys of the map in
the order in which the loop visits them. -/
def sortedHits (hm : List (Nat × List Nat)) (order : List Nat) : List (Nat × List Nat) :=
  (sortL order).map fun k => (k, sortL (hitsAt k hm))

/-- fads/calo.go:226-435 (`Process`): the towers before their energies are smeared. -/
def process (g : Grid K) (m : Int → Option (Frac K)) (sqrt : K → K) (parts tracks : List (Part K))
    (order : List Nat) : Res (List (Tower K)) :=
  towersOf g m sqrt parts tracks
    (sortedHits ((allHits g m parts tracks).foldl (fun hm h => addHit h hm) []) order)

/-- fads/calo.go:479-491 (`lognormal`), over the real numbers with their square root, logarithm and
exponential function as parameters; `gauss` is the random number. -/
def lognormal (sqrt log exp : K → K) (mean sigma gauss : K) : K :=
  if mean ≤ 0 then 0
  else
    let b := sqrt (log (1 + sigma * sigma / (mean * mean)))
    let a := log mean - 1 / 2 * b * b
    exp (a + gauss)

/-- fads/calo.go:451-473 (`towers`): towers and photons, `smear` giving the smeared electromagnetic and
hadronic energies of a tower. -/
def outputs (smear : Tower K → K × K) (ws : List (Tower K)) : List (Tower K) × List (Tower K) :=
  let out := ws.filter fun w => decide (0 < (smear w).1 + (smear w).2)
  (out, out.filter fun w => decide (0 < w.photonHits) && decide (w.trackHits = 0))

end

end Verif.Fads
