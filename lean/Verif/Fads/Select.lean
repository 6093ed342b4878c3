import Mathlib.Algebra.Field.Defs
import Mathlib.Order.Defs.LinearOrder
import Mathlib.Algebra.Order.Group.Abs

/-!
# Tasks on candidates

Model of the tasks of `fads` that merge, select and tag candidates.  Go compares candidates by
address, hence a candidate has one; what it consists of is a list, which copies share.  Random
numbers are parameters, as are the functions of momenta; energies are elements of an ordered
field.
-/

namespace Verif.Fads

/-- A four-momentum: fmom/pxpypze.go:14-16 (`PxPyPzE`). -/
structure P4 (K : Type) where
  px : K
  py : K
  pz : K
  e : K
deriving DecidableEq

/-- fmom/ops.go:114-118 (`src`). -/
def P4.add {K : Type} [Add K] (a b : P4 K) : P4 K := ⟨a.px + b.px, a.py + b.py, a.pz + b.pz, a.e + b.e⟩

/-- What is used of a candidate, without its constituents: fads/datamodel.go:170-194 (`Candidate`). -/
structure Obj (K : Type) where
  pid : Int
  charge : Int
  d1 : Int
  d2 : Int
  btag : BitVec 32
  tautag : BitVec 32
  edge0 : K
  edge1 : K
  poseta : K
  mom : P4 K
deriving DecidableEq

/-- A candidate at an address, with its constituents: fads/datamodel.go:193-193 (`Candidates`). -/
inductive Cand (K : Type) where
  | mk (addr : Nat) (obj : Obj K) (subs : List (Cand K))

namespace Cand

variable {K : Type}

def addr : Cand K → Nat
  | mk a _ _ => a

def obj : Cand K → Obj K
  | mk _ o _ => o

def subs : Cand K → List (Cand K)
  | mk _ _ s => s

/-- A copy of the value at another address, such as an element appended to a slice; the constituents
are shared. -/
def copyAt (a : Nat) : Cand K → Cand K
  | mk _ o s => mk a o s

/-- fads/datamodel.go:196-205 (`Clone`): at address `a`, the copies of the constituents in new slots
behind it. -/
def clone (a : Nat) : Cand K → Cand K
  | mk _ o s => mk a o (s.zipIdx.map fun x => x.1.copyAt (a + 1 + x.2))

mutual
/-- How deep the constituents are nested. -/
def height : Cand K → Nat
  | mk _ _ s => heightL s + 1
def heightL : List (Cand K) → Nat
  | [] => 0
  | c :: cs => max (height c) (heightL cs)
end

/-- fads/datamodel.go:219-239 (`Overlaps`), with a bound for the depth of the recursion. -/
def overlapsN : Nat → Cand K → Cand K → Bool
  | 0, _, _ => false
  | n + 1, c, o =>
    c.addr == o.addr || c.subs.any (fun cc => overlapsN n cc o) ||
      o.subs.any (fun oc => overlapsN n oc c)

/-- fads/datamodel.go:219-239 (`Overlaps`). -/
def overlaps (c o : Cand K) : Bool := overlapsN (c.height + o.height) c o

end Cand

section

variable {K : Type} [Field K] [LinearOrder K]

/-! ## Merger -/

/-- What the merger puts into the store. -/
structure Merged (K : Type) where
  output : List (Cand K)
  mom : P4 K
  ene : P4 K

/-- fads/merger.go:88-96 (`cand`): one candidate. -/
def mergeStep (pt : P4 K → K) (s : P4 K × K × K) (c : Cand K) : P4 K × K × K :=
  (s.1.add c.obj.mom, s.2.1 + pt c.obj.mom, s.2.2 + c.obj.mom.e)

/-- fads/merger.go:64-123 (`inputs`): `none` for a collection that is not in the store, which is an
error (what was read before is then put all the same, which is not modelled).  With an angle and a pseudo-rapidity of zero the sum of transverse momenta is along x. -/
def merge (pt : P4 K → K) (inputs : List (Option (List (Cand K)))) : Option (Merged K) :=
  if inputs.all Option.isSome then
    let all := inputs.flatMap fun i => i.getD []
    let r := all.foldl (mergeStep pt) (⟨0, 0, 0, 0⟩, 0, 0)
    some ⟨all, r.1, ⟨r.2.1, 0, 0, r.2.2⟩⟩
  else none

/-! ## Efficiency -/

/-- fads/efficiency.go:74-89 (`eff`): `rs` are the random numbers, one for each candidate. -/
def efficiency (pt : P4 K → K) (eff : K → K → K) (input : List (Cand K)) (rs : List K) :
    List (Cand K) :=
  ((input.zip rs).filter fun x => !decide (eff (pt x.1.obj.mom) x.1.obj.poseta < x.2)).map Prod.fst

/-! ## Unique objects -/

/-- fads/unique_obj_finder.go:91-102 (`unique`). -/
def foundBefore (before : List (List (Cand K))) (c : Cand K) : Bool :=
  before.any fun coll => coll.any fun o => c.overlaps o

/-- fads/unique_obj_finder.go:85-111 (`colls`). -/
def uniqueFrom : List (List (Cand K)) → List (List (Cand K)) → List (List (Cand K))
  | _, [] => []
  | before, coll :: colls => coll.filter (foundBefore before) :: uniqueFrom (before ++ [coll]) colls

/-- fads/unique_obj_finder.go:54-114 (`UniqueObjectFinder`), for collections which are all in the
store: the output collections. -/
def unique (colls : List (List (Cand K))) : List (List (Cand K)) := uniqueFrom [] colls

/-! ## Isolation -/

/-- fads/isolation.go:26-40 (`Isolation`). -/
structure IsoConf (K : Type) where
  deltaRMax : K
  ptRatioMax : K
  ptSumMax : K
  usePtSum : Bool
  ptMin : K

/-- fads/isolation.go:133-140 (`sum`). -/
def isoSum (pt : P4 K → K) (dR : P4 K → P4 K → K) (cf : IsoConf K) (input : List (Cand K))
    (c : Cand K) : K :=
  input.foldl (fun s o => if dR c.obj.mom o.obj.mom ≤ cf.deltaRMax ∧ c.overlaps o = false then
    s + pt o.obj.mom else s) 0

/-- fads/isolation.go:142-149 (`rho`). -/
def isoRho (pt : P4 K → K) (rhos : List (Cand K)) (eta : K) : K :=
  rhos.foldl (fun r o => if o.obj.edge0 ≤ eta ∧ eta < o.obj.edge1 then pt o.obj.mom else r) 0

/-- fads/isolation.go:130-159 (`ratio`): whether a candidate is kept. -/
def isoKeep (pt eta : P4 K → K) (dR : P4 K → P4 K → K) (pi : K) (cf : IsoConf K)
    (rhos input : List (Cand K)) (c : Cand K) : Bool :=
  let sum := isoSum pt dR cf input c -
    isoRho pt rhos (if eta c.obj.mom < 0 then -eta c.obj.mom else eta c.obj.mom) *
      (cf.deltaRMax * cf.deltaRMax) * pi
  !((cf.usePtSum && decide (cf.ptSumMax < sum)) || decide (cf.ptRatioMax < sum / pt c.obj.mom))

/-- fads/isolation.go:117-124 (`input`): the slots of a new slice get new addresses. -/
def isoInput (pt : P4 K → K) (cf : IsoConf K) (base : Nat) (isolations : List (Cand K)) :
    List (Cand K) :=
  (isolations.filter fun c => !decide (pt c.obj.mom < cf.ptMin)).zipIdx.map
    fun x => x.1.copyAt (base + x.2)

/-- fads/isolation.go:82-161 (`Process`): `none` is an index out of range.  `base` is an address
behind all others. -/
def isolation (pt eta : P4 K → K) (dR : P4 K → P4 K → K) (pi : K) (cf : IsoConf K) (base : Nat)
    (candidates isolations rhos : List (Cand K)) : Option (List (Cand K)) :=
  let input := isoInput pt cf base isolations
  if input = [] then some []
  else if input.length < candidates.length then none
  else some ((input.take candidates.length).filter (isoKeep pt eta dR pi cf rhos input))

/-! ## Tagging -/

/-- fads/btagging.go:23-37 (`btagclassifier`). -/
def isParton (pt eta : P4 K → K) (ptMin etaMax : K) (c : Cand K) : Bool :=
  !(decide (pt c.obj.mom ≤ ptMin) || decide (etaMax < |eta c.obj.mom|)) &&
    !(decide (c.obj.pid.natAbs ≠ 21) && decide (5 < c.obj.pid.natAbs))

/-- fads/btagging.go:136-150 (`pdgmax`). -/
def flavourStep (dR : P4 K → P4 K → K) (rmax : K) (jet : P4 K) (pdgmax : Int) (c : Cand K) : Int :=
  let pdg : Int := if c.obj.pid.natAbs = 21 then 0 else c.obj.pid.natAbs
  if dR jet c.obj.mom < rmax ∧ pdgmax < pdg then pdg else pdgmax

/-- fads/btagging.go:132-157 (`pdgmax`). -/
def flavour (dR : P4 K → P4 K → K) (rmax : K) (jet : P4 K) (partons : List (Cand K)) : Int :=
  match partons.foldl (flavourStep dR rmax jet) (-1) with
  | 0 => 21
  | -1 => 0
  | n => n

/-- fads/btagging.go:159-167 (`eff`): calling a function which is not there panics. -/
def effOf (eff : Int → Option (K → K → K)) (pdg : Int) : Option (K → K → K) :=
  match eff pdg with
  | some f => some f
  | none => eff 0

/-- fads/btagging.go:130-174 (`jet`): a jet with its tag. -/
def btagJet (pt eta : P4 K → K) (dR : P4 K → P4 K → K) (rmax : K) (bit : Nat)
    (eff : Int → Option (K → K → K)) (partons : List (Cand K)) (x : Cand K × K) : Option (Obj K) :=
  match effOf eff (flavour dR rmax x.1.obj.mom partons) with
  | none => none
  | some f =>
    let tag : BitVec 32 := if x.2 ≤ f (pt x.1.obj.mom) (eta x.1.obj.mom) then 1 else 0
    some { x.1.obj with btag := x.1.obj.btag ||| tag <<< bit }

/-- fads/btagging.go:94-178 (`Process`): the jets that are put into the store.  The tagged jets are
collected in `output`, but what is put are the jets (fads/btagging.go:113-116, `jets`). -/
def btagging (pt eta : P4 K → K) (dR : P4 K → P4 K → K) (rmax ptMin etaMax : K) (bit : Nat)
    (eff : Int → Option (K → K → K)) (allpartons jets : List (Cand K)) (rs : List K) :
    Option (List (Obj K)) :=
  let partons := allpartons.filter (isParton pt eta ptMin etaMax)
  match (jets.zip rs).mapM (btagJet pt eta dR rmax bit eff partons) with
  | none => none
  | some _ => some (jets.map Cand.obj)

/-- The indices from `a`, `n` of them. -/
def rangeI (a : Int) : Nat → List Int
  | 0 => []
  | n + 1 => a :: rangeI (a + 1) n

/-- An element of a slice; `none` is an index out of range. -/
def atI (l : List (Cand K)) (i : Int) : Option (Cand K) := if i < 0 then none else l[i.toNat]?

/-- fads/tautagging.go:42-50 (`daughter`): daughters which mean a leptonic decay (or none). -/
def leptonic (c : Cand K) : Bool :=
  c.obj.pid.natAbs == 11 || c.obj.pid.natAbs == 13 || c.obj.pid.natAbs == 15 || c.obj.pid.natAbs == 24

/-- fads/tautagging.go:41-51 (`daughter`): the loop, which ends at the first such daughter. -/
def anyLeptonic (particles : List (Cand K)) : List Int → Option Bool
  | [] => some false
  | i :: is =>
    match atI particles i with
    | none => none
    | some c => if leptonic c then some true else anyLeptonic particles is

/-- fads/tautagging.go:23-53 (`Category`). -/
def isTau (pt eta : P4 K → K) (ptMin etaMax : K) (particles : List (Cand K)) (c : Cand K) :
    Option Bool :=
  if c.obj.pid.natAbs ≠ 15 then some false
  else if pt c.obj.mom ≤ ptMin ∨ etaMax < |eta c.obj.mom| then some false
  else if c.obj.d1 < 0 then some false
  else (anyLeptonic particles (rangeI c.obj.d1 (c.obj.d2 + 1 - c.obj.d1).toNat)).map (!·)

/-- fads/tautagging.go:145-152 (`allpartons`). -/
def taus (pt eta : P4 K → K) (ptMin etaMax : K) (particles : List (Cand K)) :
    List (Cand K) → Option (List (Cand K))
  | [] => some []
  | c :: cs =>
    match isTau pt eta ptMin etaMax particles c, taus pt eta ptMin etaMax particles cs with
    | some b, some r => some (if b then c :: r else r)
    | _, _ => none

/-- fads/tautagging.go:174-181 (`daughter`): the sum of momenta over the given daughters, without
tau neutrinos. -/
def sumDaughters (particles : List (Cand K)) : P4 K → List Int → Option (P4 K)
  | s, [] => some s
  | s, i :: is =>
    match atI particles i with
    | none => none
    | some c => sumDaughters particles (if c.obj.pid.natAbs = 16 then s else s.add c.obj.mom) is

/-- fads/tautagging.go:173-181 (`p4`): the loop ends before the last daughter. -/
def visible (particles : List (Cand K)) (c : Cand K) : Option (P4 K) :=
  sumDaughters particles ⟨0, 0, 0, 0⟩ (rangeI c.obj.d1 (c.obj.d2 - c.obj.d1).toNat)

/-- fads/tautagging.go:167-187 (`taus`): flavour and charge of a jet. -/
def tauMatch (dR : P4 K → P4 K → K) (rmax : K) (particles : List (Cand K)) (jet : P4 K) :
    List (Cand K) → Int × Int → Option (Int × Int)
  | [], r => some r
  | c :: cs, r =>
    if c.obj.d1 < 0 then tauMatch dR rmax particles jet cs r
    else
      match visible particles c with
      | none => none
      | some v =>
        tauMatch dR rmax particles jet cs (if dR jet v < rmax then (15, c.obj.charge) else r)

/-- fads/tautagging.go:154-205 (`jet`): a jet with its tag; the random numbers are the one for the
charge and the one for the efficiency. -/
def tauJet (pt eta : P4 K → K) (dR : P4 K → P4 K → K) (rmax : K) (eff : Int → Option (K → K → K))
    (particles ts : List (Cand K)) (x : Cand K × K × K) : Option (Obj K) :=
  match tauMatch dR rmax particles x.1.obj.mom ts (0, if 1 / 2 < x.2.1 then 1 else -1) with
  | none => none
  | some r =>
    match effOf eff r.1 with
    | none => none
    | some f =>
      some { x.1.obj with
        tautag := if x.2.2 ≤ f (pt x.1.obj.mom) (eta x.1.obj.mom) then 1 else 0
        charge := r.2 }

/-- fads/tautagging.go:110-209 (`Process`). -/
def tautagging (pt eta : P4 K → K) (dR : P4 K → P4 K → K) (rmax ptMin etaMax : K)
    (eff : Int → Option (K → K → K)) (particles allpartons jets : List (Cand K)) (rs : List (K × K)) :
    Option (List (Obj K)) :=
  match taus pt eta ptMin etaMax particles allpartons with
  | none => none
  | some ts => (jets.zip rs).mapM (tauJet pt eta dR rmax eff particles ts)

end

end Verif.Fads
