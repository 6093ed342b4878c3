import Verif.Common.Search
import Mathlib.Order.Defs.LinearOrder
import Mathlib.Algebra.Field.Defs

/-!
# The grid of a calorimeter

Model of `EtaPhiGrid` of `fads`.  Numbers are those of a linear order (no not-a-number); centres of
cells are computed in a field.  A Go map from eta to the edges in phi is a list of pairs.
-/

namespace Verif.Fads

section

variable {K : Type} [LinearOrder K]

/-- Insertion into a sorted list. -/
def insSorted (x : K) : List K → List K
  | [] => [x]
  | y :: l => if x ≤ y then x :: y :: l else y :: insSorted x l

/-- `sort.Float64s` (and `sort.Sort` of integers): in a linear order there is only one sorted
permutation, so that the algorithm does not matter. -/
def sortL : List K → List K
  | [] => []
  | x :: l => insSorted x (sortL l)

/-- Whether the `i`-th number is not below `x`. -/
def geAt (l : List K) (x : K) (i : Nat) : Bool :=
  match l[i]? with
  | some y => decide (x ≤ y)
  | none => false

/-- `sort.SearchFloat64s`. -/
def searchL (l : List K) (x : K) : Nat := goSearch l.length (geAt l x)

/-- fads/calo.go:19-22 (`EtaPhiBin`). -/
structure EtaPhiBin (K : Type) where
  etaBins : List K
  phiBins : List K

/-- fads/calo.go:24-27 (`EtaPhiGrid`). -/
structure Grid (K : Type) where
  eta : List K
  phi : List (K × List K)

/-- Looking up in the map. -/
def lookup (e : K) : List (K × List K) → Option (List K)
  | [] => none
  | p :: m => if p.1 = e then some p.2 else lookup e m

/-- Setting an entry of the map. -/
def store (e : K) (v : List K) : List (K × List K) → List (K × List K)
  | [] => [(e, v)]
  | p :: m => if p.1 = e then (e, v) :: m else p :: store e v m

/-- fads/calo.go:53-59 (`SearchFloat64s`): one edge in phi. -/
def addPhi (phibins : List K) (phi : K) : List K :=
  if phibins[searchL phibins phi]? = some phi then phibins else sortL (phibins ++ [phi])

/-- fads/calo.go:46-61 (`phibins`): one edge in eta of a bin. -/
def addEta (phis : List K) (g : Grid K) (e : K) : Grid K :=
  match lookup e g.phi with
  | some old => ⟨g.eta, store e (phis.foldl addPhi (sortL old)) g.phi⟩
  | none => ⟨g.eta ++ [e], store e (phis.foldl addPhi []) g.phi⟩

/-- fads/calo.go:45-62 (`bin`). -/
def addBin (g : Grid K) (b : EtaPhiBin K) : Grid K := b.etaBins.foldl (addEta b.phiBins) g

/-- fads/calo.go:29-67 (`NewEtaPhiGrid`).  The capacities are left out. -/
def newGrid (bins : List (EtaPhiBin K)) : Grid K :=
  let g := bins.foldl addBin ⟨[], []⟩
  ⟨sortL g.eta, g.phi⟩

/-- The edges in phi: a missing entry of the map is a nil slice. -/
def Grid.phis (g : Grid K) (e : K) : List K := (lookup e g.phi).getD []

/-- fads/calo.go:71-93 (`EtaPhiIndex`). -/
def Grid.index (g : Grid K) (eta phi : K) : Int × Int × Bool :=
  let i := searchL g.eta eta
  match g.eta[i]? with
  | none => (-(i : Int), 0, false)
  | some etabin =>
    if i = 0 ∧ eta < etabin then (-1, 0, false)
    else
      let phibins := g.phis etabin
      let j := searchL phibins phi
      if j < phibins.length then ((i : Int), (j : Int), true) else ((i : Int), -(j : Int), false)

end

/-- fads/calo.go:96-115 (`EtaPhiBin`): the centre, for indices; `none` is an index out of range. -/
def Grid.bin {K : Type} [LinearOrder K] [Field K] (g : Grid K) (ieta iphi : Int) :
    Option (K × K × Bool) :=
  if (g.eta.length : Int) < ieta ∨ ieta ≤ 0 then some (0, 0, false)
  else
    match g.eta[ieta.toNat]?, g.eta[ieta.toNat - 1]? with
    | some eta, some eta0 =>
      let etac := 1 / 2 * (eta0 + eta)
      let phibins := g.phis eta
      if (phibins.length : Int) < iphi ∨ iphi ≤ 0 then some (etac, 0, false)
      else
        match phibins[iphi.toNat]?, phibins[iphi.toNat - 1]? with
        | some phi, some phi0 => some (etac, 1 / 2 * (phi0 + phi), true)
        | _, _ => none
    | _, _ => none

end Verif.Fads
