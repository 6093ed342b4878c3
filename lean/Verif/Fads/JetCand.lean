import Mathlib.Algebra.Field.Defs
import Mathlib.Order.Defs.LinearOrder

/-!
# Model of the task that finds jets (fads/fastjet_finder.go, C180)

The jets come from the clustering, which is modelled elsewhere (C06 and following), sorted. Momenta are of a type `V`; distances in
pseudo-rapidity and azimuth, and the square root of the energy, are parameters. Simplified: arithmetic is exact, in a field.
-/

namespace Verif.Fads.JetCand

/-- What is used of a candidate of the input, fads/datamodel.go:170-194 (`Candidate`). -/
structure Part (K V : Type) where
  mom : V
  /-- the square root of the energy -/
  esqrt : K
  time : K

/-- A jet: its momentum, and the indices of its constituents, which the clustering gives or fails to give,
fads/fastjet_finder.go:116-122 (`UserInfo`). -/
structure Jet (V : Type) where
  mom : V
  csts : Option (List Nat)

/-- A candidate of the output. -/
structure Cand (K V : Type) where
  mom : V
  subs : List (Part K V)
  time : K
  deta : K
  dphi : K

variable {K V : Type} [Field K] [LinearOrder K]

/-- fads/fastjet_finder.go:178-183 (`detaMax`) -/
def larger (m d : K) : K := if m < d then d else m

/-- The state of the loops: the widths, and the sums for the time. -/
structure Sums (K : Type) where
  deta : K
  dphi : K
  time : K
  wtime : K

/-- fads/fastjet_finder.go:173-190 (`cst`): one constituent. -/
def cstStep (deta dphi : V → V → K) (jet : V) (s : Sums K) (c : Part K V) : Sums K :=
  ⟨larger s.deta (deta jet c.mom), larger s.dphi (dphi jet c.mom), s.time + c.esqrt * c.time, s.wtime + c.esqrt⟩

/-- The constituents: an index beyond the input panics. -/
def pick (input : List (Part K V)) : List Nat → Option (List (Part K V))
  | [] => some []
  | i :: is => (input[i]?).bind fun c => (pick input is).map (c :: ·)

/-- fads/fastjet_finder.go:148-198 (`outjets`): the candidates, and whether there is an error; `none`: panic. -/
def loop (deta dphi : V → V → K) (input : List (Part K V)) : K → K → List (Jet V) → Option (List (Cand K V) × Bool)
  | _, _, [] => some ([], false)
  | de, dp, j :: js =>
    match j.csts with
    | none => some ([], true)
    | some is =>
      (pick input is).bind fun cs =>
        let s := cs.foldl (cstStep deta dphi j.mom) ⟨de, dp, 0, 0⟩
        (loop deta dphi input s.deta s.dphi js).map fun r => (⟨j.mom, cs, s.time / s.wtime, s.deta, s.dphi⟩ :: r.1, r.2)

/-- fads/fastjet_finder.go:100-202 (`Process`), after the clustering: what is stored, and whether an error is given. The error of
storing is lost. -/
def process (deta dphi : V → V → K) (input : List (Part K V)) (js : List (Jet V)) : Option (List (Cand K V) × Bool) :=
  loop deta dphi input 0 0 js

end Verif.Fads.JetCand
