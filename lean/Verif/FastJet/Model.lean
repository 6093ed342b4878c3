/-!
# The jet clustering of fastjet

`fastjet/clustersequence.go`: the history of a clustering, inclusive and exclusive jets,
constituents.  Jets are values of any type `J` and distances of any type `F`; what the
algorithms and recombination schemes compute is given by an `Alg`.  Go panics are `none`.

Not modelled: the field `child` of the history (nothing reads it), the sum of energies, the
strategy `NlnN` (it panics), and the algorithms for which the scale panics.
-/

namespace Verif.FastJet

/-- What an algorithm, a radius and a recombination scheme compute:
fastjet/clustersequence.go:289-336 (`jetScaleForAlgorithm`), the distance of a pair in
fastjet/clustersequence.go:406-502 (`runN3Dumb`), the comparisons `<` and `>=` of numbers,
`math.Max`, and the interface fastjet/recombiner.go:14-19 (`Recombiner`); an error is `none`. -/
structure Alg (J F : Type) where
  scale : J → F
  dist : J → J → F
  lt : F → F → Bool
  ge : F → F → Bool
  fmax : F → F → F
  zero : F
  pt2 : J → F
  recombine : J → J → Option J
  preprocess : J → Option J

/-- fastjet/clustersequence.go:16-23 (`history`). -/
structure Hist (F : Type) where
  parent1 : Int
  parent2 : Int
  jet     : Int
  dij     : F
  maxdij  : F

/-- fastjet/clustersequence.go:25-29 (`inexistentParent`, `beamJetIndex`, `invalidIndex`). -/
def inexistentParent : Int := -2
def beamJetIndex : Int := -1
def invalidIndex : Int := -3

/-- fastjet/clustersequence.go:31-44 (`ClusterSequence`); a jet comes with its index `hidx` in
the history, see fastjet/jet.go:23-35 (`Jet`). -/
structure CS (J F : Type) where
  jets : List (J × Nat)
  hist : List (Hist F)
  initn : Nat

/-- fastjet/clustersequence.go:186-219 (`init`), the loop. -/
def initJets {J F : Type} (A : Alg J F) : Nat → List J → Option (List (J × Nat))
  | _, [] => some []
  | i, j :: js =>
    match A.preprocess j with
    | none => none
    | some j' => (initJets A (i + 1) js).map ((j', i) :: ·)

/-- fastjet/clustersequence.go:186-219 (`init`). -/
def init {J F : Type} (A : Alg J F) (js : List J) : Option (CS J F) :=
  (initJets A 0 js).map fun l =>
    { jets := l
      hist := (List.range js.length).map fun (i : Nat) =>
        ⟨inexistentParent, inexistentParent, (i : Int), A.zero, A.zero⟩
      initn := js.length }

/-- fastjet/clustersequence.go:427-436 (`ymin`): the smallest distance to the beam; the value and
where. -/
def beamMin {F : Type} (lt : F → F → Bool) : Nat → F × Nat → List F → F × Nat
  | _, r, [] => r
  | i, r, y :: ys => beamMin lt (i + 1) (if lt y r.1 then (y, i) else r) ys

/-- fastjet/clustersequence.go:438-470 (`ymin`), the inner loop. -/
def rowMin {J F : Type} (A : Alg J F) (i : Nat) (x : J) :
    Nat → F × Nat × Option Nat → List J → F × Nat × Option Nat
  | _, r, [] => r
  | j, r, y :: ys =>
    rowMin A i x (j + 1) (if A.lt (A.dist x y) r.1 then (A.dist x y, i, some j) else r) ys

/-- fastjet/clustersequence.go:438-470 (`ymin`), the outer loop. -/
def pairMin {J F : Type} (A : Alg J F) :
    Nat → F × Nat × Option Nat → List J → F × Nat × Option Nat
  | _, r, [] => r
  | i, r, x :: xs => pairMin A (i + 1) (rowMin A i x (i + 1) r xs) xs

/-- What to do next with the active jets: fastjet/clustersequence.go:424-470 (`ymin`).  The
distance, a jet, and a second one unless the first is combined with the beam. -/
def pick {J F : Type} (A : Alg J F) : List J → Option (F × Nat × Option Nat)
  | [] => none
  | x :: xs =>
    let b := beamMin A.lt 0 (A.scale x, 0) ((x :: xs).map A.scale)
    some (pairMin A 0 (b.1, b.2, none) (x :: xs))

/-- fastjet/clustersequence.go:371-403 (`addStepToHistory`). -/
def addStep {J F : Type} (A : Alg J F) (hist : List (Hist F)) (i1 i2 idx : Int) (dij : F) :
    Option (List (Hist F)) :=
  match hist.getLast? with
  | none => none
  | some l => some (hist ++ [⟨i1, i2, idx, dij, A.fmax dij l.maxdij⟩])

/-- fastjet/clustersequence.go:343-363 (`ijRecombinationStep`): the index of the new jet and the
clustering after it. -/
def ijStep {J F : Type} (A : Alg J F) (cs : CS J F) (i j : Nat) (dij : F) :
    Option (Nat × CS J F) :=
  match cs.jets[i]?, cs.jets[j]? with
  | some x, some y =>
    match A.recombine x.1 y.1 with
    | none => none
    | some k =>
      let khist := cs.hist.length
      match addStep A cs.hist (min x.2 y.2 : Nat) (max x.2 y.2 : Nat) cs.jets.length dij with
      | none => none
      | some h => some (cs.jets.length, { cs with jets := cs.jets ++ [(k, khist)], hist := h })
  | _, _ => none

/-- fastjet/clustersequence.go:365-369 (`ibRecombinationStep`). -/
def ibStep {J F : Type} (A : Alg J F) (cs : CS J F) (i : Nat) (dib : F) : Option (CS J F) :=
  match cs.jets[i]? with
  | none => none
  | some x =>
    (addStep A cs.hist x.2 beamJetIndex invalidIndex dib).map fun h => { cs with hist := h }

/-- One turn of the loop of fastjet/clustersequence.go:406-502 (`runN3Dumb`).  `act` holds the
indices of the active jets: the first `n` elements of the slice `jets`. -/
def step {J F : Type} (A : Alg J F) (cs : CS J F) (act : List Nat) : Option (CS J F × List Nat) :=
  match act.mapM (fun k => (cs.jets[k]?).map (·.1)) with
  | none => none
  | some js =>
    match pick A js with
    | none => none
    | some (y, ii, some jj) =>
      match act[ii]?, act[jj]? with
      | some i, some j =>
        match ijStep A cs i j y with
        | none => none
        | some (nn, cs') =>
          let a := act.set ii nn
          some (cs', (a.set jj (a.getLast?.getD 0)).dropLast)
      | _, _ => none
    | some (y, ii, none) =>
      match act[ii]? with
      | some i => (ibStep A cs i y).map fun cs' => (cs', (act.set ii (act.getLast?.getD 0)).dropLast)
      | none => none

/-- `n` turns of the loop. -/
def loop {J F : Type} (A : Alg J F) : Nat → CS J F → List Nat → Option (CS J F × List Nat)
  | 0, cs, act => some (cs, act)
  | n + 1, cs, act =>
    match step A cs act with
    | none => none
    | some r => loop A n r.1 r.2

/-- fastjet/clustersequence.go:46-72 (`NewClusterSequence`) with the strategy of
fastjet/clustersequence.go:406-502 (`runN3Dumb`). -/
def newClusterSequence {J F : Type} (A : Alg J F) (js : List J) : Option (CS J F) :=
  match init A js with
  | none => none
  | some cs => (loop A js.length cs (List.range js.length)).map (·.1)

/-- An index of a slice: `none` for a panic. -/
def at? {α : Type} (l : List α) (i : Int) : Option α := if 0 ≤ i then l[i.toNat]? else none

/-- `cs.jets[cs.history[i].jet]`. -/
def CS.jetOf {J F : Type} (cs : CS J F) (i : Int) : Option (J × Nat) :=
  match at? cs.hist i with
  | none => none
  | some h => at? cs.jets h.jet

/-- fastjet/clustersequence.go:249-287 (`addConstituents`); the depth of the recursion is bounded
by the first argument. -/
def addConstituents {J F : Type} (cs : CS J F) : Nat → J × Nat → Option (List (J × Nat))
  | 0, _ => none
  | fuel + 1, jet =>
    match cs.hist[jet.2]? with
    | none => none
    | some hh =>
      if hh.parent1 = inexistentParent then (cs.jets[jet.2]?).map fun j => [j]
      else
        match cs.jetOf hh.parent1 with
        | none => none
        | some j1 =>
          match addConstituents cs fuel j1 with
          | none => none
          | some sub1 =>
            if hh.parent2 = beamJetIndex then some sub1
            else
              match cs.jetOf hh.parent2 with
              | none => none
              | some j2 =>
                match addConstituents cs fuel j2 with
                | none => none
                | some sub2 => some (sub1 ++ sub2)

/-- fastjet/clustersequence.go:245-247 (`Constituents`). -/
def CS.constituents {J F : Type} (cs : CS J F) (jet : J × Nat) : Option (List (J × Nat)) :=
  addConstituents cs (cs.hist.length + 1) jet

/-- The three ways of fastjet/clustersequence.go:131-184 (`InclusiveJets`). -/
inductive Way where
  | kt | cambridge | other
deriving DecidableEq, Repr

/-- fastjet/clustersequence.go:131-184 (`InclusiveJets`), the loops; the list is the history from
its end. -/
def inclusiveLoop {J F : Type} (A : Alg J F) (cs : CS J F) (dcut : F) (w : Way) :
    List (Hist F) → Option (List (J × Nat))
  | [] => some []
  | h :: hs =>
    match w with
    | .kt =>
      if A.lt h.maxdij dcut then some []
      else if h.parent2 = beamJetIndex ∧ A.ge h.dij dcut = true then
        match cs.jetOf h.parent1 with
        | none => none
        | some j => (inclusiveLoop A cs dcut w hs).map (j :: ·)
      else inclusiveLoop A cs dcut w hs
    | .cambridge =>
      if h.parent2 ≠ beamJetIndex then some []
      else
        match cs.jetOf h.parent1 with
        | none => none
        | some j =>
          if A.ge (A.pt2 j.1) dcut = true then (inclusiveLoop A cs dcut w hs).map (j :: ·)
          else inclusiveLoop A cs dcut w hs
    | .other =>
      if h.parent2 ≠ beamJetIndex then inclusiveLoop A cs dcut w hs
      else
        match cs.jetOf h.parent1 with
        | none => none
        | some j =>
          if A.ge (A.pt2 j.1) dcut = true then (inclusiveLoop A cs dcut w hs).map (j :: ·)
          else inclusiveLoop A cs dcut w hs

/-- fastjet/clustersequence.go:131-184 (`InclusiveJets`); `dcut` is the square of `ptmin`. -/
def CS.inclusive {J F : Type} (A : Alg J F) (cs : CS J F) (w : Way) (dcut : F) :
    Option (List (J × Nat)) :=
  inclusiveLoop A cs dcut w cs.hist.reverse

/-- fastjet/clustersequence.go:76-87 (`NumExclusiveJets`). -/
def CS.numExclusive {J F : Type} (A : Alg J F) (cs : CS J F) (dcut : F) : Int :=
  2 * cs.initn - (cs.hist.reverse.dropWhile (fun h => !A.ge dcut h.maxdij)).length

/-- Results of the exclusive jets: an error, or a panic. -/
inductive Res (α : Type) where
  | ok (a : α) | error | panic
deriving DecidableEq, Repr

/-- fastjet/clustersequence.go:112-127 (`ljets`), the history elements the loop picks. -/
def picked {F : Type} (stoppt : Nat) (hs : List (Hist F)) : List Int :=
  hs.flatMap fun h =>
    (if h.parent1 < (stoppt : Int) then [h.parent1] else []) ++
    (if 0 < h.parent2 ∧ h.parent2 < (stoppt : Int) then [h.parent2] else [])

/-- fastjet/clustersequence.go:94-129 (`ExclusiveJetsUpTo`). -/
def CS.exclusiveUpTo {J F : Type} (cs : CS J F) (njets : Int) : Res (List (J × Nat)) :=
  if njets > cs.initn then .error
  else
    let stoppt := (max (2 * cs.initn - njets) cs.initn).toNat
    if 2 * cs.initn ≠ cs.hist.length then .error
    else if min njets cs.initn < 0 then .panic
    else
      match (picked stoppt (cs.hist.drop stoppt)).mapM cs.jetOf with
      | none => .panic
      | some l => .ok l

/-- fastjet/clustersequence.go:89-92 (`ExclusiveJets`). -/
def CS.exclusive {J F : Type} (A : Alg J F) (cs : CS J F) (dcut : F) : Res (List (J × Nat)) :=
  cs.exclusiveUpTo (cs.numExclusive A dcut)

end Verif.FastJet
