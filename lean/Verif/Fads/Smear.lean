import Verif.Fmom.P4

/-!
# Model of the tasks that change energies and momenta (fads/energy_scale.go, energy_smearing.go, momentum_smearing.go, C177)

Simplified: arithmetic is exact, over the real numbers. Random numbers are a parameter: `rnd i mu sigma` is the number drawn for
the i-th candidate around `mu` with width `sigma`.
-/

namespace Verif.Fads.Smear

open Verif.Fmom Real

/-- A candidate, fads/datamodel.go:170-194 (`Candidate`); `R` is all else it has. -/
inductive Cand (R : Type) where
  | mk (rest : R) (mom pos : Vec4) (subs : List (Cand R))

namespace Cand

variable {R : Type}

def rest : Cand R → R
  | mk r _ _ _ => r

def mom : Cand R → Vec4
  | mk _ m _ _ => m

def pos : Cand R → Vec4
  | mk _ _ p _ => p

def subs : Cand R → List (Cand R)
  | mk _ _ _ s => s

/-- fads/datamodel.go:196-205 (`Clone`), which copies the constituents. -/
def clone (c : Cand R) : Cand R := mk c.rest c.mom c.pos c.subs

def setMom (c : Cand R) (m : Vec4) : Cand R := mk c.rest m c.pos c.subs

/-- fads/datamodel.go:215-217 (`Add`) -/
def add (c d : Cand R) : Cand R := mk c.rest c.mom c.pos (c.subs ++ [d])

end Cand

variable {R : Type}

noncomputable section

/-- fads/energy_scale.go:71-83 (`scale`): one candidate. -/
def scaleOne (f : ℝ → ℝ → ℝ) (c : Cand R) : Cand R :=
  if 0 < f (pxPyPzE c.clone.mom).pt (pxPyPzE c.clone.mom).eta then
    c.clone.setMom (scale (f (pxPyPzE c.clone.mom).pt (pxPyPzE c.clone.mom).eta) ⟨.pxPyPzE, c.clone.mom⟩).vec
  else c.clone

/-- fads/energy_scale.go:51-89 (`Process`) -/
def energyScale (f : ℝ → ℝ → ℝ) (input : List (Cand R)) : List (Cand R) := input.map (scaleOne f)

/-- fads/energy_smearing.go:91-102 (`pxs`): the candidate with energy `ene`. -/
def withEnergy (c : Cand R) (ene : ℝ) : Cand R :=
  (c.clone.setMom
    ⟨ene / cosh (pxPyPzE c.mom).eta * cos (pxPyPzE c.mom).phi, ene / cosh (pxPyPzE c.mom).eta * sin (pxPyPzE c.mom).phi,
      ene / cosh (pxPyPzE c.mom).eta * sinh (pxPyPzE c.mom).eta, ene⟩).add c

/-- fads/energy_smearing.go:76-105 (`smearEne`), from the i-th candidate. -/
def energySmearing (smear : ℝ → ℝ → ℝ) (rnd : Nat → ℝ → ℝ → ℝ) : Nat → List (Cand R) → List (Cand R)
  | _, [] => []
  | i, c :: cs =>
    if rnd i (pxPyPzE c.mom).e (smear (pxPyPzE c.pos).eta (pxPyPzE c.mom).e) ≤ 0 then energySmearing smear rnd (i + 1) cs
    else
      withEnergy c (rnd i (pxPyPzE c.mom).e (smear (pxPyPzE c.pos).eta (pxPyPzE c.mom).e)) ::
        energySmearing smear rnd (i + 1) cs

/-- fads/momentum_smearing.go:91-101 (`pxs`): the candidate with transverse momentum `pt`. -/
def withPt (c : Cand R) (pt : ℝ) : Cand R :=
  (c.clone.setMom
    ⟨pt * cos (pxPyPzE c.mom).phi, pt * sin (pxPyPzE c.mom).phi, pt * sinh (pxPyPzE c.mom).eta,
      pt * cosh (pxPyPzE c.mom).eta⟩).add c

/-- fads/momentum_smearing.go:76-104 (`smearPt`), from the i-th candidate. -/
def momentumSmearing (smear : ℝ → ℝ → ℝ) (rnd : Nat → ℝ → ℝ → ℝ) : Nat → List (Cand R) → List (Cand R)
  | _, [] => []
  | i, c :: cs =>
    if rnd i (pxPyPzE c.mom).pt (smear (pxPyPzE c.mom).pt (pxPyPzE c.pos).eta * (pxPyPzE c.mom).pt) ≤ 0 then
      momentumSmearing smear rnd (i + 1) cs
    else
      withPt c (rnd i (pxPyPzE c.mom).pt (smear (pxPyPzE c.mom).pt (pxPyPzE c.pos).eta * (pxPyPzE c.mom).pt)) ::
        momentumSmearing smear rnd (i + 1) cs

end

/-- The error of a task, fads/energy_smearing.go:57-109 (`Process`): `get` is that of reading the input, `put` that of writing
the output, which is written when the result has been given. -/
def taskErr {E : Type} (get _put : Option E) : Option E :=
  match get with
  | some e => some e
  | none => none

end Verif.Fads.Smear
