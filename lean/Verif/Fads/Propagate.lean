import Mathlib.Analysis.SpecialFunctions.Trigonometric.Inverse
import Mathlib.Analysis.SpecialFunctions.Complex.Arg

/-!
# Model of the propagation of particles in the detector (fads/propagator.go, C172)

The detector is a cylinder around the z axis with a magnetic field along it. Positions are in mm, the cylinder in m.
Simplified: arithmetic is exact, over the real numbers.
-/

namespace Verif.Fads.Propagate

noncomputable section

/-- fads/propagator.go:20-23 (`radius`), with radius2 of fads/propagator.go:36. -/
structure Cyl where
  radius : ℝ
  halflen : ℝ
  bz : ℝ

/-- What is used of a candidate, fads/datamodel.go:170-194 (`Candidate`). -/
structure Part where
  x : ℝ
  y : ℝ
  z : ℝ
  t : ℝ
  px : ℝ
  py : ℝ
  pz : ℝ
  e : ℝ
  q : Int
  pid : Int

structure Pos where
  x : ℝ
  y : ℝ
  z : ℝ
  t : ℝ

def hypot (a b : ℝ) : ℝ := √(a * a + b * b)

def atan2 (y x : ℝ) : ℝ := Complex.arg ⟨x, y⟩

/-- fads/propagator.go:147-164: when the line leaves the sides. -/
def sideTime (radius2 px py x y : ℝ) : Option ℝ :=
  if (px * px + py * py) * radius2 - (px * y - py * x) * (px * y - py * x) < 0 then none
  else if (-(px * x + py * y) + √((px * px + py * py) * radius2 - (px * y - py * x) * (px * y - py * x))) /
      (px * px + py * py) < 0 then
    some ((-(px * x + py * y) - √((px * px + py * py) * radius2 - (px * y - py * x) * (px * y - py * x))) /
      (px * px + py * py))
  else
    some ((-(px * x + py * y) + √((px * px + py * py) * radius2 - (px * y - py * x) * (px * y - py * x))) /
      (px * px + py * py))

/-- fads/propagator.go:169-179: unless it leaves the ends before. -/
def endTime (halflen z pz t : ℝ) : ℝ :=
  if halflen < |z + pz * t| then
    if (halflen - z) * (1 / pz) < 0 then (-halflen - z) * (1 / pz) else (halflen - z) * (1 / pz)
  else t

/-- The position at a time on the line, fads/propagator.go:181-187. -/
def onLine (p : Part) (t : ℝ) : Pos :=
  ⟨(p.x / 1000 + p.px * t) * 1000, (p.y / 1000 + p.py * t) * 1000, (p.z / 1000 + p.pz * t) * 1000,
    p.t + t * p.e * 1000⟩

/-- fads/propagator.go:145-187: without charge or without field. -/
def straight (c : Cyl) (p : Part) : Option Pos :=
  (sideTime (c.radius * c.radius) p.px p.py (p.x / 1000) (p.y / 1000)).map fun t =>
    onLine p (endTime c.halflen (p.z / 1000) p.pz t)

/-- fads/propagator.go:122 (`cLight`). -/
def cLight : ℝ := 299792458

/-- fads/propagator.go:213-215 (`gammam`, `omega`) -/
def gammam (p : Part) : ℝ := p.e * 10 ^ 9 / (cLight * cLight)

def omega (c : Cyl) (p : Part) : ℝ := p.q * c.bz / gammam p

/-- fads/propagator.go:215, the radius of the helix, with a sign. -/
def helixR (c : Cyl) (p : Part) : ℝ := hypot p.px p.py / (p.q * c.bz) * 10 ^ 9 / cLight

/-- fads/propagator.go:217-221 (`phi0`) -/
def phi0 (p : Part) : ℝ := atan2 p.py p.px

def axisX (c : Cyl) (p : Part) : ℝ := p.x / 1000 + helixR c p * Real.sin (phi0 p)

def axisY (c : Cyl) (p : Part) : ℝ := p.y / 1000 - helixR c p * Real.cos (phi0 p)

/-- fads/propagator.go:222-227 (`phic`) -/
def axisPhi (c : Cyl) (p : Part) : ℝ :=
  if axisX c p < 0 then atan2 (axisY c p) (axisX c p) + Real.pi else atan2 (axisY c p) (axisX c p)

/-- fads/propagator.go:233-243 (`tz`): the time to the ends. -/
def zTime (c : Cyl) (p : Part) : ℝ :=
  if p.pz = 0 then 10 ^ 99
  else gammam p / (p.pz * 10 ^ 9 / cLight) * (-(p.z / 1000) + c.halflen * if 0 < p.pz then 1 else -1)

/-- fads/propagator.go:252-258 (`delta`) -/
def wrapUp (d : ℝ) : ℝ := if d < -Real.pi then d + 2 * Real.pi else d

def wrapDown (d : ℝ) : ℝ := if Real.pi < d then d - 2 * Real.pi else d

/-- fads/propagator.go:267-284: times in the past are not considered. -/
def future (t : ℝ) : ℝ := if t < 0 then 10 ^ 99 else t

/-- fads/propagator.go:260-288 (`tr`), the time to the sides, from the angles `delta` and `asinrho`. -/
def rTime (d a w : ℝ) : ℝ :=
  min (min (future ((d + a) / w)) (min (future ((d + Real.pi - a) / w)) (future ((d + Real.pi + a) / w))))
    (min (future ((d - a) / w)) (min (future ((d - Real.pi - a) / w)) (future ((d - Real.pi + a) / w))))

/-- fads/propagator.go:251 (`asinrho`) -/
def asinrho (c : Cyl) (p : Part) : ℝ :=
  Real.arcsin ((c.radius * c.radius - hypot (axisX c p) (axisY c p) * hypot (axisX c p) (axisY c p) -
    helixR c p * helixR c p) * (1 / 2) / (|helixR c p| * hypot (axisX c p) (axisY c p)))

/-- fads/propagator.go:245-290: the time at which the helix ends. -/
def helixTime (c : Cyl) (p : Part) : ℝ :=
  if hypot (axisX c p) (axisY c p) + |helixR c p| < c.radius then zTime c p
  else min (rTime (wrapDown (wrapUp (phi0 p - axisPhi c p))) (asinrho c p) (omega c p)) (zTime c p)

/-- The position at a time on the helix, fads/propagator.go:292-301. -/
def onHelix (c : Cyl) (p : Part) (t : ℝ) : Pos :=
  ⟨(axisX c p + helixR c p * Real.sin (omega c p * t - phi0 p)) * 1000,
    (axisY c p + helixR c p * Real.cos (omega c p * t - phi0 p)) * 1000,
    (p.z / 1000 + p.pz * 10 ^ 9 / cLight / gammam p * t) * 1000, p.t + t * cLight * 1000⟩

/-- fads/propagator.go:202-317: with charge and field. -/
def helix (c : Cyl) (p : Part) : Option Pos :=
  if 0 < hypot (axisX c p + helixR c p * Real.sin (omega c p * helixTime c p - phi0 p))
      (axisY c p + helixR c p * Real.cos (omega c p * helixTime c p - phi0 p)) then
    some (onHelix c p (helixTime c p))
  else none

/-- The new position of a candidate, fads/propagator.go:126-319 (`Hypot`); `none` if it is not in the output. -/
def propagate (c : Cyl) (p : Part) : Option Pos :=
  if c.radius < hypot (p.x / 1000) (p.y / 1000) ∨ c.halflen < |p.z / 1000| then none
  else if p.px * p.px + p.py * p.py < 1 / 10 ^ 9 then none
  else if |(p.q : ℝ)| < 1 / 10 ^ 9 ∨ |c.bz| < 1 / 10 ^ 9 then straight c p
  else helix c p

/-- The lists of the charged candidates. -/
inductive Kind where
  | electron
  | muon
  | hadron
deriving DecidableEq

/-- fads/propagator.go:192-200 and fads/propagator.go:306-314 (`pid`). -/
def kind (pid : Int) : Kind :=
  if max pid 0 = 11 then .electron else if max pid 0 = 13 then .muon else .hadron

end

end Verif.Fads.Propagate
