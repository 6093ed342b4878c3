import Mathlib.Analysis.SpecialFunctions.Log.Basic
import Mathlib.Analysis.SpecialFunctions.Trigonometric.Basic
import Mathlib.Analysis.SpecialFunctions.Complex.Arg
import Mathlib.Algebra.Order.Floor.Defs

/-!
# Model of `fmom`: four-momenta in five representations

Numbers are real: there is no rounding, no overflow, no infinity and no signed zero.  Where the
code returns an infinity or divides by zero the model returns some real number; the theorems have
hypotheses that exclude these cases.
-/

namespace Verif.Fmom
open Real

/-- fmom/p4.go:34-37 (`Vec4`). -/
structure Vec4 where
  x : ℝ
  y : ℝ
  z : ℝ
  t : ℝ

/-- `sign := 1.0; if e < 0 { sign = -1.0 }`, as in most getters. -/
noncomputable def sgn (e : ℝ) : ℝ := if e < 0 then -1 else 1

/-- `math.Atan2(y, x)`. -/
noncomputable def atan2 (y x : ℝ) : ℝ := Complex.arg ⟨x, y⟩

/-- The getters of `P4`, fmom/p4.go:8-31 (`P4`). -/
structure Getters where
  px : ℝ
  py : ℝ
  pz : ℝ
  m : ℝ
  m2 : ℝ
  p : ℝ
  p2 : ℝ
  eta : ℝ
  rapidity : ℝ
  phi : ℝ
  e : ℝ
  et : ℝ
  pt : ℝ
  ipt : ℝ
  cosPhi : ℝ
  sinPhi : ℝ
  cosTh : ℝ
  sinTh : ℝ
  cotTh : ℝ
  tanTh : ℝ

/-- fmom/eetaphim.go:105-109 (`SinTh`), also of `EtEtaPhiM` and `PtEtaPhiM`. -/
noncomputable def sinTh (eta : ℝ) : ℝ := 1 / cosh (min |eta| 710)

/-- fmom/eetaphim.go:81-93 (`TanTh`), also of `EtEtaPhiM` and `PtEtaPhiM`. -/
noncomputable def tanTh (eta : ℝ) : ℝ :=
  let eta := if 710 < |eta| then (if 0 < eta then 710 else -710) else eta
  1 / sinh eta

/-- fmom/pxpypze.go:32-194 (`Px`, `M2`, `M`, `Eta`, `Phi`, `P2`, `P`, `CosPhi`, `TanTh`, `CotTh`,
`CosTh`, `Pt`, `Et`, `IPt`, `Rapidity`).  The infinite values of `Eta` and `Rapidity` are 0 here. -/
noncomputable def pxPyPzE (v : Vec4) : Getters :=
  let m2 := v.t * v.t - (v.x * v.x + v.y * v.y + v.z * v.z)
  let p2 := v.x * v.x + v.y * v.y + v.z * v.z
  let p := sgn v.t * √p2
  let pt := sgn v.t * √(v.x * v.x + v.y * v.y)
  { px := v.x, py := v.y, pz := v.z, e := v.t
    m2 := m2
    m := if m2 < 0 then -√(-m2) else √m2
    eta :=
      let p := √(v.x * v.x + v.y * v.y + v.z * v.z)
      if p = 0 then 0 else if p = v.z then 0 else if p = -v.z then 0
      else sgn v.t * 0.5 * log ((p + v.z) / (p - v.z))
    phi :=
      let px := sgn v.t * v.x
      let py := sgn v.t * v.y
      if px = 0 ∧ py = 0 then 0 else atan2 py px
    p2 := p2, p := p
    ipt := 1 / pt, cosPhi := v.x * (1 / pt), sinPhi := v.y * (1 / pt)
    tanTh := pt / v.z, cotTh := v.z / pt, cosTh := v.z / p, sinTh := pt / p
    pt := pt
    et := v.t * (pt / p)
    rapidity :=
      if v.t = 0 then 0 else if v.t = v.z then 0 else if v.t = -v.z then 0
      else 0.5 * log ((v.t + v.z) / (v.t - v.z)) }

/-- `P` of a momentum given by energy and mass, fmom/eetaphim.go:53-64 (`P`). -/
noncomputable def pOf (e m : ℝ) : ℝ := if m = 0 then e else sgn e * √(e * e - m * m)

/-- fmom/eetaphim.go:32-150 (`E`, `Eta`, `Phi`, `M`, `M2`, `P`, `P2`, `CosPhi`, `TanTh`, `CotTh`,
`CosTh`, `SinTh`, `Pt`, `Et`, `IPt`, `Rapidity`, `Px`, `Py`, `Pz`). -/
noncomputable def eEtaPhiM (v : Vec4) : Getters :=
  let e := v.x
  let eta := v.y
  let phi := v.z
  let m := v.t
  let p := pOf e m
  let pt := p * sinTh eta
  let pz := p * tanh eta
  { e, eta, phi, m, m2 := m * m, p, p2 := e * e - m * m
    cosPhi := cos phi, sinPhi := sin phi, tanTh := tanTh eta, cotTh := sinh eta, cosTh := tanh eta
    sinTh := sinTh eta, pt, et := e * sinTh eta, ipt := 1 / pt
    rapidity := 0.5 * log ((e + pz) / (e - pz))
    px := pt * cos phi, py := pt * sin phi, pz }

/-- fmom/etetaphim.go:32-150 (`Et`, `Eta`, `Phi`, `M`, `M2`, `P`, `P2`, `CosPhi`, `TanTh`, `CotTh`,
`CosTh`, `SinTh`, `Pt`, `E`, `IPt`, `Rapidity`, `Px`, `Py`, `Pz`). -/
noncomputable def etEtaPhiM (v : Vec4) : Getters :=
  let et := v.x
  let eta := v.y
  let phi := v.z
  let m := v.t
  let e := et / sinTh eta
  let p := pOf e m
  let pt := p * sinTh eta
  let pz := p * tanh eta
  { e, eta, phi, m, m2 := m * m, p, p2 := e * e - m * m
    cosPhi := cos phi, sinPhi := sin phi, tanTh := tanTh eta, cotTh := sinh eta, cosTh := tanh eta
    sinTh := sinTh eta, pt, et, ipt := 1 / pt
    rapidity := 0.5 * log ((e + pz) / (e - pz))
    px := pt * cos phi, py := pt * sin phi, pz }

/-- fmom/ptetaphim.go:32-157 (`Pt`, `Eta`, `Phi`, `M`, `E`, `P`, `P2`, `M2`, `CosPhi`, `CotTh`,
`CosTh`, `SinTh`, `TanTh`, `Et`, `IPt`, `Rapidity`, `Px`, `Py`, `Pz`). -/
noncomputable def ptEtaPhiM (v : Vec4) : Getters :=
  let pt := v.x
  let eta := v.y
  let phi := v.z
  let m := v.t
  let pz := pt * sinh eta
  let e := sgn pt * √(pt * pt + pz * pz + m * m)
  { e, eta, phi, m, m2 := m * m, p := sgn pt * √(pt * pt + pz * pz), p2 := pt * pt + pz * pz
    cosPhi := cos phi, sinPhi := sin phi, tanTh := tanTh eta, cotTh := sinh eta, cosTh := tanh eta
    sinTh := sinTh eta, pt, et := e * sinTh eta, ipt := 1 / pt
    rapidity := 0.5 * log ((e + pz) / (e - pz))
    px := pt * cos phi, py := pt * sin phi, pz }

/-- fmom/iptcotthphim.go:32-147 (`IPt`, `CotTh`, `Phi`, `M`, `Pt`, `P`, `P2`, `M2`, `TanTh`,
`SinTh`, `CosTh`, `E`, `Et`, `Eta`, `Rapidity`, `Px`, `Py`, `Pz`, `CosPhi`, `SinPhi`). -/
noncomputable def iPtCotThPhiM (v : Vec4) : Getters :=
  let ipt := v.x
  let cotth := v.y
  let phi := v.z
  let m := v.t
  let p := √(1 + cotth * cotth) / ipt
  let e := if m = 0 then p else √(p * p + m * m)
  let pt := 1 / ipt
  let pz := pt * cotth
  let aux := √(1 + cotth * cotth)
  { e, phi, m, m2 := m * m, p, p2 := (1 + cotth * cotth) / (ipt * ipt)
    eta := -0.5 * log ((aux - cotth) / (aux + cotth))
    cosPhi := cos phi, sinPhi := sin phi, tanTh := 1 / cotth, cotTh := cotth
    cosTh := sgn cotth * √(cotth * cotth / (1 + cotth * cotth))
    sinTh := 1 / aux, pt, et := e / aux, ipt
    rapidity := 0.5 * log ((e + pz) / (e - pz))
    px := pt * cos phi, py := pt * sin phi, pz }

/-- The five representations. -/
inductive Kind
  | pxPyPzE | eEtaPhiM | etEtaPhiM | ptEtaPhiM | iPtCotThPhiM
deriving DecidableEq

/-- A momentum: fmom/pxpypze.go:12-14 (`PxPyPzE`) and the like. -/
structure P4 where
  kind : Kind
  vec : Vec4

/-- The methods of a momentum. -/
noncomputable def P4.get (q : P4) : Getters :=
  match q.kind with
  | .pxPyPzE => Fmom.pxPyPzE q.vec
  | .eEtaPhiM => Fmom.eEtaPhiM q.vec
  | .etEtaPhiM => Fmom.etEtaPhiM q.vec
  | .ptEtaPhiM => Fmom.ptEtaPhiM q.vec
  | .iPtCotThPhiM => Fmom.iPtCotThPhiM q.vec

/-- The four numbers that `Set` takes from another momentum: fmom/pxpypze.go:196-201 (`Set`),
fmom/eetaphim.go:152-157 (`Set`), fmom/etetaphim.go:152-157 (`Set`), fmom/ptetaphim.go:159-164
(`Set`), fmom/iptcotthphim.go:149-154 (`Set`). -/
def vecFor (k : Kind) (g : Getters) : Vec4 :=
  match k with
  | .pxPyPzE => ⟨g.px, g.py, g.pz, g.e⟩
  | .eEtaPhiM => ⟨g.e, g.eta, g.phi, g.m⟩
  | .etEtaPhiM => ⟨g.et, g.eta, g.phi, g.m⟩
  | .ptEtaPhiM => ⟨g.pt, g.eta, g.phi, g.m⟩
  | .iPtCotThPhiM => ⟨g.ipt, g.cotTh, g.phi, g.m⟩

/-- `dst.Set(src)`. -/
noncomputable def P4.set (dst src : P4) : P4 := { kind := dst.kind, vec := vecFor dst.kind src.get }

/-- fmom/pxpypze.go:16-18 (`NewPxPyPzE`). -/
def newPxPyPzE (px py pz e : ℝ) : P4 := { kind := .pxPyPzE, vec := ⟨px, py, pz, e⟩ }

/-- fmom/pxpypze.go:203-218 (`SetPtEtaPhiM`). -/
noncomputable def setPtEtaPhiM (pt eta phi m : ℝ) : P4 :=
  let pt := |pt|
  let x := pt * cos phi
  let y := pt * sin phi
  let z := pt * sinh eta
  let p2 := x * x + y * y + z * z
  let m2 := m * m
  newPxPyPzE x y z (if 0 ≤ m then √(p2 + m2) else √(max 0 (p2 - m2)))

/-- fmom/pxpypze.go:220-227 (`SetPtEtaPhiE`). -/
noncomputable def setPtEtaPhiE (pt eta phi e : ℝ) : P4 :=
  newPxPyPzE (|pt| * cos phi) (|pt| * sin phi) (|pt| * sinh eta) e

/-! ### Operations -/

/-- fmom/ops.go:38-77 (`Add`). -/
noncomputable def add (p1 p2 : P4) : P4 :=
  let g1 := p1.get
  let g2 := p2.get
  let p := newPxPyPzE (g1.px + g2.px) (g1.py + g2.py) (g1.pz + g2.pz) (g1.e + g2.e)
  match p1.kind with
  | .pxPyPzE => p
  | _ => p1.set p

/-- fmom/ops.go:80-121 (`IAdd`): the value of `dst` afterwards. -/
noncomputable def iadd (dst src : P4) : P4 :=
  let p4 := match dst.kind with
    | .pxPyPzE => dst.vec
    | _ => ⟨dst.get.px, dst.get.py, dst.get.pz, dst.get.e⟩
  let s := src.get
  dst.set (newPxPyPzE (p4.x + s.px) (p4.y + s.py) (p4.z + s.pz) (p4.t + s.e))

/-- fmom/ops.go:124-132 (`Scale`). -/
noncomputable def scale (a : ℝ) (p : P4) : P4 :=
  let g := p.get
  p.set (newPxPyPzE (a * g.px) (a * g.py) (a * g.pz) (a * g.e))

/-- fmom/ops.go:135-138 (`InvMass`). -/
noncomputable def invMass (p1 p2 : P4) : ℝ := (add p1 p2).get.m

/-- `r3.Vec` of gonum. -/
structure Vec3 where
  x : ℝ
  y : ℝ
  z : ℝ

/-- `r3.Dot` of gonum. -/
def Vec3.dot (a b : Vec3) : ℝ := a.x * b.x + a.y * b.y + a.z * b.z

/-- fmom/ops.go:143-157 (`BoostOf`); `none` is a panic. -/
noncomputable def boostOf (p : P4) : Option Vec3 :=
  let g := p.get
  if g.e = 0 then
    if g.p2 = 0 then some ⟨0, 0, 0⟩ else none
  else if g.m2 ≤ 0 then none
  else
    let inv := 1 / g.e
    some ⟨inv * g.px, inv * g.py, inv * g.pz⟩

/-- fmom/ops.go:161-193 (`Boost`). -/
noncomputable def boost (p : P4) (vec : Vec3) : P4 :=
  if vec.x = 0 ∧ vec.y = 0 ∧ vec.z = 0 then p
  else
    let g := p.get
    let v2 := vec.dot vec
    let bp := vec.dot ⟨g.px, g.py, g.pz⟩
    let gamma := 1 / √(1 - v2)
    let beta := (gamma - 1) / v2
    let alpha := beta * bp + gamma * g.e
    p.set (newPxPyPzE (g.px + alpha * vec.x) (g.py + alpha * vec.y) (g.pz + alpha * vec.z) (gamma * (g.e + bp)))

/-- To the nearest whole number, ties to even. -/
noncomputable def nearestEven (r : ℝ) : ℤ :=
  if r - ⌊r⌋ < 1 / 2 then ⌊r⌋ else if 1 / 2 < r - ⌊r⌋ then ⌊r⌋ + 1
  else if ⌊r⌋ % 2 = 0 then ⌊r⌋ else ⌊r⌋ + 1

/-- `math.Remainder(x, y)`. -/
noncomputable def remainder (x y : ℝ) : ℝ := x - nearestEven (x / y) * y

/-- fmom/utils.go:18-22 (`DeltaPhi`). -/
noncomputable def deltaPhi (p1 p2 : P4) : ℝ := -remainder (p1.get.phi - p2.get.phi) (2 * π)

/-- fmom/utils.go:25-28 (`DeltaEta`). -/
noncomputable def deltaEta (p1 p2 : P4) : ℝ := p1.get.eta - p2.get.eta

/-- fmom/utils.go:31-35 (`DeltaR`). -/
noncomputable def deltaR (p1 p2 : P4) : ℝ :=
  √(deltaEta p1 p2 * deltaEta p1 p2 + deltaPhi p1 p2 * deltaPhi p1 p2)

/-- fmom/utils.go:38-40 (`Dot`). -/
noncomputable def dot (p1 p2 : P4) : ℝ :=
  p1.get.e * p2.get.e - p1.get.px * p2.get.px - p1.get.py * p2.get.py - p1.get.pz * p2.get.pz

/-- fmom/ops.go:196-202 (`VecOf`). -/
noncomputable def vecOf (p : P4) : Vec3 := ⟨p.get.px, p.get.py, p.get.pz⟩

/-- fmom/utils.go:43-49 (`CosTheta`). -/
noncomputable def cosTheta (p1 p2 : P4) : ℝ :=
  (vecOf p1).dot (vecOf p2) / √(p1.get.p2 * p2.get.p2)

end Verif.Fmom
