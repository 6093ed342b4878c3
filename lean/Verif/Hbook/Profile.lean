import Verif.Hbook.Brio

/-!
# Model of `hbook` profiles, scatters and statistics

Profiles (`hbook.P1D`), the scatters made of histograms and profiles, the quotient of two
histograms, and the means and variances of distributions.

The constants and functions of `math` needed are fields of `Env`; the arithmetic operations
have no laws here.
-/

namespace Verif.Hbook.Prof
open Verif.Hbook Verif.Hbook.Brio

/-- What the code uses besides the arithmetic operations. -/
structure Env (F : Type) where
  /-- `math.Sqrt` -/
  sqrt : F → F
  /-- the conversion `int(x)` -/
  toInt : F → Int
  /-- `math.NaN()` -/
  nan : F
  /-- the constant `0.5` -/
  half : F
  /-- the constant `1e-5` -/
  tol : F
  /-- the constant `1e-8` -/
  tiny : F

section
variable {F α : Type} [LinearOrder α] [GoFloat F α]
variable [Zero F] [One F] [Add F] [Sub F] [Neg F] [Mul F] [Div F] [NatCast F]

/-- `math.Abs`; the sign of a zero is not tracked. -/
def fabs (x : F) : F := if flt x 0 then -x else x

/-! ### Statistics -/

/-- hbook/dist.go:33-38 (`Dist0D.EffEntries`). -/
def effEntries (d : Dist0D F) : F :=
  if feq d.sumW2 0 then 0 else d.sumW * d.sumW / d.sumW2

/-- hbook/dist.go:130-133 (`Dist1D.mean`). -/
def mean (d : Dist1D F) : F := d.sumWX / d.dist.sumW

/-- hbook/dist.go:140-147 (`Dist1D.variance`). -/
def variance (d : Dist1D F) : F :=
  let sumw := d.dist.sumW
  let num := d.sumWX2 * sumw - d.sumWX * d.sumWX
  let den := sumw * sumw - d.dist.sumW2
  fabs (num / den)

/-- hbook/dist.go:150-152 (`Dist1D.stdDev`). -/
def stdDev (v : Env F) (d : Dist1D F) : F := v.sqrt (variance d)

/-- hbook/dist.go:155-159 (`Dist1D.stdErr`). -/
def stdErr (v : Env F) (d : Dist1D F) : F := v.sqrt (variance d / effEntries d.dist)

/-- hbook/dist.go:313-317 (`Dist2D.scaleW`). -/
def scaleW2 (d : Dist2D F) (f : F) : Dist2D F :=
  { x := d.x.scaleW f, y := d.y.scaleW f, sumWXY := d.sumWXY * f }

/-! ### Profiles -/

/-- hbook/p1d.go:569-589 (`newBinningP1D`). -/
def newBinningP1D (n : Int) (xmin xmax : F) : Option (BinningP1D F) :=
  if fle xmax xmin then none
  else if n ≤ 0 then none
  else
    let xr : Range F := ⟨xmin, xmax⟩
    let width := xr.width / (n.toNat : F)
    some
      { bins := (List.range n.toNat).map fun i : Nat =>
          { xrange := ⟨xmin + (i : F) * width, xmin + ((i + 1 : Nat) : F) * width⟩, dist := .zero }
        dist := .zero, under := .zero, over := .zero, xrange := xr,
        xstep := (n.toNat : F) / xr.width }

/-- hbook/p1d.go:620-630 (`binningP1D.coordToIndex`): `-1` is the underflow and `-2` the
overflow. -/
def coordToIndex (v : Env F) (b : BinningP1D F) (x : F) : Int :=
  if flt x b.xrange.lo then -1
  else if fle b.xrange.hi x then -2
  else v.toInt ((x - b.xrange.lo) * b.xstep)

/-- hbook/p1d.go:660-662 (`BinP1D.fill`). -/
def fillBin (b : BinP1D F) (x y w : F) : BinP1D F := { b with dist := b.dist.fill x y w }

/-- hbook/p1d.go:609-617 (`binningP1D.fill`), the body of hbook/p1d.go:130-132 (`P1D.Fill`). -/
def fill (v : Env F) (b : BinningP1D F) (x y w : F) : Option (BinningP1D F) :=
  let idx := coordToIndex v b x
  let b := { b with dist := b.dist.fill x y w }
  if idx < 0 then
    if -idx - 1 = 0 then some { b with under := b.under.fill x y w }
    else if -idx - 1 = 1 then some { b with over := b.over.fill x y w }
    else none
  else if idx < b.bins.length then
    some { b with bins := b.bins.modify idx.toNat (fillBin · x y w) }
  else none

/-- Fills one after the other. -/
def fills (v : Env F) (b : BinningP1D F) : List (F × F × F) → Option (BinningP1D F)
  | [] => some b
  | (x, y, w) :: fs => match fill v b x y w with
    | none => none
    | some b => fills v b fs

/-- hbook/p1d.go:632-640 (`binningP1D.scaleW`), the body of hbook/p1d.go:145-147 (`P1D.Scale`). -/
def scaleW (b : BinningP1D F) (f : F) : BinningP1D F :=
  { b with dist := scaleW2 b.dist f, under := scaleW2 b.under f, over := scaleW2 b.over f,
           bins := b.bins.map fun p => { p with dist := scaleW2 p.dist f } }

/-! ### Scatters -/

/-- hbook/s2d.go:58-61 (`S2DOpts`). -/
structure S2DOpts where
  useFocus : Bool
  useStdDev : Bool
deriving DecidableEq, Repr

/-- hbook/bin1d.go:79-81 (`Bin1D.XMid`), hbook/p1d.go:701-703 (`BinP1D.XMid`). -/
def xMid (v : Env F) (r : Range F) : F := v.half * (r.lo + r.hi)

/-- hbook/bin1d.go:90-95 (`Bin1D.XFocus`), hbook/p1d.go:712-717 (`BinP1D.XFocus`). -/
def xFocus (v : Env F) (r : Range F) (d : Dist1D F) : F :=
  if feq d.dist.sumW 0 then xMid v r else mean d

/-- The point of a bin in hbook/s2d.go:66-98 (`NewS2DFromH1D`) and hbook/s2d.go:103-139
(`NewS2DFromP1D`): `d` are the moments along `x`, `ey` the error to use when the bin has a
width. -/
def binPoint (v : Env F) (o : S2DOpts) (r : Range F) (d : Dist1D F) (ey : F → F) : Point2D F :=
  let x := if o.useFocus then xFocus v r d else xMid v r
  let w := r.xwidth
  let ye := if feq w 0 then (v.nan, v.nan) else (d.dist.sumW * (1 / w), ey (1 / w))
  { x := x, y := ye.1, errX := ⟨x - r.lo, r.hi - x⟩, errY := ⟨ye.2, ye.2⟩ }

/-- The points of hbook/s2d.go:66-98 (`NewS2DFromH1D`). -/
def s2dFromH1D (v : Env F) (o : S2DOpts) (h : Binning1D F) : List (Point2D F) :=
  h.bins.map fun b => binPoint v o b.range b.dist fun ww => v.sqrt b.dist.dist.sumW2 * ww

/-- The points of hbook/s2d.go:103-139 (`NewS2DFromP1D`). -/
def s2dFromP1D (v : Env F) (o : S2DOpts) (p : BinningP1D F) : List (Point2D F) :=
  p.bins.map fun b => binPoint v o b.xrange b.dist.x fun _ =>
    if o.useStdDev then stdDev v b.dist.x else stdErr v b.dist.x

/-- hbook/points.go:16-18 (`Point2D.XMin`). -/
def ptXMin (p : Point2D F) : F := p.x - p.errX.lo
/-- hbook/points.go:21-23 (`Point2D.XMax`). -/
def ptXMax (p : Point2D F) : F := p.x + p.errX.hi
/-- hbook/points.go:26-28 (`Point2D.YMin`). -/
def ptYMin (p : Point2D F) : F := p.y - p.errY.lo
/-- hbook/points.go:31-33 (`Point2D.YMax`). -/
def ptYMax (p : Point2D F) : F := p.y + p.errY.hi

/-! ### Quotients -/

/-- hbook/ops.go:113-120 (`fuzzyEq`). -/
def fuzzyEq (v : Env F) (a b : F) : Bool :=
  let aa := fabs a
  let bb := fabs b
  let absavg := v.half * (aa + bb)
  let absdiff := fabs (a - b)
  (flt aa v.tiny && flt bb v.tiny) || flt absdiff (v.tol * absavg)

/-- hbook/ops.go:85-88 (`divConfig`). -/
structure DivConfig (F : Type) where
  ignoreNaN : Bool
  replaceNaN : F
deriving DecidableEq, Repr

/-- hbook/ops.go:92-94 (`newDivConfig`). -/
def newDivConfig (v : Env F) : DivConfig F := { ignoreNaN := false, replaceNaN := v.nan }

/-- hbook/ops.go:98-102 (`DivIgnoreNaNs`). -/
def divIgnoreNaNs (c : DivConfig F) : DivConfig F := { c with ignoreNaN := true }

/-- hbook/ops.go:106-110 (`DivReplaceNaNs`). -/
def divReplaceNaNs (x : F) (c : DivConfig F) : DivConfig F := { c with replaceNaN := x }

/-- One turn of the loop of hbook/ops.go:15-78 (`DivideH1D`): `some none` skips the bin, `none`
is the error. -/
def divideBin (v : Env F) (c : DivConfig F) (b1 b2 : Bin1D F) : Option (Option (Point2D F)) :=
  if !fuzzyEq v b1.range.lo b2.range.lo || !fuzzyEq v b1.range.hi b2.range.hi then none
  else
    let x := xMid v b1.range
    let exm := x - b1.range.lo
    let exp := b1.range.hi - x
    let b2h := b2.dist.dist.sumW / b2.range.xwidth
    let b1h := b1.dist.dist.sumW / b1.range.xwidth
    let b2herr := v.sqrt b2.dist.dist.sumW2 / b2.range.xwidth
    let b1herr := v.sqrt b1.dist.dist.sumW2 / b1.range.xwidth
    if feq b2h 0 || (feq b1h 0 && !feq b1herr 0) then
      if c.ignoreNaN then some none
      else some (some { x := x, y := c.replaceNaN, errX := ⟨exm, exp⟩, errY := ⟨0, 0⟩ })
    else
      let y := b1h / b2h
      let relerr1 := if !feq b1herr 0 then v.sqrt b1.dist.dist.sumW2 / b1.dist.dist.sumW else 0
      let relerr2 := if !feq b2herr 0 then v.sqrt b2.dist.dist.sumW2 / b2.dist.dist.sumW else 0
      let ey := y * v.sqrt (relerr1 * relerr1 + relerr2 * relerr2)
      some (some { x := x, y := y, errX := ⟨exm, exp⟩, errY := ⟨ey, ey⟩ })

/-- The loop of hbook/ops.go:15-78 (`DivideH1D`): the bins of the numerator drive it, and the
access to the bin of the denominator panics when there is none. -/
def divideLoop (v : Env F) (c : DivConfig F) : List (Bin1D F) → List (Bin1D F) → Out (List (Point2D F))
  | [], _ => .ok []
  | _ :: _, [] => .panic
  | b1 :: l1, b2 :: l2 => match divideBin v c b1 b2 with
    | none => .err
    | some p => match divideLoop v c l1 l2 with
      | .panic => .panic
      | .err => .err
      | .ok ps => .ok (p.toList ++ ps)

/-- hbook/ops.go:15-78 (`DivideH1D`), the options being applied in order. -/
def divideH1D (v : Env F) (opts : List (DivConfig F → DivConfig F)) (num den : Binning1D F) :
    Out (List (Point2D F)) :=
  divideLoop v (opts.foldl (fun c o => o c) (newDivConfig v)) num.bins den.bins

end

end Verif.Hbook.Prof
