import Mathlib.Algebra.Field.Defs
import Mathlib.Algebra.Order.Group.Abs
import Mathlib.Order.WithBot

/-!
# Ranges of what is plotted

Model of the `DataRange` methods of histograms, stacks of histograms, scatter plots and bands.
Numbers are elements of an ordered field, with two infinities; `MaxFloat64` as a start value stands
for an infinity.  `plotter.XYRange` and the error bars of gonum are modelled from their documentation.
-/

namespace Verif.Hplot

/-- Numbers with infinities. -/
abbrev Ext (K : Type) := WithBot (WithTop K)

/-- A number. -/
def ext {K : Type} (x : K) : Ext K := ((x : WithTop K) : WithBot (WithTop K))

/-- A range in x and y. -/
structure Rect (K : Type) where
  xmin : Ext K
  xmax : Ext K
  ymin : Ext K
  ymax : Ext K

/-- A bin of a histogram: edges, sum of weights, its error, and whether there are entries. -/
structure PBin (K : Type) where
  lo : K
  hi : K
  w : K
  err : K
  filled : Bool

/-- A count of an error band: edges, value and errors. -/
structure PCount (K : Type) where
  lo : K
  hi : K
  val : K
  down : K
  up : K

/-- A point with its errors. -/
structure PPoint (K : Type) where
  x : K
  y : K
  xdown : K
  xup : K
  ydown : K
  yup : K

section

variable {K : Type} [Field K] [LinearOrder K]

/-- The range of nothing. -/
def Rect.none : Rect K := ⟨⊤, ⊥, ⊤, ⊥⟩

/-- hplot/s2d.go:287-293 (`ymin1`): the range of two things. -/
def Rect.join (a b : Rect K) : Rect K :=
  ⟨min a.xmin b.xmin, max a.xmax b.xmax, min a.ymin b.ymin, max a.ymax b.ymax⟩

/-- `plotter.XYRange`, called in hplot/band.go:78-79 (`XYRange`). -/
def xyRange (ps : List (K × K)) : Rect K :=
  ps.foldl (fun r p => ⟨min r.xmin (ext p.1), max r.xmax (ext p.1), min r.ymin (ext p.2),
    max r.ymax (ext p.2)⟩) Rect.none

/-- hplot/band.go:77-87 (`DataRange`). -/
def bandRange (top bottom : List (K × K)) : Rect K := (xyRange top).join (xyRange bottom)

/-! ## Error bars -/

/-- The ends of vertical error bars, whose range is that of `plotter.YErrorBars`. -/
def yBars (ps : List (PPoint K)) : List (K × K) :=
  ps.flatMap fun p => [(p.x, p.y - |p.ydown|), (p.x, p.y + |p.yup|)]

/-- The ends of horizontal error bars, whose range is that of `plotter.XErrorBars`. -/
def xBars (ps : List (PPoint K)) : List (K × K) :=
  ps.flatMap fun p => [(p.x - |p.xdown|, p.y), (p.x + |p.xup|, p.y)]

/-- hplot/h1d.go:137-154 (`withYErrBars`), without offsets: the points with error bars. -/
def histBars (bins : List (PBin K)) : List (PPoint K) :=
  (bins.filter (·.filled)).map fun b =>
    ⟨(b.lo + b.hi) / 2, b.w, 0, 0, 1 / 2 * b.err, 1 / 2 * b.err⟩

/-! ## Bands of errors -/

/-- hplot/binerrband.go:99-105 (`Counts`). -/
def errBandY (logY : Bool) (r : Ext K × Ext K) (c : PCount K) : Ext K × Ext K :=
  (if c.val - c.down ≤ 0 ∧ logY = true then r.1 else min r.1 (ext (c.val - c.down)),
   max r.2 (ext (c.val + c.up)))

/-- hplot/binerrband.go:93-108 (`DataRange`), of a band that has counts. -/
def errBandRange (logY : Bool) (first : PCount K) (cs : List (PCount K)) : Rect K :=
  let r := (first :: cs).foldl (errBandY logY) (⊤, ⊥)
  ⟨ext first.lo, ext ((first :: cs).getLast (List.cons_ne_nil _ _)).hi, r.1, r.2⟩

/-! ## Histograms -/

/-- A plotted histogram: the range in x, bins, whether it has error bars, and the band if any. -/
structure PHist (K : Type) where
  xlo : K
  xhi : K
  bins : List (PBin K)
  bars : Bool
  band : Option (PCount K × List (PCount K))

/-- hbook/h1d.go:282-293 (`DataRange`). -/
def histRange (h : PHist K) : Rect K :=
  let r := h.bins.foldl (fun (r : Ext K × Ext K) b => (min r.1 (ext b.w), max r.2 (ext b.w))) (⊤, ⊥)
  ⟨ext h.xlo, ext h.xhi, r.1, r.2⟩

/-- The range of the band of a histogram; that of nothing if there is no band. -/
def bandOf (logY : Bool) (band : Option (PCount K × List (PCount K))) : Rect K :=
  match band with
  | some (c, cs) => errBandRange logY c cs
  | none => Rect.none

/-- The range of the error bars of a histogram; that of nothing if there are none. -/
def barsOf (h : PHist K) : Rect K :=
  if h.bars then xyRange (yBars (histBars h.bins)) else Rect.none

/-- The state of the loops over bins: range, and the smallest height of a bin that is drawn. -/
structure Low (K : Type) where
  r : Rect K
  ylow : Ext K

/-- hplot/h1d.go:206-214 (`ylow`). -/
def logStep (s : Low K) (b : PBin K) : Low K :=
  ⟨⟨min (ext b.lo) s.r.xmin, max (ext b.hi) s.r.xmax, min (ext b.w) s.r.ymin, max (ext b.w) s.r.ymax⟩,
   if 0 < b.w then min (ext b.w) s.ylow else s.ylow⟩

/-- Half of a number. -/
def half (x : Ext K) : Ext K := WithBot.map (WithTop.map fun y => y * (1 / 2)) x

/-- hplot/h1d.go:180-238 (`DataRange`). -/
def h1Range (logY : Bool) (h : PHist K) : Rect K :=
  if logY = false then ((histRange h).join (barsOf h)).join (bandOf logY h.band)
  else
    let s := h.bins.foldl logStep ⟨Rect.none, ⊤⟩
    let ymin := if s.r.ymin = ext 0 ∧ s.ylow ≠ ⊤ then half s.ylow else s.r.ymin
    let r : Rect K := ⟨s.r.xmin, s.r.xmax, ymin, s.r.ymax⟩
    let r : Rect K := if h.bars then
        ⟨min r.xmin (barsOf h).xmin, max r.xmax (barsOf h).xmax, min r.ymin (barsOf h).ymin,
         min r.ymax (barsOf h).ymax⟩
      else r
    r.join (bandOf logY h.band)

/-! ## Stacks of histograms -/

/-- hplot/hstack.go:121-129 (`ylow`): a bin on top of `o`. -/
def stackStep (logY : Bool) (s : Low K) (o : K) (b : PBin K) : Low K :=
  ⟨⟨min (ext b.lo) s.r.xmin, max (ext b.hi) s.r.xmax, min (ext (o + b.w)) s.r.ymin,
    max (ext (o + b.w)) s.r.ymax⟩,
   if b.w ≠ 0 ∧ ¬ (b.w ≤ 0 ∧ logY = true) then min (ext b.w) s.ylow else s.ylow⟩

/-- hplot/hstack.go:121-131 (`yoffs`): one histogram; the new heights of the stack. -/
def stackHist (on logY : Bool) : Low K → List K → List (PBin K) → Low K × List K
  | s, o :: os, b :: bs =>
    let q := stackHist on logY (stackStep logY s o b) os bs
    (q.1, (if on then o + b.w else o) :: q.2)
  | s, os, _ => (s, os)

/-- hplot/hstack.go:120-132 (`hs`). -/
def stackAll (on logY : Bool) : Low K → List K → List (PHist K) → Low K
  | s, _, [] => s
  | s, os, h :: hs =>
    stackAll on logY (stackHist on logY s os h.bins).1 (stackHist on logY s os h.bins).2 hs

/-- hplot/hstack.go:135-152 (`Band`): the ranges of the bands; those of single histograms are shown if
not stacked, where all offsets are zero. -/
def stackBands (on logY : Bool) (r : Rect K) (hs : List (PHist K))
    (total : Option (PCount K × List (PCount K))) : Rect K :=
  if on then ⟨r.xmin, r.xmax, min r.ymin (bandOf logY total).ymin, max r.ymax (bandOf logY total).ymax⟩
  else hs.foldl (fun r h => if h.bins = [] then r else
    ⟨r.xmin, r.xmax, min r.ymin (bandOf logY h.band).ymin, max r.ymax (bandOf logY h.band).ymax⟩) r

/-- hplot/hstack.go:112-162 (`DataRange`), of a stack of histograms with `n` bins. -/
def stackRange (on logY : Bool) (n : Nat) (hs : List (PHist K))
    (total : Option (PCount K × List (PCount K))) : Rect K :=
  let s := stackAll on logY ⟨Rect.none, ⊤⟩ (List.replicate n 0) hs
  let r := stackBands on logY s.r hs total
  if logY = true ∧ r.ymin ≤ ext 0 ∧ s.ylow ≠ ⊤ then ⟨r.xmin, r.xmax, half s.ylow, r.ymax⟩ else r

/-- hplot/hstack.go:177-188 (`checkBins`), hplot/hstack.go:72-100 (`NewHStack`): whether a stack can be
made. -/
def stackable (hs : List (PHist K)) : Bool :=
  match hs with
  | [] => false
  | h :: _ => hs.all fun g => decide ((g.bins.map fun b => (b.lo, b.hi)) = h.bins.map fun b => (b.lo, b.hi))

/-! ## Scatter plots -/

/-- hplot/s2d.go:280-304 (`DataRange`), of data that have no range of their own. -/
def s2Range (xbars ybars : Bool) (ps : List (PPoint K)) : Rect K :=
  let r := xyRange (ps.map fun p => (p.x, p.y))
  let r := if xbars then (xyRange (xBars ps)).join r else r
  if ybars then (xyRange (yBars ps)).join r else r

/-- hplot/s2d.go:98-108 (`top`): the band of a scatter plot without steps. -/
def s2Band (ps : List (PPoint K)) : List (K × K) × List (K × K) :=
  (ps.map fun p => (p.x, p.y + |p.yup|), ps.map fun p => (p.x, p.y - |p.ydown|))

end

end Verif.Hplot
