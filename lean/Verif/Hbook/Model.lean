import Mathlib.Order.BoundedOrder.Basic
import Mathlib.Order.WithBot
import Verif.Common.Search

/-!
# Model of the `hbook` histograms

Binnings, fills, scaling, addition, integrals and sampling of `hbook.H1D` and the
binning and fills of `hbook.H2D`.

Floating point numbers are a type `F` with a map `val : F → Option α` into a linear
order with end points: `none` is NaN, the end points are the infinities, and the two
zeros may share a value.  Comparisons are decided on the values and are false as soon
as one side is NaN, as in IEEE 754.  The arithmetic operations of `F` are arbitrary
functions without any law; theorems needing exact arithmetic say so by asking for a
ring or a field.

`Dist0D.N` is an `int64` in the code and an unbounded integer here.  Annotations are
not modelled.  A Go panic is `none`.
-/

namespace Verif.Hbook

/-- Values of floating point numbers: `none` for NaN. -/
class GoFloat (F : Type) (α : outParam Type) where
  val : F → Option α

export GoFloat (val)

section Model

variable {F α : Type} [LinearOrder α] [BoundedOrder α] [GoFloat F α]

/-- `x < y` on floats. -/
def flt (x y : F) : Bool :=
  match val x, val y with
  | some a, some b => decide (a < b)
  | _, _ => false

/-- `x <= y` on floats (`y >= x`). -/
def fle (x y : F) : Bool :=
  match val x, val y with
  | some a, some b => decide (a ≤ b)
  | _, _ => false

/-- `x == y` on floats. -/
def feq (x y : F) : Bool :=
  match val x, val y with
  | some a, some b => decide (a = b)
  | _, _ => false

/-- `math.IsNaN(x)`. -/
def isNaN (x : F) : Bool := (val x).isNone

/-- `math.IsInf(x, -1)`. -/
def isNegInf (x : F) : Bool := decide (val x = some ⊥)

/-- `math.IsInf(x, +1)`. -/
def isPosInf (x : F) : Bool := decide (val x = some ⊤)

/-- A half-open range of an axis.  hbook/hbook.go:28-31 (`Range`). -/
structure Range (F : Type) where
  lo : F
  hi : F
deriving DecidableEq, Repr

/-- hbook/hbook.go:38-40 (`Range.Width`), `math.Abs` being written out (the sign of a zero
is not tracked). -/
def Range.width [Zero F] [Neg F] [Sub F] (r : Range F) : F :=
  let d := r.hi - r.lo
  if flt d 0 then -d else d

/-- hbook/bin1d.go:84-86 (`Bin1D.XWidth`): the signed width. -/
def Range.xwidth [Sub F] (r : Range F) : F := r.hi - r.lo

/-- hbook/dist.go:10-14 (`Dist0D`). -/
structure Dist0D (F : Type) where
  n : Int
  sumW : F
  sumW2 : F
deriving DecidableEq, Repr

/-- hbook/dist.go:69-75 (`Dist1D`). -/
structure Dist1D (F : Type) where
  dist : Dist0D F
  sumWX : F
  sumWX2 : F
deriving DecidableEq, Repr

/-- hbook/dist.go:189-195 (`Dist2D`). -/
structure Dist2D (F : Type) where
  x : Dist1D F
  y : Dist1D F
  sumWXY : F
deriving DecidableEq, Repr

/-- The zero values of Go. -/
def Dist0D.zero [Zero F] : Dist0D F := ⟨0, 0, 0⟩
/-- The zero values of Go. -/
def Dist1D.zero [Zero F] : Dist1D F := ⟨.zero, 0, 0⟩
/-- The zero values of Go. -/
def Dist2D.zero [Zero F] : Dist2D F := ⟨.zero, .zero, 0⟩

section Arith
variable [Add F] [Mul F]

/-- hbook/dist.go:51-55 (`Dist0D.fill`). -/
def Dist0D.fill (d : Dist0D F) (w : F) : Dist0D F :=
  { n := d.n + 1, sumW := d.sumW + w, sumW2 := d.sumW2 + w * w }

/-- hbook/dist.go:57-61 (`Dist0D.addScaled`). -/
def Dist0D.addScaled (d : Dist0D F) (a a2 : F) (o : Dist0D F) : Dist0D F :=
  { n := d.n + o.n, sumW := d.sumW + a * o.sumW, sumW2 := d.sumW2 + a2 * o.sumW2 }

/-- hbook/dist.go:63-66 (`Dist0D.scaleW`). -/
def Dist0D.scaleW (d : Dist0D F) (f : F) : Dist0D F :=
  { d with sumW := d.sumW * f, sumW2 := d.sumW2 * (f * f) }

/-- hbook/dist.go:170-174 (`Dist1D.fill`). -/
def Dist1D.fill (d : Dist1D F) (x w : F) : Dist1D F :=
  { dist := d.dist.fill w, sumWX := d.sumWX + w * x, sumWX2 := d.sumWX2 + w * x * x }

/-- hbook/dist.go:176-180 (`Dist1D.addScaled`). -/
def Dist1D.addScaled (d : Dist1D F) (a a2 : F) (o : Dist1D F) : Dist1D F :=
  { dist := d.dist.addScaled a a2 o.dist, sumWX := d.sumWX + a * o.sumWX,
    sumWX2 := d.sumWX2 + a * o.sumWX2 }

/-- hbook/dist.go:182-186 (`Dist1D.scaleW`). -/
def Dist1D.scaleW (d : Dist1D F) (f : F) : Dist1D F :=
  { dist := d.dist.scaleW f, sumWX := d.sumWX * f, sumWX2 := d.sumWX2 * f }

/-- hbook/dist.go:307-311 (`Dist2D.fill`). -/
def Dist2D.fill (d : Dist2D F) (x y w : F) : Dist2D F :=
  { x := d.x.fill x w, y := d.y.fill y w, sumWXY := d.sumWXY + w * x * y }

end Arith

/-- hbook/bin1d.go:10-13 (`Bin1D`). -/
structure Bin1D (F : Type) where
  range : Range F
  dist : Dist1D F
deriving DecidableEq, Repr

/-- hbook/bin1d.go:33-35 (`Bin1D.fill`). -/
def Bin1D.fill [Add F] [Mul F] (b : Bin1D F) (x w : F) : Bin1D F := { b with dist := b.dist.fill x w }

/-- hbook/bin1d.go:25-27 (`Bin1D.addScaled`). -/
def Bin1D.addScaled [Add F] [Mul F] (b : Bin1D F) (a a2 : F) (o : Bin1D F) : Bin1D F :=
  { b with dist := b.dist.addScaled a a2 o.dist }

/-- hbook/bin1d.go:29-31 (`Bin1D.scaleW`). -/
def Bin1D.scaleW [Add F] [Mul F] (b : Bin1D F) (f : F) : Bin1D F := { b with dist := b.dist.scaleW f }

/-- hbook/binning1d.go:34-39 (`Binning1D`); the two `Outflows` are `under` and `over`. -/
structure Binning1D (F : Type) where
  bins : List (Bin1D F)
  dist : Dist1D F
  under : Dist1D F
  over : Dist1D F
  xrange : Range F
deriving DecidableEq, Repr

/-- The predicate given to `sort.Search` in hbook/bin1d.go:133-146 (`Bin1Ds.IndexOf`). -/
def belowMax (p : List (Range F)) (v : F) (i : Nat) : Bool :=
  match p[i]? with
  | some r => flt v r.hi
  | none => false

/-- hbook/bin1d.go:133-146 (`Bin1Ds.IndexOf`).  `-1` is the underflow, `-2` the overflow
and the number of bins stands for a gap.  The access to the bin found by the search is
in range, the search having returned less than the number of bins. -/
def indexOf (p : List (Range F)) (v : F) : Int :=
  let i := goSearch p.length (belowMax p v)
  match p[i]? with
  | none => -2
  | some rng =>
    if i = 0 ∧ flt v rng.lo then -1
    else if fle rng.lo v && flt v rng.hi then i
    else p.length

/-- The ranges of the bins. -/
def Binning1D.ranges (h : Binning1D F) : List (Range F) := h.bins.map (·.range)

/-- hbook/binning1d.go:161-169 (`Binning1D.coordToIndex`). -/
def Binning1D.coordToIndex (h : Binning1D F) (x : F) : Int :=
  if flt x h.xrange.lo then -1
  else if fle h.xrange.hi x then -2
  else indexOf h.ranges x

/-- hbook/binning1d.go:146-158 (`Binning1D.fill`). -/
def Binning1D.fill [Add F] [Mul F] (h : Binning1D F) (x w : F) : Option (Binning1D F) :=
  let idx := h.coordToIndex x
  let h := { h with dist := h.dist.fill x w }
  if idx < 0 then
    if -idx - 1 = 0 then some { h with under := h.under.fill x w }
    else if -idx - 1 = 1 then some { h with over := h.over.fill x w }
    else none
  else if idx = h.bins.length then some h
  else if idx < h.bins.length then
    some { h with bins := h.bins.modify idx.toNat (·.fill x w) }
  else none

/-- hbook/h1d.go:157-171 (`H1D.FillN`) with weights, as a list of pairs; also any
sequence of hbook/h1d.go:150-152 (`H1D.Fill`). -/
def Binning1D.fills [Add F] [Mul F] (h : Binning1D F) : List (F × F) → Option (Binning1D F)
  | [] => some h
  | (x, w) :: fs => match h.fill x w with
    | none => none
    | some h => h.fills fs

/-- hbook/h1d.go:157-171 (`H1D.FillN`): `ws = none` is the nil slice. -/
def Binning1D.fillN [Add F] [Mul F] [One F] (h : Binning1D F) (xs : List F) (ws : Option (List F)) :
    Option (Binning1D F) :=
  match ws with
  | none => h.fills (xs.map fun x => (x, 1))
  | some ws => if xs.length ≠ ws.length then none else h.fills (xs.zip ws)

/-- hbook/h1d.go:175-181 (`H1D.Bin`): a nil bin is `some none`, a panic is `none`. -/
def Binning1D.binAt (h : Binning1D F) (x : F) : Option (Option (Bin1D F)) :=
  let idx := h.coordToIndex x
  if idx < 0 then some none
  else match h.bins[idx.toNat]? with
    | none => none
    | some b => some (some b)

/-- hbook/binning1d.go:171-179 (`Binning1D.scaleW`), the body of hbook/h1d.go:194-196 (`H1D.Scale`). -/
def Binning1D.scaleW [Add F] [Mul F] (h : Binning1D F) (f : F) : Binning1D F :=
  { h with dist := h.dist.scaleW f, under := h.under.scaleW f, over := h.over.scaleW f,
           bins := h.bins.map (·.scaleW f) }

/-- hbook/ops.go:124-147 (`AddScaledH1D`). -/
def addScaledH1D [Add F] [Mul F] (h1 : Binning1D F) (alpha : F) (h2 : Binning1D F) :
    Option (Binning1D F) :=
  if h1.bins.length ≠ h2.bins.length then none
  else if !feq h1.xrange.lo h2.xrange.lo || !feq h1.xrange.hi h2.xrange.hi then none
  else
    let a2 := alpha * alpha
    some { h1 with
      bins := List.zipWith (fun b o => b.addScaled alpha a2 o) h1.bins h2.bins
      dist := h1.dist.addScaled alpha a2 h2.dist
      under := h1.under.addScaled alpha a2 h2.under
      over := h1.over.addScaled alpha a2 h2.over }

/-- hbook/ops.go:151-153 (`AddH1D`). -/
def addH1D [Add F] [Mul F] [One F] (h1 h2 : Binning1D F) : Option (Binning1D F) := addScaledH1D h1 1 h2

/-- hbook/ops.go:157-159 (`SubH1D`). -/
def subH1D [Add F] [Mul F] [One F] [Neg F] (h1 h2 : Binning1D F) : Option (Binning1D F) :=
  addScaledH1D h1 (-1) h2

/-- hbook/h1d.go:221-250 (`H1D.Integral`). -/
def Binning1D.integral [Add F] [Zero F] (h : Binning1D F) (args : List F) : Option F :=
  match args with
  | [] => some h.dist.dist.sumW
  | [min, max] =>
    if flt max min then none
    else
      let s := h.bins.foldl (fun acc b =>
        if fle min b.range.lo && flt b.range.lo max then acc + b.dist.dist.sumW else acc) 0
      let s := if isNegInf min then s + h.under.dist.sumW else s
      let s := if isPosInf max then s + h.over.dist.sumW else s
      some s
  | _ => none

/-! ### Constructors -/

/-- A fresh binning over the given ranges. -/
def freshBinning [Zero F] (rs : List (Range F)) (xr : Range F) : Binning1D F :=
  { bins := rs.map fun r => ⟨r, .zero⟩, dist := .zero, under := .zero, over := .zero, xrange := xr }

/-- hbook/binning1d.go:41-59 (`newBinning1D`). -/
def newBinning1D [Zero F] [Add F] [Neg F] [Sub F] [Mul F] [Div F] [NatCast F] (n : Int) (xmin xmax : F) :
    Option (Binning1D F) :=
  if fle xmax xmin then none
  else if n ≤ 0 then none
  else
    let width := (Range.mk xmin xmax).width / (n.toNat : F)
    let rs := (List.range n.toNat).map fun i : Nat => Range.mk (xmin + (i : F) * width) (xmin + ((i + 1 : Nat) : F) * width)
    some (freshBinning rs ⟨xmin, xmax⟩)

/-- The overlap check of consecutive bins of hbook/binning1d.go:61-83 (`newBinning1DFromBins`). -/
def overlapFree : List (Range F) → Bool
  | a :: b :: l => !flt b.lo a.hi && overlapFree (b :: l)
  | _ => true

/-- hbook/binning1d.go:61-83 (`newBinning1DFromBins`).  `sort.Sort` is the parameter `srt`:
it is not stable, so all that is known of it is that it returns a permutation sorted
by lower edge. -/
def newBinning1DFromBins [Zero F] (srt : List (Range F) → List (Range F)) (xbins : List (Range F)) :
    Option (Binning1D F) :=
  if xbins.length < 1 then none
  else
    let rs := srt xbins
    if !overlapFree rs then none
    else match rs.head?, rs.getLast? with
      | some a, some b => some (freshBinning rs ⟨a.lo, b.hi⟩)
      | _, _ => none

/-- `Less(i, j)` of `sort.Float64Slice`: NaN comes first. -/
def sliceLess (x y : F) : Bool := flt x y || (isNaN x && !isNaN y)

/-- `sort.IsSorted(sort.Float64Slice(edges))`. -/
def isSorted : List F → Bool
  | a :: b :: l => !sliceLess b a && isSorted (b :: l)
  | _ => true

/-- The ranges between consecutive edges. -/
def edgeRanges : List F → List (Range F)
  | a :: b :: l => ⟨a, b⟩ :: edgeRanges (b :: l)
  | _ => []

/-- hbook/binning1d.go:85-108 (`newBinning1DFromEdges`). -/
def newBinning1DFromEdges [Zero F] (edges : List F) : Option (Binning1D F) :=
  if edges.length ≤ 1 then none
  else if !isSorted edges then none
  else
    let rs := edgeRanges edges
    if rs.any fun r => feq r.lo r.hi then none
    else match edges.head?, edges.getLast? with
      | some a, some b => some (freshBinning rs ⟨a, b⟩)
      | _, _ => none

/-! ### Two dimensions -/

/-- hbook/bin2d.go:8-12 (`Bin2D`). -/
structure Bin2D (F : Type) where
  xrange : Range F
  yrange : Range F
  dist : Dist2D F
deriving DecidableEq, Repr

/-- hbook/bin2d.go:21-23 (`Bin2D.fill`). -/
def Bin2D.fill [Add F] [Mul F] (b : Bin2D F) (x y w : F) : Bin2D F := { b with dist := b.dist.fill x y w }

/-- hbook/binning2d.go:21-31 (`Binning2D`).  The edges, which are bins whose contents are
never used, are kept as ranges. -/
structure Binning2D (F : Type) where
  bins : List (Bin2D F)
  dist : Dist2D F
  outflows : List (Dist2D F)
  xrange : Range F
  yrange : Range F
  nx : Nat
  ny : Nat
  xedges : List (Range F)
  yedges : List (Range F)
deriving DecidableEq, Repr

/-- hbook/binning2d.go:178-203 (`Binning2D.coordToIndex`); the outflow codes are those of
hbook/binning2d.go:10-19. -/
def Binning2D.coordToIndex (h : Binning2D F) (x y : F) : Int :=
  let ix := indexOf h.xedges x
  let iy := indexOf h.yedges y
  if ix = h.nx ∧ iy = h.ny then h.bins.length
  else if ix = -2 ∧ iy = -2 then -3
  else if ix = -2 ∧ iy = -1 then -5
  else if ix = -1 ∧ iy = -1 then -7
  else if ix = -1 ∧ iy = -2 then -1
  else if ix = -2 then -4
  else if ix = -1 then -8
  else if iy = -2 then -2
  else if iy = -1 then -6
  else iy * h.nx + ix

/-- hbook/binning2d.go:164-176 (`Binning2D.fill`). -/
def Binning2D.fill [Add F] [Mul F] (h : Binning2D F) (x y w : F) : Option (Binning2D F) :=
  let idx := h.coordToIndex x y
  let h := { h with dist := h.dist.fill x y w }
  if idx = h.bins.length then some h
  else if idx < 0 then
    if (-idx - 1).toNat < h.outflows.length then
      some { h with outflows := h.outflows.modify (-idx - 1).toNat (·.fill x y w) }
    else none
  else if idx < h.bins.length then
    some { h with bins := h.bins.modify idx.toNat (·.fill x y w) }
  else none

/-- Any sequence of hbook/h2d.go:178-180 (`H2D.Fill`). -/
def Binning2D.fills [Add F] [Mul F] (h : Binning2D F) : List (F × F × F) → Option (Binning2D F)
  | [] => some h
  | (x, y, w) :: fs => match h.fill x y w with
    | none => none
    | some h => h.fills fs

/-- The bins of a grid, the bin of column `ix` and row `iy` at index `iy*nx + ix`. -/
def gridBins [Zero F] (xs ys : List (Range F)) : List (Bin2D F) :=
  ys.flatMap fun yr => xs.map fun xr => ⟨xr, yr, .zero⟩

/-- hbook/binning2d.go:78-134 (`newBinning2DFromEdges`). -/
def newBinning2DFromEdges [Zero F] (xedges yedges : List F) : Option (Binning2D F) :=
  if xedges.length ≤ 1 then none
  else if !isSorted xedges then none
  else if yedges.length ≤ 1 then none
  else if !isSorted yedges then none
  else
    let xs := edgeRanges xedges
    let ys := edgeRanges yedges
    if xs.any fun r => feq r.lo r.hi then none
    else if ys.any fun r => feq r.lo r.hi then none
    else match xedges.head?, xedges.getLast?, yedges.head?, yedges.getLast? with
      | some a, some b, some c, some d =>
        some { bins := gridBins xs ys, dist := .zero, outflows := List.replicate 8 .zero,
               xrange := ⟨a, b⟩, yrange := ⟨c, d⟩, nx := xs.length, ny := ys.length,
               xedges := xs, yedges := ys }
      | _, _, _, _ => none

/-! ### Sampling -/

/-- hbook/rand_h1d.go:15-19 (`Rand1D`) without the random source. -/
structure Rand1D (F : Type) where
  bins : List (Range F)
  cdf : List F
deriving DecidableEq, Repr

/-- The partial sums appended by the loop of hbook/rand_h1d.go:23-51 (`NewRand1D`). -/
def partialSums [Add F] (sum : F) : List F → List F
  | [] => []
  | w :: ws => (sum + w) :: partialSums (sum + w) ws

/-- hbook/rand_h1d.go:23-51 (`NewRand1D`); a histogram without bins panics. -/
def newRand1D [Zero F] [One F] [Add F] [Neg F] [Sub F] [Mul F] [Div F] (h : Binning1D F) : Option (Rand1D F) :=
  let cdf := 0 :: partialSums 0 (h.bins.map (·.dist.dist.sumW))
  match h.ranges.getLast?, cdf.getLast? with
  | some last, some sum =>
    let norm := 1 / sum
    some { bins := h.ranges ++ [⟨last.hi, last.hi + last.width⟩], cdf := cdf.map (· * norm) }
  | _, _ => none

/-- The predicate given to `sort.Search` in hbook/rand_h1d.go:53-55 (`Rand1D.search`). -/
def Rand1D.below (d : Rand1D F) (v : F) (i : Nat) : Bool :=
  match d.cdf[i + 1]? with
  | some c => flt v c
  | none => false

/-- hbook/rand_h1d.go:53-55 (`Rand1D.search`). -/
def Rand1D.search (d : Rand1D F) (v : F) : Nat := goSearch (d.cdf.length - 1) (d.below v)

/-- hbook/rand_h1d.go:58-71 (`Rand1D.Rand`), `y` being the number drawn from the uniform
distribution on `[0, 1)`. -/
def Rand1D.rand [Add F] [Sub F] [Mul F] [Div F] (d : Rand1D F) (y : F) : Option F :=
  let i := d.search y
  match d.bins[i]?, d.cdf[i]? with
  | some b, some cdf0 =>
    if flt cdf0 y then
      match d.bins[i + 1]?, d.cdf[i + 1]? with
      | some xbin, some cdf1 => some (b.lo + xbin.xwidth * (y - cdf0) / (cdf1 - cdf0))
      | _, _ => none
    else some b.lo
  | _, _ => none

/-- hbook/rand_h1d.go:74-84 (`Rand1D.CDF`). -/
def Rand1D.cdfAt [Zero F] [One F] (d : Rand1D F) (x : F) : Option F :=
  let i := indexOf d.bins x
  if i = -1 then some 0
  else if i = -2 then some 1
  else d.cdf[i.toNat]?

end Model

/-! ### Concrete numbers for the examples -/

/-- Integers with infinities and NaN, for the examples. -/
inductive XInt
  | nan | ninf | pinf
  | fin (n : Int)
deriving DecidableEq, Repr

instance : GoFloat XInt (WithBot (WithTop Int)) where
  val
    | .nan => none
    | .ninf => some ⊥
    | .pinf => some ⊤
    | .fin n => some (WithBot.some (WithTop.some n))

instance : Zero XInt := ⟨.fin 0⟩
instance : One XInt := ⟨.fin 1⟩
instance : Add XInt where
  add
    | .fin a, .fin b => .fin (a + b)
    | _, _ => .nan
instance : Mul XInt where
  mul
    | .fin a, .fin b => .fin (a * b)
    | _, _ => .nan

/-- Exact numbers: every number is a finite value. -/
instance exactFloat {K : Type} [LinearOrder K] : GoFloat K (WithBot (WithTop K)) where
  val x := some (WithBot.some (WithTop.some x))

end Verif.Hbook
