import Verif.Common.Bytes
import Verif.Hbook.Model

/-!
# Model of the binary records of `hbook`

The generated `MarshalBinary` and `UnmarshalBinary` methods of `hbook.H1D`, `H2D`, `P1D` and
`S2D` and of everything they are made of: little-endian 64-bit words, records inside records
preceded by their length, slices preceded by their number of elements.

Floating point numbers are a type `F` with the functions `math.Float64bits` and
`math.Float64frombits`.  The annotations, which go through `encoding/gob`, are a type `A`
with an encoder and a decoder that may both return an error.

A reader takes the bytes left and returns a value and the bytes left after it, or an error,
or panics: slicing beyond the length of the data panics.  (`data[:n]` only has to be within
the capacity of the slice, but the `data = data[n:]` after every such read has to be within
its length, so the check is done at once here.)  Reading overwrites every field of the
receiver, so readers return the value read.
-/

namespace Verif.Hbook.Brio
open Verif.Hbook

/-- What a call returns: a panic, an error or a value. -/
inductive Out (T : Type) where
  | panic
  | err
  | ok (v : T)
deriving DecidableEq, Repr

/-- Readers of a byte slice. -/
def Rd (T : Type) : Type := List UInt8 → Out (T × List UInt8)

/-- A reader reading nothing. -/
def Rd.ret {T : Type} (v : T) : Rd T := fun d => .ok (v, d)

/-- A reader that panics. -/
def Rd.panic {T : Type} : Rd T := fun _ => .panic

/-- One reader after the other. -/
def Rd.next {T U : Type} (r : Rd T) (k : T → Rd U) : Rd U := fun d =>
  match r d with
  | .panic => .panic
  | .err => .err
  | .ok (v, d) => k v d

instance : Monad Rd where
  pure := Rd.ret
  bind := Rd.next

/-- The bits of floating point numbers and the codec of annotations. -/
structure Codec (F A : Type) where
  /-- `math.Float64bits` -/
  bits : F → Nat
  /-- `math.Float64frombits` -/
  ofBits : Nat → F
  /-- hbook/ann.go:92-97 (`Annotation.MarshalBinary`) -/
  annEnc : A → Option (List UInt8)
  /-- hbook/ann.go:100-109 (`Annotation.UnmarshalBinary`) -/
  annDec : List UInt8 → Option A

/-- `binary.LittleEndian.PutUint64` of a number already converted to `uint64`. -/
def wU64 (n : Nat) : List UInt8 := leEnc 8 n

/-- `binary.LittleEndian.Uint64(data[:8])` followed by `data = data[8:]`. -/
def rU64 : Rd Nat := fun d =>
  if d.length < 8 then .panic else .ok (leDec (d.take 8), d.drop 8)

/-- `uint64(n)` of a signed number, written as a word. -/
def wI64 (n : Int) : List UInt8 := wU64 (n % 2 ^ 64).toNat

/-- `int64(x)` and `int(x)` of a `uint64`. -/
def toI64 (x : Nat) : Int := if x < 2 ^ 63 then x else (x : Int) - 2 ^ 64

/-- A signed number. -/
def rI64 : Rd Int := do
  let x ← rU64
  return toI64 x

/-- A record inside a record: its length, then its bytes. -/
def wSub (bs : List UInt8) : List UInt8 := wU64 bs.length ++ bs

/-- `data[:n]` is given to `u` and `data = data[n:]`; a negative `n` panics. -/
def rCut {T : Type} (u : List UInt8 → Out T) (n : Int) : Rd T := fun d =>
  if n < 0 ∨ d.length < n.toNat then .panic
  else match u (d.take n.toNat) with
    | .panic => .panic
    | .err => .err
    | .ok v => .ok (v, d.drop n.toNat)

/-- A record inside a record, `u` being its `UnmarshalBinary`. -/
def rSub {T : Type} (u : List UInt8 → Out T) : Rd T := do
  let n ← rI64
  rCut u n

/-- The end of every `UnmarshalBinary`: the bytes left are ignored. -/
def Rd.run {T : Type} (r : Rd T) (d : List UInt8) : Out T :=
  match r d with
  | .panic => .panic
  | .err => .err
  | .ok (v, _) => .ok v

/-- Elements without their number, as for the array `Outflows`. -/
def wArr {T : Type} (w : T → List UInt8) (l : List T) : List UInt8 :=
  l.flatMap fun v => wSub (w v)

/-- A slice: the number of elements, then each element as a record. -/
def wSlice {T : Type} (w : T → List UInt8) (l : List T) : List UInt8 :=
  wU64 l.length ++ wArr w l

/-- `n` records in a row. -/
def rArr {T : Type} (u : List UInt8 → Out T) : Nat → Rd (List T)
  | 0 => pure []
  | n + 1 => do
    let v ← rSub u
    let vs ← rArr u n
    return v :: vs

/-- `n` records in a row after `make([]T, n)`, which panics on a negative number.  (It also
panics on numbers too big for the memory, where reading the elements would.) -/
def rMake {T : Type} (u : List UInt8 → Out T) (n : Int) : Rd (List T) :=
  if n < 0 then Rd.panic else rArr u n.toNat

/-- A slice. -/
def rSlice {T : Type} (u : List UInt8 → Out T) : Rd (List T) := do
  let n ← rI64
  rMake u n

section
variable {F A : Type} (c : Codec F A)

/-- `math.Float64bits(x)` as a word. -/
def wF64 (x : F) : List UInt8 := wU64 (c.bits x)

/-- A floating point number. -/
def rF64 : Rd F := do
  let x ← rU64
  return c.ofBits x

/-! ### Distributions -/

/-- hbook/dist_brio.go:11-20 (`Dist0D.MarshalBinary`). -/
def wDist0D (o : Dist0D F) : List UInt8 := wI64 o.n ++ (wF64 c o.sumW ++ wF64 c o.sumW2)

/-- hbook/dist_brio.go:23-32 (`Dist0D.UnmarshalBinary`). -/
def rDist0D : Rd (Dist0D F) := do
  let n ← rI64
  let sumW ← rF64 c
  let sumW2 ← rF64 c
  return { n, sumW, sumW2 }

/-- hbook/dist_brio.go:35-51 (`Dist1D.MarshalBinary`). -/
def wDist1D (o : Dist1D F) : List UInt8 :=
  wSub (wDist0D c o.dist) ++ (wF64 c o.sumWX ++ wF64 c o.sumWX2)

/-- hbook/dist_brio.go:54-70 (`Dist1D.UnmarshalBinary`). -/
def rDist1D : Rd (Dist1D F) := do
  let dist ← rSub (rDist0D c).run
  let sumWX ← rF64 c
  let sumWX2 ← rF64 c
  return { dist, sumWX, sumWX2 }

/-- hbook/dist_brio.go:73-96 (`Dist2D.MarshalBinary`). -/
def wDist2D (o : Dist2D F) : List UInt8 :=
  wSub (wDist1D c o.x) ++ (wSub (wDist1D c o.y) ++ wF64 c o.sumWXY)

/-- hbook/dist_brio.go:99-122 (`Dist2D.UnmarshalBinary`). -/
def rDist2D : Rd (Dist2D F) := do
  let x ← rSub (rDist1D c).run
  let y ← rSub (rDist1D c).run
  let sumWXY ← rF64 c
  return { x, y, sumWXY }

/-! ### Bins and binnings -/

/-- hbook/binning_brio.go:11-18 (`Range.MarshalBinary`). -/
def wRange (o : Range F) : List UInt8 := wF64 c o.lo ++ wF64 c o.hi

/-- hbook/binning_brio.go:21-28 (`Range.UnmarshalBinary`). -/
def rRange : Rd (Range F) := do
  let lo ← rF64 c
  let hi ← rF64 c
  return { lo, hi }

/-- hbook/binning_brio.go:241-262 (`Bin1D.MarshalBinary`). -/
def wBin1D (o : Bin1D F) : List UInt8 := wSub (wRange c o.range) ++ wSub (wDist1D c o.dist)

/-- hbook/binning_brio.go:265-286 (`Bin1D.UnmarshalBinary`). -/
def rBin1D : Rd (Bin1D F) := do
  let range ← rSub (rRange c).run
  let dist ← rSub (rDist1D c).run
  return { range, dist }

/-- hbook/binning_brio.go:31-78 (`Binning1D.MarshalBinary`); the loop over the two outflows is
unrolled. -/
def wBinning1D (o : Binning1D F) : List UInt8 :=
  wSlice (wBin1D c) o.bins ++ (wSub (wDist1D c o.dist) ++ (wSub (wDist1D c o.under) ++
    (wSub (wDist1D c o.over) ++ wSub (wRange c o.xrange))))

/-- hbook/binning_brio.go:81-131 (`Binning1D.UnmarshalBinary`). -/
def rBinning1D : Rd (Binning1D F) := do
  let bins ← rSlice (rBin1D c).run
  let dist ← rSub (rDist1D c).run
  let under ← rSub (rDist1D c).run
  let over ← rSub (rDist1D c).run
  let xrange ← rSub (rRange c).run
  return { bins, dist, under, over, xrange }

/-- A bin of a profile.  hbook/p1d.go:648-651 (`BinP1D`). -/
structure BinP1D (F : Type) where
  xrange : Range F
  dist : Dist2D F
deriving DecidableEq, Repr

/-- hbook/p1d.go:561-567 (`binningP1D`). -/
structure BinningP1D (F : Type) where
  bins : List (BinP1D F)
  dist : Dist2D F
  under : Dist2D F
  over : Dist2D F
  xrange : Range F
  xstep : F
deriving DecidableEq, Repr

/-- hbook/binning_brio.go:289-310 (`BinP1D.MarshalBinary`). -/
def wBinP1D (o : BinP1D F) : List UInt8 := wSub (wRange c o.xrange) ++ wSub (wDist2D c o.dist)

/-- hbook/binning_brio.go:313-334 (`BinP1D.UnmarshalBinary`). -/
def rBinP1D : Rd (BinP1D F) := do
  let xrange ← rSub (rRange c).run
  let dist ← rSub (rDist2D c).run
  return { xrange, dist }

/-- hbook/binning_brio.go:134-183 (`binningP1D.MarshalBinary`). -/
def wBinningP1D (o : BinningP1D F) : List UInt8 :=
  wSlice (wBinP1D c) o.bins ++ (wSub (wDist2D c o.dist) ++ (wSub (wDist2D c o.under) ++
    (wSub (wDist2D c o.over) ++ (wSub (wRange c o.xrange) ++ wF64 c o.xstep))))

/-- hbook/binning_brio.go:186-238 (`binningP1D.UnmarshalBinary`). -/
def rBinningP1D : Rd (BinningP1D F) := do
  let bins ← rSlice (rBinP1D c).run
  let dist ← rSub (rDist2D c).run
  let under ← rSub (rDist2D c).run
  let over ← rSub (rDist2D c).run
  let xrange ← rSub (rRange c).run
  let xstep ← rF64 c
  return { bins, dist, under, over, xrange, xstep }

/-- hbook/binning_brio.go:528-558 (`Bin2D.MarshalBinary`). -/
def wBin2D (o : Bin2D F) : List UInt8 :=
  wSub (wRange c o.xrange) ++ (wSub (wRange c o.yrange) ++ wSub (wDist2D c o.dist))

/-- hbook/binning_brio.go:561-591 (`Bin2D.UnmarshalBinary`). -/
def rBin2D : Rd (Bin2D F) := do
  let xrange ← rSub (rRange c).run
  let yrange ← rSub (rRange c).run
  let dist ← rSub (rDist2D c).run
  return { xrange, yrange, dist }

/-- The binning of a two-dimensional histogram with the contents of its edges, which are kept
in the records although nothing uses them.  hbook/binning2d.go:21-31 (`Binning2D`). -/
structure Binning2DRec (F : Type) where
  bins : List (Bin2D F)
  dist : Dist2D F
  outflows : List (Dist2D F)
  xrange : Range F
  yrange : Range F
  nx : Int
  ny : Int
  xedges : List (Bin1D F)
  yedges : List (Bin1D F)
deriving DecidableEq, Repr

/-- hbook/binning_brio.go:337-425 (`Binning2D.MarshalBinary`). -/
def wBinning2D (o : Binning2DRec F) : List UInt8 :=
  wSlice (wBin2D c) o.bins ++ (wSub (wDist2D c o.dist) ++ (wArr (wDist2D c) o.outflows ++
    (wSub (wRange c o.xrange) ++ (wSub (wRange c o.yrange) ++ (wI64 o.nx ++ (wI64 o.ny ++
    (wSlice (wBin1D c) o.xedges ++ wSlice (wBin1D c) o.yedges)))))))

/-- hbook/binning_brio.go:428-525 (`Binning2D.UnmarshalBinary`). -/
def rBinning2D : Rd (Binning2DRec F) := do
  let bins ← rSlice (rBin2D c).run
  let dist ← rSub (rDist2D c).run
  let outflows ← rArr (rDist2D c).run 8
  let xrange ← rSub (rRange c).run
  let yrange ← rSub (rRange c).run
  let nx ← rI64
  let ny ← rI64
  let xedges ← rSlice (rBin1D c).run
  let yedges ← rSlice (rBin1D c).run
  return { bins, dist, outflows, xrange, yrange, nx, ny, xedges, yedges }

/-! ### Histograms, profiles and scatters -/

/-- A binning or a list of points with annotations: hbook/h1d.go:21-24 (`H1D`),
hbook/h2d.go:16-19 (`H2D`), hbook/p1d.go:16-19 (`P1D`), hbook/s2d.go:19-22 (`S2D`). -/
structure Obj (B A : Type) where
  body : B
  ann : A
deriving DecidableEq, Repr

/-- hbook/ann.go:100-109 (`Annotation.UnmarshalBinary`). -/
def uAnn (d : List UInt8) : Out A :=
  match c.annDec d with
  | none => .err
  | some a => .ok a

/-- hbook/hbook_brio.go:10-31 (`H1D.MarshalBinary`). -/
def marshalH1D (o : Obj (Binning1D F) A) : Option (List UInt8) :=
  match c.annEnc o.ann with
  | none => none
  | some a => some (wSub (wBinning1D c o.body) ++ wSub a)

/-- hbook/hbook_brio.go:34-55 (`H1D.UnmarshalBinary`). -/
def rH1D : Rd (Obj (Binning1D F) A) := do
  let body ← rSub (rBinning1D c).run
  let ann ← rSub (uAnn c)
  return { body, ann }

/-- hbook/hbook_brio.go:58-79 (`H2D.MarshalBinary`). -/
def marshalH2D (o : Obj (Binning2DRec F) A) : Option (List UInt8) :=
  match c.annEnc o.ann with
  | none => none
  | some a => some (wSub (wBinning2D c o.body) ++ wSub a)

/-- hbook/hbook_brio.go:82-103 (`H2D.UnmarshalBinary`). -/
def rH2D : Rd (Obj (Binning2DRec F) A) := do
  let body ← rSub (rBinning2D c).run
  let ann ← rSub (uAnn c)
  return { body, ann }

/-- hbook/hbook_brio.go:106-127 (`P1D.MarshalBinary`). -/
def marshalP1D (o : Obj (BinningP1D F) A) : Option (List UInt8) :=
  match c.annEnc o.ann with
  | none => none
  | some a => some (wSub (wBinningP1D c o.body) ++ wSub a)

/-- hbook/hbook_brio.go:130-151 (`P1D.UnmarshalBinary`). -/
def rP1D : Rd (Obj (BinningP1D F) A) := do
  let body ← rSub (rBinningP1D c).run
  let ann ← rSub (uAnn c)
  return { body, ann }

/-- hbook/points.go:8-13 (`Point2D`). -/
structure Point2D (F : Type) where
  x : F
  y : F
  errX : Range F
  errY : Range F
deriving DecidableEq, Repr

/-- hbook/points_brio.go:11-36 (`Point2D.MarshalBinary`). -/
def wPoint2D (o : Point2D F) : List UInt8 :=
  wF64 c o.x ++ (wF64 c o.y ++ (wSub (wRange c o.errX) ++ wSub (wRange c o.errY)))

/-- hbook/points_brio.go:39-64 (`Point2D.UnmarshalBinary`). -/
def rPoint2D : Rd (Point2D F) := do
  let x ← rF64 c
  let y ← rF64 c
  let errX ← rSub (rRange c).run
  let errY ← rSub (rRange c).run
  return { x, y, errX, errY }

/-- hbook/hbook_brio.go:154-180 (`S2D.MarshalBinary`). -/
def marshalS2D (o : Obj (List (Point2D F)) A) : Option (List UInt8) :=
  match c.annEnc o.ann with
  | none => none
  | some a => some (wSlice (wPoint2D c) o.body ++ wSub a)

/-- hbook/hbook_brio.go:183-212 (`S2D.UnmarshalBinary`). -/
def rS2D : Rd (Obj (List (Point2D F)) A) := do
  let body ← rSlice (rPoint2D c).run
  let ann ← rSub (uAnn c)
  return { body, ann }

/-- `UnmarshalBinary` of the four kinds of objects. -/
def unmarshalH1D (d : List UInt8) : Out (Obj (Binning1D F) A) := (rH1D c).run d
/-- `UnmarshalBinary` of the four kinds of objects. -/
def unmarshalH2D (d : List UInt8) : Out (Obj (Binning2DRec F) A) := (rH2D c).run d
/-- `UnmarshalBinary` of the four kinds of objects. -/
def unmarshalP1D (d : List UInt8) : Out (Obj (BinningP1D F) A) := (rP1D c).run d
/-- `UnmarshalBinary` of the four kinds of objects. -/
def unmarshalS2D (d : List UInt8) : Out (Obj (List (Point2D F)) A) := (rS2D c).run d

/-- hbook/h1d.go:296-309 (`H1D.RioMarshal`): the bytes written, by two calls to `Write`. -/
def rioMarshalH1D (o : Obj (Binning1D F) A) : Option (List UInt8) :=
  match marshalH1D c o with
  | none => none
  | some data => some (wU64 data.length ++ data)

/-- hbook/h1d.go:312-325 (`H1D.RioUnmarshal`): `io.ReadFull` returns an error on a stream that
ends too early, `make` panics on a negative length. -/
def rioUnmarshalH1D : Rd (Obj (Binning1D F) A) := fun d =>
  if d.length < 8 then .err
  else
    let n := toI64 (leDec (d.take 8))
    let d := d.drop 8
    if n < 0 then .panic
    else if d.length < n.toNat then .err
    else match unmarshalH1D c (d.take n.toNat) with
      | .panic => .panic
      | .err => .err
      | .ok v => .ok (v, d.drop n.toNat)

end

end Verif.Hbook.Brio
