import Verif.Hbook.Yoda
import Verif.Hbook.Profile

/-!
# YODA texts of profiles and of two-dimensional histograms
-/

namespace Verif.Hbook.Yoda
open Verif.Text Verif.Fscanf Verif.Strconv Verif.Hbook Verif.Hbook.Brio

section
variable {F V : Type} (env : Env F V)

/-! ### Profiles -/

/-- The numbers of a distribution of a profile. -/
def rowP (d : Dist2D F) : List F :=
  [d.x.dist.sumW, d.x.dist.sumW2, d.x.sumWX, d.x.sumWX2, d.y.sumWX, d.y.sumWX2, env.ofInt d.x.dist.n]

def kIDP : List Char := ['#', ' ', 'I', 'D', '\t', ' ', 'I', 'D', '\t', ' ', 's', 'u', 'm', 'w', '\t', ' ', 's', 'u', 'm', 'w', '2', '\t', ' ', 's', 'u', 'm', 'w', 'x', '\t', ' ', 's', 'u', 'm', 'w', 'x', '2', '\t', ' ', 's', 'u', 'm', 'w', 'y', '\t', ' ', 's', 'u', 'm', 'w', 'y', '2', '\t', ' ', 'n', 'u', 'm', 'E', 'n', 't', 'r', 'i', 'e', 's']
def kLowP : List Char := ['#', ' ', 'x', 'l', 'o', 'w', '\t', ' ', 'x', 'h', 'i', 'g', 'h', '\t', ' ', 's', 'u', 'm', 'w', '\t', ' ', 's', 'u', 'm', 'w', '2', '\t', ' ', 's', 'u', 'm', 'w', 'x', '\t', ' ', 's', 'u', 'm', 'w', 'x', '2', '\t', ' ', 's', 'u', 'm', 'w', 'y', '\t', ' ', 's', 'u', 'm', 'w', 'y', '2', '\t', ' ', 'n', 'u', 'm', 'E', 'n', 't', 'r', 'i', 'e', 's']

/-- The numbers of a bin of a profile. -/
def rowBP (b : BinP1D F) : List F := b.xrange.lo :: b.xrange.hi :: rowP env b.dist

/-- The table of hbook/p1d.go:256-291. -/
def tableP (b : BinningP1D F) : List (List Char) :=
  [kIDP, headText env kTotal (rowP env b.dist), headText env kUnder (rowP env b.under),
    headText env kOver (rowP env b.over), kLowP] ++
  b.bins.map fun x => rowText env (rowBP env x)

/-- hbook/p1d.go:245-293 (`marshalYODAv2`), which is `MarshalYODA`. -/
def marshalP1D (b : BinningP1D F) (a : Ann V) : Option (List Char) := write env kP1D a (tableP env b)

/-- hbook/p1d.go:474-490: the weights of the second axis are not set. -/
def distP [Zero F] (v : List (Val F)) : Dist2D F where
  x := { dist := { n := env.toInt (num v[6]?), sumW := num v[0]?, sumW2 := num v[1]? },
         sumWX := num v[2]?, sumWX2 := num v[3]? }
  y := { dist := { n := env.toInt (num v[6]?), sumW := 0, sumW2 := 0 }, sumWX := num v[4]?, sumWX2 := num v[5]? }
  sumWXY := 0

/-- The distribution of a line before the bins, or the zero value. -/
def seenP [Zero F] (st : St F) (h : List Char) : Dist2D F :=
  match st.seen.find? fun x => decide (x.1 = h) with
  | none => .zero
  | some x => distP env x.2

/-- hbook/p1d.go:527-547. -/
def binP [Zero F] (v : List (Val F)) : BinP1D F where
  xrange := ⟨num v[0]?, num v[1]?⟩
  dist := distP env (v.drop 2)

end

section
variable {F V α : Type} (env : Env F V) [LinearOrder α] [GoFloat F α]

/-- The keys of a `map[float64]int` filled with the numbers of a list; a NaN is never found in a map. -/
def distinct : List F → List F
  | [] => []
  | x :: l => if l.any (feq x) then distinct l else x :: distinct l

variable [Zero F] [One F] [Add F] [Sub F] [Neg F] [Mul F] [Div F] [NatCast F]

/-- hbook/p1d.go:553-557: a panic when the range is empty or when there is no bin. -/
def buildP (st : St F) : Option (BinningP1D F) :=
  let bins := st.bins.map (binP env)
  let rs := bins.map (·.xrange)
  (Prof.newBinningP1D (distinct (rs.map (·.lo))).length (loFold env rs env.inf) (hiFold env rs env.ninf)).map fun b =>
    { b with bins := bins, dist := seenP env st kTotal, under := seenP env st kUnder, over := seenP env st kOver }

/-- hbook/p1d.go:294-308 (`UnmarshalYODA`) into a profile with annotations `old`. -/
def unmarshalP1D (old : Ann V) (data : List Char) : Out (Read (BinningP1D F) V) := read env kP1D (buildP env) old data

end

/-! ### Two-dimensional histograms -/

section
variable {F V : Type} (env : Env F V)

/-- The numbers of a distribution. -/
def row2 (d : Dist2D F) : List F :=
  [d.x.dist.sumW, d.x.dist.sumW2, d.x.sumWX, d.x.sumWX2, d.y.sumWX, d.y.sumWX2, d.sumWXY, env.ofInt d.x.dist.n]

/-- The numbers of a bin. -/
def rowB2 (b : Bin2D F) : List F :=
  b.xrange.lo :: b.xrange.hi :: b.yrange.lo :: b.yrange.hi :: row2 env b.dist

def kID2 : List Char := ['#', ' ', 'I', 'D', '\t', ' ', 'I', 'D', '\t', ' ', 's', 'u', 'm', 'w', '\t', ' ', 's', 'u', 'm', 'w', '2', '\t', ' ', 's', 'u', 'm', 'w', 'x', '\t', ' ', 's', 'u', 'm', 'w', 'x', '2', '\t', ' ', 's', 'u', 'm', 'w', 'y', '\t', ' ', 's', 'u', 'm', 'w', 'y', '2', '\t', ' ', 's', 'u', 'm', 'w', 'x', 'y', '\t', ' ', 'n', 'u', 'm', 'E', 'n', 't', 'r', 'i', 'e', 's']
def kOut2 : List Char := ['#', ' ', '2', 'D', ' ', 'o', 'u', 't', 'f', 'l', 'o', 'w', ' ', 'p', 'e', 'r', 's', 'i', 's', 't', 'e', 'n', 'c', 'y', ' ', 'n', 'o', 't', ' ', 'c', 'u', 'r', 'r', 'e', 'n', 't', 'l', 'y', ' ', 's', 'u', 'p', 'p', 'o', 'r', 't', 'e', 'd', ' ', 'u', 'n', 't', 'i', 'l', ' ', 'A', 'P', 'I', ' ', 'i', 's', ' ', 's', 't', 'a', 'b', 'l', 'e']
def kLow2 : List Char := ['#', ' ', 'x', 'l', 'o', 'w', '\t', ' ', 'x', 'h', 'i', 'g', 'h', '\t', ' ', 'y', 'l', 'o', 'w', '\t', ' ', 'y', 'h', 'i', 'g', 'h', '\t', ' ', 's', 'u', 'm', 'w', '\t', ' ', 's', 'u', 'm', 'w', '2', '\t', ' ', 's', 'u', 'm', 'w', 'x', '\t', ' ', 's', 'u', 'm', 'w', 'x', '2', '\t', ' ', 's', 'u', 'm', 'w', 'y', '\t', ' ', 's', 'u', 'm', 'w', 'y', '2', '\t', ' ', 's', 'u', 'm', 'w', 'x', 'y', '\t', ' ', 'n', 'u', 'm', 'E', 'n', 't', 'r', 'i', 'e', 's']

/-- The order in which the bins are written: for every column, every row; none is a panic. -/
def walk2 (b : Binning2D F) : Option (List (Bin2D F)) :=
  ((List.range b.nx).flatMap fun ix => (List.range b.ny).map fun iy => (ix, iy)).mapM fun p => b.bins[p.2 * b.nx + p.1]?

/-- The table of hbook/h2d.go:377-407; the means and the volume are not read back. -/
def table2 (xm ym vol : F) (d : Dist2D F) (bins : List (Bin2D F)) : List (List Char) :=
  [kMean ++ '(' :: (env.fmtE xm ++ ',' :: ' ' :: (env.fmtE ym ++ [')'])), kVolume ++ env.fmtE vol, kID2,
    headText env kTotal (row2 env d), kOut2, kLow2] ++
  bins.map fun x => rowText env (rowB2 env x)

/-- hbook/h2d.go:366-409 (`marshalYODAv2`), which is `MarshalYODA`. -/
def marshalH2D (xm ym vol : F) (b : Binning2D F) (a : Ann V) : Option (List Char) :=
  match walk2 b with
  | none => none
  | some bins => write env kH2D a (table2 env xm ym vol b.dist bins)

/-- hbook/h2d.go:568-586: both axes get the weights. -/
def dist2 [Zero F] (v : List (Val F)) : Dist2D F where
  x := { dist := { n := env.toInt (num v[7]?), sumW := num v[0]?, sumW2 := num v[1]? },
         sumWX := num v[2]?, sumWX2 := num v[3]? }
  y := { dist := { n := env.toInt (num v[7]?), sumW := num v[0]?, sumW2 := num v[1]? },
         sumWX := num v[4]?, sumWX2 := num v[5]? }
  sumWXY := num v[6]?

/-- The distribution of the line before the bins, or the zero value. -/
def seen2 [Zero F] (st : St F) (h : List Char) : Dist2D F :=
  match st.seen.find? fun x => decide (x.1 = h) with
  | none => .zero
  | some x => dist2 env x.2

/-- hbook/h2d.go:587-604. -/
def bin2 [Zero F] (v : List (Val F)) : Bin2D F where
  xrange := ⟨num v[0]?, num v[1]?⟩
  yrange := ⟨num v[2]?, num v[3]?⟩
  dist := dist2 env (v.drop 4)

end

section
variable {F V α : Type} (env : Env F V) [LinearOrder α] [GoFloat F α]
variable [Zero F] [One F] [Add F] [Sub F] [Neg F] [Mul F] [Div F] [NatCast F]

/-- The ranges of bins of the same width. -/
def evenly (n : Nat) (lo hi : F) : List (Range F) :=
  let width := (Range.mk lo hi).width / (n : F)
  (List.range n).map fun i : Nat => ⟨lo + (i : F) * width, lo + ((i + 1 : Nat) : F) * width⟩

/-- hbook/binning2d.go:33-76 (`newBinning2D`). -/
def newBinning2D (nx : Nat) (xlow xhigh : F) (ny : Nat) (ylow yhigh : F) : Option (Binning2D F) :=
  if fle xhigh xlow then none
  else if fle yhigh ylow then none
  else if nx = 0 then none
  else if ny = 0 then none
  else
    let xs := evenly nx xlow xhigh
    let ys := evenly ny ylow yhigh
    some { bins := gridBins xs ys, dist := .zero, outflows := List.replicate 8 .zero,
           xrange := ⟨xlow, xhigh⟩, yrange := ⟨ylow, yhigh⟩, nx := nx, ny := ny, xedges := xs, yedges := ys }

/-- The bins in the order of the histogram: hbook/h2d.go:620-624; none is an index out of range. -/
def untranspose (nx ny : Nat) (bins : List (Bin2D F)) : Option (List (Bin2D F)) :=
  ((List.range ny).flatMap fun iy => (List.range nx).map fun ix => (ix, iy)).mapM fun p => bins[p.1 * ny + p.2]?

/-- hbook/h2d.go:617-625; `bins` being longer than the grid is no error. -/
def build2 (st : St F) : Option (Binning2D F) :=
  let bins := st.bins.map (bin2 env)
  let xs := bins.map (·.xrange)
  let ys := bins.map (·.yrange)
  match newBinning2D (distinct (xs.map (·.lo))).length (loFold env xs env.inf) (hiFold env xs env.ninf)
      (distinct (ys.map (·.lo))).length (loFold env ys env.inf) (hiFold env ys env.ninf) with
  | none => none
  | some b => (untranspose b.nx b.ny bins).map fun bs => { b with bins := bs, dist := seen2 env st kTotal }

/-- hbook/h2d.go:412-426 (`UnmarshalYODA`) into a histogram with annotations `old`. -/
def unmarshalH2D (old : Ann V) (data : List Char) : Out (Read (Binning2D F) V) := read env kH2D (build2 env) old data

end

end Verif.Hbook.Yoda
