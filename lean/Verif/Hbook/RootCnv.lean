import Verif.Hbook.Profile

/-!
# Model of the conversions between `hbook` and ROOT histograms and graphs

`hbook/rootcnv` and the functions of `groot/rhist` it calls, together with the merging of ROOT
histograms and graphs (`ROOTMerge`).

The six ROOT classes (`TH1F`, `TH1D`, `TH1I`, `TH2F`, `TH2D`, `TH2I`) are generated from one
template: the type of their cells and the two conversions of a content are the parameter
`Cell`.  Line numbers are those of the `D` classes.  Of the annotations only the name and the
title are kept, as in the code.  Drawing attributes and the lists of functions, which the
conversions do not touch, are not modelled.  A Go panic is `none`.
-/

namespace Verif.Hbook.RootCnv
open Verif.Hbook Verif.Hbook.Brio Verif.Hbook.Prof

/-- The value of an annotation as far as the conversions look at it. -/
inductive Ann
  | str (s : String)
  | nil
  | other
deriving DecidableEq, Repr

/-- hbook/h1d.go:21-24 (`H1D`) with the annotations named name and title. -/
structure H1 (F : Type) where
  bng : Binning1D F
  name : Option Ann
  title : Option Ann
deriving DecidableEq, Repr

/-- hbook/h2d.go:16-19 (`H2D`) with the annotations named name and title. -/
structure H2 (F : Type) where
  bng : Binning2D F
  name : Option Ann
  title : Option Ann
deriving DecidableEq, Repr

/-- hbook/s2d.go:19-22 (`S2D`) with the annotations named name and title. -/
structure S2 (F : Type) where
  pts : List (Point2D F)
  name : Option Ann
  title : Option Ann
deriving DecidableEq, Repr

/-- hbook/h1d.go:65-75 (`H1D.Name`), hbook/h2d.go:43-53 (`H2D.Name`), hbook/s2d.go:148-158 (`S2D.Name`). -/
def nameOf : Option Ann → String
  | some (.str s) => s
  | _ => ""

/-- The title given to a ROOT histogram, groot/rhist/h1_gen.go:318-360 (`NewH1DFrom`): absent and
nil annotations leave it empty, anything but a string panics. -/
def titleOf : Option Ann → Option String
  | none => some ""
  | some .nil => some ""
  | some (.str s) => some s
  | some .other => none

/-- The title given to a ROOT graph, groot/rhist/graph.go:55-80 (`NewGraphFrom`): unlike the one of
histograms the assertion is made on nil values too. -/
def graphTitleOf : Option Ann → Option String
  | none => some ""
  | some (.str s) => some s
  | _ => none

/-- The type of the cells of a ROOT histogram: the conversion of a sum of weights into a cell and
the conversion back. -/
structure Cell (F C : Type) where
  /-- `float32(sumw)`, `float64(sumw)` or `int32(sumw)` -/
  cst : F → C
  /-- `float64(v)` -/
  back : C → F
  /-- the zero value of the cell -/
  zero : C

/-- groot/rhist/axis.go:19-33 (`taxis`). -/
structure TAxis (F : Type) where
  nbins : Nat
  xmin : F
  xmax : F
  xbins : List F
deriving DecidableEq, Repr

/-- groot/rhist/h1_gen.go:306-309 (`H1D`) and the fields of `th1` the conversions use,
groot/rhist/hist.go:19-45 (`th1`). -/
structure TH1 (F C : Type) where
  entries : F
  tsumw : F
  tsumw2 : F
  tsumwx : F
  tsumwx2 : F
  ncells : Nat
  xaxis : TAxis F
  sumw2 : List F
  arr : List C
  name : String
  title : String
deriving DecidableEq, Repr

/-- groot/rhist/h2_gen.go:414-417 (`H2D`) and the fields of `th2` and `th1` the conversions use. -/
structure TH2 (F C : Type) where
  entries : F
  tsumw : F
  tsumw2 : F
  tsumwx : F
  tsumwx2 : F
  tsumwy : F
  tsumwy2 : F
  tsumwxy : F
  ncells : Nat
  xaxis : TAxis F
  yaxis : TAxis F
  sumw2 : List F
  arr : List C
  name : String
  title : String
deriving DecidableEq, Repr

/-- Assignments `l[i] = v` one after the other. -/
def setAll {C : Type} : List (Nat × C) → List C → Option (List C)
  | [], l => some l
  | (i, c) :: ws, l => if i < l.length then setAll ws (l.set i c) else none

section
variable {F α C : Type} [LinearOrder α] [BoundedOrder α] [GoFloat F α]
variable [Zero F] [One F] [Add F] [Sub F] [Neg F] [Mul F] [Div F] [NatCast F] [IntCast F]

/-! ### Axes -/

/-- groot/rhist/axis.go:78-84 (`taxis.BinLowEdge`). -/
def binLowEdge (a : TAxis F) (i : Int) : Option F :=
  if a.xbins.length = 0 ∨ i < 1 ∨ i > a.nbins then
    some (a.xmin + ((i - 1 : Int) : F) * ((a.xmax - a.xmin) / (a.nbins : F)))
  else a.xbins[(i - 1).toNat]?

/-- groot/rhist/axis.go:86-100 (`taxis.BinWidth`). -/
def binWidth (a : TAxis F) (i : Int) : Option F :=
  if a.nbins = 0 then some 0
  else if a.xbins.length = 0 then some ((a.xmax - a.xmin) / (a.nbins : F))
  else
    let i := if i > a.nbins then (a.nbins : Int) else i
    let i := if i < 1 then 1 else i
    match a.xbins[i.toNat]?, a.xbins[(i - 1).toNat]? with
    | some hi, some lo => some (hi - lo)
    | _, _ => none

/-! ### One dimension -/

/-- The edges collected by the loop of groot/rhist/h1_gen.go:318-360 (`NewH1DFrom`). -/
def edgesOf : List (Bin1D F) → List F
  | [] => []
  | b :: bs => b.range.lo :: (b :: bs).map (·.range.hi)

/-- The calls of `setDist1D` of groot/rhist/h1_gen.go:318-360 (`NewH1DFrom`), the sums being read
off a distribution by `g`: bins, underflow, overflow. -/
def writes1 {T : Type} (g : Dist1D F → T) (h : Binning1D F) : List (Nat × T) :=
  (h.bins.zipIdx.map fun p => (p.2 + 1, g p.1.dist)) ++ [(0, g h.under), (h.bins.length + 1, g h.over)]

/-- groot/rhist/h1_gen.go:318-360 (`NewH1DFrom`). -/
def newH1From (k : Cell F C) (h : H1 F) : Option (TH1 F C) :=
  let n := h.bng.bins.length
  match setAll (writes1 (fun d => k.cst d.dist.sumW) h.bng) (List.replicate (n + 2) k.zero),
        setAll (writes1 (fun d => d.dist.sumW2) h.bng) (List.replicate (n + 2) 0),
        titleOf h.title with
  | some arr, some sumw2, some title =>
    some { entries := ((h.bng.dist.dist.n : Int) : F), tsumw := h.bng.dist.dist.sumW,
           tsumw2 := h.bng.dist.dist.sumW2, tsumwx := h.bng.dist.sumWX, tsumwx2 := h.bng.dist.sumWX2,
           ncells := n + 2,
           xaxis := ⟨n, h.bng.xrange.lo, h.bng.xrange.hi, edgesOf h.bng.bins⟩,
           sumw2, arr, name := nameOf h.name, title }
  | _, _, _ => none

/-- groot/rhist/h1_gen.go:426-435 (`H1D.bin`). -/
def cell1 (nbins : Nat) (ix : Int) : Int :=
  let nx : Int := nbins + 1
  if ix < 0 then 0 else if ix > nx then nx else ix

/-- groot/rhist/h1_gen.go:443-446 (`H1D.XBinContent`). -/
def content1 (k : Cell F C) (h : TH1 F C) (i : Int) : Option F :=
  (h.arr[(cell1 h.xaxis.nbins i).toNat]?).map k.back

/-- groot/rhist/h1_gen.go:449-455 (`H1D.XBinError`). -/
def error1 (v : Env F) (k : Cell F C) (h : TH1 F C) (i : Int) : Option F :=
  let j := (cell1 h.xaxis.nbins i).toNat
  if h.sumw2.length > 0 then (h.sumw2[j]?).map v.sqrt
  else (h.arr[j]?).map fun c => v.sqrt (fabs (k.back c))

/-- groot/rhist/h1_gen.go:490-496 (`H1D.entries`). -/
def entriesOf (v : Env F) (height err : F) : Int :=
  if fle height 0 then 0
  else
    let q := height / err
    v.toInt (q * q + v.half)

/-- groot/rhist/h1_gen.go:467-483 (`H1D.dist1D`). -/
def dist1 (v : Env F) (k : Cell F C) (h : TH1 F C) (i : Nat) : Option (Dist1D F) :=
  match content1 k h i, error1 v k h i, h.arr[i]?,
        (if h.sumw2.length > 0 then h.sumw2[i]? else some 0) with
  | some x, some err, some sumw, some sumw2 =>
    some ⟨⟨entriesOf v x err, k.back sumw, sumw2⟩, 0, 0⟩
  | _, _, _, _ => none

/-- One step of the loop over the bins of groot/rhist/h1_gen.go:499-535 (`H1D.AsH1D`). -/
def bin1 (v : Env F) (k : Cell F C) (h : TH1 F C) (i : Nat) : Option (Bin1D F) :=
  match binLowEdge h.xaxis ((i : Int) + 1), binWidth h.xaxis ((i : Int) + 1), dist1 v k h (i + 1) with
  | some xmin, some w, some d => some ⟨⟨xmin, w + xmin⟩, d⟩
  | _, _, _ => none

/-- The results of a function on `0, …, n-1`, none as soon as one of them panics. -/
def collect {T : Type} (f : Nat → Option T) : List Nat → Option (List T)
  | [] => some []
  | i :: l => match f i, collect f l with
    | some x, some xs => some (x :: xs)
    | _, _ => none

/-- groot/rhist/h1_gen.go:499-535 (`H1D.AsH1D`). -/
def asH1 (v : Env F) (k : Cell F C) (h : TH1 F C) : Option (H1 F) :=
  let nx := h.xaxis.nbins
  match newBinning1D (nx : Int) h.xaxis.xmin h.xaxis.xmax, dist1 v k h 0, dist1 v k h (nx + 1),
        collect (bin1 v k h) (List.range nx) with
  | some hh, some under, some over, some bins =>
    some { bng := { hh with bins, under, over,
                            dist := ⟨⟨v.toInt h.entries, h.tsumw, h.tsumw2⟩, h.tsumwx, h.tsumwx2⟩ }
           name := some (.str h.name), title := some (.str h.title) }
  | _, _, _, _ => none

/-- groot/rhist/h1_gen.go:554-569 (`H1D.ROOTMerge`): `none` is a panic.  The source is taken to be
of the same class. -/
def merge1 (v : Env F) (k : Cell F C) (h src : TH1 F C) : Option (TH1 F C) :=
  match asH1 v k h, asH1 v k src with
  | some a, some b => match addH1D a.bng b.bng with
    | some s => newH1From k { a with bng := s }
    | none => none
  | _, _ => none

/-! ### Two dimensions -/

/-- hbook/binning2d.go:33-76 (`newBinning2D`). -/
def newBinning2D (nx : Int) (xlo xhi : F) (ny : Int) (ylo yhi : F) : Option (Binning2D F) :=
  if fle xhi xlo then none
  else if fle yhi ylo then none
  else if nx ≤ 0 then none
  else if ny ≤ 0 then none
  else
    let xw := (Range.mk xlo xhi).width / (nx.toNat : F)
    let yw := (Range.mk ylo yhi).width / (ny.toNat : F)
    let xs := (List.range nx.toNat).map fun i : Nat => Range.mk (xlo + (i : F) * xw) (xlo + ((i + 1 : Nat) : F) * xw)
    let ys := (List.range ny.toNat).map fun i : Nat => Range.mk (ylo + (i : F) * yw) (ylo + ((i + 1 : Nat) : F) * yw)
    some { bins := gridBins xs ys, dist := .zero, outflows := List.replicate 8 .zero,
           xrange := ⟨xlo, xhi⟩, yrange := ⟨ylo, yhi⟩, nx := nx.toNat, ny := ny.toNat,
           xedges := xs, yedges := ys }

/-- groot/rhist/h2_gen.go:599-615 (`H2D.bin`). -/
def cell2 (nbx nby : Nat) (ix iy : Int) : Int :=
  let nx : Int := nbx + 1
  let ny : Int := nby + 1
  let ix := if ix < 0 then 0 else if ix > nx then nx else ix
  let iy := if iy < 0 then 0 else if iy > ny then ny else iy
  ix + (nx + 1) * iy

/-- The cells of the eight outflows, in the order of groot/rhist/h2_gen.go:426-500 (`NewH2DFrom`) and
of groot/rhist/h2_gen.go:664-731 (`H2D.AsH2D`). -/
def outCells (nx ny : Nat) : List (Int × Int) :=
  [(0, 0), (0, 1), (0, ny + 1), (nx + 1, 0), (nx + 1, 1), (nx + 1, ny + 1), (1, 0), (1, ny + 1)]

/-- The index pairs of the double loop over columns and rows. -/
def loop2 (nx ny : Nat) : List (Nat × Nat) :=
  (List.range nx).flatMap fun ix => (List.range ny).map fun iy => (ix, iy)

/-- The bins visited by the double loop of groot/rhist/h2_gen.go:426-500 (`NewH2DFrom`). -/
def visit2 (h : Binning2D F) : List (Nat × Nat) → Option (List ((Nat × Nat) × Bin2D F))
  | [] => some []
  | p :: l => match h.bins[p.2 * h.nx + p.1]?, visit2 h l with
    | some b, some bs => some ((p, b) :: bs)
    | _, _ => none

/-- The calls of `setDist2D` of groot/rhist/h2_gen.go:426-500 (`NewH2DFrom`). -/
def writes2 {T : Type} (g : Dist2D F → T) (h : Binning2D F) (vs : List ((Nat × Nat) × Bin2D F)) :
    List (Nat × T) :=
  (vs.map fun q => ((cell2 h.nx h.ny ((q.1.1 : Int) + 1) ((q.1.2 : Int) + 1)).toNat, g q.2.dist)) ++
  List.zipWith (fun c d => ((cell2 h.nx h.ny c.1 c.2).toNat, g d)) (outCells h.nx h.ny) h.outflows

/-- The lower edges in x collected by the double loop. -/
def xLows (vs : List ((Nat × Nat) × Bin2D F)) : List F :=
  (vs.filter fun q => q.1.2 = 0).map fun q => q.2.xrange.lo

/-- The lower edges in y collected by the double loop. -/
def yLows (vs : List ((Nat × Nat) × Bin2D F)) : List F :=
  (vs.filter fun q => q.1.1 = 0).map fun q => q.2.yrange.lo

/-- groot/rhist/h2_gen.go:426-500 (`NewH2DFrom`); the indices of the last column and row are negative,
hence a panic, for a histogram without bins. -/
def newH2From (k : Cell F C) (h : H2 F) : Option (TH2 F C) :=
  let b := h.bng
  let ncells := (b.nx + 2) * (b.ny + 2)
  match visit2 b (loop2 b.nx b.ny) with
  | none => none
  | some vs =>
    if b.nx = 0 ∨ b.ny = 0 then none
    else match setAll (writes2 (fun d => k.cst d.x.dist.sumW) b vs) (List.replicate ncells k.zero),
               setAll (writes2 (fun d => d.x.dist.sumW2) b vs) (List.replicate ncells 0),
               b.bins[b.nx - 1]?, b.bins[(b.ny - 1) * b.nx]?, titleOf h.title with
      | some arr, some sumw2, some xl, some yl, some title =>
        some { entries := ((b.dist.x.dist.n : Int) : F), tsumw := b.dist.x.dist.sumW,
               tsumw2 := b.dist.x.dist.sumW2, tsumwx := b.dist.x.sumWX, tsumwx2 := b.dist.x.sumWX2,
               tsumwy := b.dist.y.sumWX, tsumwy2 := b.dist.y.sumWX2, tsumwxy := b.dist.sumWXY,
               ncells,
               xaxis := ⟨b.nx, b.xrange.lo, b.xrange.hi, xLows vs ++ [xl.xrange.hi]⟩,
               yaxis := ⟨b.ny, b.yrange.lo, b.yrange.hi, yLows vs ++ [yl.yrange.hi]⟩,
               sumw2, arr, name := nameOf h.name, title }
      | _, _, _, _, _ => none

/-- groot/rhist/h2_gen.go:617-647 (`H2D.dist2D`); `XBinContent` and `YBinContent`,
groot/rhist/h2_gen.go:538-549 (`H2D.XBinError`), are given the number of the cell. -/
def dist2 (v : Env F) (k : Cell F C) (h : TH2 F C) (ix iy : Int) : Option (Dist2D F) :=
  let i := (cell2 h.xaxis.nbins h.yaxis.nbins ix iy).toNat
  match h.arr[i]?, (if h.sumw2.length > 0 then h.sumw2[i]? else some 0) with
  | some c, some sumw2 =>
    let x := k.back c
    let err := if h.sumw2.length > 0 then v.sqrt sumw2 else v.sqrt (fabs x)
    let n := entriesOf v x err
    some ⟨⟨⟨n, x, sumw2⟩, 0, 0⟩, ⟨⟨n, x, sumw2⟩, 0, 0⟩, 0⟩
  | _, _ => none

/-- The outflow of index `j` in groot/rhist/h2_gen.go:664-731 (`H2D.AsH2D`). -/
def outDist (v : Env F) (k : Cell F C) (h : TH2 F C) (j : Nat) : Option (Dist2D F) :=
  match (outCells h.xaxis.nbins h.yaxis.nbins)[j]? with
  | some c => dist2 v k h c.1 c.2
  | none => none

/-- One step of the double loop of groot/rhist/h2_gen.go:664-731 (`H2D.AsH2D`). -/
def bin2 (v : Env F) (k : Cell F C) (h : TH2 F C) (ix iy : Nat) : Option (Bin2D F) :=
  match binLowEdge h.xaxis ((ix : Int) + 1), binWidth h.xaxis ((ix : Int) + 1),
        binLowEdge h.yaxis ((iy : Int) + 1), binWidth h.yaxis ((iy : Int) + 1),
        dist2 v k h ((ix : Int) + 1) ((iy : Int) + 1) with
  | some xmin, some xw, some ymin, some yw, some d => some ⟨⟨xmin, xw + xmin⟩, ⟨ymin, yw + ymin⟩, d⟩
  | _, _, _, _, _ => none

/-- groot/rhist/h2_gen.go:664-731 (`H2D.AsH2D`): every bin of the new histogram is assigned once, the
one of index `i` being of column `i % nx` and row `i / nx`.  The edges the fills of the new
histogram look up are left as `hbook.NewH2D` made them. -/
def asH2 (v : Env F) (k : Cell F C) (h : TH2 F C) : Option (H2 F) :=
  let nx := h.xaxis.nbins
  let ny := h.yaxis.nbins
  match newBinning2D (nx : Int) h.xaxis.xmin h.xaxis.xmax (ny : Int) h.yaxis.xmin h.yaxis.xmax,
        collect (outDist v k h) (List.range 8),
        collect (fun i => bin2 v k h (i % nx) (i / nx)) (List.range (nx * ny)) with
  | some hh, some outflows, some bins =>
    some { bng := { hh with bins, outflows,
                            dist := ⟨⟨⟨v.toInt h.entries, h.tsumw, h.tsumw2⟩, h.tsumwx, h.tsumwx2⟩,
                                     ⟨⟨v.toInt h.entries, h.tsumw, h.tsumw2⟩, h.tsumwy, h.tsumwy2⟩, h.tsumwxy⟩ }
           name := some (.str h.name), title := some (.str h.title) }
  | _, _, _ => none

/-! ### Graphs -/

/-- groot/rhist/graph.go:22-37 (`tgraph`), groot/rhist/graph.go:289-294 (`tgrapherrs`) and
groot/rhist/graph.go:468-475 (`tgraphasymmerrs`): the slices of the errors are empty for the classes
lacking them. -/
structure TGraph (F : Type) where
  npoints : Nat
  x : List F
  y : List F
  xlo : List F
  xhi : List F
  ylo : List F
  yhi : List F
  min : F
  max : F
  name : String
  title : String
deriving DecidableEq, Repr

/-- The classes of graphs. -/
inductive GKind
  | plain | errs | asymm
deriving DecidableEq, Repr

/-- groot/rhist/graph.go:55-80 (`NewGraphFrom`), groot/rhist/graph.go:304-333 (`NewGraphErrorsFrom`),
groot/rhist/graph.go:487-518 (`NewGraphAsymmErrorsFrom`).  The second slices of errors of
`TGraphErrors` do not exist in the code: `XError` and `YError` return the same number twice.
The largest and smallest ordinates are folds of the parameters `mx` (`math.Max`) and `mn`
(`math.Min`) starting at `lo` (`-math.MaxFloat64`) and `hi`. -/
def newGraphFrom (k : GKind) (mx mn : F → F → F) (lo hi : F) (s : S2 F) : Option (TGraph F) :=
  match graphTitleOf s.title with
  | none => none
  | some title =>
    let ex (g : Point2D F → F) : List F := match k with
      | .plain => []
      | _ => s.pts.map g
    some { npoints := s.pts.length, x := s.pts.map (·.x), y := s.pts.map (·.y)
           xlo := ex fun p => p.errX.lo
           xhi := ex fun p => if k = .asymm then p.errX.hi else p.errX.lo
           ylo := ex fun p => p.errY.lo
           yhi := ex fun p => if k = .asymm then p.errY.hi else p.errY.lo
           min := s.pts.foldl (fun m p => mn m p.y) hi
           max := s.pts.foldl (fun m p => mx m p.y) lo
           name := nameOf s.name, title }

/-- One point of hbook/rootcnv/root.go:32-53 (`S2D`): the errors are zero unless the graph has some. -/
def graphPoint (k : GKind) (g : TGraph F) (i : Nat) : Option (Point2D F) :=
  match g.x[i]?, g.y[i]? with
  | some x, some y => match k with
    | .plain => some ⟨x, y, ⟨0, 0⟩, ⟨0, 0⟩⟩
    | _ => match g.xlo[i]?, g.xhi[i]?, g.ylo[i]?, g.yhi[i]? with
      | some xl, some xh, some yl, some yh => some ⟨x, y, ⟨xl, xh⟩, ⟨yl, yh⟩⟩
      | _, _, _, _ => none
  | _, _ => none

/-- hbook/rootcnv/root.go:32-53 (`S2D`). -/
def s2dOf (k : GKind) (g : TGraph F) : Option (S2 F) :=
  match collect (graphPoint k g) (List.range g.x.length) with
  | some pts => some ⟨pts, some (.str g.name), some (.str g.title)⟩
  | none => none

/-- groot/rhist/graph.go:98-117 (`tgraph.ROOTMerge`), groot/rhist/graph.go:350-364 (`tgrapherrs.ROOTMerge`),
groot/rhist/graph.go:535-551 (`tgraphasymmerrs.ROOTMerge`) of graphs of one class. -/
def mergeGraph (mx mn : F → F → F) (g src : TGraph F) : TGraph F :=
  { g with
    npoints := g.npoints + src.npoints
    x := g.x ++ src.x, y := g.y ++ src.y
    xlo := g.xlo ++ src.xlo, xhi := g.xhi ++ src.xhi
    ylo := g.ylo ++ src.ylo, yhi := g.yhi ++ src.yhi
    min := mn g.min src.min, max := mx g.max src.max }

end

end Verif.Hbook.RootCnv
