import Mathlib.Order.Lattice
import Mathlib.Order.Defs.LinearOrder
import Mathlib.Data.List.Zip

/-!
# Merging ROOT graphs and scatter plots (C158)

The methods `ROOTMerge` of groot/rhist/graph.go and groot/rhist/scatter.go, used by root-merge.
Simplified: coordinates are of an arbitrary type with the order of numbers (no NaN), the number of points and the largest size
are whole numbers (32 bits in the code). Names, attributes, functions, drawing options and the histograms of the axes are left
as they are by a merge and are left out. An error leaves the receiver as it was. -/

namespace Verif.GraphMerge

/-- A graph (groot/rhist/graph.go:22-37). -/
structure Graph (F : Type) where
  maxsize : Int
  npoints : Int
  x : List F
  y : List F
  min : F
  max : F

/-- The graphs: plain ones, with symmetric errors (groot/rhist/graph.go:289-294), with asymmetric ones
(groot/rhist/graph.go:468-475), and with several errors along y (groot/rhist/graph.go:689-700; the lists of lists are the
arrays of each of the errors). -/
inductive Obj (F : Type)
  | plain (g : Graph F)
  | errs (g : Graph F) (ex ey : List F)
  | asym (g : Graph F) (xlo xhi ylo yhi : List F)
  | multi (g : Graph F) (xlo xhi : List F) (ylo yhi : List (List F))

variable {F : Type} [LinearOrder F]

/-- `tgraph.ROOTMerge` for another plain graph (groot/rhist/graph.go:100-112). -/
def Graph.merge (g s : Graph F) : Graph F :=
  { maxsize := if g.maxsize < s.maxsize then s.maxsize else g.maxsize
    npoints := g.npoints + s.npoints
    x := g.x ++ s.x
    y := g.y ++ s.y
    min := g.min ⊓ s.min
    max := g.max ⊔ s.max }

/-- `ROOTMerge` (groot/rhist/graph.go:98-116, 350-364, 535-551); `none` is an error. The graphs with several errors have the
method of the plain graph within them. -/
def Obj.merge : Obj F → Obj F → Option (Obj F)
  | .plain g, .plain s => some (.plain (g.merge s))
  | .errs g ex ey, .errs s sx sy => some (.errs (g.merge s) (ex ++ sx) (ey ++ sy))
  | .asym g xl xh yl yh, .asym s sxl sxh syl syh => some (.asym (g.merge s) (xl ++ sxl) (xh ++ sxh) (yl ++ syl) (yh ++ syh))
  | .multi g xl xh yl yh, .plain s => some (.multi (g.merge s) xl xh yl yh)
  | _, _ => none

/-- The graphs of several files merged into the first one, one after the other (groot/rcmd/merge.go:157-197). -/
def mergeAll : Obj F → List (Obj F) → Option (Obj F)
  | o, [] => some o
  | o, s :: ss => (o.merge s).bind fun o' => mergeAll o' ss

/-- A scatter plot (groot/rhist/scatter.go:22-37); the graph is a pointer. -/
structure Scatter (F : Type) where
  npoints : Int
  graph : Option (Graph F)
  color : List F
  size : List F
  maxMarker : F
  minMarker : F

/-- `Scatter.ROOTMerge` (groot/rhist/scatter.go:61-84); `none` is a panic, of a graph which is nil. -/
def Scatter.merge (g s : Scatter F) : Option (Scatter F) :=
  match g.graph, s.graph with
  | some gg, some sg =>
    some { npoints := g.npoints + s.npoints
           graph := some (gg.merge sg)
           color := g.color ++ s.color
           size := g.size ++ s.size
           maxMarker := g.maxMarker ⊔ s.maxMarker
           minMarker := g.minMarker ⊓ s.minMarker }
  | _, _ => none

omit [LinearOrder F] in
/-- `XY`, `XError` and `YError` of a point (groot/rhist/graph.go:94-96, 342-348, 527-533, 763-769): nothing when one of them
panics. A plain graph has no errors. -/
def Obj.point (o : Obj F) (i : Nat) : Option (List F) :=
  match o with
  | .plain g => do return [← g.x[i]?, ← g.y[i]?]
  | .errs g ex ey => do return [← g.x[i]?, ← g.y[i]?, ← ex[i]?, ← ey[i]?]
  | .asym g xl xh yl yh => do return [← g.x[i]?, ← g.y[i]?, ← xl[i]?, ← xh[i]?, ← yl[i]?, ← yh[i]?]
  | .multi g xl xh yl yh => do return [← g.x[i]?, ← g.y[i]?, ← xl[i]?, ← xh[i]?, ← (← yl[0]?)[i]?, ← (← yh[0]?)[i]?]

omit [LinearOrder F] in
/-- The plain part of a graph. -/
def Obj.base : Obj F → Graph F
  | .plain g => g
  | .errs g _ _ => g
  | .asym g _ _ _ _ => g
  | .multi g _ _ _ _ => g

end Verif.GraphMerge
