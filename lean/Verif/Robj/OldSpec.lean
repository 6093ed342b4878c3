import Verif.Robj.Spec

/-!
# Objects of older versions

What each version of a class holds: the members in the order of the file, with the
version they appeared in, and the value read for an object of that version, where the
members that were not there yet are zero.
-/

namespace Verif.Robj

open Verif.RBytes Verif.RBytes.Refs

/-- A member which is there from version `n` on. -/
def since (n v : Int) (w : Wr) : Wr := if n ≤ v then w else id

/-- `TAttPad` in version `v`. -/
def attPadOld (v : Int) (a : AttPad) : List Wr :=
  [w32 a.left, w32 a.right, w32 a.bottom, w32 a.top, w32 a.xfile, w32 a.yfile, w32 a.afile,
    w32 a.xstat, w32 a.ystat, w32 a.astat, since 2 v (w16 a.fillColor),
    since 2 v (w16 a.lineColor), since 2 v (w16 a.fillStyle), since 2 v (w16 a.lineStyle),
    since 2 v (w16 a.lineWidth), since 2 v (w16 a.borderSize), since 2 v (w32 a.borderMode)]

def AttPad.at (v : Int) (a : AttPad) : AttPad :=
  { a with
    fillColor := if 2 ≤ v then a.fillColor else 0, lineColor := if 2 ≤ v then a.lineColor else 0,
    fillStyle := if 2 ≤ v then a.fillStyle else 0, lineStyle := if 2 ≤ v then a.lineStyle else 0,
    lineWidth := if 2 ≤ v then a.lineWidth else 0, borderSize := if 2 ≤ v then a.borderSize else 0,
    borderMode := if 2 ≤ v then a.borderMode else 0 }

/-- `TAxis` in version `v`. -/
def axisOld (v : Int) (a : Axis) : List Wr :=
  [namedW a.named, attAxisW a.attaxis, wInt a.nbins, w64 a.xmin, w64 a.xmax, arrW w64 a.xbins,
    wInt a.first, wInt a.last, since 9 v (w16 a.bits2), wBool a.time, wStr a.tfmt,
    since 9 v (wRef a.labels), since 10 v (wRef a.modlabs)]

def Axis.at (v : Int) (a : Axis) : Axis :=
  { a with
    bits2 := if 9 ≤ v then a.bits2 else 0, labels := if 9 ≤ v then a.labels else none,
    modlabs := if 10 ≤ v then a.modlabs else none }

/-- `TH1` in version `v`. -/
def h1Old (v : Int) (a : H1) : List Wr :=
  [namedW a.named, attLineW a.attline, attFillW a.attfill, attMarkerW a.attmarker, wInt a.ncells,
    axisW a.xaxis, axisW a.yaxis, axisW a.zaxis, w16 a.boffset, w16 a.bwidth, w64 a.entries,
    w64 a.tsumw, w64 a.tsumw2, w64 a.tsumwx, w64 a.tsumwx2, w64 a.max, w64 a.min, w64 a.normf,
    arrW w64 a.contour, arrW w64 a.sumw2, wStr a.opt, listW a.funcs,
    since 4 v (wInt a.buffer.length), since 4 v (w8 0), since 4 v (wAll w64 a.buffer),
    since 7 v (w32 a.erropt), since 8 v (w32 a.oflow)]

def H1.at (v : Int) (a : H1) : H1 :=
  { a with
    buffer := if 4 ≤ v then a.buffer else [], erropt := if 7 ≤ v then a.erropt else 0,
    oflow := if 8 ≤ v then a.oflow else 0 }

/-- `TGraph` in version `v`. -/
def graphOld (v : Int) (a : Graph) : List Wr :=
  [namedW a.named, attLineW a.attline, attFillW a.attfill, attMarkerW a.attmarker, w32 a.npoints,
    w8 1, wAll w64 a.x, w8 1, wAll w64 a.y, wRef a.funcs, wRef a.histo, w64 a.min, w64 a.max,
    since 5 v (wStr a.opt)]

def Graph.at (v : Int) (a : Graph) : Graph :=
  { a with
    opt := if 5 ≤ v then a.opt else [] }

/-- `TFormula` in version `v`. -/
def formulaOld (v : Int) (a : Formula) : List Wr :=
  [namedW a.named, vecW w64 a.clingParams, wBool a.allParamsSet, parmsW a.params, wStr a.formula,
    w32 a.ndim, since 14 v (w32 a.numID), vecW wRef a.linearParts, wBool a.vectorized]

def Formula.at (v : Int) (a : Formula) : Formula :=
  { a with
    numID := if 14 ≤ v then a.numID else 0 }

/-- `TStreamerBase` in version `v`. -/
def streamerBaseOld (v : Int) (a : StreamerBase) : List Wr :=
  [streamerElementW a.elem, since 3 v (w32 a.vbase)]

def StreamerBase.at (v : Int) (a : StreamerBase) : StreamerBase :=
  { a with
    vbase := if 3 ≤ v then a.vbase else 0 }

/-- `TTree` in version `v`. -/
def treeOld (v : Int) (a : Tree) : List Wr :=
  [namedW a.named, attLineW a.attline, attFillW a.attfill, attMarkerW a.attmarker, w64 a.entries,
    w64 a.totBytes, w64 a.zipBytes, w64 a.savedBytes, since 18 v (w64 a.flushedBytes),
    since 16 v (w64 a.weight), w32 a.timerInterval, w32 a.scanField, w32 a.update,
    since 17 v (w32 a.defOffsetLen), since 19 v (wInt a.ranges.length), w64 a.maxEntries,
    w64 a.maxEntryLoop, w64 a.maxVirtualSize, w64 a.autoSave, since 18 v (w64 a.autoFlush),
    w64 a.estimate, since 19 v (w8 0), since 19 v (wAll w64 a.ranges), since 19 v (w8 0),
    since 19 v (wAll w64 a.sizes), since 20 v (ioW a.iobits), objsW a.branches, objsW a.leaves,
    wRef a.aliases, wRef a.indexValues, wRef a.index, wRef a.treeIndex, wRef a.friends,
    wRef a.userInfo, wRef a.branchRef]

def Tree.at (v : Int) (a : Tree) : Tree :=
  { a with
    flushedBytes := if 18 ≤ v then a.flushedBytes else 0, weight := if 16 ≤ v then a.weight else 0,
    defOffsetLen := if 17 ≤ v then a.defOffsetLen else 0,
    autoFlush := if 18 ≤ v then a.autoFlush else 0, ranges := if 19 ≤ v then a.ranges else [],
    sizes := if 19 ≤ v then a.sizes else [], iobits := if 20 ≤ v then a.iobits else 0 }

end Verif.Robj
