import Verif.Robj.Classes

/-!
# What is read back

For each class: `map` renames the objects pointed to, `norm` is the value read back
after writing, and `OK` says which values can be written and read.

- The bit 24 of the bits of an object (on the heap) is set, and the identifier of a
  referenced object (bit 4) is cut to 24 bits.
- `last` of an array of objects or of references is the last index with an object.
- Entries of a map with a nil key are lost.
-/

namespace Verif.Robj

open Verif.RBytes Verif.RBytes.Refs

def Object.norm (o : Object) : Object :=
  ⟨if o.bits &&& 0x10#32 = 0#32 then o.id else o.id &&& 0xffffff#32, o.bits ||| 0x01000000#32⟩

/-- A slice whose length fits the 32 bits it is written in. -/
def ArrOK {α : Type} (xs : List α) : Prop := xs.length < 2 ^ 31

instance {α : Type} (xs : List α) : Decidable (ArrOK xs) := by unfold ArrOK; infer_instance

/-- A slice of values that can be written. -/
def VecOK {α : Type} (P : α → Prop) (xs : List α) : Prop := ArrOK xs ∧ ∀ x ∈ xs, P x

/-- `l` is the last index at which `p` holds, or -1. -/
def IsLast {α : Type} (p : α → Bool) (xs : List α) (l : Int) : Prop :=
  (l = -1 ∧ ∀ x ∈ xs, p x = false) ∨
  ∃ i : Nat, l = i ∧ (∃ x, xs[i]? = some x ∧ p x = true) ∧
    ∀ j x, i < j → xs[j]? = some x → p x = false

def RList.map (φ : Nat → Nat) (a : RList) : RList :=
  { a with elems := a.elems.map fun e => (e.1.map φ, e.2) }

def RList.norm (a : RList) : RList := { a with obj := a.obj.norm }

structure RList.OK (a : RList) : Prop where
  name : StrOK a.name
  elems : ArrOK a.elems
  nonnil : ∀ e ∈ a.elems, e.1.isSome
  opts : ∀ e ∈ a.elems, StrOK e.2

def ObjArray.map (φ : Nat → Nat) (a : ObjArray) : ObjArray :=
  { a with objs := a.objs.map (·.map φ) }

def ObjArray.norm (a : ObjArray) : ObjArray :=
  { a with obj := a.obj.norm, last := lastOf (a.objs.map Option.isSome) }

structure ObjArray.OK (a : ObjArray) : Prop where
  name : StrOK a.name
  objs : ArrOK a.objs

def RefArray.norm (a : RefArray) : RefArray :=
  { a with obj := a.obj.norm, last := lastOf (a.refs.map (· != 0)) }

structure RefArray.OK (a : RefArray) : Prop where
  name : StrOK a.name
  refs : ArrOK a.refs

/-- What a Go map holds after the entries were stored one after the other. -/
def collapse {κ ν : Type} [DecidableEq κ] (es : List (κ × ν)) : List (κ × ν) :=
  es.foldl (fun tbl e => put tbl e.1 e.2) []

def RMap.map (φ : Nat → Nat) (a : RMap) : RMap :=
  { a with tbl := a.tbl.map fun e => (e.1.map φ, e.2.map φ) }

def RMap.norm (a : RMap) : RMap :=
  { a with obj := a.obj.norm, tbl := collapse (a.tbl.filter fun e => e.1.isSome) }

structure RMap.OK (a : RMap) : Prop where
  name : StrOK a.name
  tbl : ArrOK a.tbl

def TRef.norm (a : TRef) : TRef := ⟨a.obj.norm⟩

/-- `kHasUUID` is not set. -/
def TRef.OK (a : TRef) : Prop := a.obj.bits &&& 0x20#32 = 0#32

structure ParmsOK (xs : List (List UInt8 × BitVec 32)) : Prop where
  len : ArrOK xs
  keys : ∀ e ∈ xs, StrOK e.1

def Named.norm (a : Named) : Named :=
  { a with
    obj := a.obj.norm }

structure Named.OK (a : Named) : Prop where
  name : StrOK a.name
  title : StrOK a.title

def ObjString.norm (a : ObjString) : ObjString :=
  { a with
    obj := a.obj.norm }

structure ObjString.OK (a : ObjString) : Prop where
  str : StrOK a.str

def ProcessID.norm (a : ProcessID) : ProcessID :=
  { a with
    named := a.named.norm }

structure ProcessID.OK (a : ProcessID) : Prop where
  named : a.named.OK

def RefTable.map (φ : Nat → Nat) (a : RefTable) : RefTable :=
  { a with
    parents := a.parents.map φ, owner := a.owner.map φ }

def RefTable.norm (a : RefTable) : RefTable :=
  { a with
    obj := a.obj.norm }

structure RefTable.OK (a : RefTable) : Prop where
  guids : VecOK StrOK a.guids

def Vector2.norm (a : Vector2) : Vector2 :=
  { a with
    obj := a.obj.norm }

def Vector3.norm (a : Vector3) : Vector3 :=
  { a with
    obj := a.obj.norm }

def LorentzVector.norm (a : LorentzVector) : LorentzVector :=
  { a with
    obj := a.obj.norm, p := a.p.norm }

def FeldmanCousins.norm (a : FeldmanCousins) : FeldmanCousins :=
  { a with
    obj := a.obj.norm }

def Axis.map (φ : Nat → Nat) (a : Axis) : Axis :=
  { a with
    labels := a.labels.map φ, modlabs := a.modlabs.map φ }

def Axis.norm (a : Axis) : Axis :=
  { a with
    named := a.named.norm }

structure Axis.OK (a : Axis) : Prop where
  named : a.named.OK
  nbins : Fits32 a.nbins
  xbins : ArrOK a.xbins
  first : Fits32 a.first
  last : Fits32 a.last
  tfmt : StrOK a.tfmt

def H1.map (φ : Nat → Nat) (a : H1) : H1 :=
  { a with
    xaxis := a.xaxis.map φ, yaxis := a.yaxis.map φ, zaxis := a.zaxis.map φ,
    funcs := a.funcs.map φ }

def H1.norm (a : H1) : H1 :=
  { a with
    named := a.named.norm, xaxis := a.xaxis.norm, yaxis := a.yaxis.norm, zaxis := a.zaxis.norm,
    funcs := a.funcs.norm }

structure H1.OK (a : H1) : Prop where
  named : a.named.OK
  ncells : Fits32 a.ncells
  xaxis : a.xaxis.OK
  yaxis : a.yaxis.OK
  zaxis : a.zaxis.OK
  contour : ArrOK a.contour
  sumw2 : ArrOK a.sumw2
  opt : StrOK a.opt
  funcs : a.funcs.OK
  buffer : ArrOK a.buffer

def H2.map (φ : Nat → Nat) (a : H2) : H2 :=
  { a with
    h1 := a.h1.map φ }

def H2.norm (a : H2) : H2 :=
  { a with
    h1 := a.h1.norm }

structure H2.OK (a : H2) : Prop where
  h1 : a.h1.OK

def H1F.map (φ : Nat → Nat) (a : H1F) : H1F :=
  { a with
    h1 := a.h1.map φ }

def H1F.norm (a : H1F) : H1F :=
  { a with
    h1 := a.h1.norm }

structure H1F.OK (a : H1F) : Prop where
  h1 : a.h1.OK
  arr : ArrOK a.arr

def H2F.map (φ : Nat → Nat) (a : H2F) : H2F :=
  { a with
    h2 := a.h2.map φ }

def H2F.norm (a : H2F) : H2F :=
  { a with
    h2 := a.h2.norm }

structure H2F.OK (a : H2F) : Prop where
  h2 : a.h2.OK
  arr : ArrOK a.arr

def H1D.map (φ : Nat → Nat) (a : H1D) : H1D :=
  { a with
    h1 := a.h1.map φ }

def H1D.norm (a : H1D) : H1D :=
  { a with
    h1 := a.h1.norm }

structure H1D.OK (a : H1D) : Prop where
  h1 : a.h1.OK
  arr : ArrOK a.arr

def H2D.map (φ : Nat → Nat) (a : H2D) : H2D :=
  { a with
    h2 := a.h2.map φ }

def H2D.norm (a : H2D) : H2D :=
  { a with
    h2 := a.h2.norm }

structure H2D.OK (a : H2D) : Prop where
  h2 : a.h2.OK
  arr : ArrOK a.arr

def H1I.map (φ : Nat → Nat) (a : H1I) : H1I :=
  { a with
    h1 := a.h1.map φ }

def H1I.norm (a : H1I) : H1I :=
  { a with
    h1 := a.h1.norm }

structure H1I.OK (a : H1I) : Prop where
  h1 : a.h1.OK
  arr : ArrOK a.arr

def H2I.map (φ : Nat → Nat) (a : H2I) : H2I :=
  { a with
    h2 := a.h2.map φ }

def H2I.norm (a : H2I) : H2I :=
  { a with
    h2 := a.h2.norm }

structure H2I.OK (a : H2I) : Prop where
  h2 : a.h2.OK
  arr : ArrOK a.arr

def Profile1D.map (φ : Nat → Nat) (a : Profile1D) : Profile1D :=
  { a with
    h1d := a.h1d.map φ }

def Profile1D.norm (a : Profile1D) : Profile1D :=
  { a with
    h1d := a.h1d.norm }

structure Profile1D.OK (a : Profile1D) : Prop where
  h1d : a.h1d.OK
  binEntries : ArrOK a.binEntries
  binSumw2 : ArrOK a.binSumw2

def Profile2D.map (φ : Nat → Nat) (a : Profile2D) : Profile2D :=
  { a with
    h2d := a.h2d.map φ }

def Profile2D.norm (a : Profile2D) : Profile2D :=
  { a with
    h2d := a.h2d.norm }

structure Profile2D.OK (a : Profile2D) : Prop where
  h2d : a.h2d.OK
  binEntries : ArrOK a.binEntries
  binSumw2 : ArrOK a.binSumw2

def Graph.map (φ : Nat → Nat) (a : Graph) : Graph :=
  { a with
    funcs := a.funcs.map φ, histo := a.histo.map φ }

def Graph.norm (a : Graph) : Graph :=
  { a with
    named := a.named.norm }

structure Graph.OK (a : Graph) : Prop where
  named : a.named.OK
  opt : StrOK a.opt
  x : a.npoints.toInt = a.x.length
  y : a.npoints.toInt = a.y.length

def GraphErrors.map (φ : Nat → Nat) (a : GraphErrors) : GraphErrors :=
  { a with
    graph := a.graph.map φ }

def GraphErrors.norm (a : GraphErrors) : GraphErrors :=
  { a with
    graph := a.graph.norm }

structure GraphErrors.OK (a : GraphErrors) : Prop where
  graph : a.graph.OK
  xerr : a.graph.npoints.toInt = a.xerr.length
  yerr : a.graph.npoints.toInt = a.yerr.length

def GraphAsymmErrors.map (φ : Nat → Nat) (a : GraphAsymmErrors) : GraphAsymmErrors :=
  { a with
    graph := a.graph.map φ }

def GraphAsymmErrors.norm (a : GraphAsymmErrors) : GraphAsymmErrors :=
  { a with
    graph := a.graph.norm }

structure GraphAsymmErrors.OK (a : GraphAsymmErrors) : Prop where
  graph : a.graph.OK
  xerrlo : a.graph.npoints.toInt = a.xerrlo.length
  xerrhi : a.graph.npoints.toInt = a.xerrhi.length
  yerrlo : a.graph.npoints.toInt = a.yerrlo.length
  yerrhi : a.graph.npoints.toInt = a.yerrhi.length

def GraphMultiErrors.map (φ : Nat → Nat) (a : GraphMultiErrors) : GraphMultiErrors :=
  { a with
    graph := a.graph.map φ }

def GraphMultiErrors.norm (a : GraphMultiErrors) : GraphMultiErrors :=
  { a with
    graph := a.graph.norm }

structure GraphMultiErrors.OK (a : GraphMultiErrors) : Prop where
  graph : a.graph.OK
  yerrlo : VecOK ArrOK a.yerrlo
  yerrhi : VecOK ArrOK a.yerrhi
  attfills : ArrOK a.attfills
  attlines : ArrOK a.attlines
  xerrlo : a.graph.npoints.toInt = a.xerrlo.length
  xerrhi : a.graph.npoints.toInt = a.xerrhi.length

def MultiGraph.map (φ : Nat → Nat) (a : MultiGraph) : MultiGraph :=
  { a with
    graphs := a.graphs.map φ, funcs := a.funcs.map φ, histo := a.histo.map φ }

def MultiGraph.norm (a : MultiGraph) : MultiGraph :=
  { a with
    named := a.named.norm }

structure MultiGraph.OK (a : MultiGraph) : Prop where
  named : a.named.OK

def Scatter.map (φ : Nat → Nat) (a : Scatter) : Scatter :=
  { a with
    histo := a.histo.map φ, graph := a.graph.map φ }

def Scatter.norm (a : Scatter) : Scatter :=
  { a with
    named := a.named.norm }

structure Scatter.OK (a : Scatter) : Prop where
  named : a.named.OK
  color : a.npoints.toInt = a.color.length
  size : a.npoints.toInt = a.size.length

def Formula.map (φ : Nat → Nat) (a : Formula) : Formula :=
  { a with
    linearParts := a.linearParts.map (·.map φ) }

def Formula.norm (a : Formula) : Formula :=
  { a with
    named := a.named.norm, params := collapse a.params }

structure Formula.OK (a : Formula) : Prop where
  named : a.named.OK
  clingParams : ArrOK a.clingParams
  params : ParmsOK a.params
  formula : StrOK a.formula
  linearParts : ArrOK a.linearParts

def F1.map (φ : Nat → Nat) (a : F1) : F1 :=
  { a with
    formula := a.formula.map φ, params := a.params.map φ, compos := a.compos.map φ }

def F1.norm (a : F1) : F1 :=
  { a with
    named := a.named.norm }

structure F1.OK (a : F1) : Prop where
  named : a.named.OK
  parErrs : ArrOK a.parErrs
  parMin : ArrOK a.parMin
  parMax : ArrOK a.parMax
  save : ArrOK a.save

def LimitDataSource.map (φ : Nat → Nat) (a : LimitDataSource) : LimitDataSource :=
  { a with
    sig := a.sig.map φ, bkg := a.bkg.map φ, data := a.data.map φ, sigErr := a.sigErr.map φ,
    bkgErr := a.bkgErr.map φ, ids := a.ids.map φ, dummyTA := a.dummyTA.map φ,
    dummyIDs := a.dummyIDs.map φ }

def LimitDataSource.norm (a : LimitDataSource) : LimitDataSource :=
  { a with
    base := a.base.norm, sig := a.sig.norm, bkg := a.bkg.norm, data := a.data.norm,
    sigErr := a.sigErr.norm, bkgErr := a.bkgErr.norm, ids := a.ids.norm, dummyTA := a.dummyTA.norm,
    dummyIDs := a.dummyIDs.norm }

structure LimitDataSource.OK (a : LimitDataSource) : Prop where
  sig : a.sig.OK
  bkg : a.bkg.OK
  data : a.data.OK
  sigErr : a.sigErr.OK
  bkgErr : a.bkgErr.OK
  ids : a.ids.OK
  dummyTA : a.dummyTA.OK
  dummyIDs : a.dummyIDs.OK

def ConfidenceLevel.norm (a : ConfidenceLevel) : ConfidenceLevel :=
  { a with
    base := a.base.norm }

structure ConfidenceLevel.OK (a : ConfidenceLevel) : Prop where
  tsb : a.nnmc.toInt = a.tsb.length
  tss : a.nnmc.toInt = a.tss.length
  lrs : a.nnmc.toInt = a.lrs.length
  lrb : a.nnmc.toInt = a.lrb.length
  iss : a.nnmc.toInt = a.iss.length
  isb : a.nnmc.toInt = a.isb.length

/-- The type 11 (`unsigned char`) with the name of a boolean is read as 18 (`bool`). -/
def StreamerElement.norm (a : StreamerElement) : StreamerElement :=
  { a with named := a.named.norm, etype := if a.etype = 11 ∧ a.ename ∈ boolNames then 18 else a.etype }

structure StreamerElement.OK (a : StreamerElement) : Prop where
  named : a.named.OK
  maxidx : a.maxidx.length = 5
  ename : StrOK a.ename

def StreamerBase.norm (a : StreamerBase) : StreamerBase :=
  { a with
    elem := a.elem.norm }

structure StreamerBase.OK (a : StreamerBase) : Prop where
  elem : a.elem.OK

def StreamerBasicPointer.norm (a : StreamerBasicPointer) : StreamerBasicPointer :=
  { a with
    elem := a.elem.norm }

structure StreamerBasicPointer.OK (a : StreamerBasicPointer) : Prop where
  elem : a.elem.OK
  cname : StrOK a.cname
  ccls : StrOK a.ccls

def StreamerLoop.norm (a : StreamerLoop) : StreamerLoop :=
  { a with
    elem := a.elem.norm }

structure StreamerLoop.OK (a : StreamerLoop) : Prop where
  elem : a.elem.OK
  cname : StrOK a.cname
  cclass : StrOK a.cclass

def StreamerObject.norm (a : StreamerObject) : StreamerObject :=
  { a with
    elem := a.elem.norm }

structure StreamerObject.OK (a : StreamerObject) : Prop where
  elem : a.elem.OK

def StreamerObjectPointer.norm (a : StreamerObjectPointer) : StreamerObjectPointer :=
  { a with
    elem := a.elem.norm }

structure StreamerObjectPointer.OK (a : StreamerObjectPointer) : Prop where
  elem : a.elem.OK

def StreamerObjectAny.norm (a : StreamerObjectAny) : StreamerObjectAny :=
  { a with
    elem := a.elem.norm }

structure StreamerObjectAny.OK (a : StreamerObjectAny) : Prop where
  elem : a.elem.OK

def StreamerObjectAnyPointer.norm (a : StreamerObjectAnyPointer) : StreamerObjectAnyPointer :=
  { a with
    elem := a.elem.norm }

structure StreamerObjectAnyPointer.OK (a : StreamerObjectAnyPointer) : Prop where
  elem : a.elem.OK

def StreamerString.norm (a : StreamerString) : StreamerString :=
  { a with
    elem := a.elem.norm }

structure StreamerString.OK (a : StreamerString) : Prop where
  elem : a.elem.OK

def StreamerSTL.norm (a : StreamerSTL) : StreamerSTL :=
  { a with elem := a.elem.norm, vtype := stlFix a.elem.ename a.vtype }

structure StreamerSTL.OK (a : StreamerSTL) : Prop where
  elem : a.elem.OK

def StreamerSTLstring.norm (a : StreamerSTLstring) : StreamerSTLstring :=
  { a with
    stl := a.stl.norm }

structure StreamerSTLstring.OK (a : StreamerSTLstring) : Prop where
  stl : a.stl.OK

def StreamerInfo.map (φ : Nat → Nat) (a : StreamerInfo) : StreamerInfo :=
  { a with
    elems := φ a.elems }

def StreamerInfo.norm (a : StreamerInfo) : StreamerInfo :=
  { a with
    named := a.named.norm }

structure StreamerInfo.OK (a : StreamerInfo) : Prop where
  named : a.named.OK

/-- No element is nil. -/
def BasketsOK (xs : List (Option Nat)) : Prop := ArrOK xs ∧ ∀ x ∈ xs, x.isSome

def Leaf.map (φ : Nat → Nat) (a : Leaf) : Leaf :=
  { a with
    count := a.count.map φ }

/-- A length of 0 is read as 1. -/
def Leaf.norm (a : Leaf) : Leaf :=
  { a with
    named := a.named.norm, len := if a.len = 0 then 1 else a.len }

structure Leaf.OK (a : Leaf) : Prop where
  named : a.named.OK
  len : Fits32 a.len
  etype : Fits32 a.etype
  offset : Fits32 a.offset

/-- A version that is written and read back: at most the version `n` of the library, and
without the bit that marks a byte count. -/
def VersOK (n : Int) (v : BitVec 16) : Prop := v &&& 0x4000 = 0 ∧ (n < 0 ∨ v.toInt ≤ n)

instance (n : Int) (v : BitVec 16) : Decidable (VersOK n v) := by unfold VersOK; infer_instance

def LeafO.map (φ : Nat → Nat) (a : LeafO) : LeafO :=
  { a with
    leaf := a.leaf.map φ }

def LeafO.norm (a : LeafO) : LeafO :=
  { a with
    leaf := a.leaf.norm }

structure LeafO.OK (a : LeafO) : Prop where
  leaf : a.leaf.OK
  rvers : VersOK 1 a.rvers

def LeafB.map (φ : Nat → Nat) (a : LeafB) : LeafB :=
  { a with
    leaf := a.leaf.map φ }

def LeafB.norm (a : LeafB) : LeafB :=
  { a with
    leaf := a.leaf.norm }

structure LeafB.OK (a : LeafB) : Prop where
  leaf : a.leaf.OK
  rvers : VersOK 1 a.rvers

def LeafS.map (φ : Nat → Nat) (a : LeafS) : LeafS :=
  { a with
    leaf := a.leaf.map φ }

def LeafS.norm (a : LeafS) : LeafS :=
  { a with
    leaf := a.leaf.norm }

structure LeafS.OK (a : LeafS) : Prop where
  leaf : a.leaf.OK
  rvers : VersOK 1 a.rvers

def LeafI.map (φ : Nat → Nat) (a : LeafI) : LeafI :=
  { a with
    leaf := a.leaf.map φ }

def LeafI.norm (a : LeafI) : LeafI :=
  { a with
    leaf := a.leaf.norm }

structure LeafI.OK (a : LeafI) : Prop where
  leaf : a.leaf.OK
  rvers : VersOK 1 a.rvers

def LeafL.map (φ : Nat → Nat) (a : LeafL) : LeafL :=
  { a with
    leaf := a.leaf.map φ }

def LeafL.norm (a : LeafL) : LeafL :=
  { a with
    leaf := a.leaf.norm }

structure LeafL.OK (a : LeafL) : Prop where
  leaf : a.leaf.OK
  rvers : VersOK 1 a.rvers

def LeafG.map (φ : Nat → Nat) (a : LeafG) : LeafG :=
  { a with
    leaf := a.leaf.map φ }

def LeafG.norm (a : LeafG) : LeafG :=
  { a with
    leaf := a.leaf.norm }

structure LeafG.OK (a : LeafG) : Prop where
  leaf : a.leaf.OK
  rvers : VersOK 1 a.rvers

def LeafF.map (φ : Nat → Nat) (a : LeafF) : LeafF :=
  { a with
    leaf := a.leaf.map φ }

def LeafF.norm (a : LeafF) : LeafF :=
  { a with
    leaf := a.leaf.norm }

structure LeafF.OK (a : LeafF) : Prop where
  leaf : a.leaf.OK
  rvers : VersOK 1 a.rvers

def LeafD.map (φ : Nat → Nat) (a : LeafD) : LeafD :=
  { a with
    leaf := a.leaf.map φ }

def LeafD.norm (a : LeafD) : LeafD :=
  { a with
    leaf := a.leaf.norm }

structure LeafD.OK (a : LeafD) : Prop where
  leaf : a.leaf.OK
  rvers : VersOK 1 a.rvers

def LeafC.map (φ : Nat → Nat) (a : LeafC) : LeafC :=
  { a with
    leaf := a.leaf.map φ }

def LeafC.norm (a : LeafC) : LeafC :=
  { a with
    leaf := a.leaf.norm }

structure LeafC.OK (a : LeafC) : Prop where
  leaf : a.leaf.OK
  rvers : VersOK 1 a.rvers

def LeafElement.map (φ : Nat → Nat) (a : LeafElement) : LeafElement :=
  { a with
    leaf := a.leaf.map φ }

def LeafElement.norm (a : LeafElement) : LeafElement :=
  { a with
    leaf := a.leaf.norm }

structure LeafElement.OK (a : LeafElement) : Prop where
  leaf : a.leaf.OK
  rvers : VersOK 1 a.rvers

def LeafObject.map (φ : Nat → Nat) (a : LeafObject) : LeafObject :=
  { a with
    leaf := a.leaf.map φ }

def LeafObject.norm (a : LeafObject) : LeafObject :=
  { a with
    leaf := a.leaf.norm }

structure LeafObject.OK (a : LeafObject) : Prop where
  leaf : a.leaf.OK

def Branch.map (φ : Nat → Nat) (a : Branch) : Branch :=
  { a with
    branches := a.branches.map φ, leaves := a.leaves.map φ, baskets := a.baskets.map (·.map φ) }

/-- The slices are cut to the baskets written, the number of baskets made room for is
computed anew, and a branch with sub-branches has a split level of at least 1. -/
def Branch.norm (a : Branch) : Branch :=
  { a with
    named := a.named.norm
    maxBaskets := max (a.writeBasket + 1) 10
    splitLevel := if a.splitLevel = 0 ∧ a.branches ≠ [] then 1 else a.splitLevel
    basketBytes := a.basketBytes.take a.writeBasket.toNat
    basketEntry := a.basketEntry.take (a.writeBasket + 1).toNat
    basketSeek := a.basketSeek.take a.writeBasket.toNat }

structure Branch.OK (a : Branch) : Prop where
  named : a.named.OK
  compress : Fits32 a.compress
  basketSize : Fits32 a.basketSize
  entryOffsetLen : Fits32 a.entryOffsetLen
  offset : Fits32 a.offset
  splitLevel : Fits32 a.splitLevel
  writeBasket : 0 ≤ a.writeBasket ∧ a.writeBasket < 2 ^ 31 - 1
  branches : ArrOK a.branches
  leaves : ArrOK a.leaves
  baskets : BasketsOK a.baskets
  basketBytes : a.writeBasket ≤ a.basketBytes.length
  basketEntry : a.writeBasket + 1 ≤ a.basketEntry.length
  basketSeek : a.writeBasket ≤ a.basketSeek.length
  fname : StrOK a.fname

def BranchObject.map (φ : Nat → Nat) (a : BranchObject) : BranchObject :=
  { a with
    branch := a.branch.map φ }

def BranchObject.norm (a : BranchObject) : BranchObject :=
  { a with
    branch := a.branch.norm }

structure BranchObject.OK (a : BranchObject) : Prop where
  branch : a.branch.OK
  cls : StrOK a.cls

def BranchElement.map (φ : Nat → Nat) (a : BranchElement) : BranchElement :=
  { a with
    branch := a.branch.map φ, bcount1 := a.bcount1.map φ, bcount2 := a.bcount2.map φ }

def BranchElement.norm (a : BranchElement) : BranchElement :=
  { a with
    branch := a.branch.norm }

structure BranchElement.OK (a : BranchElement) : Prop where
  branch : a.branch.OK
  cls : StrOK a.cls
  parent : StrOK a.parent
  clones : StrOK a.clones

def Tree.map (φ : Nat → Nat) (a : Tree) : Tree :=
  { a with
    branches := a.branches.map φ, leaves := a.leaves.map φ, aliases := a.aliases.map φ,
    indexValues := a.indexValues.map φ, index := a.index.map φ, treeIndex := a.treeIndex.map φ,
    friends := a.friends.map φ, userInfo := a.userInfo.map φ, branchRef := a.branchRef.map φ }

def Tree.norm (a : Tree) : Tree :=
  { a with
    named := a.named.norm }

structure Tree.OK (a : Tree) : Prop where
  named : a.named.OK
  ranges : ArrOK a.ranges
  branches : ArrOK a.branches
  leaves : ArrOK a.leaves
  sizes : (a.ranges.length : Int) = a.sizes.length

end Verif.Robj
