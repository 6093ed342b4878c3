import Verif.Robj.Registry
import Verif.Robj.Spec

/-!
# What is expected of each class

`OK` are the values the statements are about, `map` renames the objects a value points
to, and `norm` is the value that is read back.
-/

namespace Verif.Robj

open Verif.RBytes Verif.RBytes.Refs

structure Contract where
  c : Codec
  OK : c.α → Prop
  map : (Nat → Nat) → c.α → c.α
  norm : c.α → c.α

def kTObject : Contract := ⟨cTObject, fun _ => True, fun _ a => a, Object.norm⟩
def kTUUID : Contract := ⟨cTUUID, fun a => a.length = 16, fun _ a => a, id⟩
def kGoString : Contract := ⟨cGoString, StrOK, fun _ a => a, id⟩
def kTArrayC : Contract := ⟨cTArrayC, ArrOK, fun _ a => a, id⟩
def kTArrayS : Contract := ⟨cTArrayS, ArrOK, fun _ a => a, id⟩
def kTArrayI : Contract := ⟨cTArrayI, ArrOK, fun _ a => a, id⟩
def kTArrayL : Contract := ⟨cTArrayL, ArrOK, fun _ a => a, id⟩
def kTArrayL64 : Contract := ⟨cTArrayL64, ArrOK, fun _ a => a, id⟩
def kTArrayF : Contract := ⟨cTArrayF, ArrOK, fun _ a => a, id⟩
def kTArrayD : Contract := ⟨cTArrayD, ArrOK, fun _ a => a, id⟩
def kTList : Contract := ⟨cTList, RList.OK, RList.map, RList.norm⟩
def kTHashList : Contract := ⟨cTHashList, RList.OK, RList.map, RList.norm⟩
def kTObjArray : Contract := ⟨cTObjArray, ObjArray.OK, ObjArray.map, ObjArray.norm⟩
def kTRefArray : Contract := ⟨cTRefArray, RefArray.OK, fun _ a => a, RefArray.norm⟩
def kTMap : Contract := ⟨cTMap, RMap.OK, RMap.map, RMap.norm⟩
def kTRef : Contract := ⟨cTRef, TRef.OK, fun _ a => a, TRef.norm⟩
def kTStreamerBasicType : Contract := ⟨cTStreamerBasicType, StreamerElement.OK, fun _ a => a, fun a => basicFix a.norm⟩
def kTNamed : Contract := ⟨cTNamed, Named.OK, fun _ a => a, Named.norm⟩
def kTObjString : Contract := ⟨cTObjString, ObjString.OK, fun _ a => a, ObjString.norm⟩
def kTProcessID : Contract := ⟨cTProcessID, ProcessID.OK, fun _ a => a, ProcessID.norm⟩
def kTAttAxis : Contract := ⟨cTAttAxis, fun _ => True, fun _ a => a, id⟩
def kTAttFill : Contract := ⟨cTAttFill, fun _ => True, fun _ a => a, id⟩
def kTAttLine : Contract := ⟨cTAttLine, fun _ => True, fun _ a => a, id⟩
def kTAttMarker : Contract := ⟨cTAttMarker, fun _ => True, fun _ a => a, id⟩
def kTAttPad : Contract := ⟨cTAttPad, fun _ => True, fun _ a => a, id⟩
def kTRefTable : Contract := ⟨cTRefTable, RefTable.OK, RefTable.map, RefTable.norm⟩
def kTVector2 : Contract := ⟨cTVector2, fun _ => True, fun _ a => a, Vector2.norm⟩
def kTVector3 : Contract := ⟨cTVector3, fun _ => True, fun _ a => a, Vector3.norm⟩
def kTLorentzVector : Contract := ⟨cTLorentzVector, fun _ => True, fun _ a => a, LorentzVector.norm⟩
def kTFeldmanCousins : Contract := ⟨cTFeldmanCousins, fun _ => True, fun _ a => a, FeldmanCousins.norm⟩
def kTAxis : Contract := ⟨cTAxis, Axis.OK, Axis.map, Axis.norm⟩
def kTH1 : Contract := ⟨cTH1, H1.OK, H1.map, H1.norm⟩
def kTH2 : Contract := ⟨cTH2, H2.OK, H2.map, H2.norm⟩
def kTH1F : Contract := ⟨cTH1F, H1F.OK, H1F.map, H1F.norm⟩
def kTH2F : Contract := ⟨cTH2F, H2F.OK, H2F.map, H2F.norm⟩
def kTH1D : Contract := ⟨cTH1D, H1D.OK, H1D.map, H1D.norm⟩
def kTH2D : Contract := ⟨cTH2D, H2D.OK, H2D.map, H2D.norm⟩
def kTH1I : Contract := ⟨cTH1I, H1I.OK, H1I.map, H1I.norm⟩
def kTH2I : Contract := ⟨cTH2I, H2I.OK, H2I.map, H2I.norm⟩
def kTProfile : Contract := ⟨cTProfile, Profile1D.OK, Profile1D.map, Profile1D.norm⟩
def kTProfile2D : Contract := ⟨cTProfile2D, Profile2D.OK, Profile2D.map, Profile2D.norm⟩
def kTGraph : Contract := ⟨cTGraph, Graph.OK, Graph.map, Graph.norm⟩
def kTGraphErrors : Contract := ⟨cTGraphErrors, GraphErrors.OK, GraphErrors.map, GraphErrors.norm⟩
def kTGraphAsymmErrors : Contract := ⟨cTGraphAsymmErrors, GraphAsymmErrors.OK, GraphAsymmErrors.map, GraphAsymmErrors.norm⟩
def kTGraphMultiErrors : Contract := ⟨cTGraphMultiErrors, GraphMultiErrors.OK, GraphMultiErrors.map, GraphMultiErrors.norm⟩
def kTMultiGraph : Contract := ⟨cTMultiGraph, MultiGraph.OK, MultiGraph.map, MultiGraph.norm⟩
def kTScatter : Contract := ⟨cTScatter, Scatter.OK, Scatter.map, Scatter.norm⟩
def kTFormula : Contract := ⟨cTFormula, Formula.OK, Formula.map, Formula.norm⟩
def kTF1 : Contract := ⟨cTF1, F1.OK, F1.map, F1.norm⟩
def kTLimit : Contract := ⟨cTLimit, fun _ => True, fun _ a => a, id⟩
def kTLimitDataSource : Contract := ⟨cTLimitDataSource, LimitDataSource.OK, LimitDataSource.map, LimitDataSource.norm⟩
def kTConfidenceLevel : Contract := ⟨cTConfidenceLevel, ConfidenceLevel.OK, fun _ a => a, ConfidenceLevel.norm⟩
def kTStreamerElement : Contract := ⟨cTStreamerElement, StreamerElement.OK, fun _ a => a, StreamerElement.norm⟩
def kTStreamerBase : Contract := ⟨cTStreamerBase, StreamerBase.OK, fun _ a => a, StreamerBase.norm⟩
def kTStreamerBasicPointer : Contract := ⟨cTStreamerBasicPointer, StreamerBasicPointer.OK, fun _ a => a, StreamerBasicPointer.norm⟩
def kTStreamerLoop : Contract := ⟨cTStreamerLoop, StreamerLoop.OK, fun _ a => a, StreamerLoop.norm⟩
def kTStreamerObject : Contract := ⟨cTStreamerObject, StreamerObject.OK, fun _ a => a, StreamerObject.norm⟩
def kTStreamerObjectPointer : Contract := ⟨cTStreamerObjectPointer, StreamerObjectPointer.OK, fun _ a => a, StreamerObjectPointer.norm⟩
def kTStreamerObjectAny : Contract := ⟨cTStreamerObjectAny, StreamerObjectAny.OK, fun _ a => a, StreamerObjectAny.norm⟩
def kTStreamerObjectAnyPointer : Contract := ⟨cTStreamerObjectAnyPointer, StreamerObjectAnyPointer.OK, fun _ a => a, StreamerObjectAnyPointer.norm⟩
def kTStreamerString : Contract := ⟨cTStreamerString, StreamerString.OK, fun _ a => a, StreamerString.norm⟩
def kTStreamerSTL : Contract := ⟨cTStreamerSTL, StreamerSTL.OK, fun _ a => a, StreamerSTL.norm⟩
def kTStreamerSTLstring : Contract := ⟨cTStreamerSTLstring, StreamerSTLstring.OK, fun _ a => a, StreamerSTLstring.norm⟩
def kTStreamerInfo : Contract := ⟨cTStreamerInfo, StreamerInfo.OK, StreamerInfo.map, StreamerInfo.norm⟩
def kTLeaf : Contract := ⟨cTLeaf, Leaf.OK, Leaf.map, Leaf.norm⟩
def kTLeafO : Contract := ⟨cTLeafO, LeafO.OK, LeafO.map, LeafO.norm⟩
def kTLeafB : Contract := ⟨cTLeafB, LeafB.OK, LeafB.map, LeafB.norm⟩
def kTLeafS : Contract := ⟨cTLeafS, LeafS.OK, LeafS.map, LeafS.norm⟩
def kTLeafI : Contract := ⟨cTLeafI, LeafI.OK, LeafI.map, LeafI.norm⟩
def kTLeafL : Contract := ⟨cTLeafL, LeafL.OK, LeafL.map, LeafL.norm⟩
def kTLeafG : Contract := ⟨cTLeafG, LeafG.OK, LeafG.map, LeafG.norm⟩
def kTLeafF : Contract := ⟨cTLeafF, LeafF.OK, LeafF.map, LeafF.norm⟩
def kTLeafD : Contract := ⟨cTLeafD, LeafD.OK, LeafD.map, LeafD.norm⟩
def kTLeafC : Contract := ⟨cTLeafC, LeafC.OK, LeafC.map, LeafC.norm⟩
def kTLeafElement : Contract := ⟨cTLeafElement, LeafElement.OK, LeafElement.map, LeafElement.norm⟩
def kTLeafObject : Contract := ⟨cTLeafObject, LeafObject.OK, LeafObject.map, LeafObject.norm⟩
def kTBranch : Contract := ⟨cTBranch, Branch.OK, Branch.map, Branch.norm⟩
def kTBranchObject : Contract := ⟨cTBranchObject, BranchObject.OK, BranchObject.map, BranchObject.norm⟩
def kTBranchElement : Contract := ⟨cTBranchElement, BranchElement.OK, BranchElement.map, BranchElement.norm⟩
def kTTree : Contract := ⟨cTTree, Tree.OK, Tree.map, Tree.norm⟩

def contracts : List Contract :=
  [kTObject, kTUUID, kGoString, kTArrayC, kTArrayS, kTArrayI, kTArrayL, kTArrayL64, kTArrayF,
  kTArrayD, kTList, kTHashList, kTObjArray, kTRefArray, kTMap, kTRef, kTStreamerBasicType, kTNamed,
  kTObjString, kTProcessID, kTAttAxis, kTAttFill, kTAttLine, kTAttMarker, kTAttPad, kTRefTable,
  kTVector2, kTVector3, kTLorentzVector, kTFeldmanCousins, kTAxis, kTH1, kTH2, kTH1F, kTH2F, kTH1D,
  kTH2D, kTH1I, kTH2I, kTProfile, kTProfile2D, kTGraph, kTGraphErrors, kTGraphAsymmErrors,
  kTGraphMultiErrors, kTMultiGraph, kTScatter, kTFormula, kTF1, kTLimit, kTLimitDataSource,
  kTConfidenceLevel, kTStreamerElement, kTStreamerBase, kTStreamerBasicPointer, kTStreamerLoop,
  kTStreamerObject, kTStreamerObjectPointer, kTStreamerObjectAny, kTStreamerObjectAnyPointer,
  kTStreamerString, kTStreamerSTL, kTStreamerSTLstring, kTStreamerInfo, kTLeaf, kTLeafO, kTLeafB,
  kTLeafS, kTLeafI, kTLeafL, kTLeafG, kTLeafF, kTLeafD, kTLeafC, kTLeafElement, kTLeafObject,
  kTBranch, kTBranchObject, kTBranchElement, kTTree]

/-- The class keeps its contract: what was written is read back, what is written names
the objects pointed to and nothing else of them, and renaming them does not matter. -/
structure Contract.Holds (k : Contract) : Prop where
  run : ∀ v, k.OK v → ∀ rest, k.c.R.run (k.c.W v rest) = some (k.norm v, rest)
  ren : ∀ φ v rest, (k.c.W v rest).rename φ = k.c.W (k.map φ v) (rest.rename φ)
  okmap : ∀ v, k.OK v → ∀ φ, k.OK (k.map φ v)

/-- An object: a value of one of the classes. -/
structure Obj where
  k : Contract
  v : k.c.α

/-- The object as the buffer writes it. -/
def Obj.node (o : Obj) : Node := ⟨o.k.c.cls, o.k.c.W o.v .nil⟩

end Verif.Robj
