import Verif.Robj.Classes

/-!
# The classes that can be written and read

The entries of `rtypes.Factory` (groot/rtypes/factory.go:20-23) for the classes that are modelled.
-/

namespace Verif.Robj

open Verif.RBytes Verif.RBytes.Refs

/-- A class: its ROOT name, its Go values, `MarshalROOT` and `UnmarshalROOT`. -/
structure Codec where
  cls : List UInt8
  α : Type
  W : α → Wr
  R : Rd α

/-- `TObject`. -/
def cTObject : Codec := ⟨[84, 79, 98, 106, 101, 99, 116],
  Object, objectW, objectR⟩

/-- `TUUID`. -/
def cTUUID : Codec := ⟨[84, 85, 85, 73, 68],
  List UInt8, uuidW, uuidR⟩

/-- `*rbase.String`. -/
def cGoString : Codec := ⟨[42, 114, 98, 97, 115, 101, 46, 83, 116, 114, 105, 110, 103],
  List UInt8, wStr, rStr⟩

/-- `TArrayC`. -/
def cTArrayC : Codec := ⟨[84, 65, 114, 114, 97, 121, 67],
  List (BitVec 8), arrW w8, arrR r8⟩

/-- `TArrayS`. -/
def cTArrayS : Codec := ⟨[84, 65, 114, 114, 97, 121, 83],
  List (BitVec 16), arrW w16, arrR r16⟩

/-- `TArrayI`. -/
def cTArrayI : Codec := ⟨[84, 65, 114, 114, 97, 121, 73],
  List (BitVec 32), arrW w32, arrR r32⟩

/-- `TArrayL`. -/
def cTArrayL : Codec := ⟨[84, 65, 114, 114, 97, 121, 76],
  List (BitVec 64), arrW w64, arrR r64⟩

/-- `TArrayL64`. -/
def cTArrayL64 : Codec := ⟨[84, 65, 114, 114, 97, 121, 76, 54, 52],
  List (BitVec 64), arrW w64, arrR r64⟩

/-- `TArrayF`. -/
def cTArrayF : Codec := ⟨[84, 65, 114, 114, 97, 121, 70],
  List (BitVec 32), arrW w32, arrR r32⟩

/-- `TArrayD`. -/
def cTArrayD : Codec := ⟨[84, 65, 114, 114, 97, 121, 68],
  List (BitVec 64), arrW w64, arrR r64⟩

/-- `TList`. -/
def cTList : Codec := ⟨[84, 76, 105, 115, 116],
  RList, listW, listR⟩

/-- `THashList`. -/
def cTHashList : Codec := ⟨[84, 72, 97, 115, 104, 76, 105, 115, 116],
  RList, listW, listR⟩

/-- `TObjArray`. -/
def cTObjArray : Codec := ⟨[84, 79, 98, 106, 65, 114, 114, 97, 121],
  ObjArray, objArrayW, objArrayR⟩

/-- `TRefArray`. -/
def cTRefArray : Codec := ⟨[84, 82, 101, 102, 65, 114, 114, 97, 121],
  RefArray, refArrayW, refArrayR⟩

/-- `TMap`. -/
def cTMap : Codec := ⟨[84, 77, 97, 112],
  RMap, mapW, mapR⟩

/-- `TRef`. -/
def cTRef : Codec := ⟨[84, 82, 101, 102],
  TRef, tRefW, tRefR⟩

/-- `TStreamerBasicType`. -/
def cTStreamerBasicType : Codec := ⟨[84, 83, 116, 114, 101, 97, 109, 101, 114, 66, 97, 115, 105, 99, 84, 121, 112, 101],
  StreamerElement, streamerBasicTypeW, streamerBasicTypeR⟩

/-- `TNamed`. -/
def cTNamed : Codec := ⟨[84, 78, 97, 109, 101, 100],
  Named, namedW, namedR⟩

/-- `TObjString`. -/
def cTObjString : Codec := ⟨[84, 79, 98, 106, 83, 116, 114, 105, 110, 103],
  ObjString, objStringW, objStringR⟩

/-- `TProcessID`. -/
def cTProcessID : Codec := ⟨[84, 80, 114, 111, 99, 101, 115, 115, 73, 68],
  ProcessID, processIDW, processIDR⟩

/-- `TAttAxis`. -/
def cTAttAxis : Codec := ⟨[84, 65, 116, 116, 65, 120, 105, 115],
  AttAxis, attAxisW, attAxisR⟩

/-- `TAttFill`. -/
def cTAttFill : Codec := ⟨[84, 65, 116, 116, 70, 105, 108, 108],
  AttFill, attFillW, attFillR⟩

/-- `TAttLine`. -/
def cTAttLine : Codec := ⟨[84, 65, 116, 116, 76, 105, 110, 101],
  AttLine, attLineW, attLineR⟩

/-- `TAttMarker`. -/
def cTAttMarker : Codec := ⟨[84, 65, 116, 116, 77, 97, 114, 107, 101, 114],
  AttMarker, attMarkerW, attMarkerR⟩

/-- `TAttPad`. -/
def cTAttPad : Codec := ⟨[84, 65, 116, 116, 80, 97, 100],
  AttPad, attPadW, attPadR⟩

/-- `TRefTable`. -/
def cTRefTable : Codec := ⟨[84, 82, 101, 102, 84, 97, 98, 108, 101],
  RefTable, refTableW, refTableR⟩

/-- `TVector2`. -/
def cTVector2 : Codec := ⟨[84, 86, 101, 99, 116, 111, 114, 50],
  Vector2, vector2W, vector2R⟩

/-- `TVector3`. -/
def cTVector3 : Codec := ⟨[84, 86, 101, 99, 116, 111, 114, 51],
  Vector3, vector3W, vector3R⟩

/-- `TLorentzVector`. -/
def cTLorentzVector : Codec := ⟨[84, 76, 111, 114, 101, 110, 116, 122, 86, 101, 99, 116, 111, 114],
  LorentzVector, lorentzVectorW, lorentzVectorR⟩

/-- `TFeldmanCousins`. -/
def cTFeldmanCousins : Codec := ⟨[84, 70, 101, 108, 100, 109, 97, 110, 67, 111, 117, 115, 105, 110, 115],
  FeldmanCousins, feldmanCousinsW, feldmanCousinsR⟩

/-- `TAxis`. -/
def cTAxis : Codec := ⟨[84, 65, 120, 105, 115],
  Axis, axisW, axisR⟩

/-- `TH1`. -/
def cTH1 : Codec := ⟨[84, 72, 49],
  H1, h1W, h1R⟩

/-- `TH2`. -/
def cTH2 : Codec := ⟨[84, 72, 50],
  H2, h2W, h2R⟩

/-- `TH1F`. -/
def cTH1F : Codec := ⟨[84, 72, 49, 70],
  H1F, h1FW, h1FR⟩

/-- `TH2F`. -/
def cTH2F : Codec := ⟨[84, 72, 50, 70],
  H2F, h2FW, h2FR⟩

/-- `TH1D`. -/
def cTH1D : Codec := ⟨[84, 72, 49, 68],
  H1D, h1DW, h1DR⟩

/-- `TH2D`. -/
def cTH2D : Codec := ⟨[84, 72, 50, 68],
  H2D, h2DW, h2DR⟩

/-- `TH1I`. -/
def cTH1I : Codec := ⟨[84, 72, 49, 73],
  H1I, h1IW, h1IR⟩

/-- `TH2I`. -/
def cTH2I : Codec := ⟨[84, 72, 50, 73],
  H2I, h2IW, h2IR⟩

/-- `TProfile`. -/
def cTProfile : Codec := ⟨[84, 80, 114, 111, 102, 105, 108, 101],
  Profile1D, profile1DW, profile1DR⟩

/-- `TProfile2D`. -/
def cTProfile2D : Codec := ⟨[84, 80, 114, 111, 102, 105, 108, 101, 50, 68],
  Profile2D, profile2DW, profile2DR⟩

/-- `TGraph`. -/
def cTGraph : Codec := ⟨[84, 71, 114, 97, 112, 104],
  Graph, graphW, graphR⟩

/-- `TGraphErrors`. -/
def cTGraphErrors : Codec := ⟨[84, 71, 114, 97, 112, 104, 69, 114, 114, 111, 114, 115],
  GraphErrors, graphErrorsW, graphErrorsR⟩

/-- `TGraphAsymmErrors`. -/
def cTGraphAsymmErrors : Codec := ⟨[84, 71, 114, 97, 112, 104, 65, 115, 121, 109, 109, 69, 114, 114, 111, 114, 115],
  GraphAsymmErrors, graphAsymmErrorsW, graphAsymmErrorsR⟩

/-- `TGraphMultiErrors`. -/
def cTGraphMultiErrors : Codec := ⟨[84, 71, 114, 97, 112, 104, 77, 117, 108, 116, 105, 69, 114, 114, 111, 114, 115],
  GraphMultiErrors, graphMultiErrorsW, graphMultiErrorsR⟩

/-- `TMultiGraph`. -/
def cTMultiGraph : Codec := ⟨[84, 77, 117, 108, 116, 105, 71, 114, 97, 112, 104],
  MultiGraph, multiGraphW, multiGraphR⟩

/-- `TScatter`. -/
def cTScatter : Codec := ⟨[84, 83, 99, 97, 116, 116, 101, 114],
  Scatter, scatterW, scatterR⟩

/-- `TFormula`. -/
def cTFormula : Codec := ⟨[84, 70, 111, 114, 109, 117, 108, 97],
  Formula, formulaW, formulaR⟩

/-- `TF1`. -/
def cTF1 : Codec := ⟨[84, 70, 49],
  F1, f1W, f1R⟩

/-- `TLimit`. -/
def cTLimit : Codec := ⟨[84, 76, 105, 109, 105, 116],
  Limit, limitW, limitR⟩

/-- `TLimitDataSource`. -/
def cTLimitDataSource : Codec := ⟨[84, 76, 105, 109, 105, 116, 68, 97, 116, 97, 83, 111, 117, 114, 99, 101],
  LimitDataSource, limitDataSourceW, limitDataSourceR⟩

/-- `TConfidenceLevel`. -/
def cTConfidenceLevel : Codec := ⟨[84, 67, 111, 110, 102, 105, 100, 101, 110, 99, 101, 76, 101, 118, 101, 108],
  ConfidenceLevel, confidenceLevelW, confidenceLevelR⟩

/-- `TStreamerElement`. -/
def cTStreamerElement : Codec := ⟨[84, 83, 116, 114, 101, 97, 109, 101, 114, 69, 108, 101, 109, 101, 110, 116],
  StreamerElement, streamerElementW, streamerElementR⟩

/-- `TStreamerBase`. -/
def cTStreamerBase : Codec := ⟨[84, 83, 116, 114, 101, 97, 109, 101, 114, 66, 97, 115, 101],
  StreamerBase, streamerBaseW, streamerBaseR⟩

/-- `TStreamerBasicPointer`. -/
def cTStreamerBasicPointer : Codec := ⟨[84, 83, 116, 114, 101, 97, 109, 101, 114, 66, 97, 115, 105, 99, 80, 111, 105, 110, 116, 101, 114],
  StreamerBasicPointer, streamerBasicPointerW, streamerBasicPointerR⟩

/-- `TStreamerLoop`. -/
def cTStreamerLoop : Codec := ⟨[84, 83, 116, 114, 101, 97, 109, 101, 114, 76, 111, 111, 112],
  StreamerLoop, streamerLoopW, streamerLoopR⟩

/-- `TStreamerObject`. -/
def cTStreamerObject : Codec := ⟨[84, 83, 116, 114, 101, 97, 109, 101, 114, 79, 98, 106, 101, 99, 116],
  StreamerObject, streamerObjectW, streamerObjectR⟩

/-- `TStreamerObjectPointer`. -/
def cTStreamerObjectPointer : Codec := ⟨[84, 83, 116, 114, 101, 97, 109, 101, 114, 79, 98, 106, 101, 99, 116, 80, 111, 105, 110, 116, 101, 114],
  StreamerObjectPointer, streamerObjectPointerW, streamerObjectPointerR⟩

/-- `TStreamerObjectAny`. -/
def cTStreamerObjectAny : Codec := ⟨[84, 83, 116, 114, 101, 97, 109, 101, 114, 79, 98, 106, 101, 99, 116, 65, 110, 121],
  StreamerObjectAny, streamerObjectAnyW, streamerObjectAnyR⟩

/-- `TStreamerObjectAnyPointer`. -/
def cTStreamerObjectAnyPointer : Codec := ⟨[84, 83, 116, 114, 101, 97, 109, 101, 114, 79, 98, 106, 101, 99, 116, 65, 110, 121, 80, 111, 105, 110, 116, 101, 114],
  StreamerObjectAnyPointer, streamerObjectAnyPointerW, streamerObjectAnyPointerR⟩

/-- `TStreamerString`. -/
def cTStreamerString : Codec := ⟨[84, 83, 116, 114, 101, 97, 109, 101, 114, 83, 116, 114, 105, 110, 103],
  StreamerString, streamerStringW, streamerStringR⟩

/-- `TStreamerSTL`. -/
def cTStreamerSTL : Codec := ⟨[84, 83, 116, 114, 101, 97, 109, 101, 114, 83, 84, 76],
  StreamerSTL, streamerSTLW, streamerSTLR⟩

/-- `TStreamerSTLstring`. -/
def cTStreamerSTLstring : Codec := ⟨[84, 83, 116, 114, 101, 97, 109, 101, 114, 83, 84, 76, 115, 116, 114, 105, 110, 103],
  StreamerSTLstring, streamerSTLstringW, streamerSTLstringR⟩

/-- `TStreamerInfo`. -/
def cTStreamerInfo : Codec := ⟨[84, 83, 116, 114, 101, 97, 109, 101, 114, 73, 110, 102, 111],
  StreamerInfo, streamerInfoW, streamerInfoR⟩

/-- `TLeaf`. -/
def cTLeaf : Codec := ⟨[84, 76, 101, 97, 102],
  Leaf, leafW, leafR⟩

/-- `TLeafO`. -/
def cTLeafO : Codec := ⟨[84, 76, 101, 97, 102, 79],
  LeafO, leafOW, leafOR⟩

/-- `TLeafB`. -/
def cTLeafB : Codec := ⟨[84, 76, 101, 97, 102, 66],
  LeafB, leafBW, leafBR⟩

/-- `TLeafS`. -/
def cTLeafS : Codec := ⟨[84, 76, 101, 97, 102, 83],
  LeafS, leafSW, leafSR⟩

/-- `TLeafI`. -/
def cTLeafI : Codec := ⟨[84, 76, 101, 97, 102, 73],
  LeafI, leafIW, leafIR⟩

/-- `TLeafL`. -/
def cTLeafL : Codec := ⟨[84, 76, 101, 97, 102, 76],
  LeafL, leafLW, leafLR⟩

/-- `TLeafG`. -/
def cTLeafG : Codec := ⟨[84, 76, 101, 97, 102, 71],
  LeafG, leafGW, leafGR⟩

/-- `TLeafF`. -/
def cTLeafF : Codec := ⟨[84, 76, 101, 97, 102, 70],
  LeafF, leafFW, leafFR⟩

/-- `TLeafD`. -/
def cTLeafD : Codec := ⟨[84, 76, 101, 97, 102, 68],
  LeafD, leafDW, leafDR⟩

/-- `TLeafC`. -/
def cTLeafC : Codec := ⟨[84, 76, 101, 97, 102, 67],
  LeafC, leafCW, leafCR⟩

/-- `TLeafElement`. -/
def cTLeafElement : Codec := ⟨[84, 76, 101, 97, 102, 69, 108, 101, 109, 101, 110, 116],
  LeafElement, leafElementW, leafElementR⟩

/-- `TLeafObject`. -/
def cTLeafObject : Codec := ⟨[84, 76, 101, 97, 102, 79, 98, 106, 101, 99, 116],
  LeafObject, leafObjectW, leafObjectR⟩

/-- `TBranch`. -/
def cTBranch : Codec := ⟨[84, 66, 114, 97, 110, 99, 104],
  Branch, branchW, branchR⟩

/-- `TBranchObject`. -/
def cTBranchObject : Codec := ⟨[84, 66, 114, 97, 110, 99, 104, 79, 98, 106, 101, 99, 116],
  BranchObject, branchObjectW, branchObjectR⟩

/-- `TBranchElement`. -/
def cTBranchElement : Codec := ⟨[84, 66, 114, 97, 110, 99, 104, 69, 108, 101, 109, 101, 110, 116],
  BranchElement, branchElementW, branchElementR⟩

/-- `TTree`. -/
def cTTree : Codec := ⟨[84, 84, 114, 101, 101],
  Tree, treeW, treeR⟩

def classes : List Codec :=
  [cTObject, cTUUID, cGoString, cTArrayC, cTArrayS, cTArrayI, cTArrayL, cTArrayL64, cTArrayF,
  cTArrayD, cTList, cTHashList, cTObjArray, cTRefArray, cTMap, cTRef, cTStreamerBasicType, cTNamed,
  cTObjString, cTProcessID, cTAttAxis, cTAttFill, cTAttLine, cTAttMarker, cTAttPad, cTRefTable,
  cTVector2, cTVector3, cTLorentzVector, cTFeldmanCousins, cTAxis, cTH1, cTH2, cTH1F, cTH2F, cTH1D,
  cTH2D, cTH1I, cTH2I, cTProfile, cTProfile2D, cTGraph, cTGraphErrors, cTGraphAsymmErrors,
  cTGraphMultiErrors, cTMultiGraph, cTScatter, cTFormula, cTF1, cTLimit, cTLimitDataSource,
  cTConfidenceLevel, cTStreamerElement, cTStreamerBase, cTStreamerBasicPointer, cTStreamerLoop,
  cTStreamerObject, cTStreamerObjectPointer, cTStreamerObjectAny, cTStreamerObjectAnyPointer,
  cTStreamerString, cTStreamerSTL, cTStreamerSTLstring, cTStreamerInfo, cTLeaf, cTLeafO, cTLeafB,
  cTLeafS, cTLeafI, cTLeafL, cTLeafG, cTLeafF, cTLeafD, cTLeafC, cTLeafElement, cTLeafObject,
  cTBranch, cTBranchObject, cTBranchElement, cTTree]

/-- The class with a name (groot/rtypes/factory.go:49-82, `Get`; `none`: not modelled). -/
def codecOf (cls : List UInt8) : Option Codec := classes.find? fun c => c.cls == cls

/-- How `ReadObjectAny` reads the objects of a class. -/
def decOf (cls : List UInt8) : Option Dec := (codecOf cls).map fun c => c.R.dec fun _ => .done

end Verif.Robj
