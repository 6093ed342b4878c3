import Verif.Robj.Old

/-!
# Reading objects of older versions: containers, vectors, graphs and branches
-/

set_option linter.unusedSimpArgs false

namespace Verif.Robj

open Verif.RBytes Verif.RBytes.Refs

/-- `TObjArray`: no name before version 2, no `TObject` before version 3. -/
def objArrayOld (v : Int) (a : ObjArray) : List Wr :=
  [since 3 v (objectW a.obj), since 2 v (wStr a.name), wInt a.objs.length, w32 a.low,
    wAll wRef a.objs]

def ObjArray.at (v : Int) (a : ObjArray) : ObjArray :=
  { a with obj := if 3 ≤ v then a.obj else ⟨0, 0⟩, name := if 2 ≤ v then a.name else [] }

theorem C144_objArray {a : ObjArray} (h : a.OK) {v : BitVec 16} (hv : v &&& 0x4000 = 0)
    (hv1 : v.toInt ≤ 3) (rest : Parts) :
    objArrayR.run (wBlock v (objArrayOld v.toInt a) rest) = some (a.norm.at v.toInt, rest) := by
  apply run_rBlock ⟨hv, Or.inr hv1⟩
  have := fun rest => run_rMake (rfl : (a.objs.length : Int) = _)
    (fun e _ => run_rRef e) (f := id) rest
  rcases (by omega : v.toInt < 2 ∨ (2 ≤ v.toInt ∧ v.toInt < 3) ∨ 3 ≤ v.toInt) with hc | hc | hc
  · have c0 : ¬ (2 < v.toInt) := by omega
    have c1 : ¬ (1 < v.toInt) := by omega
    have d0 : ¬ (3 ≤ v.toInt) := by omega
    have d1 : ¬ (2 ≤ v.toInt) := by omega
    simp [run_bind, objArrayOld, ObjArray.at, since, c0, c1, d0, d1, run_rInt h.objs.fits, this,
      ObjArray.norm]
  · have c0 : ¬ (2 < v.toInt) := by omega
    have c1 : 1 < v.toInt := by omega
    have d0 : ¬ (3 ≤ v.toInt) := by omega
    have d1 : 2 ≤ v.toInt := by omega
    simp [run_bind, objArrayOld, ObjArray.at, since, c0, c1, d0, d1, run_rInt h.objs.fits, this,
      run_rStr h.name, ObjArray.norm]
  · have c0 : 2 < v.toInt := by omega
    have c1 : 1 < v.toInt := by omega
    have d0 : 3 ≤ v.toInt := by omega
    have d1 : 2 ≤ v.toInt := by omega
    simp [run_bind, objArrayOld, ObjArray.at, since, c0, c1, d0, d1, run_rInt h.objs.fits, this,
      run_rStr h.name, run_objectR, ObjArray.norm]

/-- `TMap`: no name before version 2, no `TObject` before version 3. -/
def mapOld (v : Int) (a : RMap) : List Wr :=
  [since 3 v (objectW a.obj), since 2 v (wStr a.name), wInt a.tbl.length, wAll mapElemW a.tbl]

def RMap.at (v : Int) (a : RMap) : RMap :=
  { a with obj := if 3 ≤ v then a.obj else ⟨0, 0⟩, name := if 2 ≤ v then a.name else [] }

theorem C144_map {a : RMap} (h : a.OK) {v : BitVec 16} (hv : v &&& 0x4000 = 0)
    (hv1 : v.toInt ≤ 3) (rest : Parts) :
    mapR.run (wBlock v (mapOld v.toInt a) rest) = some (a.norm.at v.toInt, rest) := by
  apply run_rBlock ⟨hv, Or.inr hv1⟩
  have := fun rest => run_rAll (r := mapElemR) (w := mapElemW) (xs := a.tbl)
    (fun e _ rest => by simp [mapElemR, mapElemW, run_bind]) (f := id) rest
  rcases (by omega : v.toInt < 2 ∨ (2 ≤ v.toInt ∧ v.toInt < 3) ∨ 3 ≤ v.toInt) with hc | hc | hc
  · have c0 : ¬ (2 < v.toInt) := by omega
    have c1 : ¬ (1 < v.toInt) := by omega
    have d0 : ¬ (3 ≤ v.toInt) := by omega
    have d1 : ¬ (2 ≤ v.toInt) := by omega
    simp [run_bind, mapOld, RMap.at, since, c0, c1, d0, d1, run_rInt h.tbl.fits, rLoop, this,
      RMap.norm, collapse, foldl_mapStep]
  · have c0 : ¬ (2 < v.toInt) := by omega
    have c1 : 1 < v.toInt := by omega
    have d0 : ¬ (3 ≤ v.toInt) := by omega
    have d1 : 2 ≤ v.toInt := by omega
    simp [run_bind, mapOld, RMap.at, since, c0, c1, d0, d1, run_rInt h.tbl.fits, rLoop, this,
      RMap.norm, collapse, foldl_mapStep, run_rStr h.name]
  · have c0 : 2 < v.toInt := by omega
    have c1 : 1 < v.toInt := by omega
    have d0 : 3 ≤ v.toInt := by omega
    have d1 : 2 ≤ v.toInt := by omega
    simp [run_bind, mapOld, RMap.at, since, c0, c1, d0, d1, run_rInt h.tbl.fits, rLoop, this,
      RMap.norm, collapse, foldl_mapStep, run_rStr h.name, run_objectR]

/-- `TVector2` and `TVector3`: version 2 alone has no `TObject`. -/
def vector2Old (v : Int) (a : Vector2) : List Wr :=
  [if v = 2 then id else objectW a.obj, w64 a.x, w64 a.y]

def vector3Old (v : Int) (a : Vector3) : List Wr :=
  [if v = 2 then id else objectW a.obj, w64 a.x, w64 a.y, w64 a.z]

theorem C144_vector2 {a : Vector2} {v : BitVec 16} (hv : v &&& 0x4000 = 0)
    (hv0 : 1 ≤ v.toInt) (hv1 : v.toInt ≤ 3) (rest : Parts) :
    vector2R.run (wBlock v (vector2Old v.toInt a) rest) =
      some (if v.toInt = 2 then { a with obj := ⟨0, 0⟩ } else a.norm, rest) := by
  apply run_rBlock ⟨hv, Or.inr hv1⟩
  by_cases hc : v.toInt = 2
  · simp [run_bind, vector2Old, hc]
  · have c0 : v.toInt = 1 ∨ 2 < v.toInt := by omega
    simp [run_bind, vector2Old, hc, c0, run_objectR, Vector2.norm]

theorem C144_vector3 {a : Vector3} {v : BitVec 16} (hv : v &&& 0x4000 = 0)
    (hv0 : 1 ≤ v.toInt) (hv1 : v.toInt ≤ 3) (rest : Parts) :
    vector3R.run (wBlock v (vector3Old v.toInt a) rest) =
      some (if v.toInt = 2 then { a with obj := ⟨0, 0⟩ } else a.norm, rest) := by
  apply run_rBlock ⟨hv, Or.inr hv1⟩
  by_cases hc : v.toInt = 2
  · simp [run_bind, vector3Old, hc]
  · have c0 : v.toInt = 1 ∨ 2 < v.toInt := by omega
    simp [run_bind, vector3Old, hc, c0, run_objectR, Vector3.norm]

/-- `TGraphAsymmErrors` of version 2: the low errors of both axes come before the high
ones. -/
def graphAsymmErrorsOld (a : GraphAsymmErrors) : List Wr :=
  [graphW a.graph, w8 1, wAll w64 a.xerrlo, w8 1, wAll w64 a.yerrlo, w8 1, wAll w64 a.xerrhi, w8 1,
    wAll w64 a.yerrhi]

theorem C144_graphAsymmErrors {a : GraphAsymmErrors} (h : a.OK) (rest : Parts) :
    graphAsymmErrorsR.run (wBlock 2 (graphAsymmErrorsOld a) rest) = some (a.norm, rest) := by
  apply run_rBlock (by decide)
  simp [run_bind, graphAsymmErrorsOld, GraphAsymmErrors.norm, run_graphR h.graph,
    run_raw64 h.xerrlo, run_raw64 h.xerrhi, run_raw64 h.yerrlo, run_raw64 h.yerrhi]

/-- `TStreamerElement` of version 3: three numbers (minimum, maximum and factor) at the
end, which are not kept. -/
def streamerElementOld (v : Int) (a : StreamerElement) (xs : List (BitVec 64)) : List Wr :=
  [namedW a.named, w32 a.etype, w32 a.esize, w32 a.arrlen, w32 a.arrdim, wAll w32 a.maxidx,
    wStr a.ename, if v = 3 then wAll w64 xs else id]

theorem C144_streamerElement {a : StreamerElement} (h : a.OK) {xs : List (BitVec 64)}
    (hxs : xs.length = 3) {v : BitVec 16} (hv : v &&& 0x4000 = 0) (hv0 : 2 ≤ v.toInt)
    (hv1 : v.toInt ≤ 4) (rest : Parts) :
    streamerElementR.run (wBlock v (streamerElementOld v.toInt a xs) rest) = some (a.norm, rest) := by
  apply run_rBlock ⟨hv, Or.inr hv1⟩
  have hm := fun rest => run_rAll (w := w32) (r := r32) (xs := a.maxidx) (f := id)
    (fun x _ => run_r32 x) rest
  rw [h.maxidx] at hm
  have hx := fun rest => run_rAll (w := w64) (r := r64) (xs := xs) (f := id)
    (fun x _ => run_r64 x) rest
  rw [hxs] at hx
  rw [if_neg (by omega)]
  by_cases hc : v.toInt = 3
  · simp [run_bind, streamerElementOld, hc, run_namedR h.named, run_rStr h.ename, hm, hx,
      StreamerElement.norm]
  · simp [run_bind, streamerElementOld, hc, run_namedR h.named, run_rStr h.ename, hm,
      StreamerElement.norm]

/-- `TBranch` from version 10 on: the first entry is there from version 11, the bits of
the offsets from version 13. -/
def branchOld (v : Int) (a : Branch) : List Wr :=
  [namedW a.named, attFillW a.attfill, wInt a.compress, wInt a.basketSize,
    wInt a.entryOffsetLen, wInt a.writeBasket, w64 a.entryNumber, since 13 v (ioW a.iobits),
    wInt a.offset, wInt (max (a.writeBasket + 1) 10), wInt a.splitLevel, w64 a.entries,
    since 11 v (w64 a.firstEntry), w64 a.totBytes, w64 a.zipBytes, objsW a.branches,
    objsW a.leaves, basketsW a.baskets,
    w8 1, wAll w32 (padTo (max (a.writeBasket + 1) 10) a.writeBasket a.basketBytes),
    w8 1, wAll w64 (padTo (max (a.writeBasket + 1) 10) (a.writeBasket + 1) a.basketEntry),
    w8 1, wAll w64 (padTo (max (a.writeBasket + 1) 10) a.writeBasket a.basketSeek),
    wStr a.fname]

def Branch.at (v : Int) (a : Branch) : Branch :=
  { a with
    iobits := if 13 ≤ v then a.iobits else 0
    firstEntry := if 11 ≤ v then a.firstEntry else 0 }

theorem C144_branch {a : Branch} (h : a.OK) {v : BitVec 16} (hv : v &&& 0x4000 = 0)
    (hv0 : 10 ≤ v.toInt) (hv1 : v.toInt ≤ 13) (rest : Parts) :
    branchR.run (wBlock v (branchOld v.toInt a) rest) = some (a.norm.at v.toInt, rest) := by
  have hw := h.writeBasket
  have h1 := h.basketBytes
  have h2 := h.basketEntry
  have h3 := h.basketSeek
  have f1 : Fits32 a.writeBasket := by unfold Fits32; omega
  have f2 : Fits32 (max (a.writeBasket + 1) 10) := by unfold Fits32; omega
  have l1 := padTo_length (m := max (a.writeBasket + 1) 10) (xs := a.basketBytes) hw.1 h1 (by omega)
  have l2 := padTo_length (m := max (a.writeBasket + 1) 10) (n := a.writeBasket + 1)
    (xs := a.basketEntry) (by omega) h2 (by omega)
  have l3 := padTo_length (m := max (a.writeBasket + 1) 10) (xs := a.basketSeek) hw.1 h3 (by omega)
  have c1 := cutTo_padTo (m := max (a.writeBasket + 1) 10) (xs := a.basketBytes) hw.1 h1 (by omega)
  have c2 := cutTo_padTo (m := max (a.writeBasket + 1) 10) (n := a.writeBasket + 1)
    (xs := a.basketEntry) (by omega) h2 (by omega)
  have c3 := cutTo_padTo (m := max (a.writeBasket + 1) 10) (xs := a.basketSeek) hw.1 h3 (by omega)
  have b1 := run_raw32 l1
  have b2 := run_raw64 l2
  have b3 := run_raw64 l3
  clear l1 l2 l3
  apply run_rBlock ⟨hv, Or.inr hv1⟩
  rw [if_neg (by omega)]
  rcases (by omega : v.toInt < 11 ∨ (11 ≤ v.toInt ∧ v.toInt < 13) ∨ 13 ≤ v.toInt) with hc | hc | hc
  · have d0 : ¬ (11 ≤ v.toInt) := by omega
    have d1 : ¬ (13 ≤ v.toInt) := by omega
    simp [run_bind, branchOld, Branch.at, since, d0, d1, Branch.norm, run_namedR h.named, run_attFillR,
      run_rInt h.compress, run_rInt h.basketSize, run_rInt h.entryOffsetLen, run_rInt f1, run_ioR,
      run_rInt h.offset, run_rInt f2, run_rInt h.splitLevel, run_objsR h.branches,
      run_objsR h.leaves, run_basketsR h.baskets, b1, b2, b3, c1, c2, c3, rOpt, run_rStr h.fname]
  · have d0 : 11 ≤ v.toInt := by omega
    have d1 : ¬ (13 ≤ v.toInt) := by omega
    simp [run_bind, branchOld, Branch.at, since, d0, d1, Branch.norm, run_namedR h.named, run_attFillR,
      run_rInt h.compress, run_rInt h.basketSize, run_rInt h.entryOffsetLen, run_rInt f1, run_ioR,
      run_rInt h.offset, run_rInt f2, run_rInt h.splitLevel, run_objsR h.branches,
      run_objsR h.leaves, run_basketsR h.baskets, b1, b2, b3, c1, c2, c3, rOpt, run_rStr h.fname]
  · have d0 : 11 ≤ v.toInt := by omega
    have d1 : 13 ≤ v.toInt := by omega
    simp [run_bind, branchOld, Branch.at, since, d0, d1, Branch.norm, run_namedR h.named, run_attFillR,
      run_rInt h.compress, run_rInt h.basketSize, run_rInt h.entryOffsetLen, run_rInt f1, run_ioR,
      run_rInt h.offset, run_rInt f2, run_rInt h.splitLevel, run_objsR h.branches,
      run_objsR h.leaves, run_basketsR h.baskets, b1, b2, b3, c1, c2, c3, rOpt, run_rStr h.fname]

/-- `TBranchElement`: version 1 knows the class only, and before version 10 the version of
the class takes four bytes. -/
def branchElementOld (v : Int) (a : BranchElement) : List Wr :=
  [branchW a.branch, wStr a.cls, since 2 v (wStr a.parent), since 2 v (wStr a.clones),
    since 2 v (w32 a.chksum), if 10 ≤ v then w16 a.clsver else w32 (a.clsver.setWidth 32),
    w32 a.id, w32 a.btype, w32 a.stype, since 2 v (w32 a.max), since 2 v (wRef a.bcount1),
    since 2 v (wRef a.bcount2)]

def BranchElement.at (v : Int) (a : BranchElement) : BranchElement :=
  { a with
    parent := if 2 ≤ v then a.parent else []
    clones := if 2 ≤ v then a.clones else []
    chksum := if 2 ≤ v then a.chksum else 0
    max := if 2 ≤ v then a.max else 0
    bcount1 := if 2 ≤ v then a.bcount1 else none
    bcount2 := if 2 ≤ v then a.bcount2 else none }

theorem C144_branchElement {a : BranchElement} (h : a.OK) {v : BitVec 16} (hv : v &&& 0x4000 = 0)
    (hv0 : 1 ≤ v.toInt) (hv1 : v.toInt ≤ 10) (rest : Parts) :
    branchElementR.run (wBlock v (branchElementOld v.toInt a) rest) =
      some (a.norm.at v.toInt, rest) := by
  apply run_rBlock ⟨hv, Or.inr hv1⟩
  rw [if_neg (by omega)]
  have ht : (a.clsver.setWidth 32).truncate 16 = a.clsver := by
    apply BitVec.eq_of_toNat_eq
    simp
  rcases (by omega : v.toInt < 2 ∨ (2 ≤ v.toInt ∧ v.toInt < 10) ∨ 10 ≤ v.toInt) with hc | hc | hc
  · have d0 : ¬ (2 ≤ v.toInt) := by omega
    have d1 : ¬ (10 ≤ v.toInt) := by omega
    have c0 : ¬ (1 < v.toInt) := by omega
    simp [run_bind, branchElementOld, BranchElement.at, since, d0, d1, c0, BranchElement.norm,
      run_branchR h.branch, run_rStr h.cls, ht]
  · have d0 : 2 ≤ v.toInt := by omega
    have d1 : ¬ (10 ≤ v.toInt) := by omega
    have c0 : 1 < v.toInt := by omega
    simp [run_bind, branchElementOld, BranchElement.at, since, d0, d1, c0, BranchElement.norm,
      run_branchR h.branch, run_rStr h.cls, run_rStr h.parent, run_rStr h.clones, ht]
  · have d0 : 2 ≤ v.toInt := by omega
    have d1 : 10 ≤ v.toInt := by omega
    have c0 : 1 < v.toInt := by omega
    simp [run_bind, branchElementOld, BranchElement.at, since, d0, d1, c0, BranchElement.norm,
      run_branchR h.branch, run_rStr h.cls, run_rStr h.parent, run_rStr h.clones]

end Verif.Robj
