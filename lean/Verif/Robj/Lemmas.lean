import Verif.Robj.Spec

/-!
# Reading what was written, class by class
-/

namespace Verif.Robj

open Verif.RBytes Verif.RBytes.Refs

theorem ArrOK.fits {α : Type} {xs : List α} (h : ArrOK xs) : Fits32 (xs.length : Int) := by
  unfold ArrOK at h; unfold Fits32; omega

theorem ArrOK.map {α β : Type} {xs : List α} (h : ArrOK xs) (f : α → β) : ArrOK (xs.map f) := by
  unfold ArrOK at *; simpa using h

@[simp] theorem run_rSome (i : Nat) (rest : Parts) : rSome.run (wRef (some i) rest) = some (i, rest) := by
  simp [rSome, run_bind]

theorem heap_bits (b m : BitVec 32) (h : 0x01000000#32 &&& m = 0#32) :
    (b ||| 0x01000000#32) &&& m = b &&& m := by
  rw [BitVec.and_or_distrib_right, h, BitVec.or_zero]

theorem run_skipVersionR (rest : Parts) : skipVersionR.run (w16 1 rest) = some ((), rest) := by
  rw [skipVersionR, run_bind, run_r16]
  simp only [Option.bind_some]
  rw [if_pos (by decide)]
  simp

theorem run_objectR {o : Object} (rest : Parts) : objectR.run (objectW o rest) = some (o.norm, rest) := by
  have hb := heap_bits o.bits 0x10#32 (by decide)
  by_cases h : o.bits &&& 0x10#32 = 0#32
  · simp only [objectW, Object.norm, if_pos h, seq_cons, seq_nil, objectR, run_bind,
      run_skipVersionR, Option.bind_some, run_r32, hb, run_pure]
  · simp only [objectW, Object.norm, if_neg h, seq_cons, seq_nil, objectR, run_bind,
      run_skipVersionR, Option.bind_some, run_r32, hb, run_r16, run_pure]

theorem rename_objectW (φ : Nat → Nat) (o : Object) (rest : Parts) :
    (objectW o rest).rename φ = objectW o (rest.rename φ) := by
  unfold objectW; split <;> simp

theorem run_raw64 {n : Int} {xs : List (BitVec 64)} (h : n = xs.length) (rest : Parts) :
    (rMake r64 n).run (wAll w64 xs rest) = some (xs, rest) := by
  rw [run_rMake (f := id) h (fun x _ => run_r64 x)]; simp
theorem run_raw32 {n : Int} {xs : List (BitVec 32)} (h : n = xs.length) (rest : Parts) :
    (rMake r32 n).run (wAll w32 xs rest) = some (xs, rest) := by
  rw [run_rMake (f := id) h (fun x _ => run_r32 x)]; simp

theorem rename_raw64 (φ : Nat → Nat) (xs : List (BitVec 64)) (rest : Parts) :
    (wAll w64 xs rest).rename φ = wAll w64 xs (rest.rename φ) := by
  rw [rename_wAll (f := id) (rename_w64 φ)]; simp
theorem rename_raw32 (φ : Nat → Nat) (xs : List (BitVec 32)) (rest : Parts) :
    (wAll w32 xs rest).rename φ = wAll w32 xs (rest.rename φ) := by
  rw [rename_wAll (f := id) (rename_w32 φ)]; simp

theorem run_arrR {α β : Type} {w : β → Wr} {r : Rd α} {f : β → α} {xs : List β} (h : ArrOK xs)
    (hr : ∀ x ∈ xs, ∀ rest, r.run (w x rest) = some (f x, rest)) (rest : Parts) :
    (arrR r).run (arrW w xs rest) = some (xs.map f, rest) := by
  simp only [arrR, arrW, seq_cons, seq_nil, run_bind, run_rInt h.fits, Option.bind_some,
    run_rMake rfl hr]

theorem rename_arrW {α β : Type} {w : α → Wr} {w' : β → Wr} {f : α → β} {φ : Nat → Nat}
    (h : ∀ x rest, (w x rest).rename φ = w' (f x) (rest.rename φ)) (xs : List α) (rest : Parts) :
    (arrW w xs rest).rename φ = arrW w' (xs.map f) (rest.rename φ) := by
  simp only [arrW, seq_cons, seq_nil, rename_wInt, rename_wAll h, List.length_map]

theorem run_arr8 {xs : List (BitVec 8)} (h : ArrOK xs) (rest : Parts) :
    (arrR r8).run (arrW w8 xs rest) = some (xs, rest) := by
  rw [run_arrR (f := id) h (fun x _ => run_r8 x)]; simp
theorem run_arr16 {xs : List (BitVec 16)} (h : ArrOK xs) (rest : Parts) :
    (arrR r16).run (arrW w16 xs rest) = some (xs, rest) := by
  rw [run_arrR (f := id) h (fun x _ => run_r16 x)]; simp
theorem run_arr32 {xs : List (BitVec 32)} (h : ArrOK xs) (rest : Parts) :
    (arrR r32).run (arrW w32 xs rest) = some (xs, rest) := by
  rw [run_arrR (f := id) h (fun x _ => run_r32 x)]; simp
theorem run_arr64 {xs : List (BitVec 64)} (h : ArrOK xs) (rest : Parts) :
    (arrR r64).run (arrW w64 xs rest) = some (xs, rest) := by
  rw [run_arrR (f := id) h (fun x _ => run_r64 x)]; simp

theorem rename_arr8 (φ : Nat → Nat) (xs : List (BitVec 8)) (rest : Parts) :
    (arrW w8 xs rest).rename φ = arrW w8 xs (rest.rename φ) := by
  rw [rename_arrW (f := id) (rename_w8 φ)]; simp
theorem rename_arr16 (φ : Nat → Nat) (xs : List (BitVec 16)) (rest : Parts) :
    (arrW w16 xs rest).rename φ = arrW w16 xs (rest.rename φ) := by
  rw [rename_arrW (f := id) (rename_w16 φ)]; simp
theorem rename_arr32 (φ : Nat → Nat) (xs : List (BitVec 32)) (rest : Parts) :
    (arrW w32 xs rest).rename φ = arrW w32 xs (rest.rename φ) := by
  rw [rename_arrW (f := id) (rename_w32 φ)]; simp
theorem rename_arr64 (φ : Nat → Nat) (xs : List (BitVec 64)) (rest : Parts) :
    (arrW w64 xs rest).rename φ = arrW w64 xs (rest.rename φ) := by
  rw [rename_arrW (f := id) (rename_w64 φ)]; simp

theorem run_vecR {α β : Type} {w : β → Wr} {r : Rd α} {f : β → α} {xs : List β} (h : ArrOK xs)
    (hr : ∀ x ∈ xs, ∀ rest, r.run (w x rest) = some (f x, rest)) (rest : Parts) :
    (vecR r).run (vecW w xs rest) = some (xs.map f, rest) := by
  apply run_rBlock (by decide)
  simp only [seq_cons, seq_nil, run_bind, run_rInt h.fits, Option.bind_some, run_rMake rfl hr]

theorem rename_vecW {α β : Type} {w : α → Wr} {w' : β → Wr} {f : α → β} {φ : Nat → Nat}
    (h : ∀ x rest, (w x rest).rename φ = w' (f x) (rest.rename φ)) (xs : List α) (rest : Parts) :
    (vecW w xs rest).rename φ = vecW w' (xs.map f) (rest.rename φ) := by
  simp only [vecW, wBlock, Parts.rename, seq_cons, seq_nil, rename_wInt, rename_wAll h, List.length_map]

theorem run_vec64 {xs : List (BitVec 64)} (h : ArrOK xs) (rest : Parts) :
    (vecR r64).run (vecW w64 xs rest) = some (xs, rest) := by
  rw [run_vecR (f := id) h (fun x _ => run_r64 x)]; simp
theorem run_vecStr {xs : List (List UInt8)} (h : VecOK StrOK xs) (rest : Parts) :
    (vecR rStr).run (vecW wStr xs rest) = some (xs, rest) := by
  rw [run_vecR (w := wStr) (f := id) h.1 (fun x hx => run_rStr (h.2 x hx))]; simp
theorem run_vecArr {xs : List (List (BitVec 64))} (h : VecOK ArrOK xs) (rest : Parts) :
    (vecR (arrR r64)).run (vecW (arrW w64) xs rest) = some (xs, rest) := by
  rw [run_vecR (w := arrW w64) (f := id) h.1 (fun x hx => run_arr64 (h.2 x hx))]; simp
theorem run_vecRef {xs : List (Option Nat)} (h : ArrOK xs) (rest : Parts) :
    (vecR rRef).run (vecW wRef xs rest) = some (xs, rest) := by
  rw [run_vecR (f := id) h (fun x _ => run_rRef x)]; simp

theorem rename_vec64 (φ : Nat → Nat) (xs : List (BitVec 64)) (rest : Parts) :
    (vecW w64 xs rest).rename φ = vecW w64 xs (rest.rename φ) := by
  rw [rename_vecW (f := id) (rename_w64 φ)]; simp
theorem rename_vecStr (φ : Nat → Nat) (xs : List (List UInt8)) (rest : Parts) :
    (vecW wStr xs rest).rename φ = vecW wStr xs (rest.rename φ) := by
  rw [rename_vecW (f := id) (rename_wStr φ)]; simp
theorem rename_vecArr (φ : Nat → Nat) (xs : List (List (BitVec 64))) (rest : Parts) :
    (vecW (arrW w64) xs rest).rename φ = vecW (arrW w64) xs (rest.rename φ) := by
  rw [rename_vecW (f := id) (rename_arr64 φ)]; simp
theorem rename_vecRef (φ : Nat → Nat) (xs : List (Option Nat)) (rest : Parts) :
    (vecW wRef xs rest).rename φ = vecW wRef (xs.map (·.map φ)) (rest.rename φ) :=
  rename_vecW (fun x rest => rename_wRef φ x rest) xs rest

theorem run_listElemR {e : Option Nat × List UInt8} (h1 : e.1.isSome) (h2 : StrOK e.2) (rest : Parts) :
    listElemR.run (listElemW e rest) = some (e, rest) := by
  rcases e with ⟨_ | i, s⟩
  · simp at h1
  · simp [listElemR, listElemW, run_bind, run_rStr h2]

theorem run_listR {a : RList} (h : a.OK) (rest : Parts) :
    listR.run (listW a rest) = some (a.norm, rest) := by
  apply run_rBlock (by decide)
  have := fun rest => run_rMake (w := listElemW) (rfl : (a.elems.length : Int) = _)
    (fun e he => run_listElemR (h.nonnil e he) (h.opts e he)) (f := id) rest
  simp [run_bind, run_objectR, run_rStr h.name, run_rInt h.elems.fits, this, RList.norm]

theorem rename_listW (φ : Nat → Nat) (a : RList) (rest : Parts) :
    (listW a rest).rename φ = listW (a.map φ) (rest.rename φ) := by
  have := fun rest => rename_wAll (w := listElemW) (w' := listElemW) (φ := φ)
    (f := fun e => (e.1.map φ, e.2)) (fun x rest => by simp [listElemW]) a.elems rest
  simp [listW, wBlock, Parts.rename, rename_objectW, this, RList.map]

theorem RList.OK.map {a : RList} (h : a.OK) (φ : Nat → Nat) : (a.map φ).OK where
  name := h.name
  elems := h.elems.map _
  nonnil := by
    intro e he
    simp only [RList.map, List.mem_map] at he
    obtain ⟨x, hx, rfl⟩ := he
    simpa using h.nonnil x hx
  opts := by
    intro e he
    simp only [RList.map, List.mem_map] at he
    obtain ⟨x, hx, rfl⟩ := he
    exact h.opts x hx

theorem run_objArrayR {a : ObjArray} (h : a.OK) (rest : Parts) :
    objArrayR.run (objArrayW a rest) = some (a.norm, rest) := by
  apply run_rBlock (by decide)
  have := fun rest => run_rMake (rfl : (a.objs.length : Int) = _)
    (fun e _ => run_rRef e) (f := id) rest
  simp [run_bind, run_objectR, run_rStr h.name, run_rInt h.objs.fits, this, ObjArray.norm]

theorem rename_objArrayW (φ : Nat → Nat) (a : ObjArray) (rest : Parts) :
    (objArrayW a rest).rename φ = objArrayW (a.map φ) (rest.rename φ) := by
  have := fun rest => rename_wAll (rename_wRef φ) a.objs rest
  simp [objArrayW, wBlock, Parts.rename, rename_objectW, this, ObjArray.map]

theorem ObjArray.OK.map {a : ObjArray} (h : a.OK) (φ : Nat → Nat) : (a.map φ).OK where
  name := h.name
  objs := h.objs.map _

theorem run_refArrayR {a : RefArray} (h : a.OK) (rest : Parts) :
    refArrayR.run (refArrayW a rest) = some (a.norm, rest) := by
  apply run_rBlock (by decide)
  simp [run_bind, run_objectR, run_rStr h.name, run_rInt h.refs.fits, run_raw32 rfl, RefArray.norm]

theorem rename_refArrayW (φ : Nat → Nat) (a : RefArray) (rest : Parts) :
    (refArrayW a rest).rename φ = refArrayW a (rest.rename φ) := by
  simp [refArrayW, wBlock, Parts.rename, rename_objectW, rename_raw32]

theorem foldl_mapStep (es : List (Option Nat × Option Nat)) : ∀ tbl,
    es.foldl mapStep tbl =
      (es.filter fun e => e.1.isSome).foldl (fun tbl e => put tbl e.1 e.2) tbl := by
  induction es with
  | nil => intro tbl; rfl
  | cons e es ih =>
    intro tbl
    by_cases h : e.1.isSome <;> simp [mapStep, h, ih]

theorem run_mapR {a : RMap} (h : a.OK) (rest : Parts) :
    mapR.run (mapW a rest) = some (a.norm, rest) := by
  apply run_rBlock (by decide)
  have := fun rest => run_rAll (r := mapElemR) (w := mapElemW) (xs := a.tbl)
    (fun e _ rest => by simp [mapElemR, mapElemW, run_bind]) (f := id) rest
  simp [run_bind, run_objectR, run_rStr h.name, run_rInt h.tbl.fits, rLoop, this, RMap.norm, collapse,
    foldl_mapStep]

theorem rename_mapW (φ : Nat → Nat) (a : RMap) (rest : Parts) :
    (mapW a rest).rename φ = mapW (a.map φ) (rest.rename φ) := by
  have := fun rest => rename_wAll (w := mapElemW) (w' := mapElemW) (φ := φ)
    (f := fun e => (e.1.map φ, e.2.map φ)) (fun x rest => by simp [mapElemW]) a.tbl rest
  simp [mapW, wBlock, Parts.rename, rename_objectW, this, RMap.map]

theorem RMap.OK.map {a : RMap} (h : a.OK) (φ : Nat → Nat) : (a.map φ).OK where
  name := h.name
  tbl := h.tbl.map _

theorem run_tRefR {a : TRef} (h : a.OK) (rest : Parts) :
    tRefR.run (tRefW a rest) = some (a.norm, rest) := by
  have hb := heap_bits a.obj.bits 0x20#32 (by decide)
  unfold TRef.OK at h
  have hn : a.obj.norm.bits &&& 0x20#32 = 0#32 := by rw [Object.norm, hb, h]
  simp only [tRefR, tRefW, seq_cons, seq_nil, run_bind, run_objectR, Option.bind_some, if_pos hn,
    run_r16, run_pure, TRef.norm]

theorem rename_tRefW (φ : Nat → Nat) (a : TRef) (rest : Parts) :
    (tRefW a rest).rename φ = tRefW a (rest.rename φ) := by
  simp [tRefW, rename_objectW]

theorem run_uuidR {a : List UInt8} (h : a.length = 16) (rest : Parts) :
    uuidR.run (uuidW a rest) = some (a, rest) := by
  simp [uuidR, uuidW, run_bind, run_bytesR' h]

theorem rename_uuidW (φ : Nat → Nat) (a : List UInt8) (rest : Parts) :
    (uuidW a rest).rename φ = uuidW a (rest.rename φ) := by
  simp [uuidW]

theorem run_parmsR {a : List (List UInt8 × BitVec 32)} (h : ParmsOK a) (rest : Parts) :
    parmsR.run (parmsW a rest) = some (collapse a, rest) := by
  apply run_rBlock (by decide)
  have := fun rest => run_rAll (r := parmElemR) (w := parmElemW) (xs := a)
    (fun e he rest => by simp [parmElemR, parmElemW, run_bind, run_rStr (h.keys e he)]) (f := id) rest
  simp [run_bind, run_rInt h.len.fits, rLoop, this, collapse]

theorem rename_parmsW (φ : Nat → Nat) (a : List (List UInt8 × BitVec 32)) (rest : Parts) :
    (parmsW a rest).rename φ = parmsW a (rest.rename φ) := by
  have := fun rest => rename_wAll (w := parmElemW) (w' := parmElemW) (φ := φ)
    (f := id) (fun x rest => by simp [parmElemW]) a rest
  simp [parmsW, wBlock, Parts.rename, this]

theorem run_namedR {a : Named} (h : a.OK) (rest : Parts) :
    namedR.run (namedW a rest) = some (a.norm, rest) := by
  apply run_rBlock (by decide)
  simp [run_bind, Named.norm, run_objectR, run_rStr h.name, run_rStr h.title]

theorem rename_namedW (φ : Nat → Nat) (a : Named) (rest : Parts) :
    (namedW a rest).rename φ = namedW a (rest.rename φ) := by
  simp [namedW, wBlock, Parts.rename, rename_objectW]

theorem run_objStringR {a : ObjString} (h : a.OK) (rest : Parts) :
    objStringR.run (objStringW a rest) = some (a.norm, rest) := by
  apply run_rBlock (by decide)
  simp [run_bind, ObjString.norm, run_objectR, run_rStr h.str]

theorem rename_objStringW (φ : Nat → Nat) (a : ObjString) (rest : Parts) :
    (objStringW a rest).rename φ = objStringW a (rest.rename φ) := by
  simp [objStringW, wBlock, Parts.rename, rename_objectW]

theorem run_processIDR {a : ProcessID} (h : a.OK) (rest : Parts) :
    processIDR.run (processIDW a rest) = some (a.norm, rest) := by
  apply run_rBlock (by decide)
  simp [run_bind, ProcessID.norm, run_namedR h.named]

theorem rename_processIDW (φ : Nat → Nat) (a : ProcessID) (rest : Parts) :
    (processIDW a rest).rename φ = processIDW a (rest.rename φ) := by
  simp [processIDW, wBlock, Parts.rename, rename_namedW]

theorem run_attAxisR {a : AttAxis} (rest : Parts) :
    attAxisR.run (attAxisW a rest) = some (a, rest) := by
  apply run_rBlock (by decide)
  simp [run_bind]

theorem rename_attAxisW (φ : Nat → Nat) (a : AttAxis) (rest : Parts) :
    (attAxisW a rest).rename φ = attAxisW a (rest.rename φ) := by
  simp [attAxisW, wBlock, Parts.rename]

theorem run_attFillR {a : AttFill} (rest : Parts) :
    attFillR.run (attFillW a rest) = some (a, rest) := by
  apply run_rBlock (by decide)
  simp [run_bind]

theorem rename_attFillW (φ : Nat → Nat) (a : AttFill) (rest : Parts) :
    (attFillW a rest).rename φ = attFillW a (rest.rename φ) := by
  simp [attFillW, wBlock, Parts.rename]

theorem run_attLineR {a : AttLine} (rest : Parts) :
    attLineR.run (attLineW a rest) = some (a, rest) := by
  apply run_rBlock (by decide)
  simp [run_bind]

theorem rename_attLineW (φ : Nat → Nat) (a : AttLine) (rest : Parts) :
    (attLineW a rest).rename φ = attLineW a (rest.rename φ) := by
  simp [attLineW, wBlock, Parts.rename]

theorem run_attMarkerR {a : AttMarker} (rest : Parts) :
    attMarkerR.run (attMarkerW a rest) = some (a, rest) := by
  apply run_rBlock (by decide)
  simp [run_bind]

theorem rename_attMarkerW (φ : Nat → Nat) (a : AttMarker) (rest : Parts) :
    (attMarkerW a rest).rename φ = attMarkerW a (rest.rename φ) := by
  simp [attMarkerW, wBlock, Parts.rename]

theorem run_attPadR {a : AttPad} (rest : Parts) :
    attPadR.run (attPadW a rest) = some (a, rest) := by
  apply run_rBlock (by decide)
  simp [run_bind]

theorem rename_attPadW (φ : Nat → Nat) (a : AttPad) (rest : Parts) :
    (attPadW a rest).rename φ = attPadW a (rest.rename φ) := by
  simp [attPadW, wBlock, Parts.rename]

theorem run_refTableR {a : RefTable} (h : a.OK) (rest : Parts) :
    refTableR.run (refTableW a rest) = some (a.norm, rest) := by
  apply run_rBlock (by decide)
  simp [run_bind, RefTable.norm, run_objectR, run_vecStr h.guids]

theorem rename_refTableW (φ : Nat → Nat) (a : RefTable) (rest : Parts) :
    (refTableW a rest).rename φ = refTableW (a.map φ) (rest.rename φ) := by
  simp [refTableW, wBlock, Parts.rename, RefTable.map, rename_objectW, rename_vecStr]

theorem RefTable.OK.map {a : RefTable} (h : a.OK) (φ : Nat → Nat) : (a.map φ).OK where
  guids := h.guids

theorem run_vecFill {xs : List AttFill} (h : ArrOK xs) (rest : Parts) :
    (vecR attFillR).run (vecW attFillW xs rest) = some (xs, rest) := by
  rw [run_vecR (w := attFillW) (f := id) h (fun _ _ rest => run_attFillR rest)]; simp
theorem run_vecLine {xs : List AttLine} (h : ArrOK xs) (rest : Parts) :
    (vecR attLineR).run (vecW attLineW xs rest) = some (xs, rest) := by
  rw [run_vecR (w := attLineW) (f := id) h (fun _ _ rest => run_attLineR rest)]; simp
theorem rename_vecFill (φ : Nat → Nat) (xs : List AttFill) (rest : Parts) :
    (vecW attFillW xs rest).rename φ = vecW attFillW xs (rest.rename φ) := by
  rw [rename_vecW (f := id) (rename_attFillW φ)]; simp
theorem rename_vecLine (φ : Nat → Nat) (xs : List AttLine) (rest : Parts) :
    (vecW attLineW xs rest).rename φ = vecW attLineW xs (rest.rename φ) := by
  rw [rename_vecW (f := id) (rename_attLineW φ)]; simp

theorem run_vector2R {a : Vector2} (rest : Parts) :
    vector2R.run (vector2W a rest) = some (a.norm, rest) := by
  apply run_rBlock (by decide)
  simp [run_bind, Vector2.norm, run_objectR]

theorem rename_vector2W (φ : Nat → Nat) (a : Vector2) (rest : Parts) :
    (vector2W a rest).rename φ = vector2W a (rest.rename φ) := by
  simp [vector2W, wBlock, Parts.rename, rename_objectW]

theorem run_vector3R {a : Vector3} (rest : Parts) :
    vector3R.run (vector3W a rest) = some (a.norm, rest) := by
  apply run_rBlock (by decide)
  simp [run_bind, Vector3.norm, run_objectR]

theorem rename_vector3W (φ : Nat → Nat) (a : Vector3) (rest : Parts) :
    (vector3W a rest).rename φ = vector3W a (rest.rename φ) := by
  simp [vector3W, wBlock, Parts.rename, rename_objectW]

theorem run_lorentzVectorR {a : LorentzVector} (rest : Parts) :
    lorentzVectorR.run (lorentzVectorW a rest) = some (a.norm, rest) := by
  apply run_rBlock (by decide)
  simp [run_bind, LorentzVector.norm, run_objectR, run_vector3R]

theorem rename_lorentzVectorW (φ : Nat → Nat) (a : LorentzVector) (rest : Parts) :
    (lorentzVectorW a rest).rename φ = lorentzVectorW a (rest.rename φ) := by
  simp [lorentzVectorW, wBlock, Parts.rename, rename_objectW, rename_vector3W]

theorem run_feldmanCousinsR {a : FeldmanCousins} (rest : Parts) :
    feldmanCousinsR.run (feldmanCousinsW a rest) = some (a.norm, rest) := by
  apply run_rBlock (by decide)
  simp [run_bind, FeldmanCousins.norm, run_objectR]

theorem rename_feldmanCousinsW (φ : Nat → Nat) (a : FeldmanCousins) (rest : Parts) :
    (feldmanCousinsW a rest).rename φ = feldmanCousinsW a (rest.rename φ) := by
  simp [feldmanCousinsW, wBlock, Parts.rename, rename_objectW]

theorem run_axisR {a : Axis} (h : a.OK) (rest : Parts) :
    axisR.run (axisW a rest) = some (a.norm, rest) := by
  apply run_rBlock (by decide)
  simp [run_bind, Axis.norm, run_namedR h.named, run_attAxisR, run_rInt h.nbins, run_arr64 h.xbins,
    run_rInt h.first, run_rInt h.last, run_rStr h.tfmt]

theorem rename_axisW (φ : Nat → Nat) (a : Axis) (rest : Parts) :
    (axisW a rest).rename φ = axisW (a.map φ) (rest.rename φ) := by
  simp [axisW, wBlock, Parts.rename, Axis.map, rename_namedW, rename_attAxisW, rename_arr64]

theorem Axis.OK.map {a : Axis} (h : a.OK) (φ : Nat → Nat) : (a.map φ).OK where
  named := h.named
  nbins := h.nbins
  xbins := h.xbins
  first := h.first
  last := h.last
  tfmt := h.tfmt

theorem run_h1R {a : H1} (h : a.OK) (rest : Parts) :
    h1R.run (h1W a rest) = some (a.norm, rest) := by
  apply run_rBlock (by decide)
  simp [run_bind, H1.norm, run_namedR h.named, run_attLineR, run_attFillR, run_attMarkerR,
    run_rInt h.ncells, run_axisR h.xaxis, run_axisR h.yaxis, run_axisR h.zaxis,
    run_arr64 h.contour, run_arr64 h.sumw2, run_rStr h.opt, run_listR h.funcs,
    run_rInt h.buffer.fits, run_raw64 rfl]

theorem rename_h1W (φ : Nat → Nat) (a : H1) (rest : Parts) :
    (h1W a rest).rename φ = h1W (a.map φ) (rest.rename φ) := by
  simp [h1W, wBlock, Parts.rename, H1.map, rename_namedW, rename_attLineW, rename_attFillW,
    rename_attMarkerW, rename_axisW, rename_arr64, rename_listW, rename_raw64]

theorem H1.OK.map {a : H1} (h : a.OK) (φ : Nat → Nat) : (a.map φ).OK where
  named := h.named
  ncells := h.ncells
  xaxis := h.xaxis.map φ
  yaxis := h.yaxis.map φ
  zaxis := h.zaxis.map φ
  contour := h.contour
  sumw2 := h.sumw2
  opt := h.opt
  funcs := h.funcs.map φ
  buffer := h.buffer

theorem run_h2R {a : H2} (h : a.OK) (rest : Parts) :
    h2R.run (h2W a rest) = some (a.norm, rest) := by
  apply run_rBlock (by decide)
  simp [run_bind, H2.norm, run_h1R h.h1]

theorem rename_h2W (φ : Nat → Nat) (a : H2) (rest : Parts) :
    (h2W a rest).rename φ = h2W (a.map φ) (rest.rename φ) := by
  simp [h2W, wBlock, Parts.rename, H2.map, rename_h1W]

theorem H2.OK.map {a : H2} (h : a.OK) (φ : Nat → Nat) : (a.map φ).OK where
  h1 := h.h1.map φ

theorem run_h1FR {a : H1F} (h : a.OK) (rest : Parts) :
    h1FR.run (h1FW a rest) = some (a.norm, rest) := by
  apply run_rBlock (by decide)
  simp [run_bind, H1F.norm, run_h1R h.h1, run_arr32 h.arr]

theorem rename_h1FW (φ : Nat → Nat) (a : H1F) (rest : Parts) :
    (h1FW a rest).rename φ = h1FW (a.map φ) (rest.rename φ) := by
  simp [h1FW, wBlock, Parts.rename, H1F.map, rename_h1W, rename_arr32]

theorem H1F.OK.map {a : H1F} (h : a.OK) (φ : Nat → Nat) : (a.map φ).OK where
  h1 := h.h1.map φ
  arr := h.arr

theorem run_h2FR {a : H2F} (h : a.OK) (rest : Parts) :
    h2FR.run (h2FW a rest) = some (a.norm, rest) := by
  apply run_rBlock (by decide)
  simp [run_bind, H2F.norm, run_h2R h.h2, run_arr32 h.arr]

theorem rename_h2FW (φ : Nat → Nat) (a : H2F) (rest : Parts) :
    (h2FW a rest).rename φ = h2FW (a.map φ) (rest.rename φ) := by
  simp [h2FW, wBlock, Parts.rename, H2F.map, rename_h2W, rename_arr32]

theorem H2F.OK.map {a : H2F} (h : a.OK) (φ : Nat → Nat) : (a.map φ).OK where
  h2 := h.h2.map φ
  arr := h.arr

theorem run_h1DR {a : H1D} (h : a.OK) (rest : Parts) :
    h1DR.run (h1DW a rest) = some (a.norm, rest) := by
  apply run_rBlock (by decide)
  simp [run_bind, H1D.norm, run_h1R h.h1, run_arr64 h.arr]

theorem rename_h1DW (φ : Nat → Nat) (a : H1D) (rest : Parts) :
    (h1DW a rest).rename φ = h1DW (a.map φ) (rest.rename φ) := by
  simp [h1DW, wBlock, Parts.rename, H1D.map, rename_h1W, rename_arr64]

theorem H1D.OK.map {a : H1D} (h : a.OK) (φ : Nat → Nat) : (a.map φ).OK where
  h1 := h.h1.map φ
  arr := h.arr

theorem run_h2DR {a : H2D} (h : a.OK) (rest : Parts) :
    h2DR.run (h2DW a rest) = some (a.norm, rest) := by
  apply run_rBlock (by decide)
  simp [run_bind, H2D.norm, run_h2R h.h2, run_arr64 h.arr]

theorem rename_h2DW (φ : Nat → Nat) (a : H2D) (rest : Parts) :
    (h2DW a rest).rename φ = h2DW (a.map φ) (rest.rename φ) := by
  simp [h2DW, wBlock, Parts.rename, H2D.map, rename_h2W, rename_arr64]

theorem H2D.OK.map {a : H2D} (h : a.OK) (φ : Nat → Nat) : (a.map φ).OK where
  h2 := h.h2.map φ
  arr := h.arr

theorem run_h1IR {a : H1I} (h : a.OK) (rest : Parts) :
    h1IR.run (h1IW a rest) = some (a.norm, rest) := by
  apply run_rBlock (by decide)
  simp [run_bind, H1I.norm, run_h1R h.h1, run_arr32 h.arr]

theorem rename_h1IW (φ : Nat → Nat) (a : H1I) (rest : Parts) :
    (h1IW a rest).rename φ = h1IW (a.map φ) (rest.rename φ) := by
  simp [h1IW, wBlock, Parts.rename, H1I.map, rename_h1W, rename_arr32]

theorem H1I.OK.map {a : H1I} (h : a.OK) (φ : Nat → Nat) : (a.map φ).OK where
  h1 := h.h1.map φ
  arr := h.arr

theorem run_h2IR {a : H2I} (h : a.OK) (rest : Parts) :
    h2IR.run (h2IW a rest) = some (a.norm, rest) := by
  apply run_rBlock (by decide)
  simp [run_bind, H2I.norm, run_h2R h.h2, run_arr32 h.arr]

theorem rename_h2IW (φ : Nat → Nat) (a : H2I) (rest : Parts) :
    (h2IW a rest).rename φ = h2IW (a.map φ) (rest.rename φ) := by
  simp [h2IW, wBlock, Parts.rename, H2I.map, rename_h2W, rename_arr32]

theorem H2I.OK.map {a : H2I} (h : a.OK) (φ : Nat → Nat) : (a.map φ).OK where
  h2 := h.h2.map φ
  arr := h.arr

theorem run_profile1DR {a : Profile1D} (h : a.OK) (rest : Parts) :
    profile1DR.run (profile1DW a rest) = some (a.norm, rest) := by
  apply run_rBlock (by decide)
  simp [run_bind, Profile1D.norm, run_h1DR h.h1d, run_arr64 h.binEntries, run_arr64 h.binSumw2]

theorem rename_profile1DW (φ : Nat → Nat) (a : Profile1D) (rest : Parts) :
    (profile1DW a rest).rename φ = profile1DW (a.map φ) (rest.rename φ) := by
  simp [profile1DW, wBlock, Parts.rename, Profile1D.map, rename_h1DW, rename_arr64]

theorem Profile1D.OK.map {a : Profile1D} (h : a.OK) (φ : Nat → Nat) : (a.map φ).OK where
  h1d := h.h1d.map φ
  binEntries := h.binEntries
  binSumw2 := h.binSumw2

theorem run_profile2DR {a : Profile2D} (h : a.OK) (rest : Parts) :
    profile2DR.run (profile2DW a rest) = some (a.norm, rest) := by
  apply run_rBlock (by decide)
  simp [run_bind, Profile2D.norm, run_h2DR h.h2d, run_arr64 h.binEntries, run_arr64 h.binSumw2]

theorem rename_profile2DW (φ : Nat → Nat) (a : Profile2D) (rest : Parts) :
    (profile2DW a rest).rename φ = profile2DW (a.map φ) (rest.rename φ) := by
  simp [profile2DW, wBlock, Parts.rename, Profile2D.map, rename_h2DW, rename_arr64]

theorem Profile2D.OK.map {a : Profile2D} (h : a.OK) (φ : Nat → Nat) : (a.map φ).OK where
  h2d := h.h2d.map φ
  binEntries := h.binEntries
  binSumw2 := h.binSumw2

theorem run_graphR {a : Graph} (h : a.OK) (rest : Parts) :
    graphR.run (graphW a rest) = some (a.norm, rest) := by
  apply run_rBlock (by decide)
  simp [run_bind, Graph.norm, run_namedR h.named, run_attLineR, run_attFillR, run_attMarkerR,
    run_raw64 h.x, run_raw64 h.y, run_rStr h.opt]

theorem rename_graphW (φ : Nat → Nat) (a : Graph) (rest : Parts) :
    (graphW a rest).rename φ = graphW (a.map φ) (rest.rename φ) := by
  simp [graphW, wBlock, Parts.rename, Graph.map, rename_namedW, rename_attLineW, rename_attFillW,
    rename_attMarkerW, rename_raw64]

theorem Graph.OK.map {a : Graph} (h : a.OK) (φ : Nat → Nat) : (a.map φ).OK where
  named := h.named
  opt := h.opt
  x := h.x
  y := h.y

@[simp] theorem Graph.norm_npoints (a : Graph) : a.norm.npoints = a.npoints := rfl

theorem run_graphErrorsR {a : GraphErrors} (h : a.OK) (rest : Parts) :
    graphErrorsR.run (graphErrorsW a rest) = some (a.norm, rest) := by
  apply run_rBlock (by decide)
  simp [run_bind, GraphErrors.norm, run_graphR h.graph, run_raw64 h.xerr, run_raw64 h.yerr]

theorem rename_graphErrorsW (φ : Nat → Nat) (a : GraphErrors) (rest : Parts) :
    (graphErrorsW a rest).rename φ = graphErrorsW (a.map φ) (rest.rename φ) := by
  simp [graphErrorsW, wBlock, Parts.rename, GraphErrors.map, rename_graphW, rename_raw64]

theorem GraphErrors.OK.map {a : GraphErrors} (h : a.OK) (φ : Nat → Nat) : (a.map φ).OK where
  graph := h.graph.map φ
  xerr := h.xerr
  yerr := h.yerr

theorem run_graphAsymmErrorsR {a : GraphAsymmErrors} (h : a.OK) (rest : Parts) :
    graphAsymmErrorsR.run (graphAsymmErrorsW a rest) = some (a.norm, rest) := by
  apply run_rBlock (by decide)
  simp [run_bind, GraphAsymmErrors.norm, run_graphR h.graph, run_raw64 h.xerrlo,
    run_raw64 h.xerrhi, run_raw64 h.yerrlo, run_raw64 h.yerrhi]

theorem rename_graphAsymmErrorsW (φ : Nat → Nat) (a : GraphAsymmErrors) (rest : Parts) :
    (graphAsymmErrorsW a rest).rename φ = graphAsymmErrorsW (a.map φ) (rest.rename φ) := by
  simp [graphAsymmErrorsW, wBlock, Parts.rename, GraphAsymmErrors.map, rename_graphW, rename_raw64]

theorem GraphAsymmErrors.OK.map {a : GraphAsymmErrors} (h : a.OK) (φ : Nat → Nat) : (a.map φ).OK where
  graph := h.graph.map φ
  xerrlo := h.xerrlo
  xerrhi := h.xerrhi
  yerrlo := h.yerrlo
  yerrhi := h.yerrhi

theorem run_graphMultiErrorsR {a : GraphMultiErrors} (h : a.OK) (rest : Parts) :
    graphMultiErrorsR.run (graphMultiErrorsW a rest) = some (a.norm, rest) := by
  apply run_rBlock (by decide)
  simp [run_bind, GraphMultiErrors.norm, run_graphR h.graph, run_raw64 h.xerrlo,
    run_raw64 h.xerrhi, run_vecArr h.yerrlo, run_vecArr h.yerrhi, run_vecFill h.attfills,
    run_vecLine h.attlines]

theorem rename_graphMultiErrorsW (φ : Nat → Nat) (a : GraphMultiErrors) (rest : Parts) :
    (graphMultiErrorsW a rest).rename φ = graphMultiErrorsW (a.map φ) (rest.rename φ) := by
  simp [graphMultiErrorsW, wBlock, Parts.rename, GraphMultiErrors.map, rename_graphW, rename_raw64,
    rename_vecArr, rename_vecFill, rename_vecLine]

theorem GraphMultiErrors.OK.map {a : GraphMultiErrors} (h : a.OK) (φ : Nat → Nat) : (a.map φ).OK where
  graph := h.graph.map φ
  yerrlo := h.yerrlo
  yerrhi := h.yerrhi
  attfills := h.attfills
  attlines := h.attlines
  xerrlo := h.xerrlo
  xerrhi := h.xerrhi

theorem run_multiGraphR {a : MultiGraph} (h : a.OK) (rest : Parts) :
    multiGraphR.run (multiGraphW a rest) = some (a.norm, rest) := by
  apply run_rBlock (by decide)
  simp [run_bind, MultiGraph.norm, run_namedR h.named]

theorem rename_multiGraphW (φ : Nat → Nat) (a : MultiGraph) (rest : Parts) :
    (multiGraphW a rest).rename φ = multiGraphW (a.map φ) (rest.rename φ) := by
  simp [multiGraphW, wBlock, Parts.rename, MultiGraph.map, rename_namedW]

theorem MultiGraph.OK.map {a : MultiGraph} (h : a.OK) (φ : Nat → Nat) : (a.map φ).OK where
  named := h.named

theorem run_scatterR {a : Scatter} (h : a.OK) (rest : Parts) :
    scatterR.run (scatterW a rest) = some (a.norm, rest) := by
  apply run_rBlock (by decide)
  simp [run_bind, Scatter.norm, run_namedR h.named, run_attLineR, run_attFillR, run_attMarkerR,
    run_raw64 h.color, run_raw64 h.size]

theorem rename_scatterW (φ : Nat → Nat) (a : Scatter) (rest : Parts) :
    (scatterW a rest).rename φ = scatterW (a.map φ) (rest.rename φ) := by
  simp [scatterW, wBlock, Parts.rename, Scatter.map, rename_namedW, rename_attLineW,
    rename_attFillW, rename_attMarkerW, rename_raw64]

theorem Scatter.OK.map {a : Scatter} (h : a.OK) (φ : Nat → Nat) : (a.map φ).OK where
  named := h.named
  color := h.color
  size := h.size

theorem run_formulaR {a : Formula} (h : a.OK) (rest : Parts) :
    formulaR.run (formulaW a rest) = some (a.norm, rest) := by
  apply run_rBlock (by decide)
  simp [run_bind, Formula.norm, run_namedR h.named, run_vec64 h.clingParams, run_parmsR h.params,
    run_rStr h.formula, run_vecRef h.linearParts]

theorem rename_formulaW (φ : Nat → Nat) (a : Formula) (rest : Parts) :
    (formulaW a rest).rename φ = formulaW (a.map φ) (rest.rename φ) := by
  simp [formulaW, wBlock, Parts.rename, Formula.map, rename_namedW, rename_vec64, rename_parmsW,
    rename_vecRef]

theorem Formula.OK.map {a : Formula} (h : a.OK) (φ : Nat → Nat) : (a.map φ).OK where
  named := h.named
  clingParams := h.clingParams
  params := h.params
  formula := h.formula
  linearParts := h.linearParts.map _

theorem run_f1R {a : F1} (h : a.OK) (rest : Parts) :
    f1R.run (f1W a rest) = some (a.norm, rest) := by
  apply run_rBlock (by decide)
  simp [run_bind, F1.norm, run_namedR h.named, run_attLineR, run_attFillR, run_attMarkerR,
    run_vec64 h.parErrs, run_vec64 h.parMin, run_vec64 h.parMax, run_vec64 h.save]

theorem rename_f1W (φ : Nat → Nat) (a : F1) (rest : Parts) :
    (f1W a rest).rename φ = f1W (a.map φ) (rest.rename φ) := by
  simp [f1W, wBlock, Parts.rename, F1.map, rename_namedW, rename_attLineW, rename_attFillW,
    rename_attMarkerW, rename_vec64]

theorem F1.OK.map {a : F1} (h : a.OK) (φ : Nat → Nat) : (a.map φ).OK where
  named := h.named
  parErrs := h.parErrs
  parMin := h.parMin
  parMax := h.parMax
  save := h.save

theorem run_limitR {a : Limit} (rest : Parts) :
    limitR.run (limitW a rest) = some (a, rest) := by
  apply run_rBlock (by decide)
  simp [run_bind]

theorem rename_limitW (φ : Nat → Nat) (a : Limit) (rest : Parts) :
    (limitW a rest).rename φ = limitW a (rest.rename φ) := by
  simp [limitW, wBlock, Parts.rename]

theorem run_limitDataSourceR {a : LimitDataSource} (h : a.OK) (rest : Parts) :
    limitDataSourceR.run (limitDataSourceW a rest) = some (a.norm, rest) := by
  apply run_rBlock (by decide)
  simp [run_bind, LimitDataSource.norm, run_objectR, run_objArrayR h.sig, run_objArrayR h.bkg,
    run_objArrayR h.data, run_objArrayR h.sigErr, run_objArrayR h.bkgErr, run_objArrayR h.ids,
    run_objArrayR h.dummyTA, run_objArrayR h.dummyIDs]

theorem rename_limitDataSourceW (φ : Nat → Nat) (a : LimitDataSource) (rest : Parts) :
    (limitDataSourceW a rest).rename φ = limitDataSourceW (a.map φ) (rest.rename φ) := by
  simp [limitDataSourceW, wBlock, Parts.rename, LimitDataSource.map, rename_objectW,
    rename_objArrayW]

theorem LimitDataSource.OK.map {a : LimitDataSource} (h : a.OK) (φ : Nat → Nat) : (a.map φ).OK where
  sig := h.sig.map φ
  bkg := h.bkg.map φ
  data := h.data.map φ
  sigErr := h.sigErr.map φ
  bkgErr := h.bkgErr.map φ
  ids := h.ids.map φ
  dummyTA := h.dummyTA.map φ
  dummyIDs := h.dummyIDs.map φ

theorem run_confidenceLevelR {a : ConfidenceLevel} (h : a.OK) (rest : Parts) :
    confidenceLevelR.run (confidenceLevelW a rest) = some (a.norm, rest) := by
  apply run_rBlock (by decide)
  simp [run_bind, ConfidenceLevel.norm, run_objectR, run_raw64 h.tsb, run_raw64 h.tss,
    run_raw64 h.lrs, run_raw64 h.lrb, run_raw32 h.iss, run_raw32 h.isb]

theorem rename_confidenceLevelW (φ : Nat → Nat) (a : ConfidenceLevel) (rest : Parts) :
    (confidenceLevelW a rest).rename φ = confidenceLevelW a (rest.rename φ) := by
  simp [confidenceLevelW, wBlock, Parts.rename, rename_objectW, rename_raw64, rename_raw32]

theorem run_streamerElementR {a : StreamerElement} (h : a.OK) (rest : Parts) :
    streamerElementR.run (streamerElementW a rest) = some (a.norm, rest) := by
  apply run_rBlock (by decide)
  have hm := fun rest => run_rAll (w := w32) (r := r32) (xs := a.maxidx) (f := id)
    (fun x _ => run_r32 x) rest
  rw [h.maxidx] at hm
  simp [run_bind, run_namedR h.named, run_rStr h.ename, hm, StreamerElement.norm]

theorem rename_streamerElementW (φ : Nat → Nat) (a : StreamerElement) (rest : Parts) :
    (streamerElementW a rest).rename φ = streamerElementW a (rest.rename φ) := by
  simp [streamerElementW, wBlock, Parts.rename, rename_namedW, rename_raw32]

theorem run_streamerBaseR {a : StreamerBase} (h : a.OK) (rest : Parts) :
    streamerBaseR.run (streamerBaseW a rest) = some (a.norm, rest) := by
  apply run_rBlock (by decide)
  simp [run_bind, StreamerBase.norm, run_streamerElementR h.elem]

theorem rename_streamerBaseW (φ : Nat → Nat) (a : StreamerBase) (rest : Parts) :
    (streamerBaseW a rest).rename φ = streamerBaseW a (rest.rename φ) := by
  simp [streamerBaseW, wBlock, Parts.rename, rename_streamerElementW]

theorem run_streamerBasicTypeR {a : StreamerElement} (h : a.OK) (rest : Parts) :
    streamerBasicTypeR.run (streamerBasicTypeW a rest) = some (basicFix a.norm, rest) := by
  apply run_rBlock (by decide)
  simp [run_bind, run_streamerElementR h]

theorem rename_streamerBasicTypeW (φ : Nat → Nat) (a : StreamerElement) (rest : Parts) :
    (streamerBasicTypeW a rest).rename φ = streamerBasicTypeW a (rest.rename φ) := by
  simp [streamerBasicTypeW, wBlock, Parts.rename, rename_streamerElementW]

theorem run_streamerBasicPointerR {a : StreamerBasicPointer} (h : a.OK) (rest : Parts) :
    streamerBasicPointerR.run (streamerBasicPointerW a rest) = some (a.norm, rest) := by
  apply run_rBlock (by decide)
  simp [run_bind, StreamerBasicPointer.norm, run_streamerElementR h.elem, run_rStr h.cname,
    run_rStr h.ccls]

theorem rename_streamerBasicPointerW (φ : Nat → Nat) (a : StreamerBasicPointer) (rest : Parts) :
    (streamerBasicPointerW a rest).rename φ = streamerBasicPointerW a (rest.rename φ) := by
  simp [streamerBasicPointerW, wBlock, Parts.rename, rename_streamerElementW]

theorem run_streamerLoopR {a : StreamerLoop} (h : a.OK) (rest : Parts) :
    streamerLoopR.run (streamerLoopW a rest) = some (a.norm, rest) := by
  apply run_rBlock (by decide)
  simp [run_bind, StreamerLoop.norm, run_streamerElementR h.elem, run_rStr h.cname,
    run_rStr h.cclass]

theorem rename_streamerLoopW (φ : Nat → Nat) (a : StreamerLoop) (rest : Parts) :
    (streamerLoopW a rest).rename φ = streamerLoopW a (rest.rename φ) := by
  simp [streamerLoopW, wBlock, Parts.rename, rename_streamerElementW]

theorem run_streamerObjectR {a : StreamerObject} (h : a.OK) (rest : Parts) :
    streamerObjectR.run (streamerObjectW a rest) = some (a.norm, rest) := by
  apply run_rBlock (by decide)
  simp [run_bind, StreamerObject.norm, run_streamerElementR h.elem]

theorem rename_streamerObjectW (φ : Nat → Nat) (a : StreamerObject) (rest : Parts) :
    (streamerObjectW a rest).rename φ = streamerObjectW a (rest.rename φ) := by
  simp [streamerObjectW, wBlock, Parts.rename, rename_streamerElementW]

theorem run_streamerObjectPointerR {a : StreamerObjectPointer} (h : a.OK) (rest : Parts) :
    streamerObjectPointerR.run (streamerObjectPointerW a rest) = some (a.norm, rest) := by
  apply run_rBlock (by decide)
  simp [run_bind, StreamerObjectPointer.norm, run_streamerElementR h.elem]

theorem rename_streamerObjectPointerW (φ : Nat → Nat) (a : StreamerObjectPointer) (rest : Parts) :
    (streamerObjectPointerW a rest).rename φ = streamerObjectPointerW a (rest.rename φ) := by
  simp [streamerObjectPointerW, wBlock, Parts.rename, rename_streamerElementW]

theorem run_streamerObjectAnyR {a : StreamerObjectAny} (h : a.OK) (rest : Parts) :
    streamerObjectAnyR.run (streamerObjectAnyW a rest) = some (a.norm, rest) := by
  apply run_rBlock (by decide)
  simp [run_bind, StreamerObjectAny.norm, run_streamerElementR h.elem]

theorem rename_streamerObjectAnyW (φ : Nat → Nat) (a : StreamerObjectAny) (rest : Parts) :
    (streamerObjectAnyW a rest).rename φ = streamerObjectAnyW a (rest.rename φ) := by
  simp [streamerObjectAnyW, wBlock, Parts.rename, rename_streamerElementW]

theorem run_streamerObjectAnyPointerR {a : StreamerObjectAnyPointer} (h : a.OK) (rest : Parts) :
    streamerObjectAnyPointerR.run (streamerObjectAnyPointerW a rest) = some (a.norm, rest) := by
  apply run_rBlock (by decide)
  simp [run_bind, StreamerObjectAnyPointer.norm, run_streamerElementR h.elem]

theorem rename_streamerObjectAnyPointerW (φ : Nat → Nat) (a : StreamerObjectAnyPointer) (rest : Parts) :
    (streamerObjectAnyPointerW a rest).rename φ = streamerObjectAnyPointerW a (rest.rename φ) := by
  simp [streamerObjectAnyPointerW, wBlock, Parts.rename, rename_streamerElementW]

theorem run_streamerStringR {a : StreamerString} (h : a.OK) (rest : Parts) :
    streamerStringR.run (streamerStringW a rest) = some (a.norm, rest) := by
  apply run_rBlock (by decide)
  simp [run_bind, StreamerString.norm, run_streamerElementR h.elem]

theorem rename_streamerStringW (φ : Nat → Nat) (a : StreamerString) (rest : Parts) :
    (streamerStringW a rest).rename φ = streamerStringW a (rest.rename φ) := by
  simp [streamerStringW, wBlock, Parts.rename, rename_streamerElementW]

theorem run_streamerSTLR {a : StreamerSTL} (h : a.OK) (rest : Parts) :
    streamerSTLR.run (streamerSTLW a rest) = some (a.norm, rest) := by
  apply run_rBlock (by decide)
  simp [run_bind, run_streamerElementR h.elem, StreamerSTL.norm, StreamerElement.norm]

theorem rename_streamerSTLW (φ : Nat → Nat) (a : StreamerSTL) (rest : Parts) :
    (streamerSTLW a rest).rename φ = streamerSTLW a (rest.rename φ) := by
  simp [streamerSTLW, wBlock, Parts.rename, rename_streamerElementW]

theorem run_streamerSTLstringR {a : StreamerSTLstring} (h : a.OK) (rest : Parts) :
    streamerSTLstringR.run (streamerSTLstringW a rest) = some (a.norm, rest) := by
  apply run_rBlock (by decide)
  simp [run_bind, StreamerSTLstring.norm, run_streamerSTLR h.stl]

theorem rename_streamerSTLstringW (φ : Nat → Nat) (a : StreamerSTLstring) (rest : Parts) :
    (streamerSTLstringW a rest).rename φ = streamerSTLstringW a (rest.rename φ) := by
  simp [streamerSTLstringW, wBlock, Parts.rename, rename_streamerSTLW]

theorem run_streamerInfoR {a : StreamerInfo} (h : a.OK) (rest : Parts) :
    streamerInfoR.run (streamerInfoW a rest) = some (a.norm, rest) := by
  apply run_rBlock (by decide)
  simp [run_bind, StreamerInfo.norm, run_namedR h.named]

theorem rename_streamerInfoW (φ : Nat → Nat) (a : StreamerInfo) (rest : Parts) :
    (streamerInfoW a rest).rename φ = streamerInfoW (a.map φ) (rest.rename φ) := by
  simp [streamerInfoW, wBlock, Parts.rename, StreamerInfo.map, rename_namedW]

theorem StreamerInfo.OK.map {a : StreamerInfo} (h : a.OK) (φ : Nat → Nat) : (a.map φ).OK where
  named := h.named

theorem run_ioR (x : BitVec 8) (rest : Parts) : ioR.run (ioW x rest) = some (x, rest) := by
  unfold ioW ioR
  split
  · rename_i h
    subst h
    apply run_rBlock (by decide)
    simp [run_bind, w8, bytesW, beEnc, run_rByte]
  · apply run_rBlock (by decide)
    rw [run_bind]
    show ((rByte.run (.data [0x1a] (bytesW [0xa1, 0x2f, 0x10] (w8 x .nil)))).bind _) = _
    rw [run_rByte]
    simp only [Option.bind_some]
    rw [if_neg (by decide), run_bind, run_bytesR' (by rfl)]
    simp

theorem rename_ioW (φ : Nat → Nat) (x : BitVec 8) (rest : Parts) :
    (ioW x rest).rename φ = ioW x (rest.rename φ) := by
  unfold ioW; split <;> simp [wBlock, Parts.rename]

theorem lastOf_append_true (ps : List Bool) : lastOf (ps ++ [true]) = ps.length := by
  have : ∀ (ps : List Bool) (q : Int × Int),
      (ps.foldl (fun q p => (q.1 + 1, if p then q.1 else q.2)) q).1 = q.1 + ps.length := by
    intro ps
    induction ps with
    | nil => intro q; simp
    | cons p ps ih => intro q; rw [List.foldl_cons, ih]; simp; omega
  simp [lastOf, this]

theorem lastOf_all {ps : List Bool} (h : ∀ p ∈ ps, p = true) : lastOf ps + 1 = ps.length := by
  rcases List.eq_nil_or_concat ps with rfl | ⟨qs, p, rfl⟩
  · rfl
  · have : p = true := h p (by simp)
    subst this
    rw [List.concat_eq_append, lastOf_append_true]; simp

theorem allSome_map (xs : List Nat) : allSome (xs.map some) = some xs := by
  induction xs with
  | nil => rfl
  | cons x xs ih => simp [allSome, ih]

theorem run_objsR {xs : List Nat} (h : ArrOK xs) (rest : Parts) :
    objsR.run (objsW xs rest) = some (xs, rest) := by
  have hl : lastOf ((xs.map some).map Option.isSome) + 1 = xs.length := by
    rw [lastOf_all (by simp)]; simp
  rw [objsR, objsW, run_bind, run_objArrayR ⟨⟨by simp, by simp⟩, h.map _⟩]
  simp only [Option.bind_some, ObjArray.norm, hl, Int.toNat_natCast]
  rw [List.take_of_length_le (by simp), allSome_map]
  simp [rOpt]

theorem rename_objsW (φ : Nat → Nat) (xs : List Nat) (rest : Parts) :
    (objsW xs rest).rename φ = objsW (xs.map φ) (rest.rename φ) := by
  rw [objsW, rename_objArrayW]
  simp [objsW, ObjArray.map]
  congr 2

theorem run_basketsR {xs : List (Option Nat)} (h : BasketsOK xs) (rest : Parts) :
    basketsR.run (basketsW xs rest) = some (xs, rest) := by
  have hl : lastOf (xs.map Option.isSome) + 1 = xs.length := by
    rw [lastOf_all (by simpa using h.2)]; simp
  rw [basketsR, basketsW, run_bind, run_objArrayR ⟨⟨by simp, by simp⟩, h.1⟩]
  simp only [Option.bind_some, ObjArray.norm, hl, Int.toNat_natCast]
  rw [List.take_of_length_le (by simp)]
  simp

theorem rename_basketsW (φ : Nat → Nat) (xs : List (Option Nat)) (rest : Parts) :
    (basketsW xs rest).rename φ = basketsW (xs.map (·.map φ)) (rest.rename φ) := by
  rw [basketsW, rename_objArrayW]
  simp [basketsW, ObjArray.map]

theorem BasketsOK.map {xs : List (Option Nat)} (h : BasketsOK xs) (φ : Nat → Nat) :
    BasketsOK (xs.map (·.map φ)) :=
  ⟨h.1.map _, by
    intro x hx
    simp only [List.mem_map] at hx
    obtain ⟨y, hy, rfl⟩ := hx
    simpa using h.2 y hy⟩

theorem run_leafR {a : Leaf} (h : a.OK) (rest : Parts) :
    leafR.run (leafW a rest) = some (a.norm, rest) := by
  apply run_rBlock (by decide)
  simp [run_bind, Leaf.norm, run_namedR h.named, run_rInt h.len, run_rInt h.etype, run_rInt h.offset]

theorem rename_leafW (φ : Nat → Nat) (a : Leaf) (rest : Parts) :
    (leafW a rest).rename φ = leafW (a.map φ) (rest.rename φ) := by
  simp [leafW, wBlock, Parts.rename, Leaf.map, rename_namedW]

theorem Leaf.OK.map {a : Leaf} (h : a.OK) (φ : Nat → Nat) : (a.map φ).OK where
  named := h.named
  len := h.len
  etype := h.etype
  offset := h.offset

theorem run_leafOR {a : LeafO} (h : a.OK) (rest : Parts) :
    leafOR.run (leafOW a rest) = some (a.norm, rest) := by
  apply run_rBlock h.rvers
  simp [run_bind, LeafO.norm, run_leafR h.leaf]

theorem rename_leafOW (φ : Nat → Nat) (a : LeafO) (rest : Parts) :
    (leafOW a rest).rename φ = leafOW (a.map φ) (rest.rename φ) := by
  simp [leafOW, wBlock, Parts.rename, LeafO.map, rename_leafW]

theorem LeafO.OK.map {a : LeafO} (h : a.OK) (φ : Nat → Nat) : (a.map φ).OK where
  leaf := h.leaf.map φ
  rvers := h.rvers

theorem run_leafBR {a : LeafB} (h : a.OK) (rest : Parts) :
    leafBR.run (leafBW a rest) = some (a.norm, rest) := by
  apply run_rBlock h.rvers
  simp [run_bind, LeafB.norm, run_leafR h.leaf]

theorem rename_leafBW (φ : Nat → Nat) (a : LeafB) (rest : Parts) :
    (leafBW a rest).rename φ = leafBW (a.map φ) (rest.rename φ) := by
  simp [leafBW, wBlock, Parts.rename, LeafB.map, rename_leafW]

theorem LeafB.OK.map {a : LeafB} (h : a.OK) (φ : Nat → Nat) : (a.map φ).OK where
  leaf := h.leaf.map φ
  rvers := h.rvers

theorem run_leafSR {a : LeafS} (h : a.OK) (rest : Parts) :
    leafSR.run (leafSW a rest) = some (a.norm, rest) := by
  apply run_rBlock h.rvers
  simp [run_bind, LeafS.norm, run_leafR h.leaf]

theorem rename_leafSW (φ : Nat → Nat) (a : LeafS) (rest : Parts) :
    (leafSW a rest).rename φ = leafSW (a.map φ) (rest.rename φ) := by
  simp [leafSW, wBlock, Parts.rename, LeafS.map, rename_leafW]

theorem LeafS.OK.map {a : LeafS} (h : a.OK) (φ : Nat → Nat) : (a.map φ).OK where
  leaf := h.leaf.map φ
  rvers := h.rvers

theorem run_leafIR {a : LeafI} (h : a.OK) (rest : Parts) :
    leafIR.run (leafIW a rest) = some (a.norm, rest) := by
  apply run_rBlock h.rvers
  simp [run_bind, LeafI.norm, run_leafR h.leaf]

theorem rename_leafIW (φ : Nat → Nat) (a : LeafI) (rest : Parts) :
    (leafIW a rest).rename φ = leafIW (a.map φ) (rest.rename φ) := by
  simp [leafIW, wBlock, Parts.rename, LeafI.map, rename_leafW]

theorem LeafI.OK.map {a : LeafI} (h : a.OK) (φ : Nat → Nat) : (a.map φ).OK where
  leaf := h.leaf.map φ
  rvers := h.rvers

theorem run_leafLR {a : LeafL} (h : a.OK) (rest : Parts) :
    leafLR.run (leafLW a rest) = some (a.norm, rest) := by
  apply run_rBlock h.rvers
  simp [run_bind, LeafL.norm, run_leafR h.leaf]

theorem rename_leafLW (φ : Nat → Nat) (a : LeafL) (rest : Parts) :
    (leafLW a rest).rename φ = leafLW (a.map φ) (rest.rename φ) := by
  simp [leafLW, wBlock, Parts.rename, LeafL.map, rename_leafW]

theorem LeafL.OK.map {a : LeafL} (h : a.OK) (φ : Nat → Nat) : (a.map φ).OK where
  leaf := h.leaf.map φ
  rvers := h.rvers

theorem run_leafGR {a : LeafG} (h : a.OK) (rest : Parts) :
    leafGR.run (leafGW a rest) = some (a.norm, rest) := by
  apply run_rBlock h.rvers
  simp [run_bind, LeafG.norm, run_leafR h.leaf]

theorem rename_leafGW (φ : Nat → Nat) (a : LeafG) (rest : Parts) :
    (leafGW a rest).rename φ = leafGW (a.map φ) (rest.rename φ) := by
  simp [leafGW, wBlock, Parts.rename, LeafG.map, rename_leafW]

theorem LeafG.OK.map {a : LeafG} (h : a.OK) (φ : Nat → Nat) : (a.map φ).OK where
  leaf := h.leaf.map φ
  rvers := h.rvers

theorem run_leafFR {a : LeafF} (h : a.OK) (rest : Parts) :
    leafFR.run (leafFW a rest) = some (a.norm, rest) := by
  apply run_rBlock h.rvers
  simp [run_bind, LeafF.norm, run_leafR h.leaf]

theorem rename_leafFW (φ : Nat → Nat) (a : LeafF) (rest : Parts) :
    (leafFW a rest).rename φ = leafFW (a.map φ) (rest.rename φ) := by
  simp [leafFW, wBlock, Parts.rename, LeafF.map, rename_leafW]

theorem LeafF.OK.map {a : LeafF} (h : a.OK) (φ : Nat → Nat) : (a.map φ).OK where
  leaf := h.leaf.map φ
  rvers := h.rvers

theorem run_leafDR {a : LeafD} (h : a.OK) (rest : Parts) :
    leafDR.run (leafDW a rest) = some (a.norm, rest) := by
  apply run_rBlock h.rvers
  simp [run_bind, LeafD.norm, run_leafR h.leaf]

theorem rename_leafDW (φ : Nat → Nat) (a : LeafD) (rest : Parts) :
    (leafDW a rest).rename φ = leafDW (a.map φ) (rest.rename φ) := by
  simp [leafDW, wBlock, Parts.rename, LeafD.map, rename_leafW]

theorem LeafD.OK.map {a : LeafD} (h : a.OK) (φ : Nat → Nat) : (a.map φ).OK where
  leaf := h.leaf.map φ
  rvers := h.rvers

theorem run_leafCR {a : LeafC} (h : a.OK) (rest : Parts) :
    leafCR.run (leafCW a rest) = some (a.norm, rest) := by
  apply run_rBlock h.rvers
  simp [run_bind, LeafC.norm, run_leafR h.leaf]

theorem rename_leafCW (φ : Nat → Nat) (a : LeafC) (rest : Parts) :
    (leafCW a rest).rename φ = leafCW (a.map φ) (rest.rename φ) := by
  simp [leafCW, wBlock, Parts.rename, LeafC.map, rename_leafW]

theorem LeafC.OK.map {a : LeafC} (h : a.OK) (φ : Nat → Nat) : (a.map φ).OK where
  leaf := h.leaf.map φ
  rvers := h.rvers

theorem run_leafElementR {a : LeafElement} (h : a.OK) (rest : Parts) :
    leafElementR.run (leafElementW a rest) = some (a.norm, rest) := by
  apply run_rBlock h.rvers
  simp [run_bind, LeafElement.norm, run_leafR h.leaf]

theorem rename_leafElementW (φ : Nat → Nat) (a : LeafElement) (rest : Parts) :
    (leafElementW a rest).rename φ = leafElementW (a.map φ) (rest.rename φ) := by
  simp [leafElementW, wBlock, Parts.rename, LeafElement.map, rename_leafW]

theorem LeafElement.OK.map {a : LeafElement} (h : a.OK) (φ : Nat → Nat) : (a.map φ).OK where
  leaf := h.leaf.map φ
  rvers := h.rvers

theorem run_leafObjectR {a : LeafObject} (h : a.OK) (rest : Parts) :
    leafObjectR.run (leafObjectW a rest) = some (a.norm, rest) := by
  apply run_rBlock (by decide)
  simp [run_bind, LeafObject.norm, run_leafR h.leaf]

theorem rename_leafObjectW (φ : Nat → Nat) (a : LeafObject) (rest : Parts) :
    (leafObjectW a rest).rename φ = leafObjectW (a.map φ) (rest.rename φ) := by
  simp [leafObjectW, wBlock, Parts.rename, LeafObject.map, rename_leafW]

theorem LeafObject.OK.map {a : LeafObject} (h : a.OK) (φ : Nat → Nat) : (a.map φ).OK where
  leaf := h.leaf.map φ

theorem padTo_length {w : Nat} {m n : Int} {xs : List (BitVec w)} (h0 : 0 ≤ n) (hn : n ≤ xs.length)
    (hm : n ≤ m) : m = (padTo m n xs).length := by
  simp only [padTo, List.length_append, List.length_replicate, List.length_take]
  omega

theorem cutTo_padTo {w : Nat} {m n : Int} {xs : List (BitVec w)} (h0 : 0 ≤ n) (hn : n ≤ xs.length)
    (hm : n ≤ m) : cutTo (padTo m n xs) n = some (xs.take n.toNat) := by
  have h := padTo_length h0 hn hm
  rw [cutTo, if_pos ⟨h0, by omega⟩]
  simp only [padTo]
  rw [List.take_append_of_le_length (by simp; omega), List.take_take]
  simp

theorem run_branchR {a : Branch} (h : a.OK) (rest : Parts) :
    branchR.run (branchW a rest) = some (a.norm, rest) := by
  have hw := h.writeBasket
  have h1 := h.basketBytes
  have h2 := h.basketEntry
  have h3 := h.basketSeek
  have f1 : Fits32 a.writeBasket := by unfold Fits32; omega
  have f2 : Fits32 (max (a.writeBasket + 1) 10) := by unfold Fits32; omega
  have l1 := padTo_length (m := max (a.writeBasket + 1) 10) (xs := a.basketBytes) hw.1 h1 (by omega)
  have l2 := padTo_length (m := max (a.writeBasket + 1) 10) (n := a.writeBasket + 1)
    (xs := a.basketEntry) (by omega) h2 (by omega)
  have l3 := padTo_length (m := max (a.writeBasket + 1) 10) (xs := a.basketSeek) hw.1 h3 (by omega)
  have c1 := cutTo_padTo (m := max (a.writeBasket + 1) 10) (xs := a.basketBytes) hw.1 h1 (by omega)
  have c2 := cutTo_padTo (m := max (a.writeBasket + 1) 10) (n := a.writeBasket + 1)
    (xs := a.basketEntry) (by omega) h2 (by omega)
  have c3 := cutTo_padTo (m := max (a.writeBasket + 1) 10) (xs := a.basketSeek) hw.1 h3 (by omega)
  have b1 := run_raw32 l1
  have b2 := run_raw64 l2
  have b3 := run_raw64 l3
  clear l1 l2 l3
  apply run_rBlock (by decide)
  simp [run_bind, Branch.norm, run_namedR h.named, run_attFillR, run_rInt h.compress,
    run_rInt h.basketSize, run_rInt h.entryOffsetLen, run_rInt f1, run_ioR, run_rInt h.offset,
    run_rInt f2, run_rInt h.splitLevel, run_objsR h.branches, run_objsR h.leaves,
    run_basketsR h.baskets, b1, b2, b3, c1, c2, c3, rOpt, run_rStr h.fname]

theorem rename_branchW (φ : Nat → Nat) (a : Branch) (rest : Parts) :
    (branchW a rest).rename φ = branchW (a.map φ) (rest.rename φ) := by
  simp [branchW, wBlock, Parts.rename, Branch.map, rename_namedW, rename_attFillW, rename_ioW,
    rename_objsW, rename_basketsW, rename_raw32, rename_raw64]

theorem Branch.OK.map {a : Branch} (h : a.OK) (φ : Nat → Nat) : (a.map φ).OK where
  named := h.named
  compress := h.compress
  basketSize := h.basketSize
  entryOffsetLen := h.entryOffsetLen
  offset := h.offset
  splitLevel := h.splitLevel
  writeBasket := h.writeBasket
  branches := h.branches.map _
  leaves := h.leaves.map _
  baskets := h.baskets.map φ
  basketBytes := h.basketBytes
  basketEntry := h.basketEntry
  basketSeek := h.basketSeek
  fname := h.fname

theorem run_branchObjectR {a : BranchObject} (h : a.OK) (rest : Parts) :
    branchObjectR.run (branchObjectW a rest) = some (a.norm, rest) := by
  apply run_rBlock (by decide)
  simp [run_bind, BranchObject.norm, run_branchR h.branch, run_rStr h.cls]

theorem rename_branchObjectW (φ : Nat → Nat) (a : BranchObject) (rest : Parts) :
    (branchObjectW a rest).rename φ = branchObjectW (a.map φ) (rest.rename φ) := by
  simp [branchObjectW, wBlock, Parts.rename, BranchObject.map, rename_branchW]

theorem BranchObject.OK.map {a : BranchObject} (h : a.OK) (φ : Nat → Nat) : (a.map φ).OK where
  branch := h.branch.map φ
  cls := h.cls

theorem run_branchElementR {a : BranchElement} (h : a.OK) (rest : Parts) :
    branchElementR.run (branchElementW a rest) = some (a.norm, rest) := by
  apply run_rBlock (by decide)
  simp [run_bind, BranchElement.norm, run_branchR h.branch, run_rStr h.cls, run_rStr h.parent,
    run_rStr h.clones]

theorem rename_branchElementW (φ : Nat → Nat) (a : BranchElement) (rest : Parts) :
    (branchElementW a rest).rename φ = branchElementW (a.map φ) (rest.rename φ) := by
  simp [branchElementW, wBlock, Parts.rename, BranchElement.map, rename_branchW]

theorem BranchElement.OK.map {a : BranchElement} (h : a.OK) (φ : Nat → Nat) : (a.map φ).OK where
  branch := h.branch.map φ
  cls := h.cls
  parent := h.parent
  clones := h.clones

theorem run_treeR {a : Tree} (h : a.OK) (rest : Parts) :
    treeR.run (treeW a rest) = some (a.norm, rest) := by
  apply run_rBlock (by decide)
  simp [run_bind, Tree.norm, run_namedR h.named, run_attLineR, run_attFillR, run_attMarkerR,
    run_rInt h.ranges.fits, run_raw64 rfl, run_raw64 h.sizes, run_ioR, run_objsR h.branches,
    run_objsR h.leaves]

theorem rename_treeW (φ : Nat → Nat) (a : Tree) (rest : Parts) :
    (treeW a rest).rename φ = treeW (a.map φ) (rest.rename φ) := by
  simp [treeW, wBlock, Parts.rename, Tree.map, rename_namedW, rename_attLineW, rename_attFillW,
    rename_attMarkerW, rename_raw64, rename_ioW, rename_objsW]

theorem Tree.OK.map {a : Tree} (h : a.OK) (φ : Nat → Nat) : (a.map φ).OK where
  named := h.named
  ranges := h.ranges
  branches := h.branches.map _
  leaves := h.leaves.map _
  sizes := h.sizes

end Verif.Robj
