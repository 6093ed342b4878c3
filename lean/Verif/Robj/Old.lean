import Verif.Robj.OldSpec
import Verif.Robj.Lemmas

/-!
# Reading objects of older versions
-/

set_option linter.unusedSimpArgs false

namespace Verif.Robj

open Verif.RBytes Verif.RBytes.Refs

theorem C144_attPad {a : AttPad} {v : BitVec 16} (hv : v &&& 0x4000 = 0)
    (hv1 : v.toInt ≤ 4) (rest : Parts) :
    attPadR.run (wBlock v (attPadOld v.toInt a) rest) = some (a.at v.toInt, rest) := by
  apply run_rBlock ⟨hv, Or.inr hv1⟩
  rcases (by omega : v.toInt < 2 ∨ 2 ≤ v.toInt) with hc | hc
  · have c0 : ¬ (1 < v.toInt) := by omega
    have d0 : ¬ (2 ≤ v.toInt) := by omega
    simp [run_bind, attPadOld, AttPad.at, since, c0, d0]
  · have c0 : (1 < v.toInt) := by omega
    have d0 : (2 ≤ v.toInt) := by omega
    simp [run_bind, attPadOld, AttPad.at, since, c0, d0]

theorem C144_axis {a : Axis} (h : a.OK) {v : BitVec 16} (hv : v &&& 0x4000 = 0)
    (hv1 : v.toInt ≤ 10) (hv0 : 6 ≤ v.toInt) (rest : Parts) :
    axisR.run (wBlock v (axisOld v.toInt a) rest) = some (a.norm.at v.toInt, rest) := by
  apply run_rBlock ⟨hv, Or.inr hv1⟩
  rw [if_neg (by omega)]
  rcases (by omega : v.toInt < 9 ∨ (9 ≤ v.toInt ∧ v.toInt < 10) ∨ 10 ≤ v.toInt) with hc | hc | hc
  · have c0 : ¬ (9 ≤ v.toInt) := by omega
    have c1 : ¬ (10 ≤ v.toInt) := by omega
    simp [run_bind, axisOld, Axis.at, since, Axis.norm, run_namedR h.named, run_attAxisR,
      run_rInt h.nbins, run_arr64 h.xbins, run_rInt h.first, run_rInt h.last, run_rStr h.tfmt, c0,
      c1]
  · have c0 : (9 ≤ v.toInt) := by omega
    have c1 : ¬ (10 ≤ v.toInt) := by omega
    simp [run_bind, axisOld, Axis.at, since, Axis.norm, run_namedR h.named, run_attAxisR,
      run_rInt h.nbins, run_arr64 h.xbins, run_rInt h.first, run_rInt h.last, run_rStr h.tfmt, c0,
      c1]
  · have c0 : (9 ≤ v.toInt) := by omega
    have c1 : (10 ≤ v.toInt) := by omega
    simp [run_bind, axisOld, Axis.at, since, Axis.norm, run_namedR h.named, run_attAxisR,
      run_rInt h.nbins, run_arr64 h.xbins, run_rInt h.first, run_rInt h.last, run_rStr h.tfmt, c0,
      c1]

theorem C144_h1 {a : H1} (h : a.OK) {v : BitVec 16} (hv : v &&& 0x4000 = 0)
    (hv1 : v.toInt ≤ 8) (hv0 : 2 ≤ v.toInt) (rest : Parts) :
    h1R.run (wBlock v (h1Old v.toInt a) rest) = some (a.norm.at v.toInt, rest) := by
  apply run_rBlock ⟨hv, Or.inr hv1⟩
  rw [if_neg (by omega)]
  rcases (by omega : v.toInt < 4 ∨ (4 ≤ v.toInt ∧ v.toInt < 7) ∨ (7 ≤ v.toInt ∧ v.toInt < 8) ∨ 8 ≤ v.toInt) with hc | hc | hc | hc
  · have c0 : ¬ (3 < v.toInt) := by omega
    have d0 : ¬ (4 ≤ v.toInt) := by omega
    have c1 : ¬ (6 < v.toInt) := by omega
    have d1 : ¬ (7 ≤ v.toInt) := by omega
    have c2 : ¬ (7 < v.toInt) := by omega
    have d2 : ¬ (8 ≤ v.toInt) := by omega
    simp [run_bind, h1Old, H1.at, since, H1.norm, run_namedR h.named, run_attLineR, run_attFillR,
      run_attMarkerR, run_rInt h.ncells, run_axisR h.xaxis, run_axisR h.yaxis, run_axisR h.zaxis,
      run_arr64 h.contour, run_arr64 h.sumw2, run_rStr h.opt, run_listR h.funcs,
      run_rInt h.buffer.fits, run_raw64 rfl, c0, d0, c1, d1, c2, d2]
  · have c0 : (3 < v.toInt) := by omega
    have d0 : (4 ≤ v.toInt) := by omega
    have c1 : ¬ (6 < v.toInt) := by omega
    have d1 : ¬ (7 ≤ v.toInt) := by omega
    have c2 : ¬ (7 < v.toInt) := by omega
    have d2 : ¬ (8 ≤ v.toInt) := by omega
    simp [run_bind, h1Old, H1.at, since, H1.norm, run_namedR h.named, run_attLineR, run_attFillR,
      run_attMarkerR, run_rInt h.ncells, run_axisR h.xaxis, run_axisR h.yaxis, run_axisR h.zaxis,
      run_arr64 h.contour, run_arr64 h.sumw2, run_rStr h.opt, run_listR h.funcs,
      run_rInt h.buffer.fits, run_raw64 rfl, c0, d0, c1, d1, c2, d2]
  · have c0 : (3 < v.toInt) := by omega
    have d0 : (4 ≤ v.toInt) := by omega
    have c1 : (6 < v.toInt) := by omega
    have d1 : (7 ≤ v.toInt) := by omega
    have c2 : ¬ (7 < v.toInt) := by omega
    have d2 : ¬ (8 ≤ v.toInt) := by omega
    simp [run_bind, h1Old, H1.at, since, H1.norm, run_namedR h.named, run_attLineR, run_attFillR,
      run_attMarkerR, run_rInt h.ncells, run_axisR h.xaxis, run_axisR h.yaxis, run_axisR h.zaxis,
      run_arr64 h.contour, run_arr64 h.sumw2, run_rStr h.opt, run_listR h.funcs,
      run_rInt h.buffer.fits, run_raw64 rfl, c0, d0, c1, d1, c2, d2]
  · have c0 : (3 < v.toInt) := by omega
    have d0 : (4 ≤ v.toInt) := by omega
    have c1 : (6 < v.toInt) := by omega
    have d1 : (7 ≤ v.toInt) := by omega
    have c2 : (7 < v.toInt) := by omega
    have d2 : (8 ≤ v.toInt) := by omega
    simp [run_bind, h1Old, H1.at, since, H1.norm, run_namedR h.named, run_attLineR, run_attFillR,
      run_attMarkerR, run_rInt h.ncells, run_axisR h.xaxis, run_axisR h.yaxis, run_axisR h.zaxis,
      run_arr64 h.contour, run_arr64 h.sumw2, run_rStr h.opt, run_listR h.funcs,
      run_rInt h.buffer.fits, run_raw64 rfl, c0, d0, c1, d1, c2, d2]

theorem C144_graph {a : Graph} (h : a.OK) {v : BitVec 16} (hv : v &&& 0x4000 = 0)
    (hv1 : v.toInt ≤ 5) (hv0 : 2 ≤ v.toInt) (rest : Parts) :
    graphR.run (wBlock v (graphOld v.toInt a) rest) = some (a.norm.at v.toInt, rest) := by
  apply run_rBlock ⟨hv, Or.inr hv1⟩
  rw [if_neg (by omega)]
  rcases (by omega : v.toInt < 5 ∨ 5 ≤ v.toInt) with hc | hc
  · have c0 : ¬ (4 < v.toInt) := by omega
    have d0 : ¬ (5 ≤ v.toInt) := by omega
    simp [run_bind, graphOld, Graph.at, since, Graph.norm, run_namedR h.named, run_attLineR,
      run_attFillR, run_attMarkerR, run_raw64 h.x, run_raw64 h.y, run_rStr h.opt, c0, d0]
  · have c0 : (4 < v.toInt) := by omega
    have d0 : (5 ≤ v.toInt) := by omega
    simp [run_bind, graphOld, Graph.at, since, Graph.norm, run_namedR h.named, run_attLineR,
      run_attFillR, run_attMarkerR, run_raw64 h.x, run_raw64 h.y, run_rStr h.opt, c0, d0]

theorem C144_formula {a : Formula} (h : a.OK) {v : BitVec 16} (hv : v &&& 0x4000 = 0)
    (hv1 : v.toInt ≤ 14) (hv0 : 12 ≤ v.toInt) (rest : Parts) :
    formulaR.run (wBlock v (formulaOld v.toInt a) rest) = some (a.norm.at v.toInt, rest) := by
  apply run_rBlock ⟨hv, Or.inr hv1⟩
  rw [if_neg (by omega)]
  rcases (by omega : v.toInt < 14 ∨ 14 ≤ v.toInt) with hc | hc
  · have c0 : ¬ (13 < v.toInt) := by omega
    have d0 : ¬ (14 ≤ v.toInt) := by omega
    simp [run_bind, formulaOld, Formula.at, since, Formula.norm, run_namedR h.named,
      run_vec64 h.clingParams, run_parmsR h.params, run_rStr h.formula, run_vecRef h.linearParts,
      c0, d0]
  · have c0 : (13 < v.toInt) := by omega
    have d0 : (14 ≤ v.toInt) := by omega
    simp [run_bind, formulaOld, Formula.at, since, Formula.norm, run_namedR h.named,
      run_vec64 h.clingParams, run_parmsR h.params, run_rStr h.formula, run_vecRef h.linearParts,
      c0, d0]

theorem C144_streamerBase {a : StreamerBase} (h : a.OK) {v : BitVec 16} (hv : v &&& 0x4000 = 0)
    (hv1 : v.toInt ≤ 3) (rest : Parts) :
    streamerBaseR.run (wBlock v (streamerBaseOld v.toInt a) rest) = some (a.norm.at v.toInt, rest) := by
  apply run_rBlock ⟨hv, Or.inr hv1⟩
  rcases (by omega : v.toInt < 3 ∨ 3 ≤ v.toInt) with hc | hc
  · have c0 : ¬ (2 < v.toInt) := by omega
    have d0 : ¬ (3 ≤ v.toInt) := by omega
    simp [run_bind, streamerBaseOld, StreamerBase.at, since, StreamerBase.norm,
      run_streamerElementR h.elem, c0, d0]
  · have c0 : (2 < v.toInt) := by omega
    have d0 : (3 ≤ v.toInt) := by omega
    simp [run_bind, streamerBaseOld, StreamerBase.at, since, StreamerBase.norm,
      run_streamerElementR h.elem, c0, d0]

set_option maxHeartbeats 1000000 in
theorem C144_tree {a : Tree} (h : a.OK) {v : BitVec 16} (hv : v &&& 0x4000 = 0)
    (hv1 : v.toInt ≤ 20) (hv0 : 6 ≤ v.toInt) (rest : Parts) :
    treeR.run (wBlock v (treeOld v.toInt a) rest) = some (a.norm.at v.toInt, rest) := by
  apply run_rBlock ⟨hv, Or.inr hv1⟩
  rw [if_neg (by omega)]
  rcases (by omega : v.toInt < 16 ∨ (16 ≤ v.toInt ∧ v.toInt < 17) ∨ (17 ≤ v.toInt ∧ v.toInt < 18) ∨ (18 ≤ v.toInt ∧ v.toInt < 19) ∨ (19 ≤ v.toInt ∧ v.toInt < 20) ∨ 20 ≤ v.toInt) with hc | hc | hc | hc | hc | hc
  · have c0 : ¬ (16 ≤ v.toInt) := by omega
    have c1 : ¬ (17 ≤ v.toInt) := by omega
    have c2 : ¬ (18 ≤ v.toInt) := by omega
    have c3 : ¬ (19 ≤ v.toInt) := by omega
    have c4 : ¬ (20 ≤ v.toInt) := by omega
    simp [run_bind, treeOld, Tree.at, since, Tree.norm, run_namedR h.named, run_attLineR,
      run_attFillR, run_attMarkerR, run_rInt h.ranges.fits, run_raw64 rfl, run_raw64 h.sizes,
      run_ioR, run_objsR h.branches, run_objsR h.leaves, c0, c1, c2, c3, c4]
  · have c0 : (16 ≤ v.toInt) := by omega
    have c1 : ¬ (17 ≤ v.toInt) := by omega
    have c2 : ¬ (18 ≤ v.toInt) := by omega
    have c3 : ¬ (19 ≤ v.toInt) := by omega
    have c4 : ¬ (20 ≤ v.toInt) := by omega
    simp [run_bind, treeOld, Tree.at, since, Tree.norm, run_namedR h.named, run_attLineR,
      run_attFillR, run_attMarkerR, run_rInt h.ranges.fits, run_raw64 rfl, run_raw64 h.sizes,
      run_ioR, run_objsR h.branches, run_objsR h.leaves, c0, c1, c2, c3, c4]
  · have c0 : (16 ≤ v.toInt) := by omega
    have c1 : (17 ≤ v.toInt) := by omega
    have c2 : ¬ (18 ≤ v.toInt) := by omega
    have c3 : ¬ (19 ≤ v.toInt) := by omega
    have c4 : ¬ (20 ≤ v.toInt) := by omega
    simp [run_bind, treeOld, Tree.at, since, Tree.norm, run_namedR h.named, run_attLineR,
      run_attFillR, run_attMarkerR, run_rInt h.ranges.fits, run_raw64 rfl, run_raw64 h.sizes,
      run_ioR, run_objsR h.branches, run_objsR h.leaves, c0, c1, c2, c3, c4]
  · have c0 : (16 ≤ v.toInt) := by omega
    have c1 : (17 ≤ v.toInt) := by omega
    have c2 : (18 ≤ v.toInt) := by omega
    have c3 : ¬ (19 ≤ v.toInt) := by omega
    have c4 : ¬ (20 ≤ v.toInt) := by omega
    simp [run_bind, treeOld, Tree.at, since, Tree.norm, run_namedR h.named, run_attLineR,
      run_attFillR, run_attMarkerR, run_rInt h.ranges.fits, run_raw64 rfl, run_raw64 h.sizes,
      run_ioR, run_objsR h.branches, run_objsR h.leaves, c0, c1, c2, c3, c4]
  · have c0 : (16 ≤ v.toInt) := by omega
    have c1 : (17 ≤ v.toInt) := by omega
    have c2 : (18 ≤ v.toInt) := by omega
    have c3 : (19 ≤ v.toInt) := by omega
    have c4 : ¬ (20 ≤ v.toInt) := by omega
    simp [run_bind, treeOld, Tree.at, since, Tree.norm, run_namedR h.named, run_attLineR,
      run_attFillR, run_attMarkerR, run_rInt h.ranges.fits, run_raw64 rfl, run_raw64 h.sizes,
      run_ioR, run_objsR h.branches, run_objsR h.leaves, c0, c1, c2, c3, c4]
  · have c0 : (16 ≤ v.toInt) := by omega
    have c1 : (17 ≤ v.toInt) := by omega
    have c2 : (18 ≤ v.toInt) := by omega
    have c3 : (19 ≤ v.toInt) := by omega
    have c4 : (20 ≤ v.toInt) := by omega
    simp [run_bind, treeOld, Tree.at, since, Tree.norm, run_namedR h.named, run_attLineR,
      run_attFillR, run_attMarkerR, run_rInt h.ranges.fits, run_raw64 rfl, run_raw64 h.sizes,
      run_ioR, run_objsR h.branches, run_objsR h.leaves, c0, c1, c2, c3, c4]

end Verif.Robj
