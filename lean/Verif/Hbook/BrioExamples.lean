import Verif.Hbook.BrioProps
import Verif.Hbook.ProfileFloat
import Verif.Hbook.Stats

/-!
# Examples for C87 to C90
-/

namespace Verif.Hbook.Brio
open Verif.Hbook

/-- Numbers given by their 64 bits; annotations given by the bytes they are written as, those
starting with 255 being refused. -/
def idCodec : Codec (BitVec 64) (List UInt8) :=
  { bits := BitVec.toNat, ofBits := BitVec.ofNat 64,
    annEnc := fun a => if a.head? = some 255 then none else some a, annDec := some }

theorem idCodec_lossless : Lossless idCodec := fun x =>
  ⟨x.isLt, by simp only [idCodec, BitVec.ofNat_toNat, BitVec.setWidth_eq]⟩

theorem idCodec_ann (a : List UInt8) : AnnBack idCodec a := by
  intro bs h
  simp only [idCodec] at h ⊢
  split at h
  · cases h
  · exact h.symm

def exD1 (n : Nat) : Dist1D (BitVec 64) := ⟨⟨n, 3, 4⟩, 5, 6⟩
def exD2 (n : Nat) : Dist2D (BitVec 64) := ⟨exD1 n, exD1 n, 9⟩

/-- A histogram of two bins. -/
def exH1D : Obj (Binning1D (BitVec 64)) (List UInt8) :=
  { body := { bins := [⟨⟨0, 1⟩, exD1 1⟩, ⟨⟨1, 2⟩, exD1 2⟩], dist := exD1 5, under := exD1 2, over := exD1 0,
              xrange := ⟨0, 2⟩ }, ann := [1, 2, 3] }

def exP1D : Obj (BinningP1D (BitVec 64)) (List UInt8) :=
  { body := { bins := [⟨⟨0, 1⟩, exD2 1⟩], dist := exD2 1, under := exD2 0, over := exD2 0, xrange := ⟨0, 1⟩, xstep := 1 },
    ann := [] }

def exH2D : Obj (Binning2DRec (BitVec 64)) (List UInt8) :=
  { body := { bins := [⟨⟨0, 1⟩, ⟨0, 1⟩, exD2 1⟩], dist := exD2 1, outflows := List.replicate 8 (exD2 0),
              xrange := ⟨0, 1⟩, yrange := ⟨0, 1⟩, nx := 1, ny := 1,
              xedges := [⟨⟨0, 1⟩, exD1 0⟩], yedges := [⟨⟨0, 1⟩, exD1 0⟩] }, ann := [7] }

def exS2D : Obj (List (Point2D (BitVec 64))) (List UInt8) :=
  { body := [⟨1, 2, ⟨3, 4⟩, ⟨5, 6⟩⟩, ⟨1, 2, ⟨3, 4⟩, ⟨5, 7⟩⟩], ann := [7] }

example : ∃ bs, marshalH1D idCodec exH1D = some bs ∧ bs.length = 395 ∧
    RecordOf (unmarshalH1D idCodec) bs exH1D :=
  have h : ∃ bs, marshalH1D idCodec exH1D = some bs ∧ bs.length = 395 := by
    refine ⟨(marshalH1D idCodec exH1D).getD [], by decide +kernel, by decide +kernel⟩
  match h with
  | ⟨bs, h1, h2⟩ => ⟨bs, h1, h2, C87_h1d idCodec_lossless exH1D (by
      refine ⟨?_, ?_, ?_, ?_⟩ <;> simp [exH1D, exD1, Fits1, Fits0, Fits]) (idCodec_ann _) bs h1 (by omega)⟩

example : ∃ bs, marshalP1D idCodec exP1D = some bs ∧ RecordOf (unmarshalP1D idCodec) bs exP1D :=
  have h : ∃ bs, marshalP1D idCodec exP1D = some bs ∧ bs.length < 1000 := by
    refine ⟨(marshalP1D idCodec exP1D).getD [], by decide +kernel, by decide +kernel⟩
  match h with
  | ⟨bs, h1, h2⟩ => ⟨bs, h1, C87_p1d idCodec_lossless exP1D (by
      refine ⟨?_, ?_, ?_, ?_⟩ <;> simp [exP1D, exD2, exD1, Fits2, Fits1, Fits0, Fits]) (idCodec_ann _) bs h1 (by omega)⟩

example : ∃ bs, marshalH2D idCodec exH2D = some bs ∧ RecordOf (unmarshalH2D idCodec) bs exH2D :=
  have h : ∃ bs, marshalH2D idCodec exH2D = some bs ∧ bs.length < 3000 := by
    refine ⟨(marshalH2D idCodec exH2D).getD [], by decide +kernel, by decide +kernel⟩
  match h with
  | ⟨bs, h1, h2⟩ => ⟨bs, h1, C87_h2d idCodec_lossless exH2D (by
      refine ⟨?_, ?_, ?_, ?_, ?_, ?_, ?_⟩ <;> simp [exH2D, exD2, exD1, Fits2, Fits1, Fits0, Fits]) (idCodec_ann _) bs h1 (by omega)⟩

example : ∃ bs, marshalS2D idCodec exS2D = some bs ∧ bs.length = 161 ∧ RecordOf (unmarshalS2D idCodec) bs exS2D :=
  have h : ∃ bs, marshalS2D idCodec exS2D = some bs ∧ bs.length = 161 := by
    refine ⟨(marshalS2D idCodec exS2D).getD [], by decide +kernel, by decide +kernel⟩
  match h with
  | ⟨bs, h1, h2⟩ => ⟨bs, h1, h2, C87_s2d idCodec_lossless exS2D (idCodec_ann _) bs h1 (by omega)⟩

example : ∃ bs, rioMarshalH1D idCodec exH1D = some bs ∧
    rioUnmarshalH1D idCodec (bs ++ [1, 2]) = .ok (exH1D, [1, 2]) ∧
    rioUnmarshalH1D idCodec (bs.take 100) = .err :=
  have h : ∃ bs, rioMarshalH1D idCodec exH1D = some bs ∧ bs.length = 403 := by
    refine ⟨(rioMarshalH1D idCodec exH1D).getD [], by decide +kernel, by decide +kernel⟩
  match h with
  | ⟨bs, h1, h2⟩ =>
    have hh := C87_h1d_stream idCodec_lossless exH1D (by
      refine ⟨?_, ?_, ?_, ?_⟩ <;> simp [exH1D, exD1, Fits1, Fits0, Fits]) (idCodec_ann _) bs h1 (by omega)
    ⟨bs, h1, hh.1 _, hh.2 100 (by omega)⟩

example : marshalS2D idCodec { exS2D with ann := [255] } = none := by decide +kernel

end Verif.Hbook.Brio

namespace Verif.Hbook.Prof
open Verif.Hbook Verif.Hbook.Brio

/-- A conversion to whole numbers as C88 needs it. -/
theorem ratEnv_truncates : Truncates ratEnv := by
  intro x hx
  simp only [ratEnv]
  rw [if_neg (not_lt.mpr hx)]
  rfl

def exProf : BinningP1D ℚ := (newBinningP1D 2 (0 : ℚ) 4).getD ⟨[], .zero, .zero, .zero, ⟨0, 0⟩, 0⟩

theorem exProf_uniform : Uniform exProf 2 0 4 := ((C88_new 2 (0 : ℚ) 4).2 exProf (by decide +kernel)).1

/-- Five fills: below, first bin, the inner edge, the upper edge, the second bin. -/
def exFills : List (ℚ × ℚ × ℚ) := [(-1, 1, 1), (1, 7, 2), (2, 3, 1), (4, 0, 1), (7 / 2, 1, 3)]

example : ∃ b', fills ratEnv exProf exFills = some b' ∧ Uniform b' 2 0 4 :=
  match C88_fills_partial ratEnv ratEnv_truncates exProf 2 0 4 exProf_uniform exFills with
  | ⟨b', h1, h2, _⟩ => ⟨b', h1, h2⟩

example : (fills ratEnv exProf exFills).map (fun b =>
    [b.dist.x.dist.n, b.under.x.dist.n, b.over.x.dist.n] ++ b.bins.map (·.dist.x.dist.n)) = some [5, 1, 1, 1, 2] := by
  decide +kernel

/-- The number of entries is one of the quantities C88 accounts for. -/
example : ∀ (d : Dist2D ℚ) x y w, (d.fill x y w).x.dist.n = d.x.dist.n + 1 := fun _ _ _ _ => rfl

/-- A histogram and its scatter. -/
example : (s2dFromH1D ratEnv ⟨false, false⟩ (histOf [(0, 1, 3), (1, 3, 4)])).map (fun p => (p.x, p.y)) =
    [(1 / 2, 3), (2, 2)] := by decide +kernel

example : (histOf [(0, 1, 3), (1, 3, 4)]).bins[1]? = some ⟨⟨1, 3⟩, ⟨⟨1, 4, 16⟩, 0, 0⟩⟩ := by decide +kernel

/-- Two histograms with the same edges, the second empty in its second bin. -/
example : divideH1D ratEnv ([Opt.ignoreNaNs].map Opt.fn) (histOf [(0, 1, 3), (1, 3, 4), (3, 4, 10)])
      (histOf [(0, 1, 6), (1, 3, 0), (3, 4, 2)]) =
    .ok [⟨1 / 2, 1 / 2, ⟨1 / 2, 1 / 2⟩, ⟨45 / 2, 45 / 2⟩⟩, ⟨7 / 2, 5, ⟨1 / 2, 1 / 2⟩, ⟨520, 520⟩⟩] := by
  decide +kernel

example : ∀ q ∈ (histOf [(0, 1, 3), (1, 3, 4), (3, 4, 10)]).bins.zip (histOf [(0, 1, 6), (1, 3, 0), (3, 4, 2)]).bins,
    SameEdges ratEnv q.1 q.2 := by
  have h : ∀ x : ℚ, fuzzyEq ratEnv x x = true := C90_same_edges ratEnv rfl (by decide +kernel) (by decide +kernel)
  intro q hq
  simp [histOf] at hq
  rcases hq with rfl | rfl | rfl <;> exact ⟨h _, h _⟩

/-- Different edges are refused. -/
example : divideH1D ratEnv [] (histOf [(0, 1, 3), (1, 3, 4)]) (histOf [(0, 1, 6), (1, 4, 2)]) = .err := by
  decide +kernel

end Verif.Hbook.Prof
