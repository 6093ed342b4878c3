import Verif.Hbook.RootCnv2
import Verif.Hbook.ProfileProps
import Verif.Hbook.Scatter
import Mathlib.Analysis.SpecialFunctions.Sqrt

/-!
# Conversions between `hbook` and ROOT: entries of bins, counterexamples and examples
-/

namespace Verif.Hbook.RootCnv
open Verif.Hbook Verif.Hbook.Brio Verif.Hbook.Prof

section
variable {K : Type} [Field K] [LinearOrder K] [IsStrictOrderedRing K] [FloorRing K] {C : Type}

/-- `sqrt` is the square root of the numbers that are not negative. -/
def Roots (v : Env K) : Prop := ∀ x : K, 0 ≤ x → v.sqrt x * v.sqrt x = x

theorem entriesOf_equal (v : Env K) (hs : Roots v) (ht : Truncates v) (hh : v.half = 1 / 2)
    (n : Int) (hn : 0 ≤ n) (w : K) (hw : 0 < w) :
    entriesOf v ((n : K) * w) (v.sqrt ((n : K) * w * w)) = n := by
  have hn' : (0 : K) ≤ (n : K) := by exact_mod_cast hn
  simp only [entriesOf]
  rcases eq_or_lt_of_le hn with h0 | hpos
  · rw [← h0]
    have : fle ((0 : Int) * w : K) 0 = true := by simp [fle, val]
    rw [if_pos this]
  · have hpos' : (0 : K) < (n : K) := by exact_mod_cast hpos
    have hc : fle ((n : K) * w) 0 = false := by
      simp only [fle, val, decide_eq_false_iff_not, WithBot.coe_le_coe, WithTop.coe_le_coe, not_le]
      positivity
    rw [if_neg (by rw [hc]; decide)]
    have hr := hs ((n : K) * w * w) (by positivity)
    have hne : v.sqrt ((n : K) * w * w) * v.sqrt ((n : K) * w * w) ≠ 0 := by rw [hr]; positivity
    have hsq : (n : K) * w / v.sqrt ((n : K) * w * w) * ((n : K) * w / v.sqrt ((n : K) * w * w)) = (n : K) := by
      rw [div_mul_div_comm, hr]
      field_simp
    rw [hsq, ht _ (by rw [hh]; positivity), hh]
    rw [Int.floor_eq_iff]
    constructor
    · linarith [show (0 : K) ≤ 1 / 2 by positivity]
    · have : (1 / 2 : K) < 1 := by norm_num
      linarith

/-- **C101.** The number of entries of a bin whose fills all had the same positive weight comes back
in exact arithmetic.  Partial: for other bins it does not (`C101_entries_counterexample`). -/
theorem C101_entries_partial (v : Env K) (k : Cell K C) (hs : Roots v) (ht : Truncates v) (hh : v.half = 1 / 2)
    (h h' : H1 K) (r : TH1 K C) (hr : Regular h) (e : newH1From k h = some r) (e' : asH1 v k r = some h')
    (i : Nat) (hi : i < h.bng.bins.length) (w : K) (hw : 0 < w) (hn : 0 ≤ h.bng.bins[i].dist.dist.n)
    (h1 : h.bng.bins[i].dist.dist.sumW = (h.bng.bins[i].dist.dist.n : K) * w)
    (h2 : h.bng.bins[i].dist.dist.sumW2 = (h.bng.bins[i].dist.dist.n : K) * w * w)
    (hk : k.back (k.cst h.bng.bins[i].dist.dist.sumW) = h.bng.bins[i].dist.dist.sumW) :
    ∃ b, h'.bng.bins[i]? = some b ∧ b.dist.dist.n = h.bng.bins[i].dist.dist.n := by
  obtain ⟨r', e0, e1, e2, e3, e4, e5, e6, e7, e8, e9, ⟨a1, a2, a3, a4⟩, b1, b2, b3, b4⟩ :=
    newH1From_fields k h hr.title
  rw [e] at e0
  cases e0
  have hnb : r.xaxis.nbins = h.bng.bins.length := by rw [e7]
  have hxb : r.xaxis.xbins = edgesOf h.bng.bins := by rw [e7]
  have hpos : h.bng.bins.length ≠ 0 := fun h0 => hr.ne (List.length_eq_zero_iff.1 h0)
  obtain ⟨h'', f0, f1, f2, f3, f4, f5, f6, f7, f8⟩ := asH1_fields v k r
    ⟨by omega, by omega, by omega, by rw [hxb, edgesOf_length _ hr.ne, hnb], by rw [e7]; exact hr.proper⟩
  rw [e'] at f0
  cases f0
  refine ⟨h'.bng.bins[i], List.getElem?_eq_getElem (by omega), ?_⟩
  rw [f8 i (by omega) _ _ _ _ (a4 i hi) (b4 i hi) (by rw [hxb]; exact edgesOf_lo _ hr.consecutive i hi)
    (by rw [hxb]; exact edgesOf_hi _ i hi)]
  simp only [cellDist]
  rw [hk, h2, h1]
  exact entriesOf_equal v hs ht hh _ hn w hw

end

/-! ### Concrete histograms -/

/-- The integral part of the square root of a number below 2500. -/
def isqrt (n : Nat) : Nat := (((List.range 50).filter fun k => k * k ≤ n).getLast?).getD 0

/-- Rational numbers, with the square roots of the squares of rational numbers. -/
def qEnv : Env ℚ :=
  { sqrt := fun q => (isqrt q.num.toNat : ℚ) / (isqrt q.den : ℚ)
    toInt := fun x => if x < 0 then -(-x).floor else x.floor, nan := 0, half := 1 / 2, tol := 0, tiny := 0 }

/-- Cells of type `float64`. -/
def f64Cell : Cell ℚ ℚ := ⟨id, id, 0⟩

/-- Cells of type `int32`, as far as they do not overflow. -/
def i32Cell : Cell ℚ Int := ⟨fun q => if q < 0 then -(-q).floor else q.floor, fun n => n, 0⟩

/-- The histogram of the given bins and fills. -/
def filled (edges : List ℚ) (fs : List (ℚ × ℚ)) : Option (H1 ℚ) :=
  ((newBinning1DFromEdges edges).bind fun b => b.fills fs).map fun b => ⟨b, some (.str "h"), some (.str "t")⟩

/-- A histogram of three bins of different widths with outflows and weights. -/
def exHist : H1 ℚ :=
  (filled [0, 1, 3, 7] [(1 / 2, 2), (2, 1), (5 / 2, 1), (2, 1), (2, 1), (6, 9), (6, 40), (-1, 3), (8, 5)]).getD ⟨⟨[], .zero, .zero, .zero, ⟨0, 0⟩⟩, none, none⟩

theorem exHist_regular : Regular exHist := by
  refine ⟨by decide +kernel, by decide +kernel, ?_, by decide +kernel⟩
  intro i h
  have hl : exHist.bng.bins.length = 3 := by decide +kernel
  have : i = 0 ∨ i = 1 := by omega
  rcases this with rfl | rfl <;> decide +kernel +revert

/-- **C101**: the hypotheses hold for `exHist`. -/
example : ∃ r h', newH1From f64Cell exHist = some r ∧ Shows qEnv f64Cell exHist r ∧
    asH1 qEnv f64Cell r = some h' ∧ SameH1 exHist h' :=
  C101_hist_roundtrip_partial qEnv f64Cell exHist exHist_regular
    (fun b _ => by simp only [Exact]; ring) (by decide +kernel) (fun _ _ => rfl)

/-- The contents of the ROOT histogram of `exHist`. -/
example : (newH1From f64Cell exHist).map (fun r => (r.arr, r.sumw2, r.xaxis.xbins)) =
    some ([3, 2, 4, 49, 5], [9, 4, 4, 1681, 25], [0, 1, 3, 7]) := by decide +kernel

/-- Real numbers with their square root. -/
noncomputable def realEnv : Env ℝ :=
  { sqrt := Real.sqrt, toInt := fun x => ⌊x⌋, nan := 0, half := 1 / 2, tol := 0, tiny := 0 }

/-- A histogram of one bin filled twice with weight 3. -/
noncomputable def exReal : H1 ℝ :=
  ⟨⟨[⟨⟨0, 1⟩, ⟨⟨2, 6, 18⟩, 3, 3 / 2⟩⟩], ⟨⟨2, 6, 18⟩, 3, 3 / 2⟩, .zero, .zero, ⟨0, 1⟩⟩, none, none⟩

theorem exReal_regular : Regular exReal := by
  refine ⟨by simp [exReal], ?_, ?_, by simp [exReal]⟩
  · simp [exReal, fle, val]
  · intro i h; simp [exReal] at h

/-- **C101**: the two entries of the bin of `exReal` come back. -/
example : ∃ r h', newH1From ⟨id, id, 0⟩ exReal = some r ∧ asH1 realEnv ⟨id, id, 0⟩ r = some h' ∧
    ∃ b, h'.bng.bins[0]? = some b ∧ b.dist.dist.n = 2 := by
  obtain ⟨r, h', e, -, e', -⟩ := C101_hist_roundtrip_partial realEnv ⟨id, id, 0⟩ exReal exReal_regular
    (fun b _ => by simp only [Exact]; ring) (by simp [realEnv]) (fun _ _ => rfl)
  refine ⟨r, h', e, e', ?_⟩
  exact C101_entries_partial realEnv ⟨id, id, 0⟩ (fun x hx => Real.mul_self_sqrt hx) (fun _ _ => rfl) rfl
    exReal h' r exReal_regular e e' 0 (by simp [exReal]) 3 (by norm_num) (by simp [exReal])
    (by simp [exReal]; norm_num) (by simp [exReal]; norm_num) rfl

/-- **C101 fails** for the number of entries of a bin filled with different weights: the last bin of
`exHist` was filled twice, with weights 9 and 40; after the round trip it has one entry. -/
theorem C101_entries_counterexample :
    exHist.bng.bins.map (·.dist.dist.n) = [1, 4, 2] ∧
    (((newH1From f64Cell exHist).bind (asH1 qEnv f64Cell)).map fun h => h.bng.bins.map (·.dist.dist.n)) =
      some [1, 4, 1] := by
  refine ⟨by decide +kernel, by decide +kernel⟩

/-- **C101 fails** for histograms with a gap between bins, as `hbook.NewH1DFromBins` makes them: the
bin before the gap keeps its edges, the next one starts at once. -/
theorem C101_gap_counterexample :
    ((newH1From f64Cell ⟨freshBinning [⟨0, 1⟩, ⟨2, 3⟩] ⟨0, 3⟩, none, none⟩).bind (asH1 qEnv f64Cell)).map
      (fun h => h.bng.bins.map (·.range)) = some [⟨0, 1⟩, ⟨1, 3⟩] := by
  decide +kernel

/-- **C101 fails** for `TH1I`: weights that are not integers are truncated. -/
theorem C101_int_counterexample :
    ((filled [0, 1] [(1 / 2, 3 / 4), (1 / 2, 3 / 4)]).bind fun h => (newH1From i32Cell h).bind fun r =>
      (asH1 qEnv i32Cell r).map fun h' => (h.bng.bins.map (·.dist.dist.sumW), h'.bng.bins.map (·.dist.dist.sumW))) =
    some ([3 / 2], [1]) := by
  decide +kernel

/-- A ROOT histogram of two bins with 4 and 9 entries, filled without storing squared weights. -/
def plainRoot : TH1 ℚ ℚ :=
  { entries := 13, tsumw := 13, tsumw2 := 13, tsumwx := 0, tsumwx2 := 0, ncells := 4,
    xaxis := ⟨2, 0, 2, [0, 1, 2]⟩, sumw2 := [], arr := [0, 4, 9, 0], name := "p", title := "" }

/-- The same with squared weights. -/
def sumw2Root : TH1 ℚ ℚ := { plainRoot with sumw2 := [0, 4, 9, 0] }

/-- **C102 fails** for ROOT histograms without sums of squared weights, the default in ROOT: the
errors, 2 and 3 before the conversion, are 0 in the `hbook` histogram and afterwards. -/
theorem C102_no_errors_counterexample :
    (error1 qEnv f64Cell plainRoot 1, error1 qEnv f64Cell plainRoot 2) = (some 2, some 3) ∧
    ((asH1 qEnv f64Cell plainRoot).map fun h => h.bng.bins.map (·.dist.dist.sumW2)) = some [0, 0] ∧
    (((asH1 qEnv f64Cell plainRoot).bind (newH1From f64Cell)).map fun r =>
      (error1 qEnv f64Cell r 1, error1 qEnv f64Cell r 2)) = some (some 0, some 0) := by
  refine ⟨by decide +kernel, by decide +kernel, by decide +kernel⟩

theorem sumw2Root_wf : WellFormed sumw2Root := ⟨by decide, by decide, by decide, by decide, by decide +kernel⟩

theorem exactAxis_rat (a : TAxis ℚ) : ExactAxis a := by
  intro i lo hi _ _; ring

/-- **C102**: the hypotheses hold for `sumw2Root`. -/
example : ∃ h, asH1 qEnv f64Cell sumw2Root = some h ∧ newH1From f64Cell h = some sumw2Root :=
  C102_root_roundtrip_partial qEnv f64Cell sumw2Root sumw2Root_wf rfl (exactAxis_rat _) (fun _ _ => rfl)
    (by decide +kernel)

/-- **C103**: the hypotheses hold for `sumw2Root` merged with itself. -/
example : ∃ r, merge1 qEnv f64Cell sumw2Root sumw2Root = some r ∧ r.arr[2]? = some 18 := by
  obtain ⟨r, e, -, -, -, -, h, -⟩ := C103_merge_partial qEnv f64Cell sumw2Root sumw2Root sumw2Root_wf sumw2Root_wf
    rfl (exactAxis_rat _) ⟨by decide +kernel, by decide +kernel⟩ one_mul
  refine ⟨r, e, ?_⟩
  rw [h 2 9 9 rfl rfl]
  decide +kernel

/-- **C103 fails** for histograms with the same range and number of bins but different edges: the
contents of `[0, 1)` and `[0, 3/2)` are added and reported for `[0, 1)`. -/
theorem C103_edges_counterexample :
    (merge1 qEnv f64Cell sumw2Root { sumw2Root with xaxis := ⟨2, 0, 2, [0, 3 / 2, 2]⟩ }).map
      (fun r => (r.xaxis.xbins, r.arr)) = some ([0, 1, 2], [0, 8, 18, 0]) := by
  decide +kernel

/-- **C103 fails** for histograms without sums of squared weights: the errors are lost. -/
theorem C103_no_errors_counterexample :
    (merge1 qEnv f64Cell plainRoot plainRoot).map (fun r => (r.arr, r.sumw2)) =
      some ([0, 8, 18, 0], [0, 0, 0, 0]) := by
  decide +kernel

/-- A histogram in two dimensions with one fill to the north-west of its bins and one inside. -/
def exHist2 : H2 ℚ :=
  ⟨(((newBinning2DFromEdges [0, 1, 4] [0, 2]).bind fun b => b.fills [(-1, 5, 7), (1 / 2, 1, 3), (2, 1, 1)]).getD
    ⟨[], .zero, [], ⟨0, 0⟩, ⟨0, 0⟩, 0, 0, [], []⟩), none, none⟩

theorem exHist2_grid : GridH2 exHist2 [⟨0, 1⟩, ⟨1, 4⟩] [⟨0, 2⟩] := by
  refine ⟨by decide +kernel, by decide +kernel, by decide, by decide, by decide +kernel, ?_, ?_, ?_,
    by decide +kernel, by decide +kernel, by decide +kernel, by decide⟩
  · intro ix iy hx hy
    have h1 : ix = 0 ∨ ix = 1 := by simp only [List.length_cons, List.length_nil] at hx; omega
    have h2 : iy = 0 := by simp only [List.length_cons, List.length_nil] at hy; omega
    subst h2
    rcases h1 with rfl | rfl
    · exact ⟨⟨⟨⟨1, 3, 9⟩, 3 / 2, 3 / 4⟩, ⟨⟨1, 3, 9⟩, 3, 3⟩, 3 / 2⟩, by decide +kernel +revert⟩
    · exact ⟨⟨⟨⟨1, 1, 1⟩, 2, 4⟩, ⟨⟨1, 1, 1⟩, 1, 1⟩, 2⟩, by decide +kernel +revert⟩
  · intro i h
    have : i = 0 := by simp only [List.length_cons, List.length_nil] at h; omega
    subst this; rfl
  · intro i h
    simp only [List.length_cons, List.length_nil] at h; omega

/-- **C104**: the hypotheses hold for `exHist2`. -/
example : ∃ r h', newH2From f64Cell exHist2 = some r ∧ Shows2 f64Cell exHist2 [⟨0, 1⟩, ⟨1, 4⟩] [⟨0, 2⟩] r ∧
    asH2 qEnv f64Cell r = some h' ∧ SameH2 exHist2 h' :=
  C104_hist2d_roundtrip_partial qEnv f64Cell exHist2 _ _ exHist2_grid
    (fun x _ => by simp only [Exact]; ring) (fun x _ => by simp only [Exact]; ring)
    (by decide +kernel) (fun _ _ => rfl)

/-- **C104 fails** for the outflows of the ROOT histogram: the fill at `x = -1`, `y = 5`, to the left
of and above the bins `[0, 4) × [0, 2)`, is in the cell of column 0 and row 0, which ROOT uses for
`x < 0`, `y < 0`; the cell of column 0 and row 2 (`x < 0`, `y ≥ 2`) is empty. -/
theorem C104_outflow_counterexample :
    (newH2From f64Cell exHist2).map (fun r => (r.arr[rootCell 2 0 0]?, r.arr[rootCell 2 0 2]?)) =
      some (some 7, some 0) := by
  decide +kernel

/-- **C104 fails** for the fills of a converted histogram: the bins of `exHist2` are `[0, 1)` and
`[1, 4)` in `x`, before and after a round trip, but a fill at `x = 3/2` is counted in the second bin
before and in the first one after. -/
theorem C104_fill_counterexample :
    ((exHist2.bng.fill (3 / 2) 1 10).map fun b => b.bins.map fun b => (b.xrange, b.dist.x.dist.sumW)) =
      some [(⟨0, 1⟩, 3), (⟨1, 4⟩, 11)] ∧
    (((newH2From f64Cell exHist2).bind (asH2 qEnv f64Cell)).bind fun h =>
      (h.bng.fill (3 / 2) 1 10).map fun b => b.bins.map fun b => (b.xrange, b.dist.x.dist.sumW)) =
      some [(⟨0, 1⟩, 13), (⟨1, 4⟩, 1)] := by
  refine ⟨by decide +kernel, by decide +kernel⟩

/-- A scatter with asymmetric errors. -/
def exScatter : S2 ℚ := ⟨[⟨1, 2, ⟨1, 2⟩, ⟨3, 4⟩⟩, ⟨0, 5, ⟨1, 1⟩, ⟨2, 2⟩⟩], some (.str "s"), none⟩

/-- **C105**: the graph of `exScatter` and its points. -/
example : ∃ g s', newGraphFrom .asymm max min (-100) 100 exScatter = some g ∧ s2dOf .asymm g = some s' ∧
    s'.pts = exScatter.pts := by
  obtain ⟨g, s', h1, h2, -, -, -, h6, h7⟩ := C105_graph_roundtrip .asymm max min (-100) 100 exScatter (Or.inl rfl)
  exact ⟨g, s', h1, h2, List.ext_getElem h6 fun i a b => (h7 i b a).2.2.2.2 rfl⟩

/-- **C105**: two graphs merged. -/
example : ((newGraphFrom .asymm max min (-100) 100 exScatter).map fun g => mergeGraph max min g g).bind
    (fun g => (s2dOf .asymm g).map fun s => (s.pts.length, g.npoints)) = some (4, 4) := by
  decide +kernel

/-- The bounds of a graph are reached by its points and not exceeded by any. -/
def Bounds {F : Type} [LinearOrder F] (g : TGraph F) : Prop :=
  (∀ y ∈ g.y, g.min ≤ y ∧ y ≤ g.max) ∧ (g.y ≠ [] → g.min ∈ g.y ∧ g.max ∈ g.y)

theorem foldl_max {F : Type} [LinearOrder F] (l : List F) (lo : F) (h : ∀ y ∈ l, lo ≤ y) :
    (∀ y ∈ l, y ≤ l.foldl max lo) ∧ (l ≠ [] → l.foldl max lo ∈ l) := by
  have key : ∀ (l : List F) (m : F), m ≤ l.foldl max m ∧ (∀ y ∈ l, y ≤ l.foldl max m) ∧
      (l.foldl max m = m ∨ l.foldl max m ∈ l) := by
    intro l
    induction l with
    | nil => intro m; exact ⟨le_refl _, by simp, .inl rfl⟩
    | cons a l ih =>
      intro m
      obtain ⟨h1, h2, h3⟩ := ih (max m a)
      refine ⟨(le_max_left m a).trans h1, ?_, ?_⟩
      · intro y hy
        rcases List.mem_cons.mp hy with rfl | hy
        · exact (le_max_right m y).trans h1
        · exact h2 y hy
      · simp only [List.foldl_cons]
        rcases h3 with h3 | h3
        · rw [h3]
          rcases max_choice m a with h | h <;> rw [h]
          · exact .inl rfl
          · exact .inr List.mem_cons_self
        · exact .inr (List.mem_cons_of_mem _ h3)
  obtain ⟨-, h2, h3⟩ := key l lo
  refine ⟨h2, fun hne => ?_⟩
  rcases h3 with h3 | h3
  · obtain ⟨a, l', rfl⟩ := List.exists_cons_of_ne_nil hne
    have := le_antisymm (h2 a List.mem_cons_self) (by rw [h3]; exact h a List.mem_cons_self)
    rw [← this]
    exact List.mem_cons_self
  · exact h3

theorem foldl_min {F : Type} [LinearOrder F] (l : List F) (hi : F) (h : ∀ y ∈ l, y ≤ hi) :
    (∀ y ∈ l, l.foldl min hi ≤ y) ∧ (l ≠ [] → l.foldl min hi ∈ l) :=
  foldl_max (F := Fᵒᵈ) l hi h

/-- **C105.** The bounds stored in a graph are the lowest and the highest ordinate of the scatter (no
`NaN`, `lo` and `hi` being the least and the greatest number). -/
theorem C105_graph_bounds {F : Type} [LinearOrder F] (kind : GKind) (lo hi : F) (s : S2 F)
    (hs : ∀ p ∈ s.pts, lo ≤ p.y ∧ p.y ≤ hi) {g : TGraph F} (hg : newGraphFrom kind max min lo hi s = some g) :
    Bounds g := by
  simp only [newGraphFrom] at hg
  split at hg
  · cases hg
  · cases hg
    have e1 : s.pts.foldl (fun m p => max m p.y) lo = (s.pts.map (·.y)).foldl max lo := by rw [List.foldl_map]
    have e2 : s.pts.foldl (fun m p => min m p.y) hi = (s.pts.map (·.y)).foldl min hi := by rw [List.foldl_map]
    obtain ⟨a1, a2⟩ := foldl_max (s.pts.map (·.y)) lo (by
      intro y hy; obtain ⟨p, hp, rfl⟩ := List.mem_map.mp hy; exact (hs p hp).1)
    obtain ⟨b1, b2⟩ := foldl_min (s.pts.map (·.y)) hi (by
      intro y hy; obtain ⟨p, hp, rfl⟩ := List.mem_map.mp hy; exact (hs p hp).2)
    refine ⟨fun y hy => ?_, fun hne => ?_⟩
    · simp only [e1, e2]
      exact ⟨b1 y hy, a1 y hy⟩
    · simp only [e1, e2]
      exact ⟨b2 hne, a2 hne⟩

/-- **C105.** So are those of graphs merged, unless one of them is empty. -/
theorem C105_merge_bounds {F : Type} [LinearOrder F] (a b : TGraph F) (ha : Bounds a) (hb : Bounds b)
    (ne : a.y ≠ [] ∧ b.y ≠ []) : Bounds (mergeGraph max min a b) := by
  refine ⟨fun y hy => ?_, fun _ => ?_⟩
  · rcases List.mem_append.mp hy with hy | hy
    · exact ⟨(min_le_left _ _).trans (ha.1 y hy).1, (ha.1 y hy).2.trans (le_max_left _ _)⟩
    · exact ⟨(min_le_right _ _).trans (hb.1 y hy).1, (hb.1 y hy).2.trans (le_max_right _ _)⟩
  · simp only [mergeGraph, List.mem_append]
    constructor
    · rcases min_choice a.min b.min with h | h <;> rw [h]
      · exact .inl (ha.2 ne.1).1
      · exact .inr (hb.2 ne.2).1
    · rcases max_choice a.max b.max with h | h <;> rw [h]
      · exact .inl (ha.2 ne.1).2
      · exact .inr (hb.2 ne.2).2

example : ∃ g, newGraphFrom .asymm max min (-100) 100 exScatter = some g ∧ Bounds g ∧ g.max = 5 :=
  ⟨_, rfl, C105_graph_bounds .asymm (-100) 100 exScatter (by decide +kernel) rfl, by decide +kernel⟩

end Verif.Hbook.RootCnv
