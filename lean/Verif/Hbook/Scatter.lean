import Verif.Hbook.ProfileFloat

/-!
# Scatters of histograms and profiles (C89), quotients (C90)
-/

namespace Verif.Hbook.Prof
open Verif.Hbook Verif.Hbook.Brio

/-! ## Scatters -/

section Field
variable {K : Type} [Field K] [LinearOrder K] [IsStrictOrderedRing K]

/-- The point stands for a bin: it spans the bin along `x`, from `lo` to `hi`. -/
def Spans (p : Point2D K) (r : Range K) : Prop := ptXMin p = r.lo ∧ ptXMax p = r.hi

omit [IsStrictOrderedRing K] in
/-- **C89**: the scatter of a histogram has one point for every bin, in order; the point spans
the bin, stands in its middle unless the mean of its entries was asked for, and its height
and error are the sum of the weights and its error, divided by the width of the bin.  Exact
arithmetic. -/
theorem C89_histogram (v : Env K) (hhalf : v.half = 1 / 2) (o : S2DOpts) (h : Binning1D K) :
    (s2dFromH1D v o h).length = h.bins.length ∧
    ∀ (i : Nat) (b : Bin1D K), h.bins[i]? = some b → ∃ p, (s2dFromH1D v o h)[i]? = some p ∧
      Spans p b.range ∧
      (o.useFocus = false → p.x = (b.range.lo + b.range.hi) / 2) ∧
      (o.useFocus = true → b.dist.dist.sumW ≠ 0 → p.x = b.dist.sumWX / b.dist.dist.sumW) ∧
      (b.range.lo ≠ b.range.hi → p.y * (b.range.hi - b.range.lo) = b.dist.dist.sumW ∧
        p.errY.lo * (b.range.hi - b.range.lo) = v.sqrt b.dist.dist.sumW2 ∧ p.errY.hi = p.errY.lo) ∧
      (b.range.lo = b.range.hi → p.y = v.nan ∧ p.errY = ⟨v.nan, v.nan⟩) := by
  refine ⟨by simp [s2dFromH1D], fun i b hb => ?_⟩
  refine ⟨binPoint v o b.range b.dist fun ww => v.sqrt b.dist.dist.sumW2 * ww,
    by simp only [s2dFromH1D, List.getElem?_map, hb, Option.map_some], ?_, ?_, ?_, ?_, ?_⟩
  · simp [Spans, ptXMin, ptXMax, binPoint]
  · intro ho
    simp only [binPoint, ho, Bool.false_eq_true, if_false, xMid, hhalf]
    ring
  · intro ho hw
    simp only [binPoint, ho, if_true, xFocus, feq_exact, hw, decide_false, Bool.false_eq_true, if_false, mean]
  · intro hne
    have hw : b.range.hi - b.range.lo ≠ 0 := sub_ne_zero.mpr (Ne.symm hne)
    simp only [binPoint, Range.xwidth, feq_exact, hw, decide_false, Bool.false_eq_true, if_false]
    refine ⟨?_, ?_, trivial⟩ <;> field_simp
  · intro he
    have hw : b.range.hi - b.range.lo = 0 := sub_eq_zero.mpr he.symm
    simp only [binPoint, Range.xwidth, feq_exact, hw, decide_true, if_true, and_self]

end Field

section Any
variable {F α : Type} [LinearOrder α] [GoFloat F α]
variable [Zero F] [One F] [Add F] [Sub F] [Neg F] [Mul F] [Div F] [NatCast F]

/-- Profiles that agree on everything but the moments of `y`. -/
def SameX (a b : BinningP1D F) : Prop :=
  a.xrange = b.xrange ∧ a.xstep = b.xstep ∧
  a.bins.map (fun p => (p.xrange, p.dist.x)) = b.bins.map (fun p => (p.xrange, p.dist.x))

omit [Zero F] [One F] [Neg F] [Div F] [NatCast F] in
theorem fill_sameX (v : Env F) {a b : BinningP1D F} (h : SameX a b) (x y y' w : F) {a' : BinningP1D F}
    (ha : fill v a x y w = some a') : ∃ b', fill v b x y' w = some b' ∧ SameX a' b' := by
  obtain ⟨h1, h2, h3⟩ := h
  have hidx : coordToIndex v b x = coordToIndex v a x := by simp only [coordToIndex, h1, h2]
  have hlen : a.bins.length = b.bins.length := by simpa using congrArg List.length h3
  simp only [fill, hidx] at ha ⊢
  split at ha
  · rename_i hneg
    rw [if_pos hneg]
    split at ha
    · rename_i h0
      rw [if_pos h0]
      cases ha
      exact ⟨_, rfl, h1, h2, h3⟩
    · rename_i h0
      rw [if_neg h0]
      split at ha
      · rename_i h0'
        rw [if_pos h0']
        cases ha
        exact ⟨_, rfl, h1, h2, h3⟩
      · cases ha
  · rename_i hneg
    rw [if_neg hneg]
    split at ha
    · rename_i hlt
      rw [if_pos (by omega)]
      cases ha
      refine ⟨_, rfl, h1, h2, ?_⟩
      simp only
      apply List.ext_getElem?
      intro j
      have hj := congrArg (fun l => l[j]?) h3
      simp only [List.getElem?_map, List.getElem?_modify] at hj ⊢
      rcases ea : a.bins[j]? with _ | p <;> rcases eb : b.bins[j]? with _ | q <;> rw [ea, eb] at hj
      · rfl
      · cases hj
      · cases hj
      · simp only [Option.map_some, Option.some.injEq, Prod.mk.injEq] at hj
        show some _ = some _
        by_cases hji : (coordToIndex v a x).toNat = j
        · simp only [hji, if_true, fillBin, Dist2D.fill, hj.1, hj.2]
        · simp only [hji, if_false, hj.1, hj.2]
    · cases ha

omit [NatCast F] in
/-- The scatter of a profile does not depend on the values of `y` it was filled with: two
profiles booked alike and filled at the same `x` with the same weights, but with any values
of `y`, give the same scatter. -/
theorem C89_profile_ignores_y (v : Env F) (o : S2DOpts) (b a' : BinningP1D F)
    (fs : List (F × F × F)) (ys : List F) (hl : ys.length = fs.length)
    (ha : fills v b fs = some a') :
    ∃ b', fills v b (List.zipWith (fun f y => (f.1, y, f.2.2)) fs ys) = some b' ∧
      s2dFromP1D v o b' = s2dFromP1D v o a' := by
  have key : ∀ (fs : List (F × F × F)) (ys : List F) (a b a' : BinningP1D F), ys.length = fs.length →
      SameX a b → fills v a fs = some a' →
      ∃ b', fills v b (List.zipWith (fun f y => (f.1, y, f.2.2)) fs ys) = some b' ∧ SameX a' b' := by
    intro fs
    induction fs with
    | nil =>
      intro ys a b a' _ hs h
      simp only [fills, Option.some.injEq] at h
      subst h
      exact ⟨b, by simp [fills], hs⟩
    | cons f fs ih =>
      intro ys a b a' hl hs h
      obtain ⟨x, y, w⟩ := f
      cases ys with
      | nil => simp at hl
      | cons y' ys =>
        simp only [fills] at h
        split at h
        · cases h
        rename_i a1 ha1
        obtain ⟨b1, e1, s1⟩ := fill_sameX v hs x y y' w ha1
        obtain ⟨b', e2, s2⟩ := ih ys a1 b1 a' (by simpa using hl) s1 h
        refine ⟨b', ?_, s2⟩
        simp only [List.zipWith_cons_cons, fills, e1, e2]
  obtain ⟨b', e, s⟩ := key fs ys b b a' hl ⟨rfl, rfl, rfl⟩ ha
  refine ⟨b', e, ?_⟩
  have h3 := s.2.2
  have : ∀ c : BinningP1D F, s2dFromP1D v o c = (c.bins.map (fun p => (p.xrange, p.dist.x))).map
      (fun q => binPoint v o q.1 q.2 fun _ => if o.useStdDev then stdDev v q.2 else stdErr v q.2) := by
    intro c
    simp [s2dFromP1D, Function.comp_def]
  rw [this, this, h3]

end Any

/-- Rational numbers; the square root is not used. -/
def ratEnv : Env ℚ :=
  { sqrt := id, toInt := fun x => if x < 0 then -(-x).floor else x.floor, nan := 0, half := 1 / 2,
    tol := 1 / 100000, tiny := 1 / 100000000 }

/-- **C89 fails** for profiles: the points of the scatter of a profile are not at the mean of `y`.
A profile of one bin from 0 to 2 filled twice, at `y = 7` and at `y = 9`, has mean 8 in that
bin; its scatter has one point, at 1. -/
theorem C89_profile_counterexample :
    ((newBinningP1D 1 (0 : ℚ) 2).bind fun b =>
      (fills ratEnv b [(1, 7, 1), (1 / 2, 9, 1)]).map fun b =>
        ((b.bins.map fun p => mean p.dist.y), (s2dFromP1D ratEnv ⟨false, true⟩ b).map (·.y))) =
    some ([8], [1]) := by
  decide +kernel

/-! ## Quotients -/

section Quot
variable {K : Type} [Field K] [LinearOrder K] [IsStrictOrderedRing K]

/-- The edges of two bins are the same up to the tolerance. -/
def SameEdges (v : Env K) (a b : Bin1D K) : Prop :=
  fuzzyEq v a.range.lo b.range.lo = true ∧ fuzzyEq v a.range.hi b.range.hi = true

/-- The height of a bin. -/
def height (b : Bin1D K) : K := b.dist.dist.sumW / (b.range.hi - b.range.lo)

/-- The quotient of two bins is not taken: the denominator is zero, or the numerator is although
its error is not. -/
def Undefined (v : Env K) (b1 b2 : Bin1D K) : Prop :=
  height b2 = 0 ∨ (height b1 = 0 ∧ v.sqrt b1.dist.dist.sumW2 / (b1.range.hi - b1.range.lo) ≠ 0)

instance (v : Env K) (b1 b2 : Bin1D K) : Decidable (Undefined v b1 b2) := by
  unfold Undefined; infer_instance

/-- The relative error of the height of a bin. -/
def relErr (v : Env K) (b : Bin1D K) : K := v.sqrt b.dist.dist.sumW2 / (b.range.hi - b.range.lo) / height b

/-- What is expected of the point of two bins. -/
structure Quotient (v : Env K) (c : DivConfig K) (b1 b2 : Bin1D K) (p : Point2D K) : Prop where
  spans : Spans p b1.range
  value : ¬ Undefined v b1 b2 → p.y * height b2 = height b1
  replaced : Undefined v b1 b2 → p.y = c.replaceNaN ∧ p.errY = ⟨0, 0⟩
  error : ¬ Undefined v b1 b2 →
    p.errY.lo = p.y * v.sqrt (relErr v b1 * relErr v b1 + relErr v b2 * relErr v b2)
  symmetric : p.errY.lo = p.errY.hi

omit [IsStrictOrderedRing K] in
theorem divideBin_spec (v : Env K) (c : DivConfig K) (b1 b2 : Bin1D K) :
    (divideBin v c b1 b2 = none ↔ ¬ SameEdges v b1 b2) ∧
    (divideBin v c b1 b2 = some none ↔ SameEdges v b1 b2 ∧ Undefined v b1 b2 ∧ c.ignoreNaN = true) ∧
    (∀ p, divideBin v c b1 b2 = some (some p) → SameEdges v b1 b2 ∧ Quotient v c b1 b2 p ∧
      ¬ (Undefined v b1 b2 ∧ c.ignoreNaN = true)) := by
  by_cases hs : SameEdges v b1 b2
  · have hneg : (!fuzzyEq v b1.range.lo b2.range.lo || !fuzzyEq v b1.range.hi b2.range.hi) = false := by
      rw [hs.1, hs.2]; rfl
    have hu : (feq (b2.dist.dist.sumW / b2.range.xwidth) 0 ||
        (feq (b1.dist.dist.sumW / b1.range.xwidth) 0 &&
          !feq (v.sqrt b1.dist.dist.sumW2 / b1.range.xwidth) 0)) = decide (Undefined v b1 b2) := by
      simp only [feq_exact, Range.xwidth]
      rw [Bool.eq_iff_iff]
      simp [Undefined, height]
    simp only [divideBin, hneg, Bool.false_eq_true, if_false, hu, decide_eq_true_eq]
    by_cases hun : Undefined v b1 b2
    · rw [if_pos hun]
      cases hi : c.ignoreNaN with
      | true => simp [hs, hun]
      | false =>
        refine ⟨by simp [hs], by simp, ?_⟩
        intro p hp
        simp only [Bool.false_eq_true, if_false, Option.some.injEq] at hp
        subst hp
        refine ⟨hs, ⟨?_, fun h => absurd hun h, fun _ => ⟨rfl, rfl⟩, fun h => absurd hun h, rfl⟩, by simp⟩
        simp [Spans, ptXMin, ptXMax]
    · rw [if_neg hun]
      refine ⟨by simp [hs], by simp [hun], ?_⟩
      intro p hp
      simp only [Option.some.injEq] at hp
      subst hp
      refine ⟨hs, ⟨?_, fun _ => ?_, fun h => absurd h hun, fun _ => ?_, rfl⟩, by simp [hun]⟩
      · simp [Spans, ptXMin, ptXMax]
      · have h2 : height b2 ≠ 0 := fun h => hun (Or.inl h)
        simp only [Range.xwidth]
        exact div_mul_cancel₀ _ h2
      · have rel : ∀ b : Bin1D K, (if (!feq (v.sqrt b.dist.dist.sumW2 / b.range.xwidth) 0) = true
            then v.sqrt b.dist.dist.sumW2 / b.dist.dist.sumW else 0) = relErr v b := by
          intro b
          simp only [feq_exact, relErr, height, Range.xwidth]
          by_cases h0 : v.sqrt b.dist.dist.sumW2 / (b.range.hi - b.range.lo) = 0
          · simp [h0]
          · have hw : b.range.hi - b.range.lo ≠ 0 := fun h => h0 (by rw [h, div_zero])
            rw [if_pos (by simp [h0]), div_div_div_cancel_right₀ hw]
        simp only [rel]
  · have hneg : (!fuzzyEq v b1.range.lo b2.range.lo || !fuzzyEq v b1.range.hi b2.range.hi) = true := by
      simp only [SameEdges, not_and_or, Bool.not_eq_true] at hs
      rcases hs with h | h <;> simp [h]
    simp only [divideBin, hneg, if_true]
    simp [hs]

/-- Points standing for the pairs of bins, in order, those pairs with an undefined quotient being
left out if that was asked for. -/
inductive Points (v : Env K) (c : DivConfig K) : List (Bin1D K × Bin1D K) → List (Point2D K) → Prop
  | nil : Points v c [] []
  | skip {a b : Bin1D K} {l : List (Bin1D K × Bin1D K)} {ps : List (Point2D K)} : c.ignoreNaN = true →
      Undefined v a b → Points v c l ps → Points v c ((a, b) :: l) ps
  | keep {a b : Bin1D K} {l : List (Bin1D K × Bin1D K)} {p : Point2D K} {ps : List (Point2D K)} :
      ¬ (Undefined v a b ∧ c.ignoreNaN = true) →
      Quotient v c a b p → Points v c l ps → Points v c ((a, b) :: l) (p :: ps)

/-- The options of a call. -/
inductive Opt (K : Type)
  | ignoreNaNs
  | replaceNaNs (x : K)

/-- The functions given to the call. -/
def Opt.fn : Opt K → DivConfig K → DivConfig K
  | .ignoreNaNs => divIgnoreNaNs
  | .replaceNaNs x => divReplaceNaNs x

/-- An option asks to leave out undefined quotients. -/
def Opt.ignores : Opt K → Bool
  | .ignoreNaNs => true
  | .replaceNaNs _ => false

/-- The value an option asks for. -/
def Opt.value : Opt K → Option K
  | .ignoreNaNs => none
  | .replaceNaNs x => some x

/-- What options ask for together: leave out if any says so, replace by the value of the last. -/
def wanted (v : Env K) (opts : List (Opt K)) : DivConfig K :=
  { ignoreNaN := opts.any Opt.ignores, replaceNaN := (opts.filterMap Opt.value).getLastD v.nan }

omit [Field K] [LinearOrder K] [IsStrictOrderedRing K] in
theorem opts_wanted (v : Env K) (opts : List (Opt K)) :
    (opts.map Opt.fn).foldl (fun c o => o c) (newDivConfig v) = wanted v opts := by
  have key : ∀ (opts : List (Opt K)) (c : DivConfig K), (opts.map Opt.fn).foldl (fun c o => o c) c =
      { ignoreNaN := c.ignoreNaN || opts.any Opt.ignores,
        replaceNaN := (opts.filterMap Opt.value).getLastD c.replaceNaN } := by
    intro opts
    induction opts with
    | nil => intro c; simp
    | cons o opts ih =>
      intro c
      rw [List.map_cons, List.foldl_cons, ih]
      cases o with
      | ignoreNaNs => simp [Opt.fn, divIgnoreNaNs, Opt.ignores, Opt.value]
      | replaceNaNs x =>
        simp only [Opt.fn, divReplaceNaNs, List.any_cons, Opt.ignores, Bool.false_or, DivConfig.mk.injEq, true_and]
        have h : (Opt.replaceNaNs x :: opts).filterMap Opt.value = x :: opts.filterMap Opt.value := rfl
        rw [h, List.getLastD_cons]
  rw [key]
  simp [newDivConfig, wanted]

omit [IsStrictOrderedRing K] in
/-- **C90** (part): for histograms with the same number of bins, the quotient is refused exactly when
some pair of bins differs by more than the tolerance; otherwise its points are the quotients
of the heights of the bins, in order, spanning the bins of the numerator, with the relative
errors added in quadrature.  A quotient that is
not defined is replaced by the value asked for or left out.  Exact arithmetic.  Missing:
histograms with different numbers of bins, for which the claim is false. -/
theorem C90_quotient_partial (v : Env K) (opts : List (Opt K)) (num den : Binning1D K)
    (hl : num.bins.length = den.bins.length) :
    (divideH1D v (opts.map Opt.fn) num den = .err ↔ ∃ q ∈ num.bins.zip den.bins, ¬ SameEdges v q.1 q.2) ∧
    ((∀ q ∈ num.bins.zip den.bins, SameEdges v q.1 q.2) → ∃ ps, divideH1D v (opts.map Opt.fn) num den = .ok ps ∧
      Points v (wanted v opts) (num.bins.zip den.bins) ps) := by
  simp only [divideH1D, opts_wanted]
  generalize wanted v opts = c
  generalize num.bins = l1 at *
  generalize den.bins = l2 at *
  have key : ∀ (l1 l2 : List (Bin1D K)), l1.length = l2.length →
      ((∃ q ∈ l1.zip l2, ¬ SameEdges v q.1 q.2) → divideLoop v c l1 l2 = .err) ∧
      ((∀ q ∈ l1.zip l2, SameEdges v q.1 q.2) → ∃ ps, divideLoop v c l1 l2 = .ok ps ∧
        Points v c (l1.zip l2) ps) := by
    intro l1
    induction l1 with
    | nil =>
      intro l2 h
      cases l2 with
      | cons b l2 => simp at h
      | nil => exact ⟨by simp, fun _ => ⟨[], rfl, .nil⟩⟩
    | cons a l1 ih =>
      intro l2 h
      cases l2 with
      | nil => simp at h
      | cons b l2 =>
        obtain ⟨i1, i2⟩ := ih l2 (by simpa using h)
        obtain ⟨s1, s2, s3⟩ := divideBin_spec v c a b
        constructor
        · rintro ⟨q, hq, hne⟩
          simp only [divideLoop]
          rcases hb : divideBin v c a b with _ | p
          · rfl
          · have hsame : SameEdges v a b := by
              by_contra hn
              rw [s1.mpr hn] at hb
              cases hb
            simp only [List.zip_cons_cons, List.mem_cons] at hq
            rcases hq with rfl | hq
            · exact absurd hsame hne
            · simp only [i1 ⟨q, hq, hne⟩]
        · intro hall
          have hsame : SameEdges v a b := hall (a, b) (by simp)
          obtain ⟨ps, e, hps⟩ := i2 (fun q hq => hall q (by simp [hq]))
          simp only [divideLoop, List.zip_cons_cons]
          rcases hb : divideBin v c a b with _ | (_ | p)
          · exact absurd hsame (s1.mp hb)
          · simp only [e]
            obtain ⟨-, u1, u2⟩ := s2.mp hb
            exact ⟨_, rfl, .skip u2 u1 hps⟩
          · simp only [e]
            obtain ⟨-, hq, hk⟩ := s3 p hb
            exact ⟨_, rfl, .keep hk hq hps⟩
  obtain ⟨k1, k2⟩ := key l1 l2 hl
  refine ⟨⟨fun he => ?_, k1⟩, k2⟩
  by_contra hno
  push Not at hno
  obtain ⟨ps, e, -⟩ := k2 hno
  rw [e] at he
  cases he

/-- The tolerances: equal edges count as equal. -/
theorem C90_same_edges (v : Env K) (hhalf : v.half = 1 / 2) (ht : 0 < v.tol) (hs : 0 < v.tiny) (x : K) :
    fuzzyEq v x x = true := by
  by_cases hx : x = 0
  · subst hx
    simp [fuzzyEq, fabs, flt_exact, hs]
  · have hpos : 0 < fabs x := by
      simp only [fabs, flt_exact, decide_eq_true_eq]
      split
      · rename_i h; linarith
      · rename_i h; exact lt_of_le_of_ne (not_lt.mp h) (Ne.symm hx)
    have h0 : fabs (x - x) = 0 := by simp [fabs, flt_exact]
    have e : v.half * (fabs x + fabs x) = fabs x := by rw [hhalf]; ring
    simp only [fuzzyEq, h0, e, flt_exact, decide_eq_true (mul_pos ht hpos), Bool.or_true]

end Quot

/-- A histogram of rational numbers with the given bins, one entry of weight `w` in each. -/
def histOf (l : List (ℚ × ℚ × ℚ)) : Binning1D ℚ :=
  { bins := l.map fun p => ⟨⟨p.1, p.2.1⟩, ⟨⟨1, p.2.2, p.2.2 * p.2.2⟩, 0, 0⟩⟩
    dist := .zero, under := .zero, over := .zero, xrange := ⟨0, 1⟩ }

/-- **C90 fails** for different numbers of bins, which are binnings that are not compatible: with
bins missing in the denominator the call panics instead of returning an error, and with more
bins in the denominator no error is returned. -/
theorem C90_number_of_bins_counterexample :
    divideH1D ratEnv [] (histOf [(0, 1, 3), (1, 2, 4)]) (histOf [(0, 1, 2)]) = .panic ∧
    divideH1D ratEnv [] (histOf []) (histOf [(0, 1, 2)]) = .ok [] ∧
    (∃ p, divideH1D ratEnv [] (histOf [(0, 1, 3)]) (histOf [(0, 1, 2), (1, 2, 5)]) = .ok [p]) := by
  refine ⟨by decide +kernel, by decide +kernel, ?_⟩
  refine ⟨⟨1 / 2, 3 / 2, ⟨1 / 2, 1 / 2⟩, ⟨39 / 2, 39 / 2⟩⟩, ?_⟩
  decide +kernel

end Verif.Hbook.Prof
