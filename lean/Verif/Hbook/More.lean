import Verif.Hbook.Rand

/-!
# Filling from slices (C24), integrals between limits (C28), cumulative distribution (C31)
-/

namespace Verif.Hbook

section
variable {F α : Type} [LinearOrder α] [BoundedOrder α] [GoFloat F α]

omit [BoundedOrder α] in
/-- **C24** (slices): filling from slices refuses weights of another length and otherwise is
the same as filling the entries one by one, with weight one if no weights are given. -/
theorem C24_fill_slices [Add F] [Mul F] [One F] (h : Binning1D F) (ho : h.Ordered) (xs : List F) :
    (∃ h', h.fillN xs none = some h' ∧ h.AfterFills (xs.map fun x => (x, 1)) h') ∧
    ∀ ws : List F, (h.fillN xs (some ws) = none ↔ xs.length ≠ ws.length) ∧
      (xs.length = ws.length → ∃ h', h.fillN xs (some ws) = some h' ∧ h.AfterFills (xs.zip ws) h') := by
  refine ⟨C24_fills h ho _, ?_⟩
  intro ws
  obtain ⟨h', e, ha⟩ := C24_fills h ho (xs.zip ws)
  simp only [Binning1D.fillN]
  constructor
  · constructor
    · intro hn hl
      rw [if_neg (by simpa using hl), e] at hn
      cases hn
    · intro hl
      rw [if_pos hl]
  · intro hl
    exact ⟨h', by rw [if_neg (by simpa using hl), e], ha⟩

/-- The bins whose lower edge lies in `[lo, hi)`. -/
def Binning1D.binsBetween (h : Binning1D F) (lo hi : F) : List (Bin1D F) :=
  h.bins.filter fun b => fle lo b.range.lo && flt b.range.lo hi

theorem foldl_if_filter {β γ : Type} [Add γ] (p : β → Bool) (g : β → γ) (l : List β) (s : γ) :
    l.foldl (fun acc b => if p b then acc + g b else acc) s = ((l.filter p).map g).foldl (· + ·) s := by
  induction l generalizing s with
  | nil => rfl
  | cons b l ih =>
    simp only [List.foldl_cons]
    rw [ih]
    cases hp : p b <;> simp [hp]

/-- **C28** (limits): integrating between two limits is refused exactly when the upper limit is
below the lower one; otherwise the integral is the sum of the contents of the bins whose
lower edge lies between the limits, plus the underflow if the lower limit is minus
infinity and the overflow if the upper limit is plus infinity.  Any number of limits
other than none or two is refused. -/
theorem C28_limits [Add F] [Zero F] (h : Binning1D F) :
    (∀ lo hi : F, h.integral [lo, hi] = none ↔ flt hi lo = true) ∧
    (∀ lo hi : F, flt hi lo = false → ∃ s,
      s = ((h.binsBetween lo hi).map (·.dist.dist.sumW)).foldl (· + ·) 0 ∧
      (val lo ≠ some ⊥ → val hi ≠ some ⊤ → h.integral [lo, hi] = some s) ∧
      (val lo = some ⊥ → val hi ≠ some ⊤ → h.integral [lo, hi] = some (s + h.under.dist.sumW)) ∧
      (val lo ≠ some ⊥ → val hi = some ⊤ → h.integral [lo, hi] = some (s + h.over.dist.sumW)) ∧
      (val lo = some ⊥ → val hi = some ⊤ → h.integral [lo, hi] = some (s + h.under.dist.sumW + h.over.dist.sumW))) ∧
    (∀ args : List F, args.length ≠ 0 → args.length ≠ 2 → h.integral args = none) := by
  refine ⟨?_, ?_, ?_⟩
  · intro lo hi
    unfold Binning1D.integral
    cases hf : flt hi lo <;> simp [hf]
  · intro lo hi hf
    refine ⟨_, rfl, ?_⟩
    unfold Binning1D.integral Binning1D.binsBetween
    simp only [hf, foldl_if_filter, Bool.false_eq_true, if_false, isNegInf, isPosInf]
    refine ⟨?_, ?_, ?_, ?_⟩ <;> intro h1 h2 <;> simp [h1, h2]
  · intro args h0 h2
    match args with
    | [] => simp at h0
    | [a] => rfl
    | [a, b] => simp at h2
    | a :: b :: c :: l => rfl

end

section Field
variable {K : Type} [Field K] [LinearOrder K] [IsStrictOrderedRing K]

/-- **C31** (cumulative distribution, exact arithmetic; part): for a histogram with ordered bins
and a positive integral the cumulative distribution is 0 below the first bin, the share of
the contents of the bins before the one containing the coordinate, and 1 at and above the
end of the last bin.  Missing: coordinates in gaps between bins, where it panics. -/
theorem C31_cdf_partial (h : Binning1D K) (ho : OrderedRanges h.ranges)
    (hs : 0 < (h.bins.map (·.dist.dist.sumW)).sum) (first last : Range K)
    (hfirst : h.ranges.head? = some first) (hlast : h.ranges.getLast? = some last) (hl : last.lo < last.hi) :
    ∃ d, newRand1D h = some d ∧
      (∀ x, x < first.lo → d.cdfAt x = some 0) ∧
      (∀ (x : K) (i : Nat) (r : Range K), h.ranges[i]? = some r → r.lo ≤ x → x < r.hi →
        d.cdfAt x = some (((h.bins.map (·.dist.dist.sumW)).take i).sum / (h.bins.map (·.dist.dist.sumW)).sum)) ∧
      (∀ x, last.hi ≤ x → d.cdfAt x = some 1) := by
  generalize hws : h.bins.map (·.dist.dist.sumW) = ws at *
  have hlen : ws.length = h.ranges.length := by rw [← hws]; simp [Binning1D.ranges]
  generalize hS : ws.sum = S at *
  have hsum : ((0 : K) :: partialSums 0 ws).getLast? = some S := by
    rw [List.getLast?_eq_getElem?, List.length_cons, partialSums_length]
    rw [Nat.add_sub_cancel, cdf_get _ _ (le_refl _), List.take_length, hS]
  have hw : last.width = last.hi - last.lo := width_exact last (le_of_lt hl)
  refine ⟨{ bins := h.ranges ++ [⟨last.hi, last.hi + last.width⟩],
            cdf := ((0 : K) :: partialSums 0 ws).map (· * (1 / S)) }, ?_, ?_⟩
  · unfold newRand1D
    simp only [hws, hlast, hsum]
  have hord : OrderedRanges (h.ranges ++ [(⟨last.hi, last.hi + last.width⟩ : Range K)]) := by
    refine ⟨?_, ?_⟩
    · intro r hr
      rcases List.mem_append.mp hr with hr | hr
      · exact ho.1 r hr
      · simp only [List.mem_singleton] at hr
        subst hr
        rw [fle_exact, hw]
        have : (0 : K) ≤ last.hi - last.lo := le_of_lt (sub_pos.mpr hl)
        simpa using this
    · rw [List.pairwise_append]
      refine ⟨ho.2, by simp, ?_⟩
      intro a ha b hb
      simp only [List.mem_singleton] at hb
      subst hb
      exact fle_last ho hlast ha
  have hcdf : ∀ i, i ≤ ws.length →
      (((0 : K) :: partialSums 0 ws).map (· * (1 / S)))[i]? = some ((ws.take i).sum / S) := by
    intro i hi
    simp only [List.getElem?_map, cdf_get _ _ hi, Option.map_some]
    rw [mul_one_div]
  refine ⟨?_, ?_, ?_⟩
  · intro x hx
    have : indexOf (h.ranges ++ [(⟨last.hi, last.hi + last.width⟩ : Range K)]) x = -1 := by
      apply indexOf_under hord (r := first)
      · rw [List.head?_append, hfirst]; rfl
      · rw [flt_exact]; simpa using hx
    unfold Rand1D.cdfAt
    simp only [this, if_true]
  · intro x i r hr h1 h2
    obtain ⟨hi, -⟩ := List.getElem?_eq_some_iff.mp hr
    have : indexOf (h.ranges ++ [(⟨last.hi, last.hi + last.width⟩ : Range K)]) x = i := by
      apply indexOf_bin hord (r := r)
      · rw [List.getElem?_append_left hi]; exact hr
      · exact ⟨by rw [fle_exact]; simpa using h1, by rw [flt_exact]; simpa using h2⟩
    unfold Rand1D.cdfAt
    simp only [this]
    rw [if_neg (by omega), if_neg (by omega), Int.toNat_natCast]
    exact hcdf i (by omega)
  · intro x hx
    unfold Rand1D.cdfAt
    by_cases hx2 : x < last.hi + last.width
    · have : indexOf (h.ranges ++ [(⟨last.hi, last.hi + last.width⟩ : Range K)]) x = (h.ranges.length : Nat) := by
        apply indexOf_bin hord (r := ⟨last.hi, last.hi + last.width⟩)
        · rw [List.getElem?_append_right (le_refl _)]; simp
        · exact ⟨by rw [fle_exact]; simpa using hx, by rw [flt_exact]; simpa using hx2⟩
      simp only [this]
      rw [if_neg (by omega), if_neg (by omega), Int.toNat_natCast, hcdf _ (by omega), ← hlen, List.take_length, hS,
        div_self (ne_of_gt hs)]
    · have : indexOf (h.ranges ++ [(⟨last.hi, last.hi + last.width⟩ : Range K)]) x = -2 := by
        apply indexOf_over
        intro r hr
        rcases List.mem_append.mp hr with hr | hr
        · have h1 := fle_last ho hlast hr
          rw [fle_exact] at h1
          rw [flt_exact]
          have h1' : r.hi ≤ last.hi := by simpa using h1
          simpa using le_trans h1' hx
        · simp only [List.mem_singleton] at hr
          subst hr
          rw [flt_exact]
          simpa using hx2
      simp only [this]
      rw [if_neg (by omega), if_pos trivial]

end Field

/-! ## Examples -/

example : ∃ d, newRand1D skewed = some d ∧ d.cdfAt (5 : Rat) = some (1 / 2) := by
  obtain ⟨d, hd, -, h2, -⟩ := C31_cdf_partial skewed
    ⟨by decide +kernel, by decide +kernel⟩ (by decide +kernel) ⟨0, 1⟩ ⟨1, 10⟩ rfl rfl (by decide +kernel)
  refine ⟨d, hd, ?_⟩
  rw [h2 5 1 ⟨1, 10⟩ rfl (by decide +kernel) (by decide +kernel)]
  decide +kernel

example : skewed.integral [(1 : Rat), 5] = some 1 := by decide +kernel
example : skewed.integral [(5 : Rat), 1] = none := (C28_limits skewed).1 5 1 |>.mpr (by decide +kernel)
example : skewed.fillN [(1 : Rat), 5] (some [1]) = none := by decide +kernel

end Verif.Hbook
