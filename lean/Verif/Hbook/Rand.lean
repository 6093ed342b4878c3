import Verif.Hbook.Grid
import Mathlib.Algebra.Order.Field.Basic
import Mathlib.Tactic.FieldSimp
import Mathlib.Tactic.Linarith
import Mathlib.Algebra.Order.BigOperators.Group.List
import Mathlib.Data.Rat.Cast.Order

/-!
# Uniform binnings (C30), sampling (C31) over an ordered field, and examples

The numbers are the elements of a linearly ordered field: exact arithmetic.
-/

namespace Verif.Hbook

section Field
variable {K : Type} [Field K] [LinearOrder K] [IsStrictOrderedRing K]

theorem flt_exact {L : Type} [LinearOrder L] (x y : L) : flt x y = decide (x < y) := by
  unfold flt
  simp only [val]
  simp [WithBot.coe_lt_coe, WithTop.coe_lt_coe]

theorem fle_exact {L : Type} [LinearOrder L] (x y : L) : fle x y = decide (x ≤ y) := by
  unfold fle
  simp only [val]
  simp [WithBot.coe_le_coe, WithTop.coe_le_coe]

theorem feq_exact {L : Type} [LinearOrder L] (x y : L) : feq x y = decide (x = y) := by
  unfold feq
  simp only [val]
  simp

theorem isNaN_exact {L : Type} [LinearOrder L] (x : L) : isNaN x = false := rfl

theorem width_exact (r : Range K) (h : r.lo ≤ r.hi) : r.width = r.hi - r.lo := by
  unfold Range.width
  rw [if_neg]
  rw [flt_exact]
  simp [h]

/-- The edges of the uniform binning. -/
def uniformEdge (n : Nat) (a b : K) (i : Nat) : K := a + (i : K) * ((b - a) / (n : K))

theorem uniformEdge_lt {n : Nat} {a b : K} (hn : 0 < n) (hab : a < b) {i j : Nat} (hij : i < j) :
    uniformEdge n a b i < uniformEdge n a b j := by
  have hw : 0 < (b - a) / (n : K) := div_pos (sub_pos.mpr hab) (by exact_mod_cast hn)
  have : (i : K) < (j : K) := by exact_mod_cast hij
  unfold uniformEdge
  have := mul_lt_mul_of_pos_right this hw
  linarith

/-- **C30** (uniform binnings, exact arithmetic): the constructor succeeds exactly when the
limits increase and the number of bins is positive; the bins are then consecutive, of
equal width, and exactly cover the axis. -/
theorem C30_uniform (n : Int) (a b : K) :
    ((newBinning1D n a b).isSome ↔ a < b ∧ 0 < n) ∧
    ∀ h, newBinning1D n a b = some h →
      h.bins.length = n.toNat ∧ h.Ordered ∧ h.Empty ∧ h.Gapless ∧ h.xrange = ⟨a, b⟩ ∧
      (∀ r ∈ h.ranges, r.hi - r.lo = (b - a) / (n : K)) ∧
      (∀ r, h.ranges.head? = some r → r.lo = a) ∧ (∀ r, h.ranges.getLast? = some r → r.hi = b) := by
  unfold newBinning1D
  by_cases hab : b ≤ a
  · rw [if_pos (by rw [fle_exact]; simpa using hab)]
    exact ⟨⟨fun h => by simp at h, fun h => absurd h.1 (not_lt.mpr hab)⟩, fun h hh => by simp at hh⟩
  rw [if_neg (by rw [fle_exact]; simpa using hab)]
  have hab' : a < b := not_le.mp hab
  by_cases hn : n ≤ 0
  · rw [if_pos hn]
    exact ⟨⟨fun h => by simp at h, fun h => absurd h.2 (not_lt.mpr hn)⟩, fun h hh => by simp at hh⟩
  rw [if_neg hn]
  have hn' : 0 < n := not_le.mp hn
  refine ⟨⟨fun _ => ⟨hab', hn'⟩, fun _ => rfl⟩, ?_⟩
  obtain ⟨m, rfl⟩ : ∃ m : Nat, n = m := ⟨n.toNat, by omega⟩
  have hm : 0 < m := by omega
  intro h hh
  simp only [Option.some.injEq, Int.toNat_natCast] at hh
  rw [width_exact _ (le_of_lt hab')] at hh
  simp only [Int.toNat_natCast, Int.cast_natCast]
  have hrs : h = freshBinning ((List.range m).map fun i => ⟨uniformEdge m a b i, uniformEdge m a b (i + 1)⟩) ⟨a, b⟩ := by
    rw [← hh]; rfl
  have e0 : uniformEdge m a b 0 = a := by simp [uniformEdge]
  have em : uniformEdge m a b m = b := by
    unfold uniformEdge
    have : (m : K) ≠ 0 := by exact_mod_cast (Nat.pos_iff_ne_zero.mp hm)
    field_simp; ring
  have hord : OrderedRanges ((List.range m).map fun i => (⟨uniformEdge m a b i, uniformEdge m a b (i + 1)⟩ : Range K)) := by
    refine ⟨?_, ?_⟩
    · intro r hr
      obtain ⟨i, -, rfl⟩ := List.mem_map.mp hr
      rw [fle_exact]
      simpa using le_of_lt (uniformEdge_lt hm hab' (Nat.lt_succ_self i))
    · rw [List.pairwise_map]
      refine List.Pairwise.imp ?_ List.pairwise_lt_range
      intro i j hij
      rw [fle_exact]
      rcases Nat.lt_or_ge (i + 1) j with h1 | h1
      · simpa using le_of_lt (uniformEdge_lt hm hab' h1)
      · have : i + 1 = j := by omega
        simp [this]
  obtain ⟨k, rfl⟩ : ∃ k, m = k + 1 := ⟨m - 1, by omega⟩
  have hhead : ((List.range (k + 1)).map fun i => (⟨uniformEdge (k + 1) a b i, uniformEdge (k + 1) a b (i + 1)⟩ : Range K)).head?
      = some ⟨a, uniformEdge (k + 1) a b 1⟩ := by
    rw [List.head?_map, List.head?_range]
    simp [e0]
  have hlast : ((List.range (k + 1)).map fun i => (⟨uniformEdge (k + 1) a b i, uniformEdge (k + 1) a b (i + 1)⟩ : Range K)).getLast?
      = some ⟨uniformEdge (k + 1) a b k, b⟩ := by
    rw [List.getLast?_map, List.range_succ, List.getLast?_append]
    simp [em]
  rw [hrs]
  refine ⟨by simp [freshBinning], ?_, fresh_empty _ _, ?_, rfl, ?_, ?_, ?_⟩
  · exact fresh_ordered hord hhead hlast
  · intro x hb ha
    obtain ⟨-, h2, -⟩ := not_above ha
    rw [fresh_ranges]
    have hxa : a ≤ x := by
      have : ¬ x < a := by simpa [Binning1D.Below, freshBinning, flt_exact] using hb
      exact not_lt.mp this
    have hxb : x < b := by
      have : ¬ b ≤ x := by simpa [freshBinning, fle_exact] using h2
      exact not_le.mp this
    have key : ∀ j, j ≤ k + 1 → x < uniformEdge (k + 1) a b j →
        ∃ i, i < j ∧ uniformEdge (k + 1) a b i ≤ x ∧ x < uniformEdge (k + 1) a b (i + 1) := by
      intro j
      induction j with
      | zero => intro _ hx; rw [e0] at hx; exact absurd hx (not_lt.mpr hxa)
      | succ j ih =>
        intro hj hx
        by_cases hlt : x < uniformEdge (k + 1) a b j
        · obtain ⟨i, hi, h3⟩ := ih (by omega) hlt
          exact ⟨i, by omega, h3⟩
        · exact ⟨j, by omega, not_lt.mp hlt, hx⟩
    obtain ⟨i, hi, h3, h4⟩ := key (k + 1) (le_refl _) (by rw [em]; exact hxb)
    refine ⟨_, List.mem_map.mpr ⟨i, List.mem_range.mpr hi, rfl⟩, ?_, ?_⟩
    · rw [fle_exact]; simpa using h3
    · rw [flt_exact]; simpa using h4
  · rw [fresh_ranges]
    intro r hr
    obtain ⟨i, -, rfl⟩ := List.mem_map.mp hr
    simp only [uniformEdge]
    push_cast
    ring
  · rw [fresh_ranges, hhead]
    intro r hr
    cases hr; rfl
  · rw [fresh_ranges, hlast]
    intro r hr
    cases hr; rfl

/-! ## C31 -/

theorem partialSums_get (ws : List K) (s : K) (i : Nat) (hi : i < ws.length) :
    (partialSums s ws)[i]? = some (s + (ws.take (i + 1)).sum) := by
  induction ws generalizing s i with
  | nil => simp at hi
  | cons w ws ih =>
    cases i with
    | zero => simp [partialSums]
    | succ i =>
      rw [partialSums, List.getElem?_cons_succ, ih _ _ (by simpa using hi)]
      simp [add_assoc]

theorem partialSums_length (ws : List K) (s : K) : (partialSums s ws).length = ws.length := by
  induction ws generalizing s with
  | nil => rfl
  | cons w ws ih => simp [partialSums, ih]

theorem cdf_get (ws : List K) (i : Nat) (hi : i ≤ ws.length) :
    ((0 : K) :: partialSums 0 ws)[i]? = some (ws.take i).sum := by
  cases i with
  | zero => simp
  | succ i => rw [List.getElem?_cons_succ, partialSums_get _ _ _ (by omega)]; simp

theorem take_sum_mono (ws : List K) (hw : ∀ w ∈ ws, 0 ≤ w) {i j : Nat} (hij : i ≤ j) :
    (ws.take i).sum ≤ (ws.take j).sum := by
  have : ws.take j = ws.take i ++ (ws.take j).drop i := by
    conv_lhs => rw [← List.take_append_drop i (ws.take j)]
    rw [List.take_take, Nat.min_eq_left hij]
  rw [this, List.sum_append]
  have : 0 ≤ ((ws.take j).drop i).sum := by
    apply List.sum_nonneg
    intro x hx
    exact hw x (List.mem_of_mem_take (List.mem_of_mem_drop hx))
  linarith

/-- **C31** (part, exact arithmetic): for a histogram with bins of one common width,
contents that are not negative and a positive integral, a random draw `y` of `[0, 1)`
yields a number inside the bin in which the normalised cumulative distribution passes
`y`.  Missing: bins of different widths, see the counterexample. -/
theorem C31_rand_partial (h : Binning1D K) (width : K)
    (hwidth : ∀ r ∈ h.ranges, r.lo < r.hi ∧ r.hi - r.lo = width)
    (hw : ∀ b ∈ h.bins, 0 ≤ b.dist.dist.sumW) (hs : 0 < (h.bins.map (·.dist.dist.sumW)).sum)
    (y : K) (hy0 : 0 ≤ y) (hy1 : y < 1) :
    ∃ d x, newRand1D h = some d ∧ d.rand y = some x ∧
      ∃ i r, h.ranges[i]? = some r ∧ r.lo ≤ x ∧ x < r.hi ∧
        ((h.bins.map (·.dist.dist.sumW)).take i).sum ≤ y * (h.bins.map (·.dist.dist.sumW)).sum ∧
        y * (h.bins.map (·.dist.dist.sumW)).sum < ((h.bins.map (·.dist.dist.sumW)).take (i + 1)).sum := by
  generalize hws : h.bins.map (·.dist.dist.sumW) = ws at *
  have hlen : ws.length = h.ranges.length := by rw [← hws]; simp [Binning1D.ranges]
  have hw' : ∀ w ∈ ws, 0 ≤ w := by
    intro w hwm
    rw [← hws] at hwm
    obtain ⟨b, hb, rfl⟩ := List.mem_map.mp hwm
    exact hw b hb
  have hpos : 0 < ws.length := by
    rcases Nat.eq_zero_or_pos ws.length with h0 | h0
    · rw [List.eq_nil_of_length_eq_zero h0] at hs; simp at hs
    · exact h0
  generalize hS : ws.sum = S at *
  have hS0 : S ≠ 0 := ne_of_gt hs
  obtain ⟨last, hlast⟩ : ∃ last, h.ranges.getLast? = some last := by
    cases hl : h.ranges.getLast? with
    | none => rw [List.getLast?_eq_none_iff] at hl; rw [hl] at hlen; simp only [List.length_nil] at hlen; omega
    | some r => exact ⟨r, rfl⟩
  have hsum : ((0 : K) :: partialSums 0 ws).getLast? = some S := by
    rw [List.getLast?_eq_getElem?, List.length_cons, partialSums_length]
    rw [Nat.add_sub_cancel, cdf_get _ _ (le_refl _), List.take_length, hS]
  have hd : newRand1D h = some { bins := h.ranges ++ [⟨last.hi, last.hi + last.width⟩], cdf := ((0 : K) :: partialSums 0 ws).map (· * (1 / S)) } := by
    unfold newRand1D
    simp only [hws, hlast, hsum]
  generalize hdd : Rand1D.mk (h.ranges ++ [⟨last.hi, last.hi + last.width⟩]) (((0 : K) :: partialSums 0 ws).map (· * (1 / S))) = d at hd
  have hcdf : ∀ i, i ≤ ws.length → d.cdf[i]? = some ((ws.take i).sum * (1 / S)) := by
    intro i hi
    rw [← hdd]
    simp only [List.getElem?_map, cdf_get _ _ hi, Option.map_some]
  have hclen : d.cdf.length - 1 = ws.length := by
    rw [← hdd]; simp [partialSums_length]
  have hf : ∀ i, i < ws.length → (d.below y i = true ↔
      y * S < (ws.take (i + 1)).sum) := by
    intro i hi
    unfold Rand1D.below
    rw [hcdf (i + 1) (by omega)]
    simp only [flt_exact, decide_eq_true_eq]
    rw [mul_one_div, lt_div_iff₀ hs]
  have mono : ∀ a b, a ≤ b → b < ws.length →
      d.below y a = true →
      d.below y b = true := by
    intro a b hab hb ha
    rw [hf a (by omega)] at ha
    rw [hf b hb]
    exact lt_of_lt_of_le ha (take_sum_mono ws hw' (by omega))
  have hspec := goSearch_spec mono
  have hle := goSearch_le ws.length (d.below y)
  have hi : d.search y < ws.length := by
    unfold Rand1D.search
    rw [hclen]
    rcases Nat.lt_or_ge (goSearch ws.length (d.below y)) ws.length with h1 | h1
    · exact h1
    · exfalso
      have := hspec.1 (ws.length - 1) (by omega)
      have h2 : ¬ (y * S < (ws.take (ws.length - 1 + 1)).sum) := by
        rw [← hf _ (by omega), this]; simp
      apply h2
      rw [Nat.sub_add_cancel hpos, List.take_length, hS]
      have := mul_lt_mul_of_pos_right hy1 hs
      linarith
  have hup : y * S < (ws.take (d.search y + 1)).sum := by
    rw [← hf _ hi]
    have := hspec.2
    unfold Rand1D.search at hi ⊢
    rw [hclen] at hi ⊢
    exact this hi
  have hlow : (ws.take (d.search y)).sum ≤ y * S := by
    rcases Nat.eq_zero_or_pos (d.search y) with h0 | h0
    · rw [h0]; simp; exact mul_nonneg hy0 (le_of_lt hs)
    · have h1 := hspec.1 (d.search y - 1) (by
        have hse : d.search y = goSearch ws.length (d.below y) := by unfold Rand1D.search; rw [hclen]
        omega)
      have h2 : ¬ (y * S < (ws.take (d.search y - 1 + 1)).sum) := by
        rw [← hf _ (by omega), h1]; simp
      rw [Nat.sub_add_cancel h0] at h2
      exact not_lt.mp h2
  generalize hi' : d.search y = i at *
  have hri : h.ranges[i]? = some (h.ranges[i]'(by omega)) := List.getElem?_eq_getElem (by omega)
  generalize h.ranges[i]'(by omega) = r at hri
  have hrm : r ∈ h.ranges := List.mem_of_getElem? hri
  obtain ⟨hr1, hr2⟩ := hwidth r hrm
  have hdr : d.bins[i]? = some r := by
    rw [← hdd]
    simp only
    rw [List.getElem?_append_left (by omega)]
    exact hri
  -- the width of the next bin
  have hnext : ∃ q, d.bins[i + 1]? = some q ∧ q.xwidth = width := by
    rw [← hdd]
    simp only
    rcases Nat.lt_or_ge (i + 1) h.ranges.length with h1 | h1
    · rw [List.getElem?_append_left h1]
      exact ⟨_, List.getElem?_eq_getElem h1, (hwidth _ (List.getElem_mem h1)).2⟩
    · have h2 : i + 1 = h.ranges.length := by omega
      rw [h2, List.getElem?_append_right (le_refl _)]
      refine ⟨⟨last.hi, last.hi + last.width⟩, by simp, ?_⟩
      obtain ⟨l1, l2⟩ := hwidth last (List.mem_of_getLast? hlast)
      simp only [Range.xwidth, width_exact last (le_of_lt l1)]
      rw [← l2]; ring
  obtain ⟨q, hq, hqw⟩ := hnext
  have hw0 : 0 < width := by rw [← hr2]; exact sub_pos.mpr hr1
  have hc0 := hcdf i (by omega)
  have hc1 := hcdf (i + 1) (by omega)
  have hdiff : (ws.take i).sum < (ws.take (i + 1)).sum := lt_of_le_of_lt hlow hup
  by_cases hlt : (ws.take i).sum * (1 / S) < y
  · refine ⟨d, r.lo + q.xwidth * (y - (ws.take i).sum * (1 / S)) / ((ws.take (i + 1)).sum * (1 / S) - (ws.take i).sum * (1 / S)),
      hd, ?_, i, r, hri, ?_, ?_, hlow, hup⟩
    · unfold Rand1D.rand
      simp only [hi', hdr, hc0, hq, hc1]
      rw [if_pos (by rw [flt_exact]; simpa using hlt)]
    · have hden : 0 < (ws.take (i + 1)).sum * (1 / S) - (ws.take i).sum * (1 / S) := by
        rw [← sub_mul]; exact mul_pos (sub_pos.mpr hdiff) (by positivity)
      have : 0 ≤ q.xwidth * (y - (ws.take i).sum * (1 / S)) / ((ws.take (i + 1)).sum * (1 / S) - (ws.take i).sum * (1 / S)) := by
        apply div_nonneg _ (le_of_lt hden)
        rw [hqw]
        exact mul_nonneg (le_of_lt hw0) (by linarith)
      linarith
    · have hden : 0 < (ws.take (i + 1)).sum * (1 / S) - (ws.take i).sum * (1 / S) := by
        rw [← sub_mul]; exact mul_pos (sub_pos.mpr hdiff) (by positivity)
      have hyc : y < (ws.take (i + 1)).sum * (1 / S) := by
        rw [mul_one_div, lt_div_iff₀ hs]; exact hup
      have : q.xwidth * (y - (ws.take i).sum * (1 / S)) / ((ws.take (i + 1)).sum * (1 / S) - (ws.take i).sum * (1 / S)) < width := by
        rw [div_lt_iff₀ hden, hqw]
        apply mul_lt_mul_of_pos_left _ hw0
        linarith
      linarith
  · refine ⟨d, r.lo, hd, ?_, i, r, hri, le_refl _, hr1, hlow, hup⟩
    unfold Rand1D.rand
    simp only [hi', hdr, hc0]
    rw [if_neg (by rw [flt_exact]; simpa using hlt)]

end Field

/-- A histogram over the rationals with bins `[0,1)` and `[1,10)` of content one each. -/
def skewed : Binning1D Rat :=
  { bins := [⟨⟨0, 1⟩, ⟨⟨1, 1, 1⟩, 0, 0⟩⟩, ⟨⟨1, 10⟩, ⟨⟨1, 1, 1⟩, 0, 0⟩⟩]
    dist := ⟨⟨2, 2, 2⟩, 0, 0⟩, under := .zero, over := .zero, xrange := ⟨0, 10⟩ }

/-- **C31**, what the code violates: for bins of different widths the draw uses the width
of the next bin, so that a draw selecting the bin `[0,1)` gives a number outside of it. -/
theorem C31_variable_bins_counterexample :
    ∃ d, newRand1D skewed = some d ∧ d.search (1/4 : Rat) = 0 ∧ d.rand (1/4 : Rat) = some (9/2 : Rat) :=
  ⟨⟨[⟨0, 1⟩, ⟨1, 10⟩, ⟨10, 19⟩], [0, 1/2, 1]⟩, by decide +kernel, by decide +kernel, by decide +kernel⟩

/-- **C31**, what the code violates: the cumulative distribution panics for a coordinate in
a gap between two bins. -/
theorem C31_cdf_gap_counterexample :
    ∃ h d, newBinning1DFromBins sortRanges [⟨(0 : Rat), 1⟩, ⟨2, 3⟩] = some h ∧
      newRand1D h = some d ∧ d.cdfAt (3/2 : Rat) = none :=
  ⟨freshBinning [⟨0, 1⟩, ⟨2, 3⟩] ⟨0, 3⟩, ⟨[⟨0, 1⟩, ⟨2, 3⟩, ⟨3, 4⟩], [0, 0, 0]⟩,
    by decide +kernel, by decide +kernel, by decide +kernel⟩

/-! ## C61 -/

section
variable {F α : Type} [LinearOrder α] [BoundedOrder α] [GoFloat F α] [Add F] [Mul F]

omit [BoundedOrder α] in
/-- **C61** (part): histograms with a different number of bins or different axis limits
are refused.  Missing: histograms that differ in their inner edges only, see the
counterexample. -/
theorem C61_mismatch_refused_partial (h1 h2 : Binning1D F) (f : F)
    (h : h1.bins.length ≠ h2.bins.length ∨ feq h1.xrange.lo h2.xrange.lo = false ∨
      feq h1.xrange.hi h2.xrange.hi = false) : addScaledH1D h1 f h2 = none := by
  unfold addScaledH1D
  by_cases hl : h1.bins.length ≠ h2.bins.length
  · rw [if_pos hl]
  · rw [if_neg hl]
    rcases h with h | h | h
    · exact absurd h hl
    · rw [h]; rfl
    · rw [h]; simp

end

/-- **C61**, what the code violates: two histograms over `[0,10)` with the inner edge at 1
and at 9, each filled once at 5, are added although their binnings differ.  The sum
claims an entry in `[0,1)`, where nothing was filled. -/
theorem C61_inner_edges_counterexample :
    ∃ h1 h2 g1 g2 s : Binning1D Int, newBinning1DFromEdges [0, 1, 10] = some h1 ∧
      newBinning1DFromEdges [0, 9, 10] = some h2 ∧ h1.fill 5 1 = some g1 ∧ h2.fill 5 1 = some g2 ∧
      addH1D g1 g2 = some s ∧ h1.fills [(5, 1), (5, 1)] ≠ some s ∧
      s.bins.map (fun b => (b.range.lo, b.range.hi, b.dist.dist.n)) = [(0, 1, 1), (1, 10, 1)] := by
  refine ⟨freshBinning [⟨0, 1⟩, ⟨1, 10⟩] ⟨0, 10⟩, freshBinning [⟨0, 9⟩, ⟨9, 10⟩] ⟨0, 10⟩,
    ⟨[⟨⟨0, 1⟩, .zero⟩, ⟨⟨1, 10⟩, ⟨⟨1, 1, 1⟩, 5, 25⟩⟩], ⟨⟨1, 1, 1⟩, 5, 25⟩, .zero, .zero, ⟨0, 10⟩⟩,
    ⟨[⟨⟨0, 9⟩, ⟨⟨1, 1, 1⟩, 5, 25⟩⟩, ⟨⟨9, 10⟩, .zero⟩], ⟨⟨1, 1, 1⟩, 5, 25⟩, .zero, .zero, ⟨0, 10⟩⟩,
    ⟨[⟨⟨0, 1⟩, ⟨⟨1, 1, 1⟩, 5, 25⟩⟩, ⟨⟨1, 10⟩, ⟨⟨1, 1, 1⟩, 5, 25⟩⟩], ⟨⟨2, 2, 2⟩, 10, 50⟩, .zero, .zero, ⟨0, 10⟩⟩,
    ?_, ?_, ?_, ?_, ?_, ?_, ?_⟩ <;> decide +kernel

/-! ## Examples -/

/-- Bins `[0,2)`, `[2,5)`, gap, `[7,9)`. -/
def demo : Binning1D XInt :=
  freshBinning [⟨.fin 0, .fin 2⟩, ⟨.fin 2, .fin 5⟩, ⟨.fin 7, .fin 9⟩] ⟨.fin 0, .fin 9⟩

theorem demo_ordered : demo.Ordered :=
  ⟨by decide, ⟨by decide +kernel, by decide +kernel⟩,
    by intro r hr; have : r = ⟨.fin 0, .fin 2⟩ := by injection hr with hr; exact hr.symm
       subst this; decide +kernel, by decide +kernel⟩

-- The hypotheses of C23, C24 hold for `demo`; values reach a bin, the gap and the outflows.
example : demo.coordToIndex (.fin 4) = 1 ∧ demo.coordToIndex (.fin 5) = 3 ∧ demo.coordToIndex (.fin (-1)) = -1 ∧
    demo.coordToIndex .nan = -2 ∧ demo.coordToIndex .pinf = -2 ∧ demo.coordToIndex .ninf = -1 ∧
    demo.coordToIndex (.fin 9) = -2 := by decide +kernel

example : ∃ h', demo.fill (.fin 4) (.fin 3) = some h' ∧
    h'.bins.map (·.dist.dist.sumW) = [.fin 0, .fin 3, .fin 0] := by
  obtain ⟨h', e, -⟩ := C23_fill demo demo_ordered (.fin 4) (.fin 3)
  refine ⟨h', e, ?_⟩
  have : h' = demo.filled (.fin 4) (.fin 3) := by
    rw [fill_eq demo demo_ordered] at e; injection e with e; exact e.symm
  subst this
  decide +kernel

example : ∃ h', demo.fills [(.fin 4, .fin 3), (.fin 6, .fin 1), (.nan, .fin 2), (.fin 4, .fin 5)] = some h' ∧
    demo.AfterFills [(.fin 4, .fin 3), (.fin 6, .fin 1), (.nan, .fin 2), (.fin 4, .fin 5)] h' :=
  C24_fills demo demo_ordered _

-- C28 applies to `demo`.
example : ∃ h', demo.fills [(.fin 4, .fin 3), (.fin 8, .fin 4)] = some h' ∧
    h'.integral [] = some (.fin 7) ∧ h'.integral [.ninf, .pinf] = some (.fin 7) := by
  obtain ⟨h', e, i1, i2⟩ := C28_integral demo demo_ordered (fresh_empty _ _) [(.fin 4, .fin 3), (.fin 8, .fin 4)]
    .ninf .pinf rfl rfl (by
      intro r hr
      have : r = ⟨.fin 0, .fin 2⟩ ∨ r = ⟨.fin 2, .fin 5⟩ ∨ r = ⟨.fin 7, .fin 9⟩ := by
        simpa [demo, fresh_ranges] using hr
      rcases this with rfl | rfl | rfl
      · exact ⟨_, rfl, by decide⟩
      · exact ⟨_, rfl, by decide⟩
      · exact ⟨_, rfl, by decide⟩)
  have : h' = ((demo.filled (.fin 4) (.fin 3)).filled (.fin 8) (.fin 4)) := by
    rw [Binning1D.fills, fill_eq demo demo_ordered] at e
    dsimp only at e
    rw [Binning1D.fills, fill_eq _ (filled_ordered demo_ordered _ _)] at e
    injection e with e; exact e.symm
  subst this
  exact ⟨_, e, i1, by rw [i2]; decide +kernel⟩

/-- A gapless histogram over the integers, for the exact theorems. -/
def demoInt : Binning1D Int := freshBinning [⟨0, 2⟩, ⟨2, 5⟩] ⟨0, 5⟩

theorem demoInt_eq : newBinning1DFromEdges [0, 2, 5] = some demoInt := by decide +kernel

theorem demoInt_ok : demoInt.Ordered ∧ demoInt.Empty ∧ demoInt.Gapless :=
  ((C30_edges_partial [0, 2, 5] (fun _ _ => rfl)).2 demoInt demoInt_eq).2.2.2.2

-- C24_totals, C25, C26 and C27 apply to `demoInt`.
example : ∃ h', demoInt.fills [(1, 2), (4, 3), (7, -1)] = some h' ∧
    (h'.bins.map (·.dist.dist.sumW)).sum + h'.under.dist.sumW + h'.over.dist.sumW = h'.dist.dist.sumW := by
  obtain ⟨h', e, -, hs, -⟩ := C24_totals demoInt demoInt_ok.1 demoInt_ok.2.1 demoInt_ok.2.2 [(1, 2), (4, 3), (7, -1)]
  exact ⟨h', e, hs⟩

example : ∃ hA hB, demoInt.fills [(1, 2)] = some hA ∧ demoInt.fills [(3, 5)] = some hB ∧
    addH1D hA hB = demoInt.fills [(1, 2), (3, 5)] := by
  obtain ⟨hA, hB, a, b, c, -⟩ := C25_add_is_merge demoInt demoInt_ok.1 demoInt_ok.2.1 [(1, 2)] [(3, 5)] 1
  exact ⟨hA, hB, a, b, c⟩

example : demoInt.fills [(1, 2), (3, 5)] = demoInt.fills [(3, 5), (1, 2)] :=
  C26_fill_order demoInt demoInt_ok.1 _ _ (List.Perm.swap _ _ _)

example : ∃ hA, demoInt.fills [(1, 2), (3, 5)] = some hA ∧
    demoInt.fills [(1, 6), (3, 15)] = some (hA.scaleW 3) :=
  C27_scale demoInt demoInt_ok.1 demoInt_ok.2.1 [(1, 2), (3, 5)] 3

-- C30: bins in any order, and overlapping bins.
example : (newBinning1DFromBins sortRanges [⟨XInt.fin 7, .fin 9⟩, ⟨.fin 0, .fin 2⟩]).isSome ∧
    (newBinning1DFromBins sortRanges [⟨XInt.fin 1, .fin 9⟩, ⟨.fin 0, .fin 2⟩]).isNone := by decide +kernel

/-- Insertion sort sorts numbers. -/
theorem sortRanges_sorts : Sorts (sortRanges : List (Range Int) → _) := by
  have ins_perm : ∀ (r : Range Int) l, (insertRange r l).Perm (r :: l) := by
    intro r l
    induction l with
    | nil => exact List.Perm.refl _
    | cons a l ih =>
      unfold insertRange
      split
      · exact (List.Perm.cons a ih).trans (List.Perm.swap r a l)
      · exact List.Perm.refl _
  have ins_sorted : ∀ (r : Range Int) l, l.Pairwise (fun a b => flt b.lo a.lo = false) →
      (insertRange r l).Pairwise (fun a b => flt b.lo a.lo = false) := by
    intro r l
    induction l with
    | nil => intro _; simp [insertRange]
    | cons a l ih =>
      intro h
      obtain ⟨h1, h2⟩ := List.pairwise_cons.mp h
      unfold insertRange
      by_cases hlt : flt a.lo r.lo = true
      · rw [if_pos hlt]
        refine List.pairwise_cons.mpr ⟨?_, ih h2⟩
        intro b hb
        rcases List.mem_cons.mp ((ins_perm r l).mem_iff.mp hb) with rfl | hb
        · exact not_flt_of_fle (fle_of_flt hlt)
        · exact h1 b hb
      · rw [if_neg hlt]
        refine List.pairwise_cons.mpr ⟨?_, h⟩
        intro b hb
        have hra : fle r.lo a.lo = true := fle_of_not_flt rfl rfl (by simpa using hlt)
        rcases List.mem_cons.mp hb with rfl | hb
        · exact not_flt_of_fle hra
        · exact not_flt_of_fle (fle_trans hra (fle_of_not_flt rfl rfl (h1 b hb)))
  intro l
  induction l with
  | nil => exact ⟨List.Perm.refl _, List.Pairwise.nil⟩
  | cons r l ih => exact ⟨(ins_perm r _).trans (List.Perm.cons r ih.1), ins_sorted r _ ih.2⟩

example : ∃ h : Binning1D Int, newBinning1DFromBins sortRanges [⟨7, 9⟩, ⟨0, 2⟩] = some h ∧ h.Ordered ∧
    h.ranges.Perm [⟨7, 9⟩, ⟨0, 2⟩] := by
  have hp := C30_bins_partial (F := Int) sortRanges sortRanges_sorts [⟨7, 9⟩, ⟨0, 2⟩] (by decide +kernel)
  refine ⟨freshBinning [⟨0, 2⟩, ⟨7, 9⟩] ⟨0, 9⟩, by decide +kernel, ?_, ?_⟩
  · exact (hp.2 _ (by decide +kernel)).2.1
  · exact (hp.2 _ (by decide +kernel)).1

example : ∃ h : Binning1D Rat, newBinning1D 4 (0 : Rat) 1 = some h ∧ h.Gapless := by
  have hu := C30_uniform (K := Rat) 4 0 1
  cases hh : newBinning1D 4 (0 : Rat) 1 with
  | none => rw [hh] at hu; have := hu.1.mpr ⟨by decide +kernel, by decide⟩; simp at this
  | some h => exact ⟨h, rfl, (hu.2 h hh).2.2.2.1⟩

example : demoInt.binAt 3 = some (some ⟨⟨2, 5⟩, .zero⟩) ∧ demoInt.binAt 5 = some none := by decide +kernel
example : (demoInt.binAt 3 = some none ∧ (demoInt.Below 3 ∨ demoInt.Above 3)) ∨
    (∃ b ∈ demoInt.bins, demoInt.binAt 3 = some (some b) ∧ demoInt.Inside b.range 3) :=
  C60_bin_lookup_partial demoInt demoInt_ok.1 demoInt_ok.2.2 3

/-- A grid of two columns and one row, for C29. -/
def demoGrid : Binning2D XInt :=
  (newBinning2DFromEdges [XInt.fin 0, .fin 1, .fin 3] [.fin 0, .fin 2]).get (by decide +kernel)

theorem demoGrid_ok : demoGrid.Grid :=
  ((C29_from_edges [XInt.fin 0, .fin 1, .fin 3] [.fin 0, .fin 2] (by decide) (by decide)).2 demoGrid
    (by simp [demoGrid])).1

-- C29: a cell and a region.
example : ∃ h1 h2 : Binning2D XInt,
    demoGrid.fill (.fin 2) (.fin 1) (.fin 1) = some h1 ∧ h1.bins.map (·.dist.x.dist.n) = [0, 1] ∧
    demoGrid.fill (.fin 2) .nan (.fin 1) = some h2 ∧
    h2.outflows.map (·.x.dist.n) = [0, 1, 0, 0, 0, 0, 0, 0] := by
  obtain ⟨⟨h1, e1, d1, b1, o1, -⟩, -⟩ := C29_fill demoGrid demoGrid_ok (.fin 2) (.fin 1) (.fin 1)
  obtain ⟨⟨h2, e2, d2, b2, o2, -⟩, -⟩ := C29_fill demoGrid demoGrid_ok (.fin 2) .nan (.fin 1)
  exact ⟨h1, h2, e1, by rw [b1]; decide +kernel, e2, by rw [o2]; decide +kernel⟩

/-- A histogram with two bins of the same width, for C31. -/
def evenHist : Binning1D Rat :=
  { bins := [⟨⟨0, 2⟩, ⟨⟨1, 1, 1⟩, 0, 0⟩⟩, ⟨⟨2, 4⟩, ⟨⟨3, 3, 3⟩, 0, 0⟩⟩]
    dist := ⟨⟨4, 4, 4⟩, 0, 0⟩, under := .zero, over := .zero, xrange := ⟨0, 4⟩ }

example : ∃ d x, newRand1D evenHist = some d ∧ d.rand (1/2 : Rat) = some x := by
  obtain ⟨d, x, h1, h2, -⟩ := C31_rand_partial evenHist 2 (by decide +kernel) (by decide +kernel) (by decide +kernel)
    (1/2) (by decide +kernel) (by decide +kernel)
  exact ⟨d, x, h1, h2⟩

end Verif.Hbook
