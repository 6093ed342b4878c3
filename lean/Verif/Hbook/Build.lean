import Verif.Hbook.Exact

/-!
# Constructors (C30) and bin lookup (C60)
-/

namespace Verif.Hbook

variable {F α : Type} [LinearOrder α] [BoundedOrder α] [GoFloat F α]

/-- Strictly increasing. -/
def Increasing (edges : List F) : Prop := edges.Pairwise fun a b => flt a b = true

omit [BoundedOrder α] in
theorem increasing_cons_cons {a b : F} {l : List F} :
    Increasing (a :: b :: l) ↔ flt a b = true ∧ Increasing (b :: l) := by
  unfold Increasing
  constructor
  · intro h
    exact ⟨(List.pairwise_cons.mp h).1 b (by simp), (List.pairwise_cons.mp h).2⟩
  · rintro ⟨h1, h2⟩
    refine List.pairwise_cons.mpr ⟨?_, h2⟩
    intro c hc
    rcases List.mem_cons.mp hc with rfl | hc
    · exact h1
    · exact flt_of_flt_fle h1 (fle_of_flt ((List.pairwise_cons.mp h2).1 c hc))

omit [BoundedOrder α] in
theorem sorted_nodup_iff (edges : List F) (hn : ∀ x ∈ edges, isNaN x = false) :
    (isSorted edges = true ∧ (edgeRanges edges).any (fun r => feq r.lo r.hi) = false) ↔ Increasing edges := by
  induction edges with
  | nil => simp [isSorted, edgeRanges, Increasing]
  | cons a l ih =>
    cases l with
    | nil => simp [isSorted, edgeRanges, Increasing]
    | cons b l =>
      have ih' := ih (fun x hx => hn x (by simp [hx]))
      rw [increasing_cons_cons, ← ih']
      have ha := hn a (by simp)
      have hb := hn b (by simp)
      simp only [isSorted, edgeRanges, List.any_cons, sliceLess, hb, Bool.false_and, Bool.or_false,
        Bool.and_eq_true, Bool.not_eq_true', Bool.or_eq_false_iff]
      have key : (flt b a = false ∧ feq a b = false) ↔ flt a b = true := by
        constructor
        · rintro ⟨h1, h2⟩
          have h3 := fle_of_not_flt hb ha h1
          rw [fle_iff] at h3
          obtain ⟨x, y, hx, hy, hxy⟩ := h3
          rw [flt_iff]
          refine ⟨x, y, hx, hy, lt_of_le_of_ne hxy ?_⟩
          rintro rfl
          rw [feq_iff.mpr ⟨x, hx, hy⟩] at h2
          exact absurd h2 (by simp)
        · intro h
          refine ⟨not_flt_of_fle (fle_of_flt h), ?_⟩
          cases hf : feq a b with
          | false => rfl
          | true =>
            have := not_fle_of_flt h
            rw [fle_of_feq (feq_symm hf)] at this
            exact absurd this (by simp)
      rw [← key]
      tauto

omit [BoundedOrder α] in
theorem edgeRanges_lo {a : F} {l : List F} (h : Increasing (a :: l)) :
    ∀ r ∈ edgeRanges (a :: l), fle a r.lo = true := by
  induction l generalizing a with
  | nil => simp [edgeRanges]
  | cons b l ih =>
    intro r hr
    obtain ⟨h1, h2⟩ := increasing_cons_cons.mp h
    rcases List.mem_cons.mp hr with rfl | hr
    · have := fle_of_flt h1
      rw [fle_iff] at *
      obtain ⟨x, y, hx, -, -⟩ := this
      exact ⟨x, x, hx, hx, le_refl _⟩
    · exact fle_trans (fle_of_flt h1) (ih h2 r hr)

omit [BoundedOrder α] in
theorem edgeRanges_ordered {edges : List F} (h : Increasing edges) : OrderedRanges (edgeRanges edges) := by
  induction edges with
  | nil => exact ⟨by simp [edgeRanges], by simp [edgeRanges]⟩
  | cons a l ih =>
    cases l with
    | nil => exact ⟨by simp [edgeRanges], by simp [edgeRanges]⟩
    | cons b l =>
      obtain ⟨h1, h2⟩ := increasing_cons_cons.mp h
      obtain ⟨i1, i2⟩ := ih h2
      refine ⟨?_, ?_⟩
      · intro r hr
        rcases List.mem_cons.mp hr with rfl | hr
        · exact fle_of_flt h1
        · exact i1 r hr
      · exact List.pairwise_cons.mpr ⟨fun r hr => edgeRanges_lo h2 r hr, i2⟩

omit [BoundedOrder α] in
/-- Every number between the first and the last edge is in a range. -/
theorem edgeRanges_cover {a : F} {l : List F} (h : Increasing (a :: l)) {x : F} (h0 : fle a x = true)
    (h1 : ∃ r ∈ edgeRanges (a :: l), flt x r.hi = true) : ∃ r ∈ edgeRanges (a :: l), r.Contains x := by
  induction l generalizing a with
  | nil => simp [edgeRanges] at h1
  | cons b l ih =>
    obtain ⟨h2, h3⟩ := increasing_cons_cons.mp h
    by_cases hx : flt x b = true
    · exact ⟨⟨a, b⟩, by simp [edgeRanges], h0, hx⟩
    · have hbx : fle b x = true :=
        fle_of_not_flt (not_nan_right h0) (not_nan_right (fle_of_flt h2)) (by simpa using hx)
      obtain ⟨r, hr, hrx⟩ := h1
      rcases List.mem_cons.mp hr with rfl | hr
      · exact absurd hrx hx
      · obtain ⟨r', hr', hc⟩ := ih h3 hbx ⟨r, hr, hrx⟩
        exact ⟨r', by simp [edgeRanges, hr'], hc⟩

omit [LinearOrder α] [BoundedOrder α] [GoFloat F α] in
theorem edgeRanges_head {a b : F} {l : List F} : (edgeRanges (a :: b :: l)).head? = some ⟨a, b⟩ := rfl

omit [LinearOrder α] [BoundedOrder α] [GoFloat F α] in
theorem edgeRanges_last {a b : F} {l : List F} {e : F} (he : (a :: b :: l).getLast? = some e) :
    ∃ r, (edgeRanges (a :: b :: l)).getLast? = some r ∧ r.hi = e := by
  induction l generalizing a b with
  | nil => simp at he; subst he; exact ⟨⟨a, b⟩, rfl, rfl⟩
  | cons c l ih =>
    rw [List.getLast?_cons_cons] at he
    obtain ⟨r, hr, hre⟩ := ih he
    refine ⟨r, ?_, hre⟩
    rw [edgeRanges, edgeRanges, List.getLast?_cons_cons, ← edgeRanges]
    exact hr

omit [LinearOrder α] [BoundedOrder α] [GoFloat F α] in
theorem fresh_ranges [Zero F] (rs : List (Range F)) (xr : Range F) : (freshBinning rs xr).ranges = rs := by
  simp [freshBinning, Binning1D.ranges, Function.comp_def]

omit [LinearOrder α] [BoundedOrder α] [GoFloat F α] in
theorem fresh_empty [Zero F] (rs : List (Range F)) (xr : Range F) : (freshBinning rs xr).Empty := by
  refine ⟨rfl, rfl, rfl, ?_⟩
  intro b hb
  simp only [freshBinning, List.mem_map] at hb
  obtain ⟨r, -, rfl⟩ := hb
  rfl

omit [BoundedOrder α] in
theorem fle_last {rs : List (Range F)} (ho : OrderedRanges rs) {last r : Range F}
    (hl : rs.getLast? = some last) (hr : r ∈ rs) : fle r.hi last.hi = true := by
  obtain ⟨i, hi, rfl⟩ := List.mem_iff_getElem.mp hr
  rw [List.getLast?_eq_getElem?] at hl
  exact ho.hi_le_hi (j := rs.length - 1) (by omega) (List.getElem?_eq_getElem hi) hl

omit [BoundedOrder α] in
theorem fresh_ordered [Zero F] {rs : List (Range F)} (ho : OrderedRanges rs) {a b : Range F}
    (ha : rs.head? = some a) (hb : rs.getLast? = some b) : (freshBinning rs ⟨a.lo, b.hi⟩).Ordered := by
  have hma : a ∈ rs := List.mem_of_mem_head? ha
  refine ⟨?_, by rw [fresh_ranges]; exact ho, ?_, ?_⟩
  · cases rs with
    | nil => simp at ha
    | cons c l => simp [freshBinning]
  · rw [fresh_ranges]
    intro r hr
    rw [ha] at hr; cases hr
    have := ho.1 a hma
    rw [fle_iff] at this
    obtain ⟨x, y, hx, -, -⟩ := this
    exact feq_iff.mpr ⟨x, hx, hx⟩
  · change fle a.lo b.hi = true
    exact fle_trans (ho.1 a hma) (fle_last ho hb hma)

omit [BoundedOrder α] in
/-- **C30** (part): for edges that are numbers, building a binning from edges succeeds
exactly when there are at least two edges and they increase strictly.  The bins are
then the ranges between consecutive edges, in order and without gaps, and the axis
spans them.  Missing: edges containing NaN, see the counterexample. -/
theorem C30_edges_partial [Zero F] (edges : List F) (hn : ∀ x ∈ edges, isNaN x = false) :
    ((newBinning1DFromEdges edges).isSome ↔ 2 ≤ edges.length ∧ Increasing edges) ∧
    ∀ h, newBinning1DFromEdges edges = some h →
      h.bins.length + 1 = edges.length ∧
      (∀ i lo hi, edges[i]? = some lo → edges[i + 1]? = some hi → h.ranges[i]? = some ⟨lo, hi⟩) ∧
      edges.head? = some h.xrange.lo ∧ edges.getLast? = some h.xrange.hi ∧
      h.Ordered ∧ h.Empty ∧ h.Gapless := by
  have hget : ∀ (l : List F) (i : Nat) (lo hi : F), l[i]? = some lo → l[i + 1]? = some hi →
      (edgeRanges l)[i]? = some ⟨lo, hi⟩ := by
    intro l
    induction l with
    | nil => intro i lo hi h; simp at h
    | cons a l ih =>
      cases l with
      | nil => intro i lo hi h1 h2; simp at h2
      | cons b l =>
        intro i lo hi h1 h2
        cases i with
        | zero => simp at h1 h2; subst h1 h2; rfl
        | succ i =>
          rw [List.getElem?_cons_succ] at h1 h2
          rw [edgeRanges, List.getElem?_cons_succ]
          exact ih i lo hi h1 h2
  have hlen : ∀ (a : F) (l : List F), (edgeRanges (a :: l)).length = l.length := by
    intro a l
    induction l generalizing a with
    | nil => rfl
    | cons b l ih => simp [edgeRanges, ih]
  unfold newBinning1DFromEdges
  match edges, hn with
  | [], _ => simp
  | [a], _ => simp
  | a :: b :: l, hn =>
    rw [if_neg (by simp)]
    have hiff := sorted_nodup_iff (a :: b :: l) hn
    by_cases hs : Increasing (a :: b :: l)
    · obtain ⟨h1, h2⟩ := hiff.mpr hs
      have ho := edgeRanges_ordered hs
      simp only [h1, Bool.not_true, Bool.false_eq_true, if_false, h2, List.head?_cons]
      obtain ⟨e, he⟩ : ∃ e, (a :: b :: l).getLast? = some e := by
        cases hl : (a :: b :: l).getLast? with
        | none => simp at hl
        | some e => exact ⟨e, rfl⟩
      rw [he]
      obtain ⟨r, hr, rfl⟩ := edgeRanges_last he
      refine ⟨by simp [hs], ?_⟩
      intro h hh
      simp only [Option.some.injEq] at hh
      subst hh
      have hord : (freshBinning (edgeRanges (a :: b :: l)) ⟨a, r.hi⟩).Ordered :=
        fresh_ordered ho (edgeRanges_head (a := a) (b := b) (l := l)) hr
      refine ⟨?_, ?_, rfl, rfl, hord, fresh_empty _ _, ?_⟩
      · simp [freshBinning, hlen]
      · intro i lo hi h1 h2
        rw [fresh_ranges]
        exact hget _ i lo hi h1 h2
      · intro x hb ha
        obtain ⟨n1, n2, r', hr', n3⟩ := not_above ha
        rw [fresh_ranges] at hr' ⊢
        have hax : fle a x = true :=
          fle_of_not_flt n1 (hn a (by simp)) (by simpa [Binning1D.Below, freshBinning] using hb)
        refine edgeRanges_cover hs hax ⟨r', hr', ?_⟩
        cases hf : flt x r'.hi with
        | true => rfl
        | false =>
          rw [fle_of_not_flt n1 (not_nan_right (ho.1 r' hr')) hf] at n3
          exact absurd n3 (by simp)
    · have : ¬ (isSorted (a :: b :: l) = true ∧ (edgeRanges (a :: b :: l)).any (fun r => feq r.lo r.hi) = false) :=
        fun hh => hs (hiff.mp hh)
      by_cases h1 : isSorted (a :: b :: l) = true
      · have h2 : (edgeRanges (a :: b :: l)).any (fun r => feq r.lo r.hi) = true := by
          cases hh : (edgeRanges (a :: b :: l)).any (fun r => feq r.lo r.hi) with
          | true => rfl
          | false => exact absurd ⟨h1, hh⟩ this
        simp only [h1, Bool.not_true, Bool.false_eq_true, if_false, h2, if_true]
        simp [hs]
      · simp only [Bool.not_eq_true] at h1
        simp only [h1, Bool.not_false, if_true]
        simp [hs]

/-- **C30**, what the code violates: a leading NaN is taken for a sorted edge, so a list
of edges that does not increase is accepted. -/
theorem C30_nan_edge_counterexample :
    (newBinning1DFromEdges [XInt.nan, .fin 1, .fin 2]).isSome ∧
      ¬ Increasing [XInt.nan, .fin 1, .fin 2] := by
  refine ⟨by decide +kernel, ?_⟩
  unfold Increasing
  decide +kernel

/-- Two ranges have a common point. -/
def Range.Overlap (a b : Range F) : Prop := flt a.lo b.hi = true ∧ flt b.lo a.hi = true

/-- What is known of `sort.Sort` by lower edge. -/
def Sorts (srt : List (Range F) → List (Range F)) : Prop :=
  ∀ l, (srt l).Perm l ∧ (srt l).Pairwise fun a b => flt b.lo a.lo = false

omit [BoundedOrder α] in
theorem overlapFree_iff {rs : List (Range F)} (hw : ∀ r ∈ rs, flt r.lo r.hi = true) :
    overlapFree rs = true ↔ rs.Pairwise fun a b => fle a.hi b.lo = true := by
  induction rs with
  | nil => simp [overlapFree]
  | cons a l ih =>
    cases l with
    | nil => simp [overlapFree]
    | cons b l =>
      have ih' := ih (fun r hr => hw r (by simp [hr]))
      rw [overlapFree, Bool.and_eq_true, ih', Bool.not_eq_true']
      have ha := hw a (by simp)
      have hb := hw b (by simp)
      constructor
      · rintro ⟨h1, h2⟩
        have hab : fle a.hi b.lo = true :=
          fle_of_not_flt (not_nan_left (fle_of_flt hb)) (not_nan_right (fle_of_flt ha)) h1
        refine List.pairwise_cons.mpr ⟨?_, h2⟩
        intro c hc
        rcases List.mem_cons.mp hc with rfl | hc
        · exact hab
        · exact fle_trans hab (fle_trans (fle_of_flt hb) ((List.pairwise_cons.mp h2).1 c hc))
      · intro h
        exact ⟨not_flt_of_fle ((List.pairwise_cons.mp h).1 b (by simp)), (List.pairwise_cons.mp h).2⟩

omit [BoundedOrder α] in
/-- **C30** (part): for bins whose lower edge is below their upper edge, building a binning
from bins succeeds exactly when there is at least one bin and no two bins overlap.  The
result has the same bins in increasing order, and the axis spans them.  This holds for
whatever order the sort gives to bins of equal lower edge.  Missing: bins with reversed
edges, see the counterexample. -/
theorem C30_bins_partial [Zero F] (srt : List (Range F) → List (Range F)) (hsrt : Sorts srt)
    (xbins : List (Range F)) (hw : ∀ r ∈ xbins, flt r.lo r.hi = true) :
    ((newBinning1DFromBins srt xbins).isSome ↔
      xbins ≠ [] ∧ xbins.Pairwise fun a b => ¬ a.Overlap b) ∧
    ∀ h, newBinning1DFromBins srt xbins = some h →
      h.ranges.Perm xbins ∧ h.Ordered ∧ h.Empty ∧
      (∀ r, h.ranges.head? = some r → h.xrange.lo = r.lo) ∧
      (∀ r, h.ranges.getLast? = some r → h.xrange.hi = r.hi) := by
  obtain ⟨hp, hs⟩ := hsrt xbins
  have hw' : ∀ r ∈ srt xbins, flt r.lo r.hi = true := fun r hr => hw r (hp.mem_iff.mp hr)
  have hiff := overlapFree_iff hw'
  have hpair : (xbins.Pairwise fun a b => ¬ a.Overlap b) ↔ (srt xbins).Pairwise fun a b => fle a.hi b.lo = true := by
    rw [← hp.pairwise_iff (R := fun a b : Range F => ¬ a.Overlap b) (fun {a b} h hba => h ⟨hba.2, hba.1⟩)]
    constructor
    · intro h
      have hand := List.Pairwise.and hs h
      refine List.Pairwise.imp_of_mem ?_ hand
      intro a b ham hbm hab
      obtain ⟨h1, h2⟩ := hab
      have ha := hw' a ham
      have hb := hw' b hbm
      have hle : fle a.lo b.lo = true :=
        fle_of_not_flt (not_nan_left (fle_of_flt hb)) (not_nan_left (fle_of_flt ha)) h1
      have : flt b.lo a.hi = false := by
        cases hf : flt b.lo a.hi with
        | false => rfl
        | true => exact absurd ⟨flt_of_fle_flt hle hb, hf⟩ h2
      exact fle_of_not_flt (not_nan_left (fle_of_flt hb)) (not_nan_right (fle_of_flt ha)) this
    · intro h
      refine List.Pairwise.imp ?_ h
      intro a b hab hov
      have := not_flt_of_fle hab
      rw [hov.2] at this
      exact absurd this (by simp)
  unfold newBinning1DFromBins
  by_cases hne : xbins = []
  · subst hne; simp
  · have hl : ¬ xbins.length < 1 := by
      have := List.length_pos_iff.mpr hne; omega
    have hne' : srt xbins ≠ [] := by
      intro hh; rw [hh] at hp; exact hne (List.nil_perm.mp hp)
    rw [if_neg hl]
    by_cases hf : overlapFree (srt xbins) = true
    · simp only [hf, Bool.not_true, Bool.false_eq_true, if_false]
      have ho : OrderedRanges (srt xbins) := ⟨fun r hr => fle_of_flt (hw' r hr), hiff.mp hf⟩
      obtain ⟨a, ha⟩ : ∃ a, (srt xbins).head? = some a := by
        cases hh : (srt xbins).head? with
        | none => simp at hh; exact absurd hh hne'
        | some a => exact ⟨a, rfl⟩
      obtain ⟨b, hb⟩ : ∃ a, (srt xbins).getLast? = some a := by
        cases hh : (srt xbins).getLast? with
        | none => simp at hh; exact absurd hh hne'
        | some a => exact ⟨a, rfl⟩
      rw [ha, hb]
      refine ⟨by simp [hne, hpair, hiff.mp hf], ?_⟩
      intro h hh
      simp only [Option.some.injEq] at hh
      subst hh
      refine ⟨by rw [fresh_ranges]; exact hp, fresh_ordered ho ha hb, fresh_empty _ _, ?_, ?_⟩
      · rw [fresh_ranges]
        intro r hr
        rw [ha] at hr; cases hr; rfl
      · rw [fresh_ranges]
        intro r hr
        rw [hb] at hr; cases hr; rfl
    · simp only [Bool.not_eq_true] at hf
      simp only [hf, Bool.not_false, if_true]
      have : ¬ (srt xbins).Pairwise fun a b => fle a.hi b.lo = true := by
        intro hh; rw [hiff.mpr hh] at hf; exact absurd hf (by simp)
      simp [hpair, this]

/-- Insertion sort by lower edge, an instance of `sort.Sort` for the examples. -/
def insertRange (r : Range F) : List (Range F) → List (Range F)
  | [] => [r]
  | a :: l => if flt a.lo r.lo then a :: insertRange r l else r :: a :: l

/-- Insertion sort by lower edge. -/
def sortRanges : List (Range F) → List (Range F)
  | [] => []
  | r :: l => insertRange r (sortRanges l)

/-- **C30**, what the code violates: a bin whose edges are reversed is accepted, here
together with a bin it shares points with. -/
theorem C30_reversed_bin_counterexample :
    ∃ h, newBinning1DFromBins sortRanges [⟨XInt.fin 5, .fin 1⟩, ⟨.fin 2, .fin 3⟩] = some h ∧
      h.xrange.lo = .fin 2 ∧ h.xrange.hi = .fin 1 := by
  refine ⟨freshBinning [⟨.fin 2, .fin 3⟩, ⟨.fin 5, .fin 1⟩] ⟨.fin 2, .fin 1⟩, by decide +kernel, rfl, rfl⟩

/-! ## C60 -/

omit [BoundedOrder α] in
/-- **C60** (part): for a binning without gaps, looking up the bin at a coordinate never
panics; it returns the bin containing the coordinate, and nil exactly for coordinates in
the underflow or the overflow.  Missing: binnings with gaps, see the counterexample. -/
theorem C60_bin_lookup_partial (h : Binning1D F) (ho : h.Ordered) (hg : h.Gapless) (x : F) :
    (h.binAt x = some none ∧ (h.Below x ∨ h.Above x)) ∨
    (∃ b ∈ h.bins, h.binAt x = some (some b) ∧ h.Inside b.range x) := by
  unfold Binning1D.binAt
  by_cases hb : h.Below x
  · left
    rw [coordToIndex_below hb]
    exact ⟨rfl, Or.inl hb⟩
  · by_cases ha : h.Above x
    · left
      rw [coordToIndex_above ho ha]
      exact ⟨rfl, Or.inr ha⟩
    · right
      obtain ⟨r, hr, hc⟩ := hg x hb ha
      have hin := inside_of_contains ho ha hc
      obtain ⟨i, hi, hri⟩ := List.mem_iff_getElem.mp hr
      have hr' : h.ranges[i]? = some r := by rw [List.getElem?_eq_getElem hi, hri]
      have hi' : i < h.bins.length := by simpa [Binning1D.ranges] using hi
      rw [coordToIndex_inside ho hr' hin]
      refine ⟨h.bins[i], List.getElem_mem hi', ?_, ?_⟩
      · simp only [Int.toNat_natCast, List.getElem?_eq_getElem hi']
        rw [if_neg (by omega)]
      · have : h.bins[i].range = r := by
          rw [← hri]; simp [Binning1D.ranges]
        rw [this]; exact hin

/-- **C60**, what the code violates: looking up a coordinate in a gap between two bins
indexes past the bins and panics. -/
theorem C60_gap_counterexample :
    ∃ h, newBinning1DFromBins sortRanges [⟨XInt.fin 0, .fin 1⟩, ⟨.fin 2, .fin 3⟩] = some h ∧
      h.binAt (.fin 1) = none ∧ (h.fill (.fin 1) (.fin 1)).isSome := by
  refine ⟨freshBinning [⟨.fin 0, .fin 1⟩, ⟨.fin 2, .fin 3⟩] ⟨.fin 0, .fin 3⟩, by decide +kernel,
    by decide +kernel, by decide +kernel⟩

end Verif.Hbook
