import Verif.Hbook.Lemmas

/-!
# Properties of one-dimensional histograms (C23 – C28)
-/

namespace Verif.Hbook

variable {F α : Type} [LinearOrder α] [BoundedOrder α] [GoFloat F α]

/-! ## Specification -/

/-- A well-formed binning: at least one bin, bins in increasing order without overlap,
the axis starting at the first bin.  Nothing ties the upper end of the axis to the last
bin: for uniform binnings the two may differ by rounding. -/
structure Binning1D.Ordered (h : Binning1D F) : Prop where
  nonempty : h.bins ≠ []
  ranges : OrderedRanges h.ranges
  low : ∀ r, h.ranges.head? = some r → feq h.xrange.lo r.lo = true
  axis : fle h.xrange.lo h.xrange.hi = true

/-- Below the axis. -/
def Binning1D.Below (h : Binning1D F) (x : F) : Prop := flt x h.xrange.lo = true

/-- Not a number, or at or above the upper edge (of the axis or of all bins). -/
def Binning1D.Above (h : Binning1D F) (x : F) : Prop :=
  isNaN x = true ∨ fle h.xrange.hi x = true ∨ ∀ r ∈ h.ranges, fle r.hi x = true

/-- In the range of a bin, and on the axis. -/
def Binning1D.Inside (h : Binning1D F) (r : Range F) (x : F) : Prop :=
  r.Contains x ∧ flt x h.xrange.hi = true

instance (h : Binning1D F) (x : F) : Decidable (h.Below x) := by unfold Binning1D.Below; infer_instance
instance (h : Binning1D F) (x : F) : Decidable (h.Above x) := by unfold Binning1D.Above; infer_instance
instance (h : Binning1D F) (r : Range F) (x : F) : Decidable (h.Inside r x) := by
  unfold Binning1D.Inside; infer_instance

/-- What is accumulated by a distribution starting from `d0` over the fills `fs`, in the
order of the fills. -/
structure Accumulates [Add F] [Mul F] (d0 : Dist1D F) (fs : List (F × F)) (d : Dist1D F) : Prop where
  entries : d.dist.n = d0.dist.n + fs.length
  sumW : d.dist.sumW = (fs.map fun p => p.2).foldl (· + ·) d0.dist.sumW
  sumW2 : d.dist.sumW2 = (fs.map fun p => p.2 * p.2).foldl (· + ·) d0.dist.sumW2
  sumWX : d.sumWX = (fs.map fun p => p.2 * p.1).foldl (· + ·) d0.sumWX
  sumWX2 : d.sumWX2 = (fs.map fun p => p.2 * p.1 * p.1).foldl (· + ·) d0.sumWX2

/-- A binning whose bins cover the axis. -/
def Binning1D.Gapless (h : Binning1D F) : Prop :=
  ∀ x, ¬ h.Below x → ¬ h.Above x → ∃ r ∈ h.ranges, r.Contains x

/-! ## C23 -/

omit [BoundedOrder α] in
theorem head_le_lo {rs : List (Range F)} (ho : OrderedRanges rs) {r0 r : Range F}
    (h0 : rs.head? = some r0) (hr : r ∈ rs) : fle r0.lo r.lo = true := by
  cases rs with
  | nil => simp at h0
  | cons a l =>
    simp only [List.head?_cons, Option.some.injEq] at h0
    subst h0
    rcases List.mem_cons.mp hr with rfl | hm
    · have := ho.1 r (by simp)
      rw [fle_iff] at *
      obtain ⟨x, y, hx, -, -⟩ := this
      exact ⟨x, x, hx, hx, le_refl _⟩
    · exact fle_trans (ho.1 a (by simp)) ((List.pairwise_cons.mp ho.2).1 r hm)

omit [BoundedOrder α] in
theorem Binning1D.Ordered.lo_le {h : Binning1D F} (ho : h.Ordered) {r : Range F} (hr : r ∈ h.ranges) :
    fle h.xrange.lo r.lo = true := by
  have : ∃ r0, h.ranges.head? = some r0 := by
    cases hh : h.ranges with
    | nil => rw [hh] at hr; simp at hr
    | cons a l => exact ⟨a, rfl⟩
  obtain ⟨r0, h0⟩ := this
  exact fle_trans (fle_of_feq (ho.low r0 h0)) (head_le_lo ho.ranges h0 hr)

omit [BoundedOrder α] in
theorem Binning1D.Ordered.exists_range {h : Binning1D F} (ho : h.Ordered) : ∃ r, h.ranges.head? = some r := by
  cases hh : h.bins with
  | nil => exact absurd hh ho.nonempty
  | cons a l => exact ⟨a.range, by simp [Binning1D.ranges, hh]⟩

omit [BoundedOrder α] in
/-- **C23**: the regions a value can lie in exclude each other, and no value lies in two
bins. -/
theorem C23_regions_exclusive (h : Binning1D F) (ho : h.Ordered) (x : F) :
    ¬ (h.Below x ∧ h.Above x) ∧
    (∀ r ∈ h.ranges, ¬ (h.Below x ∧ h.Inside r x) ∧ ¬ (h.Above x ∧ h.Inside r x)) ∧
    (∀ (i j : Nat) (a b : Range F), h.ranges[i]? = some a → h.ranges[j]? = some b → h.Inside a x → h.Inside b x → i = j) := by
  refine ⟨?_, ?_, ?_⟩
  · rintro ⟨hb, ha⟩
    rcases ha with hn | hx | hr
    · exact absurd hb (by unfold Binning1D.Below; rw [flt_nan hn]; simp)
    · have := not_fle_of_flt (flt_of_flt_fle hb ho.axis)
      rw [this] at hx; exact absurd hx (by simp)
    · obtain ⟨r, h0⟩ := ho.exists_range
      have hm : r ∈ h.ranges := List.mem_of_mem_head? h0
      have := not_fle_of_flt (flt_of_flt_fle hb (fle_trans (ho.lo_le hm) (ho.ranges.1 r hm)))
      rw [hr r hm] at this; exact absurd this (by simp)
  · intro r hr
    constructor
    · rintro ⟨hb, hi⟩
      have := not_flt_of_fle (fle_trans (ho.lo_le hr) hi.1.1)
      unfold Binning1D.Below at hb
      rw [this] at hb; exact absurd hb (by simp)
    · rintro ⟨ha, hi⟩
      rcases ha with hn | hx | hall
      · have := hi.2; rw [flt_nan hn] at this; exact absurd this (by simp)
      · rw [not_fle_of_flt hi.2] at hx; exact absurd hx (by simp)
      · have := hall r hr
        rw [not_fle_of_flt hi.1.2] at this; exact absurd this (by simp)
  · intro i j a b hi hj ha hb
    have h1 := indexOf_bin ho.ranges hi ha.1
    have h2 := indexOf_bin ho.ranges hj hb.1
    rw [h1] at h2; omega

omit [BoundedOrder α] in
theorem coordToIndex_below {h : Binning1D F} {x : F} (hb : h.Below x) : h.coordToIndex x = -1 := by
  unfold Binning1D.coordToIndex
  rw [if_pos (show flt x h.xrange.lo = true from hb)]

omit [BoundedOrder α] in
theorem coordToIndex_above {h : Binning1D F} (ho : h.Ordered) {x : F} (ha : h.Above x) :
    h.coordToIndex x = -2 := by
  unfold Binning1D.coordToIndex
  rw [if_neg (fun hb : flt x h.xrange.lo = true => (C23_regions_exclusive h ho x).1 ⟨hb, ha⟩)]
  by_cases hx : fle h.xrange.hi x = true
  · rw [if_pos hx]
  · rw [if_neg hx]
    apply indexOf_over
    intro r hr
    rcases ha with hn | hx' | hall
    · exact flt_nan hn
    · exact absurd hx' hx
    · exact not_flt_of_fle (hall r hr)

omit [BoundedOrder α] in
theorem not_above {h : Binning1D F} {x : F} (ha : ¬ h.Above x) :
    isNaN x = false ∧ fle h.xrange.hi x = false ∧ ∃ r ∈ h.ranges, fle r.hi x = false := by
  unfold Binning1D.Above at ha
  simp only [not_or, Bool.not_eq_true, not_forall, exists_prop] at ha
  exact ha

omit [BoundedOrder α] in
theorem inside_of_contains {h : Binning1D F} (ho : h.Ordered) {x : F} {r : Range F}
    (ha : ¬ h.Above x) (hc : r.Contains x) : h.Inside r x := by
  obtain ⟨h1, h2, -⟩ := not_above ha
  refine ⟨hc, ?_⟩
  have hn := not_nan_right ho.axis
  cases hf : flt x h.xrange.hi with
  | true => rfl
  | false => rw [fle_of_not_flt h1 hn hf] at h2; exact absurd h2 (by simp)

omit [BoundedOrder α] in
theorem coordToIndex_inside {h : Binning1D F} (ho : h.Ordered) {x : F} {i : Nat} {r : Range F}
    (hr : h.ranges[i]? = some r) (hi : h.Inside r x) : h.coordToIndex x = i := by
  have hm : r ∈ h.ranges := List.mem_of_getElem? hr
  have he := C23_regions_exclusive h ho x
  unfold Binning1D.coordToIndex
  rw [if_neg (fun hb : flt x h.xrange.lo = true => (he.2.1 r hm).1 ⟨hb, hi⟩), if_neg]
  · exact indexOf_bin ho.ranges hr hi.1
  · intro hx
    exact (he.2.1 r hm).2 ⟨Or.inr (Or.inl hx), hi⟩

omit [BoundedOrder α] in
theorem coordToIndex_gap {h : Binning1D F} (ho : h.Ordered) {x : F} (hb : ¬ h.Below x)
    (ha : ¬ h.Above x) (hg : ∀ r ∈ h.ranges, ¬ r.Contains x) : h.coordToIndex x = h.bins.length := by
  obtain ⟨h1, h2, r, hr, h3⟩ := not_above ha
  unfold Binning1D.coordToIndex
  rw [if_neg (show ¬ flt x h.xrange.lo = true from hb), if_neg (by rw [h2]; simp)]
  rw [indexOf_gap ho.ranges _ _ hg]
  · simp [Binning1D.ranges]
  · intro r0 h0
    cases hf : flt x r0.lo with
    | false => rfl
    | true =>
      exact absurd (flt_of_flt_fle hf (fle_of_feq (feq_symm (ho.low r0 h0)))) hb
  · refine ⟨r, hr, ?_⟩
    cases hf : flt x r.hi with
    | true => rfl
    | false =>
      rw [fle_of_not_flt h1 (not_nan_right (ho.ranges.1 r hr)) hf] at h3
      exact absurd h3 (by simp)

section Fill
variable [Add F] [Mul F]

/-- The effect of one fill. -/
def Binning1D.filled (h : Binning1D F) (x w : F) : Binning1D F :=
  { bins := h.bins.map fun b => if h.Inside b.range x then { b with dist := b.dist.fill x w } else b
    dist := h.dist.fill x w
    under := if h.Below x then h.under.fill x w else h.under
    over := if h.Above x then h.over.fill x w else h.over
    xrange := h.xrange }

omit [BoundedOrder α] in
theorem fill_eq (h : Binning1D F) (ho : h.Ordered) (x w : F) : h.fill x w = some (h.filled x w) := by
  have hex := C23_regions_exclusive h ho x
  have hmem : ∀ b ∈ h.bins, b.range ∈ h.ranges := fun b hb => List.mem_map_of_mem hb
  unfold Binning1D.fill Binning1D.filled
  by_cases hb : h.Below x
  · have ha : ¬ h.Above x := fun ha => hex.1 ⟨hb, ha⟩
    rw [coordToIndex_below hb]
    simp only [if_pos hb, if_neg ha]
    have : (h.bins.map fun b => if h.Inside b.range x then { b with dist := b.dist.fill x w } else b) = h.bins := by
      conv_rhs => rw [← List.map_id h.bins]
      apply List.map_congr_left
      intro b hbm
      rw [if_neg (fun hi => (hex.2.1 _ (hmem b hbm)).1 ⟨hb, hi⟩)]
      rfl
    rw [this]
    rfl
  by_cases ha : h.Above x
  · rw [coordToIndex_above ho ha]
    simp only [if_neg hb, if_pos ha]
    have : (h.bins.map fun b => if h.Inside b.range x then { b with dist := b.dist.fill x w } else b) = h.bins := by
      conv_rhs => rw [← List.map_id h.bins]
      apply List.map_congr_left
      intro b hbm
      rw [if_neg (fun hi => (hex.2.1 _ (hmem b hbm)).2 ⟨ha, hi⟩)]
      rfl
    rw [this]
    rfl
  by_cases hc : ∃ r ∈ h.ranges, r.Contains x
  · obtain ⟨r, hr, hc⟩ := hc
    obtain ⟨i, hi, hri⟩ := List.mem_iff_getElem.mp hr
    have hr' : h.ranges[i]? = some r := by rw [List.getElem?_eq_getElem hi, hri]
    have hin := inside_of_contains ho ha hc
    have hlen : h.ranges.length = h.bins.length := by simp [Binning1D.ranges]
    rw [coordToIndex_inside ho hr' hin]
    simp only [if_neg hb, if_neg ha]
    rw [if_neg (by omega), if_neg (by omega), if_pos (by omega)]
    have : h.bins.modify i (·.fill x w) =
        h.bins.map fun b => if h.Inside b.range x then { b with dist := b.dist.fill x w } else b := by
      apply List.ext_getElem?
      intro k
      rw [List.getElem?_modify, List.getElem?_map]
      cases hk : h.bins[k]? with
      | none => simp
      | some b =>
        have hk' : h.ranges[k]? = some b.range := by simp [Binning1D.ranges, hk]
        simp only [Option.map_eq_map, Option.map_some, Option.some.injEq]
        by_cases hik : i = k
        · subst hik
          rw [hr'] at hk'; cases hk'
          rw [if_pos hin, if_pos rfl]; rfl
        · rw [if_neg (fun hin' => hik (hex.2.2 i k r b.range hr' hk' hin hin')), if_neg hik]
    simp only [Int.toNat_natCast, this]
  · have hg : ∀ r ∈ h.ranges, ¬ r.Contains x := fun r hr hcr => hc ⟨r, hr, hcr⟩
    rw [coordToIndex_gap ho hb ha hg]
    simp only [if_neg hb, if_neg ha]
    rw [if_neg (by omega)]
    have : (h.bins.map fun b => if h.Inside b.range x then { b with dist := b.dist.fill x w } else b) = h.bins := by
      conv_rhs => rw [← List.map_id h.bins]
      apply List.map_congr_left
      intro b hbm
      rw [if_neg (fun hi => hg _ (hmem b hbm) hi.1)]
      rfl
    rw [this]
    simp

omit [BoundedOrder α] in
/-- **C23**: a fill never panics, adds the entry to the total, and reaches exactly the
bin containing the value, the underflow for a value below the axis, the overflow for a
value at or above its upper edge or NaN, and nothing else; all edges are kept. -/
theorem C23_fill (h : Binning1D F) (ho : h.Ordered) (x w : F) :
    ∃ h', h.fill x w = some h' ∧ h'.xrange = h.xrange ∧ h'.ranges = h.ranges ∧
      Accumulates h.dist [(x, w)] h'.dist ∧
      (h.Below x → Accumulates h.under [(x, w)] h'.under) ∧ (¬ h.Below x → h'.under = h.under) ∧
      (h.Above x → Accumulates h.over [(x, w)] h'.over) ∧ (¬ h.Above x → h'.over = h.over) ∧
      h'.bins.length = h.bins.length ∧
      ∀ (i : Nat) (b b' : Bin1D F), h.bins[i]? = some b → h'.bins[i]? = some b' →
        (h.Inside b.range x → Accumulates b.dist [(x, w)] b'.dist) ∧ (¬ h.Inside b.range x → b' = b) := by
  have hacc : ∀ d : Dist1D F, Accumulates d [(x, w)] (d.fill x w) := fun d =>
    ⟨rfl, rfl, rfl, rfl, rfl⟩
  refine ⟨_, fill_eq h ho x w, rfl, ?_, hacc _, ?_, ?_, ?_, ?_, by simp [Binning1D.filled], ?_⟩
  · simp only [Binning1D.filled, Binning1D.ranges, List.map_map]
    apply List.map_congr_left
    intro b _
    simp only [Function.comp]
    split <;> rfl
  · intro hb; simp only [Binning1D.filled, if_pos hb]; exact hacc _
  · intro hb; simp only [Binning1D.filled, if_neg hb]
  · intro hb; simp only [Binning1D.filled, if_pos hb]; exact hacc _
  · intro hb; simp only [Binning1D.filled, if_neg hb]
  · intro i b b' hb hb'
    simp only [Binning1D.filled, List.getElem?_map, hb, Option.map_some, Option.some.injEq] at hb'
    subst hb'
    constructor
    · intro hi; rw [if_pos hi]; exact hacc _
    · intro hi; rw [if_neg hi]

/-! ## C24 -/

omit [LinearOrder α] [BoundedOrder α] [GoFloat F α] in
theorem Accumulates.nil (d : Dist1D F) : Accumulates d [] d := ⟨by simp, rfl, rfl, rfl, rfl⟩

omit [LinearOrder α] [BoundedOrder α] [GoFloat F α] in
theorem Accumulates.cons {d d' : Dist1D F} {x w : F} {fs : List (F × F)}
    (h : Accumulates (d.fill x w) fs d') : Accumulates d ((x, w) :: fs) d' := by
  obtain ⟨h1, h2, h3, h4, h5⟩ := h
  refine ⟨?_, by rw [h2]; rfl, by rw [h3]; rfl, by rw [h4]; rfl, by rw [h5]; rfl⟩
  rw [h1]; simp [Dist1D.fill, Dist0D.fill]; omega

omit [BoundedOrder α] in
theorem filled_ranges (h : Binning1D F) (x w : F) : (h.filled x w).ranges = h.ranges := by
  simp only [Binning1D.filled, Binning1D.ranges, List.map_map]
  apply List.map_congr_left
  intro b _
  simp only [Function.comp]
  split <;> rfl

omit [BoundedOrder α] in
theorem filled_ordered {h : Binning1D F} (ho : h.Ordered) (x w : F) : (h.filled x w).Ordered := by
  have hr := filled_ranges h x w
  refine ⟨?_, by rw [hr]; exact ho.ranges, by rw [hr]; exact ho.low, ho.axis⟩
  simp only [Binning1D.filled, ne_eq, List.map_eq_nil_iff]
  exact ho.nonempty

/-- The state reached after a sequence of fills. -/
structure Binning1D.AfterFills (h : Binning1D F) (fs : List (F × F)) (h' : Binning1D F) : Prop where
  xrange : h'.xrange = h.xrange
  total : Accumulates h.dist fs h'.dist
  under : Accumulates h.under (fs.filter fun p => h.Below p.1) h'.under
  over : Accumulates h.over (fs.filter fun p => h.Above p.1) h'.over
  len : h'.bins.length = h.bins.length
  bin : ∀ (i : Nat) (b b' : Bin1D F), h.bins[i]? = some b → h'.bins[i]? = some b' → b'.range = b.range ∧
    Accumulates b.dist (fs.filter fun p => h.Inside b.range p.1) b'.dist

omit [BoundedOrder α] in
theorem below_filled (h : Binning1D F) (x w y : F) : (h.filled x w).Below y ↔ h.Below y := Iff.rfl

omit [BoundedOrder α] in
theorem above_filled (h : Binning1D F) (x w y : F) : (h.filled x w).Above y ↔ h.Above y := by
  unfold Binning1D.Above
  rw [filled_ranges]; rfl

omit [BoundedOrder α] in
/-- **C24**: after any sequence of fills the total holds the accumulation of all fills,
and every bin, the underflow and the overflow hold the accumulation, in order, of
exactly the fills lying there.  No law of arithmetic is used. -/
theorem C24_fills (h : Binning1D F) (ho : h.Ordered) (fs : List (F × F)) :
    ∃ h', h.fills fs = some h' ∧ h.AfterFills fs h' := by
  induction fs generalizing h with
  | nil =>
    refine ⟨h, rfl, rfl, Accumulates.nil _, Accumulates.nil _, Accumulates.nil _, rfl, ?_⟩
    intro i b b' h1 h2
    rw [h1] at h2; cases h2
    exact ⟨rfl, Accumulates.nil _⟩
  | cons p fs ih =>
    obtain ⟨x, w⟩ := p
    obtain ⟨h', he, ha⟩ := ih (h.filled x w) (filled_ordered ho x w)
    refine ⟨h', by simp only [Binning1D.fills, fill_eq h ho x w, he], ?_⟩
    obtain ⟨a1, a2, a3, a4, a5, a6⟩ := ha
    simp only [below_filled] at a3
    simp only [above_filled] at a4
    refine ⟨a1, Accumulates.cons a2, ?_, ?_, by rw [a5]; simp [Binning1D.filled], ?_⟩
    · by_cases hb : h.Below x
      · simp only [Binning1D.filled, if_pos hb] at a3
        rw [List.filter_cons_of_pos (by simpa using hb)]
        exact Accumulates.cons a3
      · simp only [Binning1D.filled, if_neg hb] at a3
        rw [List.filter_cons_of_neg (by simpa using hb)]
        exact a3
    · by_cases hb : h.Above x
      · simp only [Binning1D.filled, if_pos hb] at a4
        rw [List.filter_cons_of_pos (by simpa using hb)]
        exact Accumulates.cons a4
      · simp only [Binning1D.filled, if_neg hb] at a4
        rw [List.filter_cons_of_neg (by simpa using hb)]
        exact a4
    · intro i b b' h1 h2
      have hbin : (h.filled x w).bins[i]? = some (if h.Inside b.range x then { b with dist := b.dist.fill x w } else b) := by
        simp only [Binning1D.filled, List.getElem?_map, h1, Option.map_some]
      obtain ⟨r1, r2⟩ := a6 i _ b' hbin h2
      by_cases hb : h.Inside b.range x
      · rw [if_pos hb] at r1 r2
        refine ⟨r1, ?_⟩
        rw [List.filter_cons_of_pos (by simpa using hb)]
        exact Accumulates.cons r2
      · rw [if_neg hb] at r1 r2
        refine ⟨r1, ?_⟩
        rw [List.filter_cons_of_neg (by simpa using hb)]
        exact r2

end Fill

end Verif.Hbook
