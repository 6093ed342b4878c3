import Verif.Hbook.Props
import Mathlib.Algebra.BigOperators.Group.List.Basic

/-!
# Properties needing exact arithmetic (C24 totals, C25 – C27), integrals (C28)

The numbers are the elements of a commutative ring.  The order of the coordinates is
still arbitrary.
-/

namespace Verif.Hbook

variable {F α : Type} [LinearOrder α] [BoundedOrder α] [GoFloat F α]

/-- An empty histogram. -/
structure Binning1D.Empty [Zero F] (h : Binning1D F) : Prop where
  dist : h.dist = .zero
  under : h.under = .zero
  over : h.over = .zero
  bins : ∀ b ∈ h.bins, b.dist = .zero

section Ring
variable {F α : Type} [LinearOrder α] [GoFloat F α] [CommRing F]

theorem foldl_add_eq (l : List F) (a : F) : l.foldl (· + ·) a = a + l.sum := by
  induction l generalizing a with
  | nil => simp
  | cons x l ih => rw [List.foldl_cons, ih, List.sum_cons]; ring

theorem Accumulates.ext {d0 d d' : Dist1D F} {fs : List (F × F)} (h : Accumulates d0 fs d)
    (h' : Accumulates d0 fs d') : d = d' := by
  obtain ⟨a1, a2, a3, a4, a5⟩ := h
  obtain ⟨b1, b2, b3, b4, b5⟩ := h'
  rcases d with ⟨⟨n, w, w2⟩, wx, wx2⟩
  rcases d' with ⟨⟨n', w', w2'⟩, wx', wx2'⟩
  simp only at *
  subst a1 b1 a2 b2 a3 b3 a4 b4 a5 b5
  rfl

theorem Accumulates.perm {d0 d : Dist1D F} {fs fs' : List (F × F)} (hp : fs.Perm fs')
    (h : Accumulates d0 fs d) : Accumulates d0 fs' d := by
  obtain ⟨a1, a2, a3, a4, a5⟩ := h
  simp only [foldl_add_eq] at *
  refine ⟨by rw [a1, hp.length_eq], ?_, ?_, ?_, ?_⟩ <;> simp only [foldl_add_eq]
  · rw [a2, (hp.map _).sum_eq]
  · rw [a3, (hp.map _).sum_eq]
  · rw [a4, (hp.map _).sum_eq]
  · rw [a5, (hp.map _).sum_eq]

/-- The fills with every weight multiplied by a factor. -/
def scaleFills (f : F) (fs : List (F × F)) : List (F × F) := fs.map fun p => (p.1, f * p.2)

theorem sum_map_scale (f : F) (g g' : F × F → F) (fs : List (F × F)) (h : ∀ p, g' p = f * g p) :
    (fs.map g').sum = f * (fs.map g).sum := by
  induction fs with
  | nil => simp
  | cons p fs ih => simp only [List.map_cons, List.sum_cons, ih, h]; ring

theorem Accumulates.add {dA dB : Dist1D F} {A B : List (F × F)} (f : F)
    (hA : Accumulates .zero A dA) (hB : Accumulates .zero B dB) :
    Accumulates .zero (A ++ scaleFills f B) (dA.addScaled f (f * f) dB) := by
  obtain ⟨a1, a2, a3, a4, a5⟩ := hA
  obtain ⟨b1, b2, b3, b4, b5⟩ := hB
  simp only [foldl_add_eq, Dist1D.zero, Dist0D.zero, zero_add] at *
  refine ⟨?_, ?_, ?_, ?_, ?_⟩ <;>
    simp only [foldl_add_eq, zero_add, Dist1D.zero, Dist0D.zero, List.map_append, List.sum_append, Dist1D.addScaled,
      Dist0D.addScaled, List.length_append, scaleFills, List.length_map, List.map_map]
  · rw [a1, b1]; push_cast; ring
  · rw [a2, b2]; congr 1
    exact (sum_map_scale f (fun p => p.2) _ B (fun _ => rfl)).symm
  · rw [a3, b3]; congr 1
    exact (sum_map_scale (f * f) (fun p => p.2 * p.2) _ B (fun p => by simp only [Function.comp]; ring)).symm
  · rw [a4, b4]; congr 1
    exact (sum_map_scale f (fun p => p.2 * p.1) _ B (fun p => by simp only [Function.comp]; ring)).symm
  · rw [a5, b5]; congr 1
    exact (sum_map_scale f (fun p => p.2 * p.1 * p.1) _ B (fun p => by simp only [Function.comp]; ring)).symm

theorem Accumulates.scale {d : Dist1D F} {A : List (F × F)} (f : F) (hA : Accumulates .zero A d) :
    Accumulates .zero (scaleFills f A) (d.scaleW f) := by
  obtain ⟨a1, a2, a3, a4, a5⟩ := hA
  simp only [foldl_add_eq, Dist1D.zero, Dist0D.zero, zero_add] at *
  refine ⟨?_, ?_, ?_, ?_, ?_⟩ <;>
    simp only [foldl_add_eq, Dist1D.zero, Dist0D.zero, zero_add, Dist1D.scaleW,
      Dist0D.scaleW, scaleFills, List.length_map, List.map_map]
  · rw [a1]
  · rw [a2, mul_comm]
    exact (sum_map_scale f (fun p => p.2) _ A (fun _ => rfl)).symm
  · rw [a3, mul_comm]
    exact (sum_map_scale (f * f) (fun p => p.2 * p.2) _ A (fun p => by simp only [Function.comp]; ring)).symm
  · rw [a4, mul_comm]
    exact (sum_map_scale f (fun p => p.2 * p.1) _ A (fun p => by simp only [Function.comp]; ring)).symm
  · rw [a5, mul_comm]
    exact (sum_map_scale f (fun p => p.2 * p.1 * p.1) _ A (fun p => by simp only [Function.comp]; ring)).symm

theorem filter_scaleFills (f : F) (P : F → Bool) (fs : List (F × F)) :
    (scaleFills f fs).filter (fun p => P p.1) = scaleFills f (fs.filter fun p => P p.1) := by
  unfold scaleFills
  rw [List.filter_map]
  rfl

theorem AfterFills.ext {h h1 h2 : Binning1D F} {fs : List (F × F)} (a : h.AfterFills fs h1)
    (b : h.AfterFills fs h2) : h1 = h2 := by
  obtain ⟨a1, a2, a3, a4, a5, a6⟩ := a
  obtain ⟨b1, b2, b3, b4, b5, b6⟩ := b
  have e2 := a2.ext b2
  have e3 := a3.ext b3
  have e4 := a4.ext b4
  have e6 : h1.bins = h2.bins := by
    apply List.ext_getElem (by rw [a5, b5])
    intro i hi1 hi2
    have hi : i < h.bins.length := by omega
    obtain ⟨r1, s1⟩ := a6 i _ _ (List.getElem?_eq_getElem hi) (List.getElem?_eq_getElem hi1)
    obtain ⟨r2, s2⟩ := b6 i _ _ (List.getElem?_eq_getElem hi) (List.getElem?_eq_getElem hi2)
    have := s1.ext s2
    generalize h1.bins[i] = x at *
    generalize h2.bins[i] = y at *
    rcases x with ⟨xr, xd⟩
    rcases y with ⟨yr, yd⟩
    simp only at *
    subst r1 r2 this
    rfl
  rcases h1 with ⟨⟩
  rcases h2 with ⟨⟩
  simp only at *
  subst a1 b1 e2 e3 e4 e6
  rfl

/-- **C26**: the histogram does not depend on the order of the fills (exact arithmetic). -/
theorem C26_fill_order (h : Binning1D F) (ho : h.Ordered) (fs fs' : List (F × F)) (hp : fs.Perm fs') :
    h.fills fs = h.fills fs' := by
  obtain ⟨h1, e1, a1⟩ := C24_fills h ho fs
  obtain ⟨h2, e2, a2⟩ := C24_fills h ho fs'
  rw [e1, e2]
  have : h.AfterFills fs' h1 := by
    obtain ⟨b1, b2, b3, b4, b5, b6⟩ := a1
    exact ⟨b1, b2.perm hp, b3.perm (hp.filter _), b4.perm (hp.filter _), b5,
      fun i b b' hb hb' => ⟨(b6 i b b' hb hb').1, (b6 i b b' hb hb').2.perm (hp.filter _)⟩⟩
  rw [AfterFills.ext this a2]

/-- Fills of the weighted sum of two histograms. -/
theorem addScaled_fills (h : Binning1D F) (ho : h.Ordered) (he : h.Empty) (f : F) (A B : List (F × F)) :
    ∃ hA hB, h.fills A = some hA ∧ h.fills B = some hB ∧
      addScaledH1D hA f hB = h.fills (A ++ scaleFills f B) := by
  obtain ⟨hA, eA, a1, a2, a3, a4, a5, a6⟩ := C24_fills h ho A
  obtain ⟨hB, eB, b1, b2, b3, b4, b5, b6⟩ := C24_fills h ho B
  obtain ⟨hC, eC, aC⟩ := C24_fills h ho (A ++ scaleFills f B)
  refine ⟨hA, hB, eA, eB, ?_⟩
  rw [eC]
  unfold addScaledH1D
  have hlo : feq h.xrange.lo h.xrange.lo = true := by
    have := ho.axis
    rw [fle_iff] at this
    obtain ⟨a, b, ha, -, -⟩ := this
    exact feq_iff.mpr ⟨a, ha, ha⟩
  have hhi : feq h.xrange.hi h.xrange.hi = true := by
    have := ho.axis
    rw [fle_iff] at this
    obtain ⟨a, b, -, hb, -⟩ := this
    exact feq_iff.mpr ⟨b, hb, hb⟩
  rw [if_neg (by rw [a5, b5]; simp), if_neg (by rw [a1, b1, hlo, hhi]; simp)]
  refine congrArg some ?_
  refine AfterFills.ext (h := h) (fs := A ++ scaleFills f B) ⟨a1, ?_, ?_, ?_, ?_, ?_⟩ aC
  · rw [he.dist] at a2 b2 ⊢
    exact a2.add f b2
  · rw [he.under] at a3 b3 ⊢
    rw [List.filter_append, filter_scaleFills f (fun x => decide (h.Below x))]
    exact a3.add f b3
  · rw [he.over] at a4 b4 ⊢
    rw [List.filter_append, filter_scaleFills f (fun x => decide (h.Above x))]
    exact a4.add f b4
  · simp only [List.length_zipWith]; omega
  · intro i b b' hb hb'
    have hi : i < h.bins.length := (List.getElem?_eq_some_iff.mp hb).1
    have hiA : hA.bins[i]? = some hA.bins[i] := List.getElem?_eq_getElem (by omega)
    have hiB : hB.bins[i]? = some hB.bins[i] := List.getElem?_eq_getElem (by omega)
    simp only [List.getElem?_zipWith, hiA, hiB, Option.some.injEq] at hb'
    obtain ⟨r1, s1⟩ := a6 i b _ hb hiA
    obtain ⟨r2, s2⟩ := b6 i b _ hb hiB
    subst hb'
    refine ⟨r1, ?_⟩
    rw [he.bins b (List.mem_of_getElem? hb)] at s1 s2 ⊢
    rw [List.filter_append, filter_scaleFills f (fun x => decide (h.Inside b.range x))]
    exact s1.add f s2

/-- **C25**: adding two histograms of the same binning gives the histogram filled with both
data sets; subtracting and adding with a factor give the histogram filled with the
weights of the second set multiplied by the factor (exact arithmetic).  Entries add up. -/
theorem C25_add_is_merge (h : Binning1D F) (ho : h.Ordered) (he : h.Empty) (A B : List (F × F)) (f : F) :
    ∃ hA hB, h.fills A = some hA ∧ h.fills B = some hB ∧
      addH1D hA hB = h.fills (A ++ B) ∧
      subH1D hA hB = h.fills (A ++ B.map fun p => (p.1, -p.2)) ∧
      addScaledH1D hA f hB = h.fills (A ++ B.map fun p => (p.1, f * p.2)) := by
  obtain ⟨hA, hB, e1, e2, e3⟩ := addScaled_fills h ho he f A B
  obtain ⟨hA1, hB1, e11, e21, e31⟩ := addScaled_fills h ho he 1 A B
  obtain ⟨hA2, hB2, e12, e22, e32⟩ := addScaled_fills h ho he (-1) A B
  rw [e1] at e11 e12; cases e11; cases e12
  rw [e2] at e21 e22; cases e21; cases e22
  refine ⟨hA, hB, e1, e2, ?_, ?_, e3⟩
  · unfold addH1D
    rw [e31]; simp [scaleFills]
  · unfold subH1D
    rw [e32]; simp [scaleFills]

/-- **C27**: scaling gives the histogram filled with every weight multiplied by the factor
(exact arithmetic). -/
theorem C27_scale (h : Binning1D F) (ho : h.Ordered) (he : h.Empty) (A : List (F × F)) (f : F) :
    ∃ hA, h.fills A = some hA ∧ h.fills (A.map fun p => (p.1, f * p.2)) = some (hA.scaleW f) := by
  obtain ⟨hA, eA, a1, a2, a3, a4, a5, a6⟩ := C24_fills h ho A
  obtain ⟨hC, eC, aC⟩ := C24_fills h ho (scaleFills f A)
  refine ⟨hA, eA, ?_⟩
  change h.fills (scaleFills f A) = _
  rw [eC]
  congr 1
  refine AfterFills.ext (h := h) (fs := scaleFills f A) aC ⟨a1, ?_, ?_, ?_, ?_, ?_⟩
  · rw [he.dist] at a2 ⊢
    exact a2.scale f
  · rw [he.under] at a3 ⊢
    rw [filter_scaleFills f (fun x => decide (h.Below x))]
    exact a3.scale f
  · rw [he.over] at a4 ⊢
    rw [filter_scaleFills f (fun x => decide (h.Above x))]
    exact a4.scale f
  · simp only [Binning1D.scaleW, List.length_map]; omega
  · intro i b b' hb hb'
    have hi : i < h.bins.length := (List.getElem?_eq_some_iff.mp hb).1
    have hiA : hA.bins[i]? = some hA.bins[i] := List.getElem?_eq_getElem (by omega)
    simp only [Binning1D.scaleW, List.getElem?_map, hiA, Option.map_some, Option.some.injEq] at hb'
    obtain ⟨r1, s1⟩ := a6 i b _ hb hiA
    subst hb'
    refine ⟨r1, ?_⟩
    rw [he.bins b (List.mem_of_getElem? hb)] at s1 ⊢
    rw [filter_scaleFills f (fun x => decide (h.Inside b.range x))]
    exact s1.scale f

end Ring

/-! ## Totals of binnings without gaps -/

section Totals
variable {M : Type} [AddCommMonoid M] [Add F] [Mul F]

omit [BoundedOrder α] [Add F] [Mul F] in
theorem filter_split (h : Binning1D F) (ho : h.Ordered) (hg : h.Gapless) (g : F × F → M) (p : F × F) :
    ((h.ranges.map fun r => if h.Inside r p.1 then g p else 0).sum
      + (if h.Below p.1 then g p else 0)) + (if h.Above p.1 then g p else 0) = g p := by
  have hex := C23_regions_exclusive h ho p.1
  have hzero : (∀ r ∈ h.ranges, ¬ h.Inside r p.1) →
      (h.ranges.map fun r => if h.Inside r p.1 then g p else 0).sum = 0 := by
    intro hn
    apply List.sum_eq_zero
    intro y hy
    obtain ⟨r, hr, rfl⟩ := List.mem_map.mp hy
    rw [if_neg (hn r hr)]
  by_cases hb : h.Below p.1
  · rw [if_pos hb, if_neg (fun ha => hex.1 ⟨hb, ha⟩), hzero (fun r hr hi => (hex.2.1 r hr).1 ⟨hb, hi⟩)]
    simp
  · by_cases ha : h.Above p.1
    · rw [if_neg hb, if_pos ha, hzero (fun r hr hi => (hex.2.1 r hr).2 ⟨ha, hi⟩)]
      simp
    · rw [if_neg hb, if_neg ha]
      obtain ⟨r, hr, hc⟩ := hg p.1 hb ha
      have hin := inside_of_contains ho ha hc
      obtain ⟨i, hi, hri⟩ := List.mem_iff_getElem.mp hr
      have key : ∀ (rs : List (Range F)) (i : Nat) (hi : i < rs.length), h.Inside rs[i] p.1 →
          (∀ j (hj : j < rs.length), h.Inside rs[j] p.1 → i = j) →
          (rs.map fun r => if h.Inside r p.1 then g p else 0).sum = g p := by
        intro rs
        induction rs with
        | nil => intro i hi; simp at hi
        | cons a l ih =>
          intro i hi hin hun
          cases i with
          | zero =>
            simp only [List.getElem_cons_zero] at hin
            rw [List.map_cons, List.sum_cons, if_pos hin]
            rw [List.sum_eq_zero]
            · simp
            · intro y hy
              obtain ⟨r, hr, rfl⟩ := List.mem_map.mp hy
              obtain ⟨k, hk, rfl⟩ := List.mem_iff_getElem.mp hr
              rw [if_neg]
              intro hik
              have := hun (k + 1) (by simpa using hk) (by simpa using hik)
              omega
          | succ i =>
            rw [List.map_cons, List.sum_cons, if_neg]
            · rw [zero_add]
              refine ih i (by simpa using hi) (by simpa using hin) ?_
              intro j hj hij
              have := hun (j + 1) (by simpa using hj) (by simpa using hij)
              omega
            · intro h0
              have := hun 0 (by simp) (by simpa using h0)
              omega
      rw [key h.ranges i hi (by rw [hri]; exact hin)]
      · simp
      · intro j hj hij
        exact hex.2.2 i j _ _ (List.getElem?_eq_getElem hi) (List.getElem?_eq_getElem hj) (by rw [hri]; exact hin) hij

omit [BoundedOrder α] [Add F] [Mul F] in
theorem totals (h : Binning1D F) (ho : h.Ordered) (hg : h.Gapless) (g : F × F → M) (fs : List (F × F)) :
    ((h.ranges.map fun r => ((fs.filter fun p => h.Inside r p.1).map g).sum).sum
      + ((fs.filter fun p => h.Below p.1).map g).sum) + ((fs.filter fun p => h.Above p.1).map g).sum
      = (fs.map g).sum := by
  have key : ∀ (P : F → Prop) [DecidablePred P] (p : F × F) (fs : List (F × F)),
      (((p :: fs).filter fun p => P p.1).map g).sum
        = (if P p.1 then g p else 0) + ((fs.filter fun p => P p.1).map g).sum := by
    intro P _ p fs
    by_cases hP : P p.1
    · rw [List.filter_cons_of_pos (by simpa using hP), if_pos hP, List.map_cons, List.sum_cons]
    · rw [List.filter_cons_of_neg (by simpa using hP), if_neg hP, zero_add]
  induction fs with
  | nil => simp
  | cons p fs ih =>
    rw [key h.Below, key h.Above, List.map_cons, List.sum_cons, ← ih]
    have : (h.ranges.map fun r => (((p :: fs).filter fun p => h.Inside r p.1).map g).sum).sum =
        (h.ranges.map fun r => if h.Inside r p.1 then g p else 0).sum +
        (h.ranges.map fun r => ((fs.filter fun p => h.Inside r p.1).map g).sum).sum := by
      rw [← List.sum_map_add]
      congr 1
      apply List.map_congr_left
      intro r _
      rw [key (h.Inside r)]
    rw [this]
    conv_rhs => rw [← filter_split h ho hg g p]
    simp only [add_assoc, add_left_comm, add_comm]

end Totals

section RingTotals
variable {F α : Type} [LinearOrder α] [GoFloat F α] [CommRing F]

/-- **C24**: for a binning without gaps, bins, underflow and overflow together hold
exactly the totals: number of entries, sums of weights, of squared weights and of
weighted positions (exact arithmetic for the sums). -/
theorem C24_totals (h : Binning1D F) (ho : h.Ordered) (he : h.Empty) (hg : h.Gapless)
    (fs : List (F × F)) :
    ∃ h', h.fills fs = some h' ∧
      (h'.bins.map (·.dist.dist.n)).sum + h'.under.dist.n + h'.over.dist.n = h'.dist.dist.n ∧
      (h'.bins.map (·.dist.dist.sumW)).sum + h'.under.dist.sumW + h'.over.dist.sumW = h'.dist.dist.sumW ∧
      (h'.bins.map (·.dist.dist.sumW2)).sum + h'.under.dist.sumW2 + h'.over.dist.sumW2 = h'.dist.dist.sumW2 ∧
      (h'.bins.map (·.dist.sumWX)).sum + h'.under.sumWX + h'.over.sumWX = h'.dist.sumWX ∧
      (h'.bins.map (·.dist.sumWX2)).sum + h'.under.sumWX2 + h'.over.sumWX2 = h'.dist.sumWX2 := by
  obtain ⟨h', e, a1, a2, a3, a4, a5, a6⟩ := C24_fills h ho fs
  refine ⟨h', e, ?_⟩
  rw [he.dist] at a2
  rw [he.under] at a3
  rw [he.over] at a4
  have hbins : ∀ {M : Type} [AddCommMonoid M] (proj : Dist1D F → M) (g : F × F → M),
      (∀ gs d, Accumulates (Dist1D.zero : Dist1D F) gs d → proj d = (gs.map g).sum) →
      (h'.bins.map (fun b => proj b.dist)).sum + proj h'.under + proj h'.over = proj h'.dist := by
    intro M _ proj g hp
    rw [hp _ _ a2, hp _ _ a3, hp _ _ a4, ← totals h ho hg g fs]
    congr 3
    apply List.ext_getElem (by simp [Binning1D.ranges, a5])
    intro i h1 h2
    simp only [List.length_map] at h1
    have hi : i < h.bins.length := by omega
    simp only [List.getElem_map, Binning1D.ranges]
    obtain ⟨-, s⟩ := a6 i _ _ (List.getElem?_eq_getElem hi) (List.getElem?_eq_getElem h1)
    rw [he.bins _ (List.getElem_mem hi)] at s
    exact hp _ _ s
  refine ⟨hbins (fun d => d.dist.n) (fun _ => 1) ?_, hbins (fun d => d.dist.sumW) (fun p => p.2) ?_,
    hbins (fun d => d.dist.sumW2) (fun p => p.2 * p.2) ?_, hbins (fun d => d.sumWX) (fun p => p.2 * p.1) ?_,
    hbins (fun d => d.sumWX2) (fun p => p.2 * p.1 * p.1) ?_⟩
  · intro gs d a
    have := a.entries
    simp only [Dist1D.zero, Dist0D.zero, zero_add] at this
    rw [this]; simp
  · intro gs d a
    rw [a.sumW, foldl_add_eq]; simp [Dist1D.zero, Dist0D.zero]
  · intro gs d a
    rw [a.sumW2, foldl_add_eq]; simp [Dist1D.zero, Dist0D.zero]
  · intro gs d a
    rw [a.sumWX, foldl_add_eq]; simp [Dist1D.zero, Dist0D.zero]
  · intro gs d a
    rw [a.sumWX2, foldl_add_eq]; simp [Dist1D.zero, Dist0D.zero]

end RingTotals

/-! ## C28 -/

/-- **C28**: the integral without arguments is the accumulated sum of the weights of all
fills; over the whole line it is the sum, bin after bin, of the contents of all bins,
followed by underflow and overflow.  The lower edges must be numbers below infinity. -/
theorem C28_integral [Add F] [Mul F] [Zero F] (h : Binning1D F) (ho : h.Ordered) (he : h.Empty)
    (fs : List (F × F)) (lo hi : F) (hlo : val lo = some ⊥) (hhi : val hi = some ⊤)
    (hb : ∀ r ∈ h.ranges, ∃ a, val r.lo = some a ∧ a < ⊤) :
    ∃ h', h.fills fs = some h' ∧
      h'.integral [] = some ((fs.map fun p => p.2).foldl (· + ·) 0) ∧
      h'.integral [lo, hi] =
        some ((h'.bins.map (·.dist.dist.sumW)).foldl (· + ·) 0 + h'.under.dist.sumW + h'.over.dist.sumW) := by
  obtain ⟨h', e, a1, a2, a3, a4, a5, a6⟩ := C24_fills h ho fs
  refine ⟨h', e, ?_, ?_⟩
  · simp only [Binning1D.integral, a2.sumW, he.dist, Dist1D.zero, Dist0D.zero]
  · have hmm : flt hi lo = false := by
      cases hf : flt hi lo with
      | false => rfl
      | true =>
        rw [flt_iff] at hf
        obtain ⟨a, b, ha, hb', hab⟩ := hf
        rw [hhi] at ha; cases ha
        exact absurd hab not_top_lt
    simp only [Binning1D.integral, hmm, Bool.false_eq_true, if_false, isNegInf, isPosInf, hlo, hhi, decide_true, if_true]
    congr 3
    rw [List.foldl_map]
    have hall : ∀ b ∈ h'.bins, (fle lo b.range.lo && flt b.range.lo hi) = true := by
      intro b hbm
      obtain ⟨i, hi', rfl⟩ := List.mem_iff_getElem.mp hbm
      have hi0 : i < h.bins.length := by omega
      obtain ⟨r1, -⟩ := a6 i _ _ (List.getElem?_eq_getElem hi0) (List.getElem?_eq_getElem hi')
      obtain ⟨a, hva, hat⟩ := hb (h.bins[i].range) (List.mem_map_of_mem (List.getElem_mem hi0))
      rw [r1, Bool.and_eq_true, fle_iff, flt_iff]
      exact ⟨⟨⊥, a, hlo, hva, bot_le⟩, ⟨a, ⊤, hva, hhi, hat⟩⟩
    generalize (0 : F) = acc
    revert acc hall
    generalize h'.bins = bs
    intro hall
    induction bs with
    | nil => intro acc; rfl
    | cons b l ih =>
      intro acc
      rw [List.foldl_cons, List.foldl_cons, if_pos (hall b (by simp))]
      exact ih (fun b hb => hall b (by simp [hb])) _

end Verif.Hbook
