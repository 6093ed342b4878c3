import Verif.Hbook.Profile
import Verif.Hbook.Rand
import Mathlib.Algebra.Order.Floor.Ring

/-!
# Profiles account for every fill (C88)
-/

namespace Verif.Hbook.Prof
open Verif.Hbook Verif.Hbook.Brio

/-! ## Whatever the arithmetic -/

section Any
variable {F α : Type} [LinearOrder α] [GoFloat F α]
variable [Zero F] [One F] [Add F] [Sub F] [Neg F] [Mul F] [Div F] [NatCast F]
variable {M : Type} [AddCommMonoid M]

/-- The sum over the bins of a profile. -/
def binSum (g : Dist2D F → M) (b : BinningP1D F) : M := (b.bins.map fun p => g p.dist).sum

omit [Zero F] [One F] [Sub F] [Neg F] [Div F] [NatCast F] in
theorem sum_modify (g : Dist2D F → M) (x y w : F) (δ : M)
    (hg : ∀ d, g (d.fill x y w) = g d + δ) (l : List (BinP1D F)) (i : Nat) (hi : i < l.length) :
    ((l.modify i (fillBin · x y w)).map fun p => g p.dist).sum = (l.map fun p => g p.dist).sum + δ := by
  induction l generalizing i with
  | nil => simp at hi
  | cons p l ih =>
    cases i with
    | zero =>
      simp only [List.modify_zero_cons, List.map_cons, List.sum_cons, fillBin, hg]
      abel
    | succ i =>
      simp only [List.modify_succ_cons, List.map_cons, List.sum_cons]
      rw [ih i (by simpa using hi)]
      abel

omit [Zero F] [One F] [Neg F] [Div F] [NatCast F] in
/-- **C88**, in any arithmetic: a fill that returns adds the entry to the total and to exactly
one of the bins and the two outflows.  `g` is any quantity a fill increases by a given amount,
like the number of entries; it keeps being the same in the total as in the parts together. -/
theorem C88_accounted (v : Env F) (g : Dist2D F → M) (δ : F × F × F → M)
    (hg : ∀ d x y w, g (d.fill x y w) = g d + δ (x, y, w)) (b b' : BinningP1D F)
    (fs : List (F × F × F)) (h : fills v b fs = some b')
    (h0 : g b.dist = g b.under + g b.over + binSum g b) :
    g b'.dist = g b.dist + (fs.map δ).sum ∧ g b'.dist = g b'.under + g b'.over + binSum g b' := by
  induction fs generalizing b with
  | nil =>
    simp only [fills, Option.some.injEq] at h
    subst h
    exact ⟨by simp, h0⟩
  | cons f fs ih =>
    obtain ⟨x, y, w⟩ := f
    simp only [fills] at h
    split at h
    · cases h
    rename_i b1 hb1
    have key : g b1.dist = g b.dist + δ (x, y, w) ∧ g b1.dist = g b1.under + g b1.over + binSum g b1 := by
      simp only [fill] at hb1
      split at hb1
      · split at hb1
        · cases hb1
          refine ⟨hg _ _ _ _, ?_⟩
          simp only [hg, h0, binSum]
          abel
        · split at hb1
          · cases hb1
            refine ⟨hg _ _ _ _, ?_⟩
            simp only [hg, h0, binSum]
            abel
          · cases hb1
      · rename_i hn
        split at hb1
        · rename_i hlt
          cases hb1
          refine ⟨hg _ _ _ _, ?_⟩
          simp only [hg, h0, binSum]
          rw [sum_modify g x y w (δ (x, y, w)) (fun d => hg d x y w) b.bins _ (by omega)]
          abel
        · cases hb1
    obtain ⟨e1, e2⟩ := ih b1 h key.2
    refine ⟨?_, e2⟩
    rw [e1, key.1, List.map_cons, List.sum_cons]
    abel

omit [One F] in
/-- **C88**: the number of entries of a new profile after any fills that return. -/
theorem C88_entries (v : Env F) (n : Int) (lo hi : F) (b b' : BinningP1D F)
    (hb : newBinningP1D n lo hi = some b) (fs : List (F × F × F)) (h : fills v b fs = some b') :
    b'.dist.x.dist.n = fs.length ∧
    b'.dist.x.dist.n = b'.under.x.dist.n + b'.over.x.dist.n +
      (b'.bins.map fun p => p.dist.x.dist.n).sum := by
  have h0 : b.dist = .zero ∧ b.under = .zero ∧ b.over = .zero ∧ ∀ p ∈ b.bins, p.dist = .zero := by
    simp only [newBinningP1D] at hb
    split at hb
    · cases hb
    · split at hb
      · cases hb
      · cases hb
        refine ⟨rfl, rfl, rfl, ?_⟩
        intro p hp
        simp only [List.mem_map] at hp
        obtain ⟨i, _, rfl⟩ := hp
        rfl
  obtain ⟨hd, hu, ho, hbs⟩ := h0
  have hz : (b.bins.map fun p => p.dist.x.dist.n).sum = 0 := by
    apply List.sum_eq_zero
    intro k hk
    simp only [List.mem_map] at hk
    obtain ⟨p, hp, rfl⟩ := hk
    rw [hbs p hp]
    rfl
  obtain ⟨e1, e2⟩ := C88_accounted v (fun d => d.x.dist.n) (fun _ => (1 : Int)) (fun d x y w => rfl)
    b b' fs h (by
      simp only [hd, hu, ho, binSum, hz]
      rfl)
  refine ⟨?_, e2⟩
  rw [e1, hd]
  simp [Dist2D.zero, Dist1D.zero, Dist0D.zero]

end Any

/-! ## In exact arithmetic -/

section Exact
variable {K : Type} [Field K] [LinearOrder K] [IsStrictOrderedRing K] [FloorRing K]

/-- The conversion to `int` truncates. -/
def Truncates (v : Env K) : Prop := ∀ x : K, 0 ≤ x → v.toInt x = ⌊x⌋

/-- A profile of `n` bins of the same width from `lo` to `hi`, with any contents. -/
structure Uniform (b : BinningP1D K) (n : Nat) (lo hi : K) : Prop where
  pos : 0 < n
  lt : lo < hi
  len : b.bins.length = n
  range : b.xrange = ⟨lo, hi⟩
  step : b.xstep = n / (hi - lo)
  edges : ∀ (i : Nat) (p : BinP1D K), b.bins[i]? = some p →
    p.xrange = ⟨lo + i * ((hi - lo) / n), lo + (i + 1) * ((hi - lo) / n)⟩

omit [FloorRing K] in
/-- **C88**: a profile can be booked exactly when it has bins and its limits are in order; it is
then empty, and its bins divide the axis evenly. -/
theorem C88_new (n : Int) (lo hi : K) :
    (newBinningP1D n lo hi = none ↔ n ≤ 0 ∨ hi ≤ lo) ∧
    ∀ b, newBinningP1D n lo hi = some b → Uniform b n.toNat lo hi ∧ b.dist = .zero ∧
      b.under = .zero ∧ b.over = .zero ∧ ∀ p ∈ b.bins, p.dist = .zero := by
  constructor
  · simp only [newBinningP1D, fle_exact, decide_eq_true_eq]
    split
    · simp [*]
    · split <;> simp [*]
  · intro b hb
    simp only [newBinningP1D, fle_exact, decide_eq_true_eq] at hb
    split at hb
    · cases hb
    rename_i h1
    split at hb
    · cases hb
    rename_i h2
    have hlt : lo < hi := lt_of_not_ge h1
    have hw : (Range.mk lo hi).width = hi - lo := width_exact _ (le_of_lt hlt)
    rw [hw] at hb
    cases hb
    refine ⟨⟨by omega, hlt, by simp, rfl, rfl, ?_⟩, rfl, rfl, rfl, ?_⟩
    · intro i p hp
      simp only [List.getElem?_map] at hp
      rcases hr : (List.range n.toNat)[i]? with _ | j
      · rw [hr] at hp; cases hp
      · rw [hr] at hp
        have : i = j := by
          rw [List.getElem?_range] at hr
          · simpa using hr
          · exact (by simpa using (List.getElem?_eq_some_iff.mp hr).1)
        subst this
        cases hp
        simp
    · intro p hp
      simp only [List.mem_map] at hp
      obtain ⟨i, _, rfl⟩ := hp
      rfl

theorem idx_spec {n : Nat} {lo hi x : K} (hn : 0 < n) (hlt : lo < hi) (h1 : lo ≤ x) :
    0 ≤ (x - lo) * (n / (hi - lo)) ∧
    ∀ i : Nat, ⌊(x - lo) * (n / (hi - lo))⌋ = i ↔
      (lo + i * ((hi - lo) / n) ≤ x ∧ x < lo + (i + 1) * ((hi - lo) / n)) := by
  have hd : 0 < hi - lo := sub_pos.mpr hlt
  have hn' : (0 : K) < n := by exact_mod_cast hn
  have hstep : 0 < (hi - lo) / n := div_pos hd hn'
  have hinv : (n : K) / (hi - lo) = ((hi - lo) / n)⁻¹ := by rw [inv_div]
  refine ⟨mul_nonneg (sub_nonneg.mpr h1) (le_of_lt (div_pos hn' hd)), fun i => ?_⟩
  rw [Int.floor_eq_iff, hinv, ← div_eq_mul_inv, le_div_iff₀ hstep, div_lt_iff₀ hstep]
  simp only [Int.cast_natCast]
  constructor
  · rintro ⟨a, b⟩
    exact ⟨by linarith, by linarith⟩
  · rintro ⟨a, b⟩
    exact ⟨by linarith, by linarith⟩

theorem idx_lt {n : Nat} {lo hi x : K} (hn : 0 < n) (hlt : lo < hi) (h2 : x < hi) :
    ⌊(x - lo) * (n / (hi - lo))⌋ < n := by
  have hd : 0 < hi - lo := sub_pos.mpr hlt
  have hn' : (0 : K) < n := by exact_mod_cast hn
  rw [Int.floor_lt]
  have : (x - lo) * (n / (hi - lo)) < (hi - lo) * (n / (hi - lo)) :=
    mul_lt_mul_of_pos_right (by linarith) (div_pos hn' hd)
  rw [mul_div_cancel₀ _ (ne_of_gt hd)] at this
  simpa using this

/-- **C88** (part: exact arithmetic): a fill never panics; it adds the entry to the total, and to
the one bin whose range contains `x`, or to the underflow below the axis, or to the overflow
at and above its end, and leaves everything else alone.  On the axis there is exactly one such
bin.  Missing: floating point numbers, for which the claim is false; see
`C88_last_value_counterexample`. -/
theorem C88_fill_partial (v : Env K) (hv : Truncates v) (b : BinningP1D K) (n : Nat) (lo hi : K)
    (h : Uniform b n lo hi) (x y w : K) :
    (∃ b', fill v b x y w = some b' ∧ Uniform b' n lo hi ∧ b'.dist = b.dist.plus x y w ∧
      b'.under = (if x < lo then b.under.plus x y w else b.under) ∧
      b'.over = (if hi ≤ x then b.over.plus x y w else b.over) ∧
      b'.bins = b.bins.map (fun p => if p.xrange.lo ≤ x ∧ x < p.xrange.hi
        then { p with dist := p.dist.plus x y w } else p)) ∧
    (lo ≤ x → x < hi → ∃ (i : Nat) (p : BinP1D K), b.bins[i]? = some p ∧ p.xrange.lo ≤ x ∧ x < p.xrange.hi ∧
      ∀ (j : Nat) (q : BinP1D K), b.bins[j]? = some q → q.xrange.lo ≤ x → x < q.xrange.hi → j = i) := by
  have hd : 0 < hi - lo := sub_pos.mpr h.lt
  have hn' : (0 : K) < n := by exact_mod_cast h.pos
  have hstep : 0 < (hi - lo) / n := div_pos hd hn'
  have hnstep : (n : K) * ((hi - lo) / n) = hi - lo := by
    field_simp
  -- the bins lie on the axis
  have hin : ∀ p ∈ b.bins, lo ≤ p.xrange.lo ∧ p.xrange.hi ≤ hi := by
    intro p hp
    obtain ⟨i, hi', hip⟩ := List.mem_iff_getElem.mp hp
    have e := h.edges i p (by rw [List.getElem?_eq_getElem hi', hip])
    rw [e]
    have hin : i + 1 ≤ n := by rw [← h.len]; exact hi'
    have h1 : ((i : K) + 1) * ((hi - lo) / n) ≤ n * ((hi - lo) / n) :=
      mul_le_mul_of_nonneg_right (by exact_mod_cast hin) (le_of_lt hstep)
    have h2 : 0 ≤ (i : K) * ((hi - lo) / n) := mul_nonneg (by positivity) (le_of_lt hstep)
    exact ⟨by simp only; linarith, by simp only; linarith⟩
  have hid : ¬ (lo ≤ x ∧ x < hi) → b.bins = b.bins.map (fun p => if p.xrange.lo ≤ x ∧ x < p.xrange.hi
        then { p with dist := p.dist.plus x y w } else p) := by
    intro hno
    conv_lhs => rw [← List.map_id b.bins]
    apply List.map_congr_left
    intro p hp
    obtain ⟨a1, a2⟩ := hin p hp
    rw [if_neg]
    · rfl
    · rintro ⟨c1, c2⟩
      exact hno ⟨le_trans a1 c1, lt_of_lt_of_le c2 a2⟩
  have hplus : ∀ d : Dist2D K, d.fill x y w = d.plus x y w := fun d => rfl
  have hspec : lo ≤ x → x < hi → ∃ i : Nat, i < n ∧ coordToIndex v b x = i ∧
      ∀ (j : Nat) (q : BinP1D K), b.bins[j]? = some q → (q.xrange.lo ≤ x ∧ x < q.xrange.hi ↔ j = i) := by
    intro h1 h2
    obtain ⟨hnn, hi'⟩ := idx_spec h.pos h.lt h1
    have hlt := idx_lt (x := x) h.pos h.lt h2
    have hge : 0 ≤ ⌊(x - lo) * ((n : K) / (hi - lo))⌋ := Int.floor_nonneg.mpr hnn
    obtain ⟨i, hfi⟩ := Int.eq_ofNat_of_zero_le hge
    refine ⟨i, by omega, ?_, ?_⟩
    · simp only [coordToIndex, flt_exact, fle_exact, decide_eq_true_eq, h.range, h.step]
      rw [if_neg (not_lt.mpr h1), if_neg (not_le.mpr h2), hv _ hnn, hfi]
    · intro j q hq
      rw [h.edges j q hq]
      simp only
      rw [← hi' j, hfi]
      omega
  constructor
  · by_cases h1 : x < lo
    · have hi1 : coordToIndex v b x = -1 := by
        simp only [coordToIndex, flt_exact, decide_eq_true_eq, h.range]
        rw [if_pos h1]
      refine ⟨{ b with dist := b.dist.plus x y w, under := b.under.plus x y w }, ?_, ?_, rfl, ?_, ?_, ?_⟩
      · simp only [fill, hi1]
        rfl
      · exact ⟨h.pos, h.lt, h.len, h.range, h.step, h.edges⟩
      · rw [if_pos h1]
      · rw [if_neg (not_le.mpr (lt_trans h1 h.lt))]
      · exact hid (fun c => absurd c.1 (not_le.mpr h1))
    · by_cases h2 : hi ≤ x
      · have hi2 : coordToIndex v b x = -2 := by
          simp only [coordToIndex, flt_exact, fle_exact, decide_eq_true_eq, h.range]
          rw [if_neg h1, if_pos h2]
        refine ⟨{ b with dist := b.dist.plus x y w, over := b.over.plus x y w }, ?_, ?_, rfl, ?_, ?_, ?_⟩
        · simp only [fill, hi2]
          rfl
        · exact ⟨h.pos, h.lt, h.len, h.range, h.step, h.edges⟩
        · rw [if_neg h1]
        · rw [if_pos h2]
        · exact hid (fun c => absurd c.2 (not_lt.mpr h2))
      · obtain ⟨i, hin', hci, hq⟩ := hspec (not_lt.mp h1) (not_le.mp h2)
        have hmod : b.bins.modify i (fillBin · x y w) = b.bins.map (fun p => if p.xrange.lo ≤ x ∧ x < p.xrange.hi
            then { p with dist := p.dist.plus x y w } else p) := by
          apply List.ext_getElem?
          intro j
          rw [List.getElem?_modify, List.getElem?_map]
          rcases hj : b.bins[j]? with _ | q
          · rfl
          · have := hq j q hj
            by_cases hji : j = i
            · subst hji
              simp only [if_true, Option.map_some, if_pos (this.mpr rfl)]
              rfl
            · simp only [Option.map_some, if_neg (fun c => hji (this.mp c)), if_neg (fun c : i = j => hji c.symm)]
              rfl
        refine ⟨{ b with dist := b.dist.plus x y w, bins := b.bins.modify i (fillBin · x y w) }, ?_, ?_, rfl, ?_, ?_, hmod⟩
        · simp only [fill, hci]
          rw [if_neg (by omega), if_pos (by rw [h.len]; omega)]
          rfl
        · refine ⟨h.pos, h.lt, by simpa using h.len, h.range, h.step, ?_⟩
          intro j q hj
          simp only [List.getElem?_modify] at hj
          rcases hj' : b.bins[j]? with _ | p
          · rw [hj'] at hj; cases hj
          · rw [hj'] at hj
            have e := h.edges j p hj'
            change some _ = some _ at hj
            injection hj with hj
            rw [← e, ← hj]
            show (if i = j then fillBin p x y w else p).xrange = p.xrange
            split <;> rfl
        · rw [if_neg h1]
        · rw [if_neg h2]
  · intro h1 h2
    obtain ⟨i, hin', -, hq⟩ := hspec h1 h2
    have hlen : i < b.bins.length := by rw [h.len]; exact hin'
    obtain ⟨c1, c2⟩ := (hq i _ (List.getElem?_eq_getElem hlen)).mpr rfl
    exact ⟨i, _, List.getElem?_eq_getElem hlen, c1, c2, fun j q hj a1 a2 => (hq j q hj).mp ⟨a1, a2⟩⟩

/-- What the fills whose `x` satisfies `P` add to a distribution, in their order. -/
def taken (P : K → Prop) [DecidablePred P] (d : Dist2D K) (fs : List (K × K × K)) : Dist2D K :=
  (fs.filter fun f => decide (P f.1)).foldl (fun d f => d.plus f.1 f.2.1 f.2.2) d

/-- **C88** (part: exact arithmetic): after any fills the total has all of them, the underflow those below the
axis, the overflow those at and above its end, and every bin those within its range. -/
theorem C88_fills_partial (v : Env K) (hv : Truncates v) (b : BinningP1D K) (n : Nat) (lo hi : K)
    (h : Uniform b n lo hi) (fs : List (K × K × K)) :
    ∃ b', fills v b fs = some b' ∧ Uniform b' n lo hi ∧ b'.dist = taken (fun _ => True) b.dist fs ∧
      b'.under = taken (fun x => x < lo) b.under fs ∧ b'.over = taken (fun x => hi ≤ x) b.over fs ∧
      b'.bins = b.bins.map (fun p => { p with
        dist := taken (fun x => p.xrange.lo ≤ x ∧ x < p.xrange.hi) p.dist fs }) := by
  induction fs generalizing b with
  | nil => exact ⟨b, rfl, h, rfl, rfl, rfl, by simp [taken]⟩
  | cons f fs ih =>
    obtain ⟨x, y, w⟩ := f
    obtain ⟨⟨b1, e1, h1, d1, u1, o1, s1⟩, -⟩ := C88_fill_partial v hv b n lo hi h x y w
    obtain ⟨b2, e2, h2, d2, u2, o2, s2⟩ := ih b1 h1
    refine ⟨b2, by simp only [fills, e1, e2], h2, ?_, ?_, ?_, ?_⟩
    · rw [d2, d1]; simp [taken]
    · rw [u2, u1]
      simp only [taken, List.filter_cons]
      split <;> rename_i hc <;> simp [hc]
    · rw [o2, o1]
      simp only [taken, List.filter_cons]
      split <;> rename_i hc <;> simp [hc]
    · rw [s2, s1, List.map_map]
      apply List.map_congr_left
      intro p _
      simp only [Function.comp, taken, List.filter_cons]
      split <;> rename_i hc <;> simp [hc]

end Exact

end Verif.Hbook.Prof
