import Verif.Hbook.Scatter

/-!
# Means, variances and effective numbers of entries (C91)

Exact arithmetic.  `Accumulates .zero fs d` says what C24 proves of every distribution of a
histogram after fills: `d` holds the moments of the entries `fs`, pairs of a value and a weight.
-/

namespace Verif.Hbook.Prof
open Verif.Hbook Verif.Hbook.Brio

section
variable {K : Type} [Field K] [LinearOrder K] [IsStrictOrderedRing K]

/-- The sum of `g` over the entries. -/
def total (g : K → K → K) (fs : List (K × K)) : K := (fs.map fun p => g p.1 p.2).sum

omit [LinearOrder K] [IsStrictOrderedRing K] in
theorem moments {d : Dist1D K} {fs : List (K × K)} (h : Accumulates .zero fs d) :
    d.dist.n = fs.length ∧ d.dist.sumW = total (fun _ w => w) fs ∧
    d.dist.sumW2 = total (fun _ w => w * w) fs ∧ d.sumWX = total (fun x w => w * x) fs ∧
    d.sumWX2 = total (fun x w => w * x * x) fs := by
  obtain ⟨a1, a2, a3, a4, a5⟩ := h
  simp only [foldl_add_eq, Dist1D.zero, Dist0D.zero, zero_add] at a1 a2 a3 a4 a5
  exact ⟨by simpa using a1, a2, a3, a4, a5⟩

omit [LinearOrder K] [IsStrictOrderedRing K] in
theorem total_dev (m : K) (fs : List (K × K)) :
    total (fun x w => w * ((x - m) * (x - m))) fs =
      total (fun x w => w * x * x) fs - 2 * m * total (fun x w => w * x) fs + m * m * total (fun _ w => w) fs := by
  induction fs with
  | nil => simp [total]
  | cons p fs ih =>
    simp only [total, List.map_cons, List.sum_cons] at ih ⊢
    rw [ih]
    ring

theorem total_nonneg {g : K → K → K} {fs : List (K × K)} (h : ∀ p ∈ fs, 0 ≤ g p.1 p.2) : 0 ≤ total g fs := by
  apply List.sum_nonneg
  intro y hy
  simp only [List.mem_map] at hy
  obtain ⟨p, hp, rfl⟩ := hy
  exact h p hp

theorem total_le {g g' : K → K → K} {fs : List (K × K)} (h : ∀ p ∈ fs, g p.1 p.2 ≤ g' p.1 p.2) :
    total g fs ≤ total g' fs := by
  induction fs with
  | nil => simp [total]
  | cons p fs ih =>
    simp only [total, List.map_cons, List.sum_cons] at ih ⊢
    have h1 := h p (by simp)
    have h2 := ih (fun q hq => h q (by simp [hq]))
    linarith

omit [LinearOrder K] [IsStrictOrderedRing K] in
theorem total_mul (c : K) (g : K → K → K) (fs : List (K × K)) :
    total (fun x w => c * g x w) fs = c * total g fs := by
  induction fs with
  | nil => simp [total]
  | cons p fs ih =>
    simp only [total, List.map_cons, List.sum_cons] at ih ⊢
    rw [ih]
    ring

/-- **C91**: the mean is the weighted mean of the entries, and lies between bounds on their
values if no weight is negative. -/
theorem C91_mean {d : Dist1D K} {fs : List (K × K)} (h : Accumulates .zero fs d)
    (hW : total (fun _ w => w) fs ≠ 0) :
    mean d * total (fun _ w => w) fs = total (fun x w => w * x) fs ∧
    ∀ lo hi, (∀ p ∈ fs, 0 ≤ p.2 ∧ lo ≤ p.1 ∧ p.1 ≤ hi) → lo ≤ mean d ∧ mean d ≤ hi := by
  obtain ⟨-, e1, -, e3, -⟩ := moments h
  refine ⟨by rw [mean, e1, e3, div_mul_cancel₀ _ hW], ?_⟩
  intro lo hi hb
  have hpos : 0 < total (fun _ w => w) fs :=
    lt_of_le_of_ne (total_nonneg fun p hp => (hb p hp).1) (Ne.symm hW)
  rw [mean, e1, e3]
  constructor
  · rw [le_div_iff₀ hpos, ← total_mul]
    apply total_le
    intro p hp
    obtain ⟨a, b, c⟩ := hb p hp
    nlinarith [mul_nonneg a (sub_nonneg.mpr b)]
  · rw [div_le_iff₀ hpos, ← total_mul]
    apply total_le
    intro p hp
    obtain ⟨a, b, c⟩ := hb p hp
    nlinarith [mul_nonneg a (sub_nonneg.mpr c)]

/-- **C91**: for weights that are not negative the variance is the weighted sum of the squared
distances to the mean, divided by `W - W2/W` where `W` and `W2` are the sums of the weights
and of their squares. -/
theorem C91_variance {d : Dist1D K} {fs : List (K × K)} (h : Accumulates .zero fs d)
    (hw : ∀ p ∈ fs, 0 ≤ p.2) (hW : 0 < total (fun _ w => w) fs)
    (hden : total (fun _ w => w * w) fs < total (fun _ w => w) fs * total (fun _ w => w) fs) :
    variance d * (total (fun _ w => w) fs - total (fun _ w => w * w) fs / total (fun _ w => w) fs) =
      total (fun x w => w * ((x - mean d) * (x - mean d))) fs := by
  obtain ⟨-, e1, e2, e3, e4⟩ := moments h
  obtain ⟨hm, -⟩ := C91_mean h (ne_of_gt hW)
  have hdev := total_dev (mean d) fs
  have hS : 0 ≤ total (fun x w => w * ((x - mean d) * (x - mean d))) fs :=
    total_nonneg fun p hp => mul_nonneg (hw p hp) (mul_self_nonneg _)
  generalize total (fun x w => w * ((x - mean d) * (x - mean d))) fs = S at *
  generalize mean d = m at *
  simp only [variance, e1, e2, e3, e4]
  generalize total (fun _ w => w) fs = W at *
  generalize total (fun _ w => w * w) fs = W2 at *
  generalize total (fun x w => w * x) fs = X at *
  generalize total (fun x w => w * x * x) fs = X2 at *
  have hnum : X2 * W - X * X = W * S := by rw [hdev, ← hm]; ring
  have hd : 0 < W * W - W2 := sub_pos.mpr hden
  have hq : 0 ≤ (X2 * W - X * X) / (W * W - W2) := by
    rw [hnum]
    exact div_nonneg (mul_nonneg (le_of_lt hW) hS) (le_of_lt hd)
  have habs : fabs ((X2 * W - X * X) / (W * W - W2)) = (X2 * W - X * X) / (W * W - W2) := by
    simp only [fabs, flt_exact, decide_eq_true_eq]
    rw [if_neg (not_lt.mpr hq)]
  rw [habs, hnum]
  have hW0 : W ≠ 0 := ne_of_gt hW
  have hd0 : W * W - W2 ≠ 0 := ne_of_gt hd
  have : W - W2 / W = (W * W - W2) / W := by
    rw [sub_div, mul_div_cancel_right₀ _ hW0]
  rw [this, div_mul_div_comm, div_eq_iff (mul_ne_zero hd0 hW0)]
  ring

omit [LinearOrder K] [IsStrictOrderedRing K] in
theorem total_const {fs : List (K × K)} {c : K} (h : ∀ p ∈ fs, p.2 = c) (g : K → K) :
    total (fun _ w => g w) fs = fs.length * g c := by
  induction fs with
  | nil => simp [total]
  | cons p fs ih =>
    simp only [total, List.map_cons, List.sum_cons, List.length_cons, Nat.cast_add, Nat.cast_one] at ih ⊢
    rw [ih (fun q hq => h q (by simp [hq])), h p (by simp)]
    ring

/-- **C91**: for at least two entries of weight 1 this is the sum of the squared distances to the
mean divided by the number of entries less one. -/
theorem C91_variance_unweighted {d : Dist1D K} {fs : List (K × K)} (h : Accumulates .zero fs d)
    (hw : ∀ p ∈ fs, p.2 = 1) (hn : 2 ≤ fs.length) :
    variance d = (fs.map fun p => (p.1 - mean d) * (p.1 - mean d)).sum / (fs.length - 1) := by
  have t1 : total (fun _ w => w) fs = fs.length := by rw [total_const hw (fun w => w), mul_one]
  have t2 : total (fun _ w => w * w) fs = fs.length := by
    rw [total_const hw (fun w => w * w)]; ring
  have hn' : (2 : K) ≤ fs.length := by exact_mod_cast hn
  have hv := C91_variance h (fun p hp => by rw [hw p hp]; exact zero_le_one) (by rw [t1]; linarith)
    (by rw [t1, t2]; nlinarith)
  rw [t1, t2, div_self (by linarith)] at hv
  rw [eq_div_iff (by linarith), hv]
  simp only [total]
  congr 1
  apply List.map_congr_left
  intro p hp
  rw [hw p hp, one_mul]

theorem cauchy (fs : List (K × K)) :
    total (fun _ w => w) fs * total (fun _ w => w) fs ≤ fs.length * total (fun _ w => w * w) fs := by
  have aux : ∀ a : K, 0 ≤ fs.length * (a * a) - 2 * a * total (fun _ w => w) fs + total (fun _ w => w * w) fs := by
    intro a
    have e : fs.length * (a * a) - 2 * a * total (fun _ w => w) fs + total (fun _ w => w * w) fs =
        total (fun _ w => (w - a) * (w - a)) fs := by
      induction fs with
      | nil => simp [total]
      | cons p fs ih =>
        simp only [total, List.map_cons, List.sum_cons, List.length_cons, Nat.cast_add, Nat.cast_one] at ih ⊢
        rw [← ih]
        ring
    rw [e]
    exact total_nonneg fun p _ => mul_self_nonneg _
  rcases Nat.eq_zero_or_pos fs.length with h0 | h0
  · have : fs = [] := List.length_eq_zero_iff.mp h0
    subst this
    simp [total]
  · have hn : (0 : K) < fs.length := by exact_mod_cast h0
    have := aux (total (fun _ w => w) fs / fs.length)
    generalize total (fun _ w => w) fs = W at *
    generalize total (fun _ w => w * w) fs = Q at *
    have e : (fs.length : K) * (W / fs.length * (W / fs.length)) - 2 * (W / fs.length) * W + Q =
        (fs.length * Q - W * W) / fs.length := by
      field_simp
      ring
    rw [e] at this
    have := (div_nonneg_iff.mp this)
    rcases this with ⟨a, _⟩ | ⟨_, b⟩
    · linarith
    · linarith

/-- **C91**: the effective number of entries is at most the number of entries, and equal to it when
all weights are the same and not zero. -/
theorem C91_effective_entries {d : Dist1D K} {fs : List (K × K)} (h : Accumulates .zero fs d) :
    effEntries d.dist ≤ d.dist.n ∧
    ∀ c, c ≠ 0 → (∀ p ∈ fs, p.2 = c) → effEntries d.dist = d.dist.n := by
  obtain ⟨e0, e1, e2, -, -⟩ := moments h
  simp only [effEntries, e0, e1, e2, feq_exact, decide_eq_true_eq]
  have hq : 0 ≤ total (fun _ w => w * w) fs := total_nonneg fun p _ => mul_self_nonneg _
  constructor
  · split
    · simp
    · rename_i hne
      have hpos : 0 < total (fun _ w => w * w) fs := lt_of_le_of_ne hq (Ne.symm hne)
      rw [div_le_iff₀ hpos]
      simpa using cauchy fs
  · intro c hc hall
    rw [total_const hall (fun w => w), total_const hall (fun w => w * w)]
    rcases Nat.eq_zero_or_pos fs.length with h0 | h0
    · simp [h0]
    · have hn : (fs.length : K) ≠ 0 := by exact_mod_cast (Nat.pos_iff_ne_zero.mp h0)
      rw [if_neg (mul_ne_zero hn (mul_ne_zero hc hc))]
      field_simp
      simp

omit [IsStrictOrderedRing K] in
/-- **C91**: scaling a histogram by a factor other than zero changes neither the mean nor the variance nor the effective
number of entries of any of its distributions. -/
theorem C91_scale (d : Dist1D K) (f : K) (hf : f ≠ 0) :
    mean (d.scaleW f) = mean d ∧ variance (d.scaleW f) = variance d ∧
    effEntries (d.scaleW f).dist = effEntries d.dist := by
  refine ⟨?_, ?_, ?_⟩
  · simp only [mean, Dist1D.scaleW, Dist0D.scaleW]
    exact mul_div_mul_right _ _ hf
  · simp only [variance, Dist1D.scaleW, Dist0D.scaleW]
    have e1 : d.sumWX2 * f * (d.dist.sumW * f) - d.sumWX * f * (d.sumWX * f) =
        (d.sumWX2 * d.dist.sumW - d.sumWX * d.sumWX) * (f * f) := by ring
    have e2 : d.dist.sumW * f * (d.dist.sumW * f) - d.dist.sumW2 * (f * f) =
        (d.dist.sumW * d.dist.sumW - d.dist.sumW2) * (f * f) := by ring
    rw [e1, e2, mul_div_mul_right _ _ (mul_ne_zero hf hf)]
  · simp only [effEntries, Dist1D.scaleW, Dist0D.scaleW, feq_exact, decide_eq_true_eq]
    by_cases h0 : d.dist.sumW2 = 0
    · simp [h0]
    · rw [if_neg (mul_ne_zero h0 (mul_ne_zero hf hf)), if_neg h0]
      have e : d.dist.sumW * f * (d.dist.sumW * f) = d.dist.sumW * d.dist.sumW * (f * f) := by ring
      rw [e, mul_div_mul_right _ _ (mul_ne_zero hf hf)]

end

/-! ## Scaling profiles -/

section
variable {K : Type} [Field K] [LinearOrder K] [IsStrictOrderedRing K]

omit [LinearOrder K] [IsStrictOrderedRing K] in
theorem fill_scale (d : Dist2D K) (x y w f : K) :
    (scaleW2 d f).fill x y (w * f) = scaleW2 (d.fill x y w) f := by
  simp only [scaleW2, Dist2D.fill, Dist1D.fill, Dist0D.fill, Dist1D.scaleW, Dist0D.scaleW, Dist2D.mk.injEq,
    Dist1D.mk.injEq, Dist0D.mk.injEq, true_and]
  refine ⟨⟨⟨?_, ?_⟩, ?_, ?_⟩, ⟨⟨?_, ?_⟩, ?_, ?_⟩, ?_⟩ <;> ring

omit [IsStrictOrderedRing K] in
/-- **C91**: scaling a profile amounts to scaling the weights of all its entries. -/
theorem C91_scale_profile (v : Env K) (b : BinningP1D K) (fs : List (K × K × K)) (f : K) :
    fills v (scaleW b f) (fs.map fun p => (p.1, p.2.1, p.2.2 * f)) = (fills v b fs).map (scaleW · f) := by
  induction fs generalizing b with
  | nil => rfl
  | cons p fs ih =>
    obtain ⟨x, y, w⟩ := p
    have key : fill v (scaleW b f) x y (w * f) = (fill v b x y w).map (scaleW · f) := by
      have hi : coordToIndex v (scaleW b f) x = coordToIndex v b x := rfl
      simp only [fill, hi]
      have hlen : (scaleW b f).bins.length = b.bins.length := by simp [scaleW]
      simp only [hlen]
      split
      · split
        · simp only [Option.map_some, scaleW, fill_scale]
        · split
          · simp only [Option.map_some, scaleW, fill_scale]
          · rfl
      · split
        · simp only [Option.map_some, scaleW, fill_scale, Option.some.injEq, BinningP1D.mk.injEq, true_and, and_true]
          apply List.ext_getElem?
          intro j
          simp only [List.getElem?_modify, List.getElem?_map]
          rcases b.bins[j]? with _ | q
          · simp
          · by_cases hj : (coordToIndex v b x).toNat = j
            · simp [hj, fillBin, fill_scale]
            · simp [hj]
        · rfl
    simp only [List.map_cons, fills, key]
    rcases fill v b x y w with _ | b'
    · rfl
    · exact ih b'

end

/-! ## Examples -/

/-- Three entries: values 1, 2 and 6 with weights 1, 1 and 2. -/
def exDist : Dist1D ℚ := ((Dist1D.zero.fill 1 1).fill 2 1).fill 6 2

theorem exDist_acc : Accumulates .zero [((1 : ℚ), (1 : ℚ)), (2, 1), (6, 2)] exDist :=
  ⟨by decide +kernel, by decide +kernel, by decide +kernel, by decide +kernel, by decide +kernel⟩

example : mean exDist = 15 / 4 ∧ variance exDist = 83 / 10 ∧ effEntries exDist.dist = 8 / 3 := by
  decide +kernel

example : variance exDist * (total (fun _ w => w) [((1 : ℚ), (1 : ℚ)), (2, 1), (6, 2)] -
    total (fun _ w => w * w) [((1 : ℚ), (1 : ℚ)), (2, 1), (6, 2)] /
      total (fun _ w => w) [((1 : ℚ), (1 : ℚ)), (2, 1), (6, 2)]) =
    total (fun x w => w * ((x - mean exDist) * (x - mean exDist))) [((1 : ℚ), (1 : ℚ)), (2, 1), (6, 2)] :=
  C91_variance exDist_acc (by decide +kernel) (by decide +kernel) (by decide +kernel)

end Verif.Hbook.Prof
