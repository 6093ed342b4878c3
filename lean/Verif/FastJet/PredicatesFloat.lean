import Verif.FastJet.PredicatesProps
import Mathlib.Data.Rat.Floor
import Mathlib.Algebra.Order.Floor.Defs
import Mathlib.Algebra.Order.Floor.Semiring
import Mathlib.Data.Nat.Log

/-!
# Binary64 arithmetic and the predicates (C92)

IEEE 754 binary64 rounding on the rationals, with subnormal numbers and overflow: to nearest, ties
to even.  It has all that the proofs use.
-/

namespace Verif.FastJet.Pred

/-- To the nearest whole number, ties to even. -/
def nearest (r : ℚ) : Int :=
  if r - ⌊r⌋ < 1 / 2 then ⌊r⌋ else if 1 / 2 < r - ⌊r⌋ then ⌊r⌋ + 1
  else if ⌊r⌋ % 2 = 0 then ⌊r⌋ else ⌊r⌋ + 1

/-- The last place of the numbers near `x` is worth `2 ^ (place x)` times the smallest number. -/
def place (x : ℚ) : Nat := ⌊|x| * 2 ^ 1074⌋.toNat.log2 - 52

/-- The value of the last place. -/
def ulp (x : ℚ) : ℚ := 2 ^ place x / 2 ^ 1074

/-- Rounding; `none` when the result is not finite. -/
def rnd64 (x : ℚ) : Option ℚ :=
  let y := nearest (x / ulp x) * ulp x
  if |y| < 2 ^ 1024 then some y else none

/-- Binary64 arithmetic. -/
def b64 : Arith ℚ := { rnd := rnd64, macheps := 1 / 2 ^ 52, tiny := 1 / 2 ^ 1074 }

theorem nearest_int (z : ℤ) : nearest z = z := by
  have : ⌊(z : ℚ)⌋ = z := Int.floor_intCast z
  simp [nearest, this]

theorem nearest_err (r : ℚ) : |(nearest r : ℚ) - r| ≤ 1 / 2 := by
  have h1 := Int.floor_le r
  have h2 := Int.lt_floor_add_one r
  rw [abs_le, nearest]
  split
  · constructor <;> linarith
  · split
    · push_cast
      constructor <;> linarith
    · split
      · constructor <;> linarith
      · push_cast
        constructor <;> linarith

theorem nearest_nonneg {r : ℚ} (h : 0 ≤ r) : 0 ≤ nearest r := by
  have : 0 ≤ ⌊r⌋ := Int.floor_nonneg.mpr h
  rw [nearest]
  split_ifs <;> omega

theorem ulp_pos (x : ℚ) : 0 < ulp x := by
  rw [ulp]; positivity

theorem rnd64_some {x y : ℚ} (h : rnd64 x = some y) : y = nearest (x / ulp x) * ulp x := by
  simp only [rnd64] at h
  split at h
  · cases h; rfl
  · cases h

theorem rnd64_err {x y : ℚ} (h : rnd64 x = some y) : |y - x| ≤ ulp x / 2 := by
  have hu := ulp_pos x
  rw [rnd64_some h]
  have e : (nearest (x / ulp x) : ℚ) * ulp x - x = (nearest (x / ulp x) - x / ulp x) * ulp x := by
    rw [sub_mul, div_mul_cancel₀ _ (ne_of_gt hu)]
  rw [e, abs_mul, abs_of_pos hu]
  have := nearest_err (x / ulp x)
  nlinarith

/-- A number that is a multiple of its last place is not changed. -/
theorem rnd64_exact {x y : ℚ} (h : rnd64 x = some y) (z : ℤ) (hz : x = z * ulp x) : y = x := by
  have hu := ulp_pos x
  rw [rnd64_some h]
  have : x / ulp x = (z : ℚ) := by
    rw [div_eq_iff (ne_of_gt hu)]; exact hz
  rw [this, nearest_int]
  exact hz.symm

theorem ulp_le {x : ℚ} (h : 1 / 2 ^ 1022 ≤ |x| ∨ 0 < place x) : ulp x ≤ |x| / 2 ^ 52 := by
  have hN : ((⌊|x| * 2 ^ 1074⌋.toNat : ℕ) : ℚ) ≤ |x| * 2 ^ 1074 := by
    have h0 : 0 ≤ ⌊|x| * 2 ^ 1074⌋ := Int.floor_nonneg.mpr (mul_nonneg (abs_nonneg x) (pow_nonneg (by norm_num) _))
    have : ((⌊|x| * 2 ^ 1074⌋.toNat : ℕ) : ℤ) = ⌊|x| * 2 ^ 1074⌋ := Int.toNat_of_nonneg h0
    calc ((⌊|x| * 2 ^ 1074⌋.toNat : ℕ) : ℚ) = ((⌊|x| * 2 ^ 1074⌋.toNat : ℤ) : ℚ) := (Int.cast_natCast _).symm
      _ = (⌊|x| * 2 ^ 1074⌋ : ℚ) := by rw [this]
      _ ≤ _ := Int.floor_le _
  have hlog : 52 ≤ ⌊|x| * 2 ^ 1074⌋.toNat.log2 := by
    rcases h with h | h
    · have : (2 : ℤ) ^ 52 ≤ ⌊|x| * 2 ^ 1074⌋ := by
        rw [Int.le_floor]
        have h3 : (1 : ℚ) / 2 ^ 1022 * 2 ^ 1074 = 2 ^ 52 := by
          rw [show (1074 : ℕ) = 1022 + 52 from rfl, pow_add, ← mul_assoc, div_mul_cancel₀ _ (by positivity), one_mul]
        have h4 : (1 : ℚ) / 2 ^ 1022 * 2 ^ 1074 ≤ |x| * 2 ^ 1074 :=
          mul_le_mul_of_nonneg_right h (by positivity)
        rw [h3] at h4
        exact_mod_cast h4
      have h5 : 2 ^ 52 ≤ ⌊|x| * 2 ^ 1074⌋.toNat := by omega
      rw [Nat.log2_eq_log_two]
      exact Nat.le_log_of_pow_le (by norm_num) h5
    · simp only [place] at h
      omega
  have hne : ⌊|x| * 2 ^ 1074⌋.toNat ≠ 0 := by
    intro h0
    rw [h0] at hlog
    exact absurd hlog (by decide)
  have hpow : 2 ^ (52 + place x) ≤ ⌊|x| * 2 ^ 1074⌋.toNat := by
    have : 52 + place x = ⌊|x| * 2 ^ 1074⌋.toNat.log2 := by simp only [place]; omega
    rw [this]
    exact Nat.log2_self_le hne
  have hq : (2 : ℚ) ^ (52 + place x) ≤ |x| * 2 ^ 1074 := by
    refine le_trans ?_ hN
    exact_mod_cast hpow
  rw [ulp, div_le_div_iff₀ (by positivity) (by positivity), ← pow_add, add_comm (place x)]
  exact hq

theorem b64_binary64 : Binary64 b64 := by
  refine ⟨rfl, rfl, ?_, ?_, ?_, ?_⟩
  · intro x y h hx
    change rnd64 x = some y at h
    by_cases hp : 1 / 2 ^ 1022 ≤ |x| ∨ 0 < place x
    · have h1 := rnd64_err h
      have h2 := ulp_le hp
      have h3 : |x| / 2 ^ 53 = |x| / 2 ^ 52 / 2 := by rw [div_div, ← pow_succ]
      rw [h3]
      linarith
    · rw [not_or] at hp
      rcases hx with ⟨z, hz⟩ | hx
      · have h0 : place x = 0 := by omega
        have : y = x := by
          refine rnd64_exact h z ?_
          rw [ulp, h0, pow_zero, mul_one_div, eq_div_iff (by positivity)]
          exact hz
        rw [this, sub_self, abs_zero]
        positivity
      · exact absurd hx hp.1
  · intro x y h
    change rnd64 x = some y at h
    refine ⟨nearest (x / ulp x) * 2 ^ place x, ?_⟩
    rw [rnd64_some h]
    generalize nearest (x / ulp x) = w
    rw [ulp]
    push_cast
    rw [mul_assoc, div_mul_cancel₀ _ (by positivity)]
  · intro k x y hk h hx
    change rnd64 x = some y at h
    obtain ⟨z, hz⟩ := hx
    by_cases hp : place x + k ≤ 1074
    · have : y = x := by
        refine rnd64_exact h (z * 2 ^ (1074 - k - place x)) ?_
        rw [ulp]
        push_cast
        rw [← hz, mul_div_assoc', eq_div_iff (by positivity), mul_assoc, mul_assoc, ← pow_add, ← pow_add]
        congr 2
        omega
      rw [this]
      exact ⟨z, hz⟩
    · refine ⟨nearest (x / ulp x) * 2 ^ (place x + k - 1074), ?_⟩
      rw [rnd64_some h]
      generalize nearest (x / ulp x) = w
      rw [ulp]
      push_cast
      rw [mul_div_assoc', div_mul_eq_mul_div, div_eq_iff (by positivity), mul_assoc, mul_assoc, ← pow_add, ← pow_add,
        Nat.sub_add_cancel (by omega)]
  · intro x y h hx
    change rnd64 x = some y at h
    rw [rnd64_some h]
    have hu := ulp_pos x
    have : 0 ≤ nearest (x / ulp x) := nearest_nonneg (div_nonneg hx hu.le)
    exact mul_nonneg (by exact_mod_cast this) hu.le

/-! ## Examples -/

/-- The proofs apply to whole coordinates, in binary64 arithmetic. -/
theorem grid_int (k : Nat) (z : ℤ) : Grid k (z : ℚ) := ⟨z * 2 ^ k, by push_cast; rfl⟩

/-- The quick stage decides, and rightly. -/
example : simpleOrientation b64 0 0 1 0 (1 / 3) 1 = .ccw ∧ simpleOrientation b64 0 0 1 0 1 (-7) = .cw ∧
    simpleOrientation b64 0 0 1 0 5 0 = .colinear := by decide +kernel

example : RightO (simpleOrientation b64 ((0 : ℤ) : ℚ) ((0 : ℤ) : ℚ) ((1 : ℤ) : ℚ) ((0 : ℤ) : ℚ) ((3 : ℤ) : ℚ) ((2 : ℤ) : ℚ))
    ((0 : ℤ) : ℚ) ((0 : ℤ) : ℚ) ((1 : ℤ) : ℚ) ((0 : ℤ) : ℚ) ((3 : ℤ) : ℚ) ((2 : ℤ) : ℚ) :=
  C92_quick_orientation_partial b64_binary64 _ _ _ _ _ _ (grid_int _ _) (grid_int _ _) (grid_int _ _) (grid_int _ _)
    (grid_int _ _) (grid_int _ _)

/-- It does not guess: these points are on a line, these almost. -/
example : simpleOrientation b64 0 0 1 1 2 2 = .indeterminate ∧
    simpleOrientation b64 1 1 (2 ^ 53) (2 ^ 53) (2 ^ 52) (2 ^ 52 + 1) = .indeterminate ∧
    robustOrientation (1 : ℚ) 1 (2 ^ 53) (2 ^ 53) (2 ^ 52) (2 ^ 52 + 1) = .ccw := by decide +kernel

/-- Overflow leads to no answer. -/
example : simpleOrientation b64 0 0 (2 ^ 600) 0 0 (2 ^ 600) = .indeterminate := by decide +kernel

/-- The circle through (0,0), (1,0), (0,1). -/
example : simpleIncircle b64 0 0 1 0 0 1 (1 / 2) (1 / 2) = .inside ∧
    simpleIncircle b64 0 0 1 0 0 1 2 2 = .outside ∧ simpleIncircle b64 0 0 1 0 0 1 1 1 = .indeterminate ∧
    robustIncircle (0 : ℚ) 0 1 0 0 1 1 1 = .on := by decide +kernel

example : RightC (simpleIncircle b64 ((0 : ℤ) : ℚ) ((0 : ℤ) : ℚ) ((1 : ℤ) : ℚ) ((0 : ℤ) : ℚ) ((0 : ℤ) : ℚ) ((1 : ℤ) : ℚ) ((2 : ℤ) : ℚ) ((2 : ℤ) : ℚ))
    ((0 : ℤ) : ℚ) ((0 : ℤ) : ℚ) ((1 : ℤ) : ℚ) ((0 : ℤ) : ℚ) ((0 : ℤ) : ℚ) ((1 : ℤ) : ℚ) ((2 : ℤ) : ℚ) ((2 : ℤ) : ℚ) :=
  C92_quick_incircle_partial b64_binary64 _ _ _ _ _ _ _ _ (grid_int _ _) (grid_int _ _) (grid_int _ _) (grid_int _ _)
    (grid_int _ _) (grid_int _ _) (grid_int _ _) (grid_int _ _)

/-- `z` sixty-fourths of `2^-537`. -/
def small (z : ℚ) : ℚ := z / 64 / 2 ^ 537

/-- **C92 fails** for coordinates so small that their products underflow: the errors of such
products are not accounted for, and the answer is the wrong one.  All six coordinates are
floating point numbers. -/
theorem C92_underflow_counterexample :
    (∀ z ∈ [(64 : ℚ), 240, 41, 97, 26, 154], rnd64 (small z) = some (small z)) ∧
    simpleOrientation b64 (small 64) (small 240) (small 41) (small 97) (small 26) (small 154) = .ccw ∧
    cross (small 64) (small 240) (small 41) (small 97) (small 26) (small 154) < 0 ∧
    robustOrientation (small 64) (small 240) (small 41) (small 97) (small 26) (small 154) = .cw := by
  decide +kernel

end Verif.FastJet.Pred
