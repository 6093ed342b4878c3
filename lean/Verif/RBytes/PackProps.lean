import Verif.RBytes.PackModel
import Mathlib.Tactic.IntervalCases
import Mathlib.Tactic.Linarith
import Mathlib.Tactic.Order
import Mathlib.Tactic.FieldSimp
import Mathlib.Tactic.Ring
import Mathlib.Tactic.NormNum
import Mathlib.Algebra.Order.Floor.Semiring
import Mathlib.Data.Rat.Floor

/-!
# C146: compressed floating-point numbers
-/

namespace Verif.RBytes.Pack

/-! ## With a range -/

section Range

variable {K : Type} [Field K] [LinearOrder K] [IsStrictOrderedRing K] [FloorRing K]

/-- A sensible range: not empty, and its values fit into 32 bits. -/
structure Range.OK (r : Range K) : Prop where
  order : r.xmin ≤ r.xmax
  pos : 0 < r.factor
  fits : r.factor * (r.xmax - r.xmin) + 1 / 2 < 2 ^ 32

omit [Field K] [IsStrictOrderedRing K] [FloorRing K] in
theorem clamp_mem (r : Range K) (h : r.xmin ≤ r.xmax) (x : K) :
    r.xmin ≤ clamp r x ∧ clamp r x ≤ r.xmax := by
  unfold clamp
  dsimp only
  split <;> split <;> constructor <;> order

omit [Field K] [IsStrictOrderedRing K] [FloorRing K] in
theorem clamp_id (r : Range K) {x : K} (h1 : r.xmin ≤ x) (h2 : x ≤ r.xmax) : clamp r x = x := by
  unfold clamp
  dsimp only
  rw [if_neg (not_lt.mpr h1), if_neg (not_lt.mpr h2)]

omit [Field K] [IsStrictOrderedRing K] [FloorRing K] in
theorem clamp_mono (r : Range K) (h : r.xmin ≤ r.xmax) {x y : K} (hxy : x ≤ y) :
    clamp r x ≤ clamp r y := by
  unfold clamp
  dsimp only
  repeat' split
  all_goals order

theorem scaled (r : Range K) (h : r.OK) (x : K) :
    0 ≤ r.factor * (clamp r x - r.xmin) ∧
      1 / 2 + r.factor * (clamp r x - r.xmin) < 2 ^ 32 := by
  obtain ⟨h1, h2⟩ := clamp_mem r h.order x
  have h3 := mul_nonneg h.pos.le (sub_nonneg.mpr h1)
  have h4 := mul_le_mul_of_nonneg_left (sub_le_sub_right h2 r.xmin) h.pos.le
  exact ⟨h3, by linarith [h.fits]⟩

/-- **C146, range.**  A value is read back within half a step, a step being one over the factor; a
value out of the range is moved to its closest end first. -/
theorem C146_range (r : Range K) (h : r.OK) (x : K) :
    ∃ u, writeRange r x = some u ∧ u < 2 ^ 32 ∧
      |readRange r u - max r.xmin (min r.xmax x)| ≤ 1 / (2 * r.factor) := by
  obtain ⟨h1, h2⟩ := scaled r h x
  have hc : clamp r x = max r.xmin (min r.xmax x) := by
    have ho := h.order
    unfold clamp
    dsimp only
    rcases lt_or_ge x r.xmin with hx | hx
    · rw [if_pos hx, if_neg (not_lt.mpr ho), min_eq_right (by order), max_eq_left hx.le]
    · rw [if_neg (not_lt.mpr hx)]
      rcases lt_or_ge r.xmax x with hy | hy
      · rw [if_pos hy, min_eq_left hy.le, max_eq_right ho]
      · rw [if_neg (not_lt.mpr hy), min_eq_right hy, max_eq_right hx]
  refine ⟨⌊1 / 2 + r.factor * (clamp r x - r.xmin)⌋₊, ?_, ?_, ?_⟩
  · unfold writeRange toU32
    rw [if_pos ⟨by linarith, h2⟩]
  · rw [Nat.floor_lt (by linarith)]
    rw [Nat.cast_pow, Nat.cast_ofNat]
    exact h2
  · rw [← hc]
    unfold readRange
    set y := clamp r x - r.xmin with hy
    have hf := Nat.floor_le (a := 1 / 2 + r.factor * y) (by linarith)
    have hg := Nat.lt_floor_add_one (1 / 2 + r.factor * y)
    set n := (⌊1 / 2 + r.factor * y⌋₊ : K)
    have hx : clamp r x = y + r.xmin := by rw [hy]; ring
    rw [hx, show n / r.factor + r.xmin - (y + r.xmin) = (n - r.factor * y) / r.factor by
      field_simp [h.pos.ne']; ring, abs_div, abs_of_pos h.pos, div_le_div_iff₀ h.pos (by linarith [h.pos])]
    have : |n - r.factor * y| ≤ 1 / 2 := by rw [abs_le]; constructor <;> linarith
    nlinarith [h.pos]

/-- **C146, range, again.**  What was read is written as it was written before, so that further
cycles change nothing. -/
theorem C146_range_stable (r : Range K) (h : r.OK) (u : Nat)
    (hu : (u : K) ≤ r.factor * (r.xmax - r.xmin)) :
    writeRange r (readRange r u) = some u := by
  have hp := h.pos
  have h1 : r.xmin ≤ readRange r u := by
    unfold readRange
    have : 0 ≤ (u : K) / r.factor := div_nonneg (Nat.cast_nonneg u) hp.le
    linarith
  have h2 : readRange r u ≤ r.xmax := by
    unfold readRange
    have : (u : K) / r.factor ≤ r.xmax - r.xmin := by
      rw [div_le_iff₀ hp]; linarith [mul_comm r.factor (r.xmax - r.xmin)]
    linarith
  unfold writeRange
  rw [clamp_id r h1 h2]
  have h3 : r.factor * (readRange r u - r.xmin) = u := by
    unfold readRange; field_simp; ring
  rw [h3]
  unfold toU32
  have hu0 : (0 : K) ≤ u := Nat.cast_nonneg u
  rw [if_pos ⟨by linarith, by linarith [h.fits]⟩]
  congr 1
  rw [Nat.floor_eq_iff (by linarith)]
  constructor <;> linarith

/-- **C146, range, order.**  The order of values is kept. -/
theorem C146_range_mono (r : Range K) (h : r.OK) (x y : K) (hxy : x ≤ y) (u v : Nat)
    (hu : writeRange r x = some u) (hv : writeRange r y = some v) :
    u ≤ v ∧ readRange r u ≤ readRange r v := by
  obtain ⟨a1, a2⟩ := scaled r h x
  obtain ⟨b1, b2⟩ := scaled r h y
  unfold writeRange toU32 at hu hv
  rw [if_pos ⟨by linarith, a2⟩] at hu
  rw [if_pos ⟨by linarith, b2⟩] at hv
  cases hu; cases hv
  have hm := mul_le_mul_of_nonneg_left (sub_le_sub_right (clamp_mono r h.order hxy) r.xmin) h.pos.le
  have hn : ⌊1 / 2 + r.factor * (clamp r x - r.xmin)⌋₊ ≤
      ⌊1 / 2 + r.factor * (clamp r y - r.xmin)⌋₊ := Nat.floor_le_floor (by linarith)
  refine ⟨hn, ?_⟩
  unfold readRange
  have : ((⌊1 / 2 + r.factor * (clamp r x - r.xmin)⌋₊ : Nat) : K) ≤
      ((⌊1 / 2 + r.factor * (clamp r y - r.xmin)⌋₊ : Nat) : K) := by exact_mod_cast hn
  have := div_le_div_of_nonneg_right this h.pos.le
  linarith

end Range

/-- The hypothesis of `C146_range` for the numbers from 0 to 10 with 8 bits. -/
example : (⟨0, 10, 256 / 10⟩ : Range Rat).OK := ⟨by norm_num, by norm_num, by norm_num⟩

/-- Three is written as 77 and read as 3.0078125; twelve is moved to ten. -/
example : writeRange (⟨0, 10, 256 / 10⟩ : Range Rat) 3 = some 77 ∧
    readRange (⟨0, 10, 256 / 10⟩ : Range Rat) 77 = 385 / 128 ∧
    writeRange (⟨0, 10, 256 / 10⟩ : Range Rat) 12 = some 256 := by decide +kernel

/-! ## Without a range -/

/-- The sign, exponent and mantissa of the bits of a `float32`. -/
def signBit (u : Nat) : Bool := u / 2 ^ 31 = 1
def expBits (u : Nat) : Nat := u / 2 ^ 23 % 2 ^ 8
def manBits (u : Nat) : Nat := u % 2 ^ 23

/-- The magnitude of a finite `float32`, in units of `2 ^ (-149)`. -/
def magnitude (u : Nat) : Nat :=
  if expBits u = 0 then manBits u else (2 ^ 23 + manBits u) * 2 ^ (expBits u - 1)

/-- The mantissa rounded to `n` bits. -/
def rounded (n u : Nat) : Nat := (manBits u + 2 ^ (22 - n)) / 2 ^ (23 - n)

theorem expOf_eq (u : Nat) : expOf u = expBits u := by
  unfold expOf expBits
  rw [show (0xff : Nat) = 2 ^ 8 - 1 from rfl, Nat.and_two_pow_sub_one_eq_mod,
    Nat.shiftLeft_eq, Nat.shiftRight_eq_div_pow]
  omega

theorem manOf_eq (n u : Nat) (h1 : 1 ≤ n) (h2 : n ≤ 14) : manOf n u = rounded n u := by
  unfold manOf rounded manBits
  rw [Nat.and_comm, Nat.and_two_pow_sub_one_eq_mod, Nat.shiftRight_eq_div_pow,
    Nat.shiftRight_eq_div_pow]
  interval_cases n <;> norm_num <;> omega

theorem rounded_le (n u : Nat) (h1 : 1 ≤ n) (h2 : n ≤ 14) : rounded n u ≤ 2 ^ n := by
  unfold rounded manBits
  interval_cases n <;> norm_num <;> omega

theorem tooLarge_eq (n m : Nat) (h2 : n ≤ 14) : tooLarge n m = decide (m % 2 = 1) := by
  unfold tooLarge
  rw [Nat.and_one_is_mod, Nat.shiftLeft_eq]
  rcases Nat.mod_two_eq_zero_or_one m with h | h <;> rw [h]
  · simp
  · interval_cases n <;> decide

/-- The mantissa which is written, as a number. -/
def kept (n u : Nat) : Nat := if rounded n u % 2 = 1 then 2 ^ n - 1 else rounded n u

theorem kept_le (n u : Nat) (h1 : 1 ≤ n) (h2 : n ≤ 14) : kept n u ≤ 2 ^ n := by
  unfold kept
  split
  · exact Nat.sub_le _ _
  · exact rounded_le n u h1 h2

theorem write_eq (n u : Nat) (neg : Bool) (h1 : 1 ≤ n) (h2 : n ≤ 14) :
    writeBits n neg u = ⟨expBits u, kept n u + if neg then 2 ^ (n + 1) else 0⟩ := by
  have hk := kept_le n u h1 h2
  have hp : 2 ^ n ≤ 2 ^ 14 := Nat.pow_le_pow_right (by omega) h2
  unfold writeBits
  dsimp only
  rw [expOf_eq u, manOf_eq n u h1 h2, tooLarge_eq n _ h2]
  simp only [decide_eq_true_eq]
  have hkd : (if rounded n u % 2 = 1 then 2 ^ n - 1 else rounded n u) = kept n u := rfl
  rw [hkd]
  cases neg with
  | false => simp
  | true =>
    simp only [if_true]
    congr 1
    have hpos := Nat.two_pow_pos n
    have hor := Nat.two_pow_add_eq_or_of_lt (i := n + 1) (b := kept n u)
      (by rw [Nat.pow_succ]; omega) 1
    rw [Nat.mul_one] at hor
    rw [Nat.or_comm, ← hor, Nat.add_comm, Nat.mod_eq_of_lt (by rw [Nat.pow_succ]; omega)]

theorem and_pow (i k : Nat) : 2 ^ i &&& k = if k.testBit i then 2 ^ i else 0 := by
  apply Nat.eq_of_testBit_eq
  intro j
  rw [Nat.testBit_and, Nat.testBit_two_pow]
  by_cases hj : i = j
  · subst hj
    cases hk : k.testBit i <;> simp
  · cases hk : k.testBit i <;> simp [hj]

theorem read_eq (n e k : Nat) (neg : Bool) (h1 : 1 ≤ n) (h2 : n ≤ 14) (hk : k < 2 ^ n) :
    readBits n ⟨e, k + if neg then 2 ^ (n + 1) else 0⟩ =
      e * 2 ^ 23 + k * 2 ^ (23 - n) + if neg then 2 ^ 31 else 0 := by
  have hlt : k * 2 ^ (23 - n) < 2 ^ 23 := by
    calc k * 2 ^ (23 - n) < 2 ^ n * 2 ^ (23 - n) := by
          exact Nat.mul_lt_mul_of_pos_right hk (Nat.two_pow_pos _)
      _ = 2 ^ 23 := by rw [← Nat.pow_add]; congr 1; omega
  have hk' : k < 2 ^ (n + 1) := by rw [Nat.pow_succ]; omega
  unfold readBits
  dsimp only
  rw [Nat.and_two_pow_sub_one_eq_mod]
  have hm : (k + if neg then 2 ^ (n + 1) else 0) % 2 ^ (n + 1) = k := by
    cases neg <;> simp [Nat.mod_eq_of_lt hk']
  rw [hm, Nat.shiftLeft_eq k, ← Nat.shiftLeft_add_eq_or_of_lt hlt, Nat.shiftLeft_eq]
  cases neg with
  | false =>
    rw [and_pow, if_neg Bool.false_ne_true, Nat.add_zero, Nat.testBit_lt_two_pow hk']
    simp
  | true =>
    rw [and_pow, if_pos rfl, Nat.add_comm k, Nat.testBit_two_pow_add_eq,
      Nat.testBit_lt_two_pow hk']
    simp

/-- The carry out of the mantissa ends up in the lowest bit of the exponent, if that is free. -/
theorem read_carry (n e : Nat) (neg : Bool) (h1 : 1 ≤ n) (h2 : n ≤ 14) :
    readBits n ⟨e, 2 ^ n + if neg then 2 ^ (n + 1) else 0⟩ =
      (e / 2 * 2 + 1) * 2 ^ 23 + if neg then 2 ^ 31 else 0 := by
  have hk' : 2 ^ n < 2 ^ (n + 1) := Nat.pow_lt_pow_right (by omega) (by omega)
  have hsh : 2 ^ n * 2 ^ (23 - n) = 2 ^ 23 := by rw [← Nat.pow_add]; congr 1; omega
  unfold readBits
  dsimp only
  rw [Nat.and_two_pow_sub_one_eq_mod]
  have hm : (2 ^ n + if neg then 2 ^ (n + 1) else 0) % 2 ^ (n + 1) = 2 ^ n := by
    cases neg <;> simp [Nat.mod_eq_of_lt hk']
  have hor : e <<< 23 ||| 2 ^ 23 = (e / 2 * 2 + 1) * 2 ^ 23 := by
    have h24 : (2 : Nat) ^ 23 = 1 <<< 23 := rfl
    rw [h24, ← Nat.shiftLeft_or_distrib, Nat.shiftLeft_eq]
    congr 1
    have ha := Nat.two_pow_add_eq_or_of_lt (i := 1) (b := e % 2) (by omega) (e / 2)
    have hb := Nat.two_pow_add_eq_or_of_lt (i := 1) (b := 1) (by omega) (e / 2)
    have hc : e % 2 ||| 1 = 1 := by
      rcases Nat.mod_two_eq_zero_or_one e with h | h <;> rw [h] <;> rfl
    have he : e = 2 ^ 1 * (e / 2) ||| e % 2 := by omega
    rw [he, Nat.or_assoc, hc, ← hb, ← ha]
    omega
  rw [hm, Nat.shiftLeft_eq (2 ^ n), hsh, hor]
  cases neg with
  | false =>
    rw [and_pow, if_neg Bool.false_ne_true, Nat.add_zero, Nat.testBit_lt_two_pow hk']
    simp
  | true =>
    rw [and_pow, if_pos rfl, Nat.add_comm (2 ^ n), Nat.testBit_two_pow_add_eq,
      Nat.testBit_lt_two_pow hk']
    simp

theorem fields_eq (e m : Nat) (neg : Bool) (he : e < 256) (hm : m < 2 ^ 23) :
    expBits (e * 2 ^ 23 + m + if neg then 2 ^ 31 else 0) = e ∧
      manBits (e * 2 ^ 23 + m + if neg then 2 ^ 31 else 0) = m ∧
      signBit (e * 2 ^ 23 + m + if neg then 2 ^ 31 else 0) = neg ∧
      (e * 2 ^ 23 + m + if neg then 2 ^ 31 else 0) < 2 ^ 32 := by
  unfold expBits manBits signBit
  cases neg <;> simp only [if_true, Bool.false_eq_true, if_false, decide_eq_false_iff_not,
    decide_eq_true_eq] <;> omega

theorem shifted_lt {n k : Nat} (h2 : n ≤ 14) (hk : k < 2 ^ n) : k * 2 ^ (23 - n) < 2 ^ 23 := by
  calc k * 2 ^ (23 - n) < 2 ^ n * 2 ^ (23 - n) :=
        Nat.mul_lt_mul_of_pos_right hk (Nat.two_pow_pos _)
    _ = 2 ^ 23 := by rw [← Nat.pow_add]; congr 1; omega

theorem expBits_lt (u : Nat) : expBits u < 256 := by unfold expBits; omega

/-- **C146, bits (partial).**  Without a range, `n` bits of the mantissa are kept: sign and exponent
are those of the value, the mantissa is a multiple of `2 ^ (23 - n)`, and it is not further
from the mantissa of the value than half of that.  The full claim is for every value; it is missing for
those whose rounded mantissa is odd or does not fit, see the counterexamples. -/
theorem C146_bits_partial (n u : Nat) (neg : Bool) (h1 : 1 ≤ n) (h2 : n ≤ 14)
    (hodd : rounded n u % 2 = 0) (hlt : rounded n u < 2 ^ n) :
    let w := readBits n (writeBits n neg u)
    w < 2 ^ 32 ∧ signBit w = neg ∧ expBits w = expBits u ∧ 2 ^ (23 - n) ∣ manBits w ∧
      manBits w ≤ manBits u + 2 ^ (22 - n) ∧ manBits u ≤ manBits w + 2 ^ (22 - n) := by
  have hk : kept n u = rounded n u := by unfold kept; rw [if_neg (by omega)]
  have hw : readBits n (writeBits n neg u) =
      expBits u * 2 ^ 23 + rounded n u * 2 ^ (23 - n) + if neg then 2 ^ 31 else 0 := by
    rw [write_eq n u neg h1 h2, hk, read_eq n _ _ neg h1 h2 hlt]
  obtain ⟨f1, f2, f3, f4⟩ := fields_eq (expBits u) (rounded n u * 2 ^ (23 - n)) neg
    (expBits_lt u) (shifted_lt h2 hlt)
  intro w
  simp only [w, hw]
  refine ⟨f4, f3, f1, ?_, ?_, ?_⟩
  · rw [f2]; exact Nat.dvd_mul_left _ _
  · rw [f2]
    unfold rounded
    have := Nat.div_mul_le_self (manBits u + 2 ^ (22 - n)) (2 ^ (23 - n))
    exact this
  · rw [f2]
    unfold rounded
    have hp : (2 : Nat) ^ (23 - n) = 2 * 2 ^ (22 - n) := by
      rw [show 23 - n = (22 - n) + 1 by omega, Nat.pow_succ]; omega
    have := Nat.lt_div_mul_add (a := manBits u + 2 ^ (22 - n)) (Nat.two_pow_pos (23 - n))
    omega

/-- The same as a number: the error is at most one part in `2 ^ (n + 1)`. -/
theorem C146_error_partial (n u : Nat) (neg : Bool) (h1 : 1 ≤ n) (h2 : n ≤ 14)
    (he : expBits u ≠ 0) (hodd : rounded n u % 2 = 0) (hlt : rounded n u < 2 ^ n) :
    let w := readBits n (writeBits n neg u)
    2 ^ (n + 1) * magnitude w ≤ (2 ^ (n + 1) + 1) * magnitude u ∧
      (2 ^ (n + 1) - 1) * magnitude u ≤ 2 ^ (n + 1) * magnitude w := by
  intro w
  obtain ⟨_, _, f1, _, f2, f3⟩ := C146_bits_partial n u neg h1 h2 hodd hlt
  have hw : expBits w = expBits u := f1
  have g2 : manBits w ≤ manBits u + 2 ^ (22 - n) := f2
  have g3 : manBits u ≤ manBits w + 2 ^ (22 - n) := f3
  have hp : 2 ^ (n + 1) * 2 ^ (22 - n) = 2 ^ 23 := by rw [← Nat.pow_add]; congr 1; omega
  unfold magnitude
  rw [hw, if_neg he, if_neg he]
  have hP := Nat.two_pow_pos (n + 1)
  generalize 2 ^ (n + 1) = P at *
  generalize 2 ^ (22 - n) = Q at *
  generalize 2 ^ (expBits u - 1) = X
  obtain ⟨P', rfl⟩ : ∃ P', P = P' + 1 := ⟨P - 1, by omega⟩
  rw [Nat.add_sub_cancel]
  constructor
  · have : (P' + 1) * (2 ^ 23 + manBits w) ≤ (P' + 1 + 1) * (2 ^ 23 + manBits u) := by nlinarith
    calc _ = ((P' + 1) * (2 ^ 23 + manBits w)) * X := by ring
      _ ≤ ((P' + 1 + 1) * (2 ^ 23 + manBits u)) * X := Nat.mul_le_mul_right _ this
      _ = _ := by ring
  · have : P' * (2 ^ 23 + manBits u) ≤ (P' + 1) * (2 ^ 23 + manBits w) := by nlinarith
    calc _ = (P' * (2 ^ 23 + manBits u)) * X := by ring
      _ ≤ ((P' + 1) * (2 ^ 23 + manBits w)) * X := Nat.mul_le_mul_right _ this
      _ = _ := by ring

/-- Pi keeps its first twelve bits. -/
example : rounded 12 0x40490fdb % 2 = 0 ∧ rounded 12 0x40490fdb < 2 ^ 12 ∧
    readBits 12 (writeBits 12 true 0x40490fdb) = 0xc0491000 := by decide

/-- **Not so for odd mantissas.**  When the rounded mantissa is odd, the largest mantissa is
written instead: of half of all values nothing but sign and exponent is left. -/
theorem C146_odd_counterexample (n u : Nat) (neg : Bool) (h1 : 1 ≤ n) (h2 : n ≤ 14)
    (hodd : rounded n u % 2 = 1) :
    manBits (readBits n (writeBits n neg u)) = (2 ^ n - 1) * 2 ^ (23 - n) := by
  have hlt : 2 ^ n - 1 < 2 ^ n := by have := Nat.two_pow_pos n; omega
  have hk : kept n u = 2 ^ n - 1 := by unfold kept; rw [if_pos hodd]
  rw [write_eq n u neg h1 h2, hk, read_eq n _ _ neg h1 h2 hlt]
  exact (fields_eq (expBits u) _ neg (expBits_lt u) (shifted_lt h2 hlt)).2.1

/-- One and a 4096-th is read as almost two. -/
example : rounded 12 0x3f800800 % 2 = 1 ∧
    readBits 12 (writeBits 12 false 0x3f800800) = 0x3ffff800 := by decide

/-- **Not so at the end of the mantissa.**  When rounding carries out of the mantissa, the exponent
is increased only if it is even; else the value is halved. -/
theorem C146_carry_counterexample (n u : Nat) (neg : Bool) (h1 : 1 ≤ n) (h2 : n ≤ 14)
    (hq : rounded n u = 2 ^ n) :
    expBits (readBits n (writeBits n neg u)) = expBits u / 2 * 2 + 1 ∧
      manBits (readBits n (writeBits n neg u)) = 0 := by
  have hk : kept n u = 2 ^ n := by
    unfold kept
    rw [hq, if_neg]
    obtain ⟨m, rfl⟩ : ∃ m, n = m + 1 := ⟨n - 1, by omega⟩
    rw [Nat.pow_succ]; omega
  rw [write_eq n u neg h1 h2, hk, read_carry n _ neg h1 h2]
  have := fields_eq (expBits u / 2 * 2 + 1) 0 neg (by have := expBits_lt u; omega) (by decide)
  rw [Nat.add_zero] at this
  exact ⟨this.1, this.2.1⟩

/-- The number before two is read as one. -/
example : rounded 12 0x3fffffff = 2 ^ 12 ∧
    readBits 12 (writeBits 12 false 0x3fffffff) = 0x3f800000 := by decide

/-- **C146, bits, again.**  For all values, what was read stays the same when it is written and read
again. -/
theorem C146_bits_stable (n u : Nat) (neg : Bool) (h1 : 1 ≤ n) (h2 : n ≤ 14) :
    readBits n (writeBits n neg (readBits n (writeBits n neg u))) =
      readBits n (writeBits n neg u) := by
  have key : ∀ e k, e < 256 → k < 2 ^ n → (k % 2 = 1 → k = 2 ^ n - 1) →
      readBits n (writeBits n neg (e * 2 ^ 23 + k * 2 ^ (23 - n) + if neg then 2 ^ 31 else 0)) =
        e * 2 ^ 23 + k * 2 ^ (23 - n) + if neg then 2 ^ 31 else 0 := by
    intro e k he hk hodd
    obtain ⟨f1, f2, _, _⟩ := fields_eq e (k * 2 ^ (23 - n)) neg he (shifted_lt h2 hk)
    have hr : rounded n (e * 2 ^ 23 + k * 2 ^ (23 - n) + if neg then 2 ^ 31 else 0) = k := by
      unfold rounded
      rw [f2, Nat.add_comm, Nat.add_mul_div_right _ _ (Nat.two_pow_pos _),
        Nat.div_eq_of_lt (Nat.pow_lt_pow_right (by omega) (by omega)), Nat.zero_add]
    have hkk : kept n (e * 2 ^ 23 + k * 2 ^ (23 - n) + if neg then 2 ^ 31 else 0) = k := by
      unfold kept
      rw [hr]
      split
      · next h => exact (hodd h).symm
      · rfl
    rw [write_eq n _ neg h1 h2, hkk, f1, read_eq n e k neg h1 h2 hk]
  have hpos := Nat.two_pow_pos n
  have hkl := kept_le n u h1 h2
  rw [write_eq n u neg h1 h2]
  rcases Nat.lt_or_ge (kept n u) (2 ^ n) with hlt | hge
  · rw [read_eq n _ _ neg h1 h2 hlt]
    apply key _ _ (expBits_lt u) hlt
    intro h
    unfold kept at h ⊢
    split at h
    · next hh => rw [if_pos hh]
    · exact absurd h (by assumption)
  · have hk : kept n u = 2 ^ n := by omega
    rw [hk, read_carry n _ neg h1 h2]
    have := key (expBits u / 2 * 2 + 1) 0 (by have := expBits_lt u; omega) hpos (by omega)
    simpa using this

end Verif.RBytes.Pack
