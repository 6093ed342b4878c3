import Verif.FastJet.Predicates
import Mathlib.Tactic.Ring
import Mathlib.Tactic.Linarith
import Mathlib.Tactic.NormNum
import Mathlib.Tactic.FieldSimp
import Mathlib.Tactic.Positivity
import Mathlib.Tactic.LinearCombination

/-!
# Answers of the quick predicates are right (C92)
-/

namespace Verif.FastJet.Pred

section
variable {K : Type} [Field K] [LinearOrder K] [IsStrictOrderedRing K]

/-- `x` is a whole multiple of `2^-k`. -/
def Grid (k : Nat) (x : K) : Prop := ∃ z : ℤ, x * 2 ^ k = z

/-- What is used of IEEE 754 binary64 arithmetic: the constants; results are accurate to half a
unit in the last place when they are not below the smallest normal number or are multiples of
the smallest positive number; all numbers are such multiples; multiples of a power of two stay
so; rounding keeps the sign. -/
structure Binary64 (A : Arith K) : Prop where
  macheps : A.macheps = 1 / 2 ^ 52
  tiny : A.tiny = 1 / 2 ^ 1074
  err : ∀ x y, A.rnd x = some y → Grid 1074 x ∨ 1 / 2 ^ 1022 ≤ |x| → |y - x| ≤ |x| / 2 ^ 53
  all : ∀ x y, A.rnd x = some y → Grid 1074 y
  grid : ∀ k x y, k ≤ 1074 → A.rnd x = some y → Grid k x → Grid k y
  nonneg : ∀ x y, A.rnd x = some y → 0 ≤ x → 0 ≤ y

/-! ## Multiples of powers of two -/

omit [LinearOrder K] [IsStrictOrderedRing K] in
theorem Grid.zero (k : Nat) : Grid k (0 : K) := ⟨0, by simp⟩

omit [LinearOrder K] [IsStrictOrderedRing K] in
theorem Grid.one (k : Nat) : Grid k (1 : K) := ⟨2 ^ k, by push_cast; ring⟩

omit [LinearOrder K] [IsStrictOrderedRing K] in
theorem Grid.mono {k k' : Nat} (h : k ≤ k') {x : K} (hx : Grid k x) : Grid k' x := by
  obtain ⟨z, hz⟩ := hx
  refine ⟨z * 2 ^ (k' - k), ?_⟩
  push_cast
  rw [← hz, mul_assoc, ← pow_add, Nat.add_sub_cancel' h]

omit [LinearOrder K] [IsStrictOrderedRing K] in
theorem Grid.add {k : Nat} {x y : K} (hx : Grid k x) (hy : Grid k y) : Grid k (x + y) := by
  obtain ⟨a, ha⟩ := hx
  obtain ⟨b, hb⟩ := hy
  exact ⟨a + b, by push_cast; rw [← ha, ← hb]; ring⟩

omit [LinearOrder K] [IsStrictOrderedRing K] in
theorem Grid.neg {k : Nat} {x : K} (hx : Grid k x) : Grid k (-x) := by
  obtain ⟨a, ha⟩ := hx
  exact ⟨-a, by push_cast; rw [← ha]; ring⟩

omit [LinearOrder K] [IsStrictOrderedRing K] in
theorem Grid.sub {k : Nat} {x y : K} (hx : Grid k x) (hy : Grid k y) : Grid k (x - y) := by
  rw [sub_eq_add_neg]; exact hx.add hy.neg

omit [LinearOrder K] [IsStrictOrderedRing K] in
theorem Grid.mul {k j : Nat} {x y : K} (hx : Grid k x) (hy : Grid j y) : Grid (k + j) (x * y) := by
  obtain ⟨a, ha⟩ := hx
  obtain ⟨b, hb⟩ := hy
  exact ⟨a * b, by push_cast; rw [← ha, ← hb, pow_add]; ring⟩

omit [IsStrictOrderedRing K] in
theorem Grid.abs {k : Nat} {x : K} (hx : Grid k x) : Grid k |x| := by
  rcases abs_choice x with h | h <;> rw [h]
  · exact hx
  · exact hx.neg

theorem Grid.le {k : Nat} {x : K} (hx : Grid k x) (h0 : x ≠ 0) : 1 / 2 ^ k ≤ |x| := by
  obtain ⟨z, hz⟩ := hx
  have h2 : (0 : K) < 2 ^ k := by positivity
  have hz0 : z ≠ 0 := by
    rintro rfl
    simp only [Int.cast_zero, mul_eq_zero] at hz
    rcases hz with h | h
    · exact h0 h
    · exact absurd h (ne_of_gt h2)
  rw [div_le_iff₀ h2]
  have : |x| * 2 ^ k = |((z : ℤ) : K)| := by rw [← hz, abs_mul, abs_of_pos h2]
  rw [this, ← Int.cast_abs]
  exact_mod_cast Int.one_le_abs hz0

theorem Grid.macheps {k : Nat} {x : K} (hx : Grid k x) : Grid (52 + k) (1 / 2 ^ 52 * x) :=
  Grid.mul (k := 52) ⟨1, by rw [Int.cast_one]; exact div_mul_cancel₀ 1 (by positivity)⟩ hx

theorem Grid.tiny : Grid 1074 (1 / 2 ^ 1074 : K) :=
  ⟨1, by rw [Int.cast_one]; exact div_mul_cancel₀ 1 (by positivity)⟩

/-! ## Single operations -/

variable {A : Arith K}

omit [LinearOrder K] [IsStrictOrderedRing K] in
theorem fadd_some {a b : Option K} {y : K} (h : fadd A a b = some y) :
    ∃ p q, a = some p ∧ b = some q ∧ A.rnd (p + q) = some y := by
  rcases a with _ | a <;> rcases b with _ | b <;> simp only [fadd, reduceCtorEq] at h
  exact ⟨a, b, rfl, rfl, h⟩

omit [LinearOrder K] [IsStrictOrderedRing K] in
theorem fsub_some {a b : Option K} {y : K} (h : fsub A a b = some y) :
    ∃ p q, a = some p ∧ b = some q ∧ A.rnd (p - q) = some y := by
  rcases a with _ | a <;> rcases b with _ | b <;> simp only [fsub, reduceCtorEq] at h
  exact ⟨a, b, rfl, rfl, h⟩

omit [LinearOrder K] [IsStrictOrderedRing K] in
theorem fmul_some {a b : Option K} {y : K} (h : fmul A a b = some y) :
    ∃ p q, a = some p ∧ b = some q ∧ A.rnd (p * q) = some y := by
  rcases a with _ | a <;> rcases b with _ | b <;> simp only [fmul, reduceCtorEq] at h
  exact ⟨a, b, rfl, rfl, h⟩

omit [LinearOrder K] [IsStrictOrderedRing K] in
theorem fdiv_some {a b : Option K} {y : K} (h : fdiv A a b = some y) :
    ∃ p q, a = some p ∧ b = some q ∧ A.rnd (p / q) = some y := by
  rcases a with _ | a <;> rcases b with _ | b <;> simp only [fdiv, reduceCtorEq] at h
  exact ⟨a, b, rfl, rfl, h⟩

omit [IsStrictOrderedRing K] in
theorem ownErr_some {n : Option K} {X : K} (h : ownErr A n = some X) : ∃ m, n = some m := by
  simp only [ownErr] at h
  split at h
  · exact ⟨0, by assumption⟩
  · obtain ⟨p, q, e1, -, -⟩ := fdiv_some h
    obtain ⟨p', q', -, e2, -⟩ := fmul_some e1
    rcases n with _ | n
    · cases e2
    · exact ⟨n, rfl⟩

theorem rnd_lower (hA : Binary64 A) {x y : K} (h : A.rnd x = some y) (h0 : 0 ≤ x)
    (hg : Grid 1074 x ∨ 1 / 2 ^ 1022 ≤ |x|) : x * (1 - 1 / 2 ^ 53) ≤ y ∧ y ≤ x * (1 + 1 / 2 ^ 53) := by
  have := hA.err x y h hg
  rw [abs_of_nonneg h0, abs_le] at this
  constructor
  · have : x * (1 - 1 / 2 ^ 53) = x - x / 2 ^ 53 := by ring
    linarith [this]
  · have : x * (1 + 1 / 2 ^ 53) = x + x / 2 ^ 53 := by ring
    linarith [this]

/-- A rounded result is zero only for zero, and bounds the exact one. -/
theorem rnd_close (hA : Binary64 A) {x y : K} (h : A.rnd x = some y)
    (hg : Grid 1074 x ∨ 1 / 2 ^ 1022 ≤ |x|) :
    (y = 0 → x = 0) ∧ |x| ≤ |y| * (1 + 2 / 2 ^ 53) ∧ |y| ≤ |x| * (1 + 1 / 2 ^ 53) := by
  have hd := hA.err x y h hg
  have hx := abs_nonneg x
  have hy := abs_nonneg y
  have h1 : |x| ≤ |y| + |y - x| := by
    have := abs_sub_abs_le_abs_sub x y
    rw [abs_sub_comm x y] at this
    linarith
  have h2 : |y| ≤ |x| + |y - x| := by
    have := abs_sub_abs_le_abs_sub y x
    linarith
  refine ⟨?_, ?_, ?_⟩
  · rintro rfl
    rw [abs_zero] at h1
    rw [← abs_nonpos_iff]
    have : |x| / 2 ^ 53 = |x| * (1 / 2 ^ 53) := by ring
    nlinarith
  · have : |x| / 2 ^ 53 = |x| * (1 / 2 ^ 53) := by ring
    nlinarith
  · have : |x| / 2 ^ 53 = |x| * (1 / 2 ^ 53) := by ring
    nlinarith

/-- The term for the rounding of a number. -/
theorem ownErr_spec (hA : Binary64 A) {k : Nat} (hk : k + 52 ≤ 1022) {n X : K} (hn : Grid k n)
    (h : ownErr A (some n) = some X) :
    0 ≤ X ∧ Grid 1074 X ∧ |n| * (2 / 2 ^ 53) * (1 - 3 / 2 ^ 53) ≤ X := by
  simp only [ownErr, Option.some.injEq] at h
  split at h
  · rename_i h0
    subst h0
    cases h
    rw [hA.tiny]
    refine ⟨by positivity, Grid.tiny, ?_⟩
    rw [abs_zero, zero_mul, zero_mul]
    positivity
  · rename_i h0
    obtain ⟨t1, t2, e1, e2, h⟩ := fdiv_some h
    cases e2
    simp only [fabs, Option.map_some, fmul, hA.macheps] at e1 h
    have hg : Grid (52 + k) (1 / 2 ^ 52 * |n|) := hn.abs.macheps
    have hg' : Grid 1074 (1 / 2 ^ 52 * |n|) := hg.mono (by omega)
    have hpos : 0 < |n| := abs_pos.mpr h0
    have hm : 0 ≤ 1 / 2 ^ 52 * |n| := by positivity
    obtain ⟨l1, u1⟩ := rnd_lower hA e1 hm (Or.inl hg')
    have hgt := hA.grid _ _ _ (by omega) e1 hg
    have ht0 : 0 < t1 := by
      refine lt_of_lt_of_le ?_ l1
      apply mul_pos (by positivity)
      norm_num
    have hle := hgt.le (ne_of_gt ht0)
    rw [abs_of_pos ht0] at hle
    have h1m : (0 : K) < 1 - 1 / 2 ^ 52 := by norm_num
    have hq : t1 ≤ t1 / (1 - 1 / 2 ^ 52) := by
      rw [le_div_iff₀ h1m]
      have : (0 : K) ≤ t1 * (1 / 2 ^ 52) := by positivity
      linarith
    have hq0 : 0 ≤ t1 / (1 - 1 / 2 ^ 52) := le_trans (le_of_lt ht0) hq
    have hbig : (1 : K) / 2 ^ 1022 ≤ |t1 / (1 - 1 / 2 ^ 52)| := by
      rw [abs_of_nonneg hq0]
      refine le_trans ?_ (le_trans hle hq)
      exact one_div_le_one_div_of_le (by positivity) (pow_le_pow_right₀ (by norm_num) (by omega))
    obtain ⟨l2, -⟩ := rnd_lower hA h hq0 (Or.inr hbig)
    refine ⟨hA.nonneg _ _ h hq0, hA.all _ _ h, le_trans ?_ l2⟩
    have c1 : |n| * (2 / 2 ^ 53) * (1 - 3 / 2 ^ 53) ≤
        (1 / 2 ^ 52 * |n|) * (1 - 1 / 2 ^ 53) * (1 - 1 / 2 ^ 53) := by
      have : (0 : K) ≤ |n| * (2 / 2 ^ 53) := by positivity
      nlinarith
    refine le_trans c1 ?_
    apply mul_le_mul_of_nonneg_right (le_trans l1 hq)
    norm_num


/-! ## Sums -/

/-- The number of `p` differs from `v` by at most `ρ` times the bound of `p`, if the latter is
finite. -/
def Tracks (k : Nat) (ρ : K) (p : FPred K) (v : K) : Prop :=
  ∀ e, p.e = some e → ∃ n, p.n = some n ∧ Grid k n ∧ Grid 1074 e ∧ 0 ≤ e ∧ |n - v| ≤ ρ * e

omit [IsStrictOrderedRing K] in
theorem Tracks.eq {k : Nat} {ρ : K} {p : FPred K} {v w : K} (h : Tracks k ρ p v) (e : v = w) :
    Tracks k ρ p w := e ▸ h

theorem Tracks.mono {k k' : Nat} {ρ ρ' : K} {p : FPred K} {v : K} (hk : k ≤ k') (hr : ρ ≤ ρ')
    (h : Tracks k ρ p v) : Tracks k' ρ' p v := by
  intro e he
  obtain ⟨n, h1, h2, h3, h4, h5⟩ := h e he
  exact ⟨n, h1, h2.mono hk, h3, h4, le_trans h5 (mul_le_mul_of_nonneg_right hr h4)⟩

/-- The common part of sums and differences. -/
theorem sum_step (hA : Binary64 A) {k : Nat} (hk : k + 52 ≤ 1022) {ρ s n ae be X i e v : K}
    (hr0 : 3 / 5 ≤ ρ) (hr1 : ρ ≤ 1) (hs : Grid k s) (hn : A.rnd s = some n) (hX : ownErr A (some n) = some X)
    (gae : Grid 1074 ae) (gbe : Grid 1074 be) (pae : 0 ≤ ae) (pbe : 0 ≤ be)
    (hi : A.rnd (X + be) = some i) (he : A.rnd (ae + i) = some e) (hv : |s - v| ≤ ρ * (ae + be)) :
    Grid k n ∧ Grid 1074 e ∧ 0 ≤ e ∧ |n - v| ≤ (ρ + 1 / 2 ^ 50) * e := by
  have hs' : Grid 1074 s := hs.mono (by omega)
  have gn := hA.grid _ _ _ (by omega) hn hs
  obtain ⟨px, gx, lx⟩ := ownErr_spec hA hk gn hX
  have pi0 : 0 ≤ X + be := add_nonneg px pbe
  obtain ⟨li, -⟩ := rnd_lower hA hi pi0 (Or.inl (gx.add gbe))
  have pi : 0 ≤ i := hA.nonneg _ _ hi pi0
  have gi := hA.all _ _ hi
  have pe0 : 0 ≤ ae + i := add_nonneg pae pi
  obtain ⟨le, -⟩ := rnd_lower hA he pe0 (Or.inl (gae.add gi))
  refine ⟨gn, hA.all _ _ he, hA.nonneg _ _ he pe0, ?_⟩
  have hd := hA.err _ _ hn (Or.inl hs')
  obtain ⟨-, hc, -⟩ := rnd_close hA hn (Or.inl hs')
  have ht : |n - v| ≤ |n - s| + |s - v| := by
    have := abs_add_le (n - s) (s - v)
    rwa [sub_add_sub_cancel] at this
  have hn0 := abs_nonneg n
  -- the bound from below
  have hb : (ae + be + |n| * (2 / 2 ^ 53) * (1 - 3 / 2 ^ 53)) * (1 - 2 / 2 ^ 53) ≤ e := by
    have c : (ae + (X + be) * (1 - 1 / 2 ^ 53)) * (1 - 1 / 2 ^ 53) ≤ e := by
      refine le_trans ?_ le
      apply mul_le_mul_of_nonneg_right _ (by norm_num)
      linarith
    refine le_trans ?_ c
    nlinarith
  have hr' : (0 : K) ≤ ρ + 1 / 2 ^ 50 := by
    have : (0 : K) ≤ 1 / 2 ^ 50 := by positivity
    linarith
  have hm := mul_le_mul_of_nonneg_left hb hr'
  refine le_trans ?_ hm
  have hns : |n - s| ≤ |n| * (1 + 2 / 2 ^ 53) / 2 ^ 53 := by
    refine le_trans hd ?_
    exact div_le_div_of_nonneg_right hc (by positivity)
  have key1 : ρ * (ae + be) ≤ (ρ + 1 / 2 ^ 50) * ((ae + be) * (1 - 2 / 2 ^ 53)) := by
    have h0 : 0 ≤ ae + be := add_nonneg pae pbe
    have : ρ ≤ (ρ + 1 / 2 ^ 50) * (1 - 2 / 2 ^ 53) := by
      have e1 : (ρ + 1 / 2 ^ 50) * (1 - 2 / 2 ^ 53) = ρ + (1 / 2 ^ 50 - 1 / 2 ^ 50 * (2 / 2 ^ 53)) - ρ * (2 / 2 ^ 53) := by ring
      have e2 : ρ * (2 / 2 ^ 53) ≤ 1 * (2 / 2 ^ 53) := mul_le_mul_of_nonneg_right hr1 (by positivity)
      have e3 : (1 : K) * (2 / 2 ^ 53) ≤ 1 / 2 ^ 50 - 1 / 2 ^ 50 * (2 / 2 ^ 53) := by norm_num
      rw [e1]
      linarith
    calc ρ * (ae + be) ≤ ((ρ + 1 / 2 ^ 50) * (1 - 2 / 2 ^ 53)) * (ae + be) := mul_le_mul_of_nonneg_right this h0
      _ = _ := by ring
  have key2 : |n| * (1 + 2 / 2 ^ 53) / 2 ^ 53 ≤
      (ρ + 1 / 2 ^ 50) * (|n| * (2 / 2 ^ 53) * (1 - 3 / 2 ^ 53) * (1 - 2 / 2 ^ 53)) := by
    have e1 : (3 / 5 : K) ≤ ρ + 1 / 2 ^ 50 := by
      have : (0 : K) ≤ 1 / 2 ^ 50 := by positivity
      linarith
    have e2 : (0 : K) ≤ |n| * (2 / 2 ^ 53) * (1 - 3 / 2 ^ 53) * (1 - 2 / 2 ^ 53) := by
      apply mul_nonneg (mul_nonneg (by positivity) (by norm_num)) (by norm_num)
    refine le_trans ?_ (mul_le_mul_of_nonneg_right e1 e2)
    have e3 : (1 + 2 / 2 ^ 53) / 2 ^ 53 ≤ (3 / 5 : K) * ((2 / 2 ^ 53) * (1 - 3 / 2 ^ 53) * (1 - 2 / 2 ^ 53)) := by norm_num
    calc |n| * (1 + 2 / 2 ^ 53) / 2 ^ 53 = |n| * ((1 + 2 / 2 ^ 53) / 2 ^ 53) := by ring
      _ ≤ |n| * ((3 / 5 : K) * ((2 / 2 ^ 53) * (1 - 3 / 2 ^ 53) * (1 - 2 / 2 ^ 53))) := mul_le_mul_of_nonneg_left e3 hn0
      _ = _ := by ring
  have : (ρ + 1 / 2 ^ 50) * ((ae + be + |n| * (2 / 2 ^ 53) * (1 - 3 / 2 ^ 53)) * (1 - 2 / 2 ^ 53)) =
      (ρ + 1 / 2 ^ 50) * ((ae + be) * (1 - 2 / 2 ^ 53)) +
      (ρ + 1 / 2 ^ 50) * (|n| * (2 / 2 ^ 53) * (1 - 3 / 2 ^ 53) * (1 - 2 / 2 ^ 53)) := by ring
  rw [this]
  linarith

theorem Tracks.add (hA : Binary64 A) {k : Nat} (hk : k + 52 ≤ 1022) {ρ : K} (hr0 : 3 / 5 ≤ ρ) (hr1 : ρ ≤ 1)
    {a b : FPred K} {va vb : K} (ha : Tracks k ρ a va) (hb : Tracks k ρ b vb) :
    Tracks k (ρ + 1 / 2 ^ 50) (addPred A a b) (va + vb) := by
  intro e he
  simp only [addPred] at he ⊢
  obtain ⟨ae, i, e1, e2, he⟩ := fadd_some he
  obtain ⟨X, be, e3, e4, hi⟩ := fadd_some e2
  obtain ⟨n, hn⟩ := ownErr_some e3
  obtain ⟨an, a1, a2, a3, a4, a5⟩ := ha ae e1
  obtain ⟨bn, b1, b2, b3, b4, b5⟩ := hb be e4
  rw [hn] at e3
  obtain ⟨p, q, c1, c2, hs⟩ := fadd_some hn
  rw [a1] at c1; cases c1
  rw [b1] at c2; cases c2
  have hv : |(an + bn) - (va + vb)| ≤ ρ * (ae + be) := by
    have h1 : (an + bn) - (va + vb) = (an - va) + (bn - vb) := by ring
    have := abs_add_le (an - va) (bn - vb)
    rw [h1]
    linarith
  obtain ⟨g1, g2, g3, g4⟩ := sum_step hA hk hr0 hr1 (a2.add b2) hs e3 a3 b3 a4 b4 hi he hv
  exact ⟨n, hn, g1, g2, g3, g4⟩

theorem Tracks.sub (hA : Binary64 A) {k : Nat} (hk : k + 52 ≤ 1022) {ρ : K} (hr0 : 3 / 5 ≤ ρ) (hr1 : ρ ≤ 1)
    {a b : FPred K} {va vb : K} (ha : Tracks k ρ a va) (hb : Tracks k ρ b vb) :
    Tracks k (ρ + 1 / 2 ^ 50) (subPred A a b) (va - vb) := by
  intro e he
  simp only [subPred] at he ⊢
  obtain ⟨ae, i, e1, e2, he⟩ := fadd_some he
  obtain ⟨X, be, e3, e4, hi⟩ := fadd_some e2
  obtain ⟨n, hn⟩ := ownErr_some e3
  obtain ⟨an, a1, a2, a3, a4, a5⟩ := ha ae e1
  obtain ⟨bn, b1, b2, b3, b4, b5⟩ := hb be e4
  rw [hn] at e3
  obtain ⟨p, q, c1, c2, hs⟩ := fsub_some hn
  rw [a1] at c1; cases c1
  rw [b1] at c2; cases c2
  have hv : |(an - bn) - (va - vb)| ≤ ρ * (ae + be) := by
    have h1 : (an - bn) - (va - vb) = (an - va) - (bn - vb) := by ring
    have := abs_sub (an - va) (bn - vb)
    rw [h1]
    linarith
  obtain ⟨g1, g2, g3, g4⟩ := sum_step hA hk hr0 hr1 (a2.sub b2) hs e3 a3 b3 a4 b4 hi he hv
  exact ⟨n, hn, g1, g2, g3, g4⟩

/-! ## Products -/

/-- The number of `p` is a product with exact value `v`: its relative error is at most `κ`, and
its bound at least `μ` times it. -/
def IsProd (k : Nat) (κ μ : K) (p : FPred K) (v : K) : Prop :=
  ∀ e n, p.e = some e → p.n = some n → Grid k n ∧ Grid 1074 e ∧ 0 ≤ e ∧
    |n - v| ≤ κ * |n| ∧ μ * |n| ≤ e ∧ (e = 0 ∨ 1 / 2 ^ 53 * |n| ≤ e)

/-- The number `f` stands for the exact value `F`. -/
def Near (k : Nat) (δ : K) (f : Option K) (F : K) : Prop :=
  ∀ y, f = some y → Grid k y ∧ |y - F| ≤ δ * |y|

theorem Near.exact {k : Nat} {x : K} (h : Grid k x) : Near k 0 (some x) x := by
  intro y hy
  cases hy
  exact ⟨h, by simp⟩

omit [IsStrictOrderedRing K] in
theorem IsProd.new {k : Nat} {δ : K} {f : Option K} {F : K} (hf : Near k δ f F) :
    IsProd k δ 0 (newPred f) F := by
  intro e n he hn
  simp only [newPred, Option.some.injEq] at he hn
  subst he
  obtain ⟨h1, h2⟩ := hf n hn
  exact ⟨h1, Grid.zero _, le_refl _, h2, by simp, Or.inl rfl⟩

theorem IsProd.mul (hA : Binary64 A) {k j : Nat} (hk : k + j + 53 ≤ 1022) {κ μ δ κ' μ' : K}
    (hκ : 0 ≤ κ) (hμ : 0 ≤ μ) (hδ : 0 ≤ δ)
    (hκ' : (1 + 2 / 2 ^ 53) * (1 / 2 ^ 53 + δ + κ + κ * δ) ≤ κ')
    (hμ' : μ' ≤ (2 / 2 ^ 53 + μ) * (1 - 6 / 2 ^ 53)) (hμ1 : 1 / 2 ^ 53 ≤ μ')
    {p : FPred K} {v F : K} {f : Option K} (hp : IsProd k κ μ p v) (hf : Near j δ f F) :
    IsProd (k + j) κ' μ' (mulPred A p f) (v * F) := by
  intro e n' hee hn'
  simp only [mulPred] at hee hn'
  obtain ⟨pe, i, e1, e2, he⟩ := fadd_some hee
  obtain ⟨X, z, e3, e4, hi⟩ := fadd_some e2
  rw [hn'] at e3
  obtain ⟨n, y, p1, c2, hs⟩ := fmul_some hn'
  obtain ⟨p2, p3, p4, p5, p6, p7⟩ := hp pe n e1 p1
  subst c2
  obtain ⟨f1, f2⟩ := hf y rfl
  obtain ⟨q, y', c1, c2, hz⟩ := fmul_some e4
  rw [e1] at c1; cases c1
  simp only [fabs, Option.map_some, Option.some.injEq] at c2
  subst c2
  have gnf := p2.mul f1
  have gnf' : Grid 1074 (n * y) := gnf.mono (by omega)
  have gn' := hA.grid _ _ _ (by omega) hs gnf
  obtain ⟨px, gx, lx⟩ := ownErr_spec hA (by omega) gn' e3
  have pz0 : 0 ≤ pe * |y| := mul_nonneg p4 (abs_nonneg _)
  have pz : 0 ≤ z := hA.nonneg _ _ hz pz0
  have gz := hA.all _ _ hz
  obtain ⟨li, -⟩ := rnd_lower hA hi (add_nonneg px pz) (Or.inl (gx.add gz))
  have pi : 0 ≤ i := hA.nonneg _ _ hi (add_nonneg px pz)
  obtain ⟨le, -⟩ := rnd_lower hA he (add_nonneg p4 pi) (Or.inl (p3.add (hA.all _ _ hi)))
  have pe0 : 0 ≤ e := hA.nonneg _ _ he (add_nonneg p4 pi)
  have hd := hA.err _ _ hs (Or.inl gnf')
  obtain ⟨hzero, hc, hc'⟩ := rnd_close hA hs (Or.inl gnf')
  have hn0 := abs_nonneg n'
  -- the error
  have hF : |F| ≤ |y| * (1 + δ) := by
    have := abs_sub_abs_le_abs_sub F y
    rw [abs_sub_comm F y] at this
    linarith
  have herr : |n * y - v * F| ≤ |n * y| * (δ + κ + κ * δ) := by
    have h1 : n * y - v * F = n * (y - F) + (n - v) * F := by ring
    have h2 := abs_add_le (n * (y - F)) ((n - v) * F)
    rw [← h1, abs_mul, abs_mul] at h2
    have h3 : |n| * |y - F| ≤ |n| * (δ * |y|) := mul_le_mul_of_nonneg_left f2 (abs_nonneg _)
    have h4 : |n - v| * |F| ≤ (κ * |n|) * (|y| * (1 + δ)) :=
      mul_le_mul p5 hF (abs_nonneg _) (mul_nonneg hκ (abs_nonneg _))
    rw [abs_mul n y]
    calc |n * y - v * F| ≤ |n| * |y - F| + |n - v| * |F| := h2
      _ ≤ |n| * (δ * |y|) + (κ * |n|) * (|y| * (1 + δ)) := add_le_add h3 h4
      _ = _ := by ring
  have hκe : |n' - v * F| ≤ κ' * |n'| := by
    have h1 := abs_add_le (n' - n * y) (n * y - v * F)
    rw [sub_add_sub_cancel] at h1
    have h2 : |n' - v * F| ≤ |n * y| * (1 / 2 ^ 53 + δ + κ + κ * δ) := by
      have : |n * y| * (1 / 2 ^ 53 + δ + κ + κ * δ) = |n * y| / 2 ^ 53 + |n * y| * (δ + κ + κ * δ) := by ring
      rw [this]
      linarith
    have h3 : (0 : K) ≤ 1 / 2 ^ 53 + δ + κ + κ * δ := by positivity
    calc |n' - v * F| ≤ |n * y| * (1 / 2 ^ 53 + δ + κ + κ * δ) := h2
      _ ≤ (|n'| * (1 + 2 / 2 ^ 53)) * (1 / 2 ^ 53 + δ + κ + κ * δ) := mul_le_mul_of_nonneg_right hc h3
      _ = |n'| * ((1 + 2 / 2 ^ 53) * (1 / 2 ^ 53 + δ + κ + κ * δ)) := by ring
      _ ≤ |n'| * κ' := mul_le_mul_of_nonneg_left hκ' hn0
      _ = _ := by ring
  -- the bound
  have hμe : μ' * |n'| ≤ e := by
    by_cases hn0' : n' = 0
    · rw [hn0', abs_zero, mul_zero]; exact pe0
    · have hny : n * y ≠ 0 := by
        intro h0
        apply hn0'
        rw [h0, abs_zero, zero_div, sub_zero] at hd
        exact abs_nonpos_iff.mp hd
      have hlz : pe * |y| * (1 - 1 / 2 ^ 53) ≤ z := by
        refine (rnd_lower hA hz pz0 ?_).1
        rcases p7 with h0 | h0
        · left
          rw [h0, zero_mul]
          exact Grid.zero _
        · right
          have hle := gnf.le hny
          rw [abs_mul] at hle
          rw [abs_of_nonneg pz0]
          have h5 : 1 / 2 ^ 53 * |n| * |y| ≤ pe * |y| := mul_le_mul_of_nonneg_right h0 (abs_nonneg _)
          refine le_trans ?_ h5
          have h6 : (1 : K) / 2 ^ 53 * (1 / 2 ^ (k + j)) ≤ 1 / 2 ^ 53 * (|n| * |y|) :=
            mul_le_mul_of_nonneg_left hle (by positivity)
          rw [mul_assoc]
          refine le_trans ?_ h6
          rw [one_div_mul_one_div, ← pow_add]
          exact one_div_le_one_div_of_le (by positivity) (pow_le_pow_right₀ (by norm_num) (by omega))
      have h1 : μ * |n'| * (1 - 1 / 2 ^ 53) ≤ pe * |y| := by
        have a1 : |n'| * (1 - 1 / 2 ^ 53) ≤ |n * y| := by
          have a2 : |n'| * (1 - 1 / 2 ^ 53) ≤ |n * y| * (1 + 1 / 2 ^ 53) * (1 - 1 / 2 ^ 53) :=
            mul_le_mul_of_nonneg_right hc' (by norm_num)
          refine le_trans a2 ?_
          have : (1 + 1 / 2 ^ 53) * (1 - 1 / 2 ^ 53) ≤ (1 : K) := by norm_num
          calc |n * y| * (1 + 1 / 2 ^ 53) * (1 - 1 / 2 ^ 53) = |n * y| * ((1 + 1 / 2 ^ 53) * (1 - 1 / 2 ^ 53)) := by ring
            _ ≤ |n * y| * 1 := mul_le_mul_of_nonneg_left this (abs_nonneg _)
            _ = _ := by ring
        calc μ * |n'| * (1 - 1 / 2 ^ 53) = μ * (|n'| * (1 - 1 / 2 ^ 53)) := by ring
          _ ≤ μ * |n * y| := mul_le_mul_of_nonneg_left a1 hμ
          _ = (μ * |n|) * |y| := by rw [abs_mul]; ring
          _ ≤ pe * |y| := mul_le_mul_of_nonneg_right p6 (abs_nonneg _)
      have h2 : (X + z) * (1 - 1 / 2 ^ 53) * (1 - 1 / 2 ^ 53) ≤ e := by
        refine le_trans ?_ le
        apply mul_le_mul_of_nonneg_right _ (by norm_num)
        linarith
      have h3 : |n'| * (2 / 2 ^ 53) * (1 - 3 / 2 ^ 53) + μ * |n'| * (1 - 1 / 2 ^ 53) * (1 - 1 / 2 ^ 53) ≤ X + z := by
        have : μ * |n'| * (1 - 1 / 2 ^ 53) * (1 - 1 / 2 ^ 53) ≤ pe * |y| * (1 - 1 / 2 ^ 53) :=
          mul_le_mul_of_nonneg_right h1 (by norm_num)
        linarith
      have h4 : (|n'| * (2 / 2 ^ 53) * (1 - 3 / 2 ^ 53) + μ * |n'| * (1 - 1 / 2 ^ 53) * (1 - 1 / 2 ^ 53)) *
          ((1 - 1 / 2 ^ 53) * (1 - 1 / 2 ^ 53)) ≤ (X + z) * ((1 - 1 / 2 ^ 53) * (1 - 1 / 2 ^ 53)) :=
        mul_le_mul_of_nonneg_right h3 (by norm_num)
      have h5 : (2 / 2 ^ 53 + μ) * (1 - 6 / 2 ^ 53) * |n'| ≤
          (|n'| * (2 / 2 ^ 53) * (1 - 3 / 2 ^ 53) + μ * |n'| * (1 - 1 / 2 ^ 53) * (1 - 1 / 2 ^ 53)) *
          ((1 - 1 / 2 ^ 53) * (1 - 1 / 2 ^ 53)) := by
        have m0 : 0 ≤ μ * |n'| := mul_nonneg hμ hn0
        have b1 : (2 / 2 ^ 53 : K) * (1 - 6 / 2 ^ 53) ≤
          (2 / 2 ^ 53) * (1 - 3 / 2 ^ 53) * ((1 - 1 / 2 ^ 53) * (1 - 1 / 2 ^ 53)) := by norm_num
        have b2 : (1 - 6 / 2 ^ 53 : K) ≤ (1 - 1 / 2 ^ 53) * (1 - 1 / 2 ^ 53) * ((1 - 1 / 2 ^ 53) * (1 - 1 / 2 ^ 53)) := by
          norm_num
        have d1 := mul_le_mul_of_nonneg_left b1 hn0
        have d2 := mul_le_mul_of_nonneg_left b2 m0
        calc (2 / 2 ^ 53 + μ) * (1 - 6 / 2 ^ 53) * |n'| =
            |n'| * ((2 / 2 ^ 53 : K) * (1 - 6 / 2 ^ 53)) + μ * |n'| * (1 - 6 / 2 ^ 53) := by ring
          _ ≤ _ := add_le_add d1 d2
          _ = _ := by ring
      calc μ' * |n'| ≤ (2 / 2 ^ 53 + μ) * (1 - 6 / 2 ^ 53) * |n'| := mul_le_mul_of_nonneg_right hμ' hn0
        _ ≤ _ := h5
        _ ≤ _ := h4
        _ = (X + z) * (1 - 1 / 2 ^ 53) * (1 - 1 / 2 ^ 53) := by ring
        _ ≤ e := h2
  exact ⟨gn', hA.all _ _ he, pe0, hκe, hμe,
    Or.inr (le_trans (mul_le_mul_of_nonneg_right hμ1 hn0) hμe)⟩

theorem IsProd.tracks {k : Nat} {κ μ ρ : K} (hr : 0 ≤ ρ) (hκ : κ ≤ ρ * μ) {p : FPred K} {v : K}
    {f : Option K} (h : IsProd k κ μ (mulPred A p f) v) : Tracks k ρ (mulPred A p f) v := by
  intro e he
  have hn : ∃ n, (mulPred A p f).n = some n := by
    simp only [mulPred] at he ⊢
    obtain ⟨pe, i, e1, e2, -⟩ := fadd_some he
    obtain ⟨X, z, e3, -, -⟩ := fadd_some e2
    exact ownErr_some e3
  obtain ⟨n, h1⟩ := hn
  obtain ⟨h2, h3, h4, h5, h6, -⟩ := h e n he h1
  refine ⟨n, h1, h2, h3, h4, le_trans h5 ?_⟩
  calc κ * |n| ≤ ρ * μ * |n| := mul_le_mul_of_nonneg_right hκ (abs_nonneg _)
    _ = ρ * (μ * |n|) := by ring
    _ ≤ ρ * e := mul_le_mul_of_nonneg_left h6 hr

/-- What the comparisons at the end tell. -/
theorem Tracks.sign {k : Nat} {ρ : K} (hr : ρ ≤ 1) {p : FPred K} {v : K} (h : Tracks k ρ p v) :
    (fgt p.n p.e = true → 0 < v) ∧ (fgt (p.e.map (- ·)) p.n = true → v < 0) := by
  rcases hp : p.e with _ | e
  · constructor
    · intro hg
      rcases hn : p.n with _ | n <;> simp [fgt, hn] at hg
    · intro hg
      rcases hn : p.n with _ | n <;> simp [fgt, hn] at hg
  · obtain ⟨n, h1, -, -, h4, h5⟩ := h e hp
    have h6 : |n - v| ≤ e := le_trans h5 (by nlinarith)
    rw [abs_le] at h6
    rw [h1]
    simp only [fgt, Option.map_some, decide_eq_true_eq]
    exact ⟨fun hg => by linarith, fun hg => by linarith⟩


/-! ## Orientation -/

/-- Twice the signed area of a triangle: positive when its corners are in counterclockwise
order, zero when they are on a line. -/
def cross (x1 y1 x2 y2 x y : K) : K := (x2 - x1) * (y - y1) - (x - x1) * (y2 - y1)

/-- An answer is right. -/
def RightO (o : OrientationKind) (x1 y1 x2 y2 x y : K) : Prop :=
  match o with
  | .ccw => 0 < cross x1 y1 x2 y2 x y
  | .cw => cross x1 y1 x2 y2 x y < 0
  | .colinear => cross x1 y1 x2 y2 x y = 0
  | .indeterminate => True

theorem prod2 (hA : Binary64 A) {a b : K} (ha : Grid 484 a) (hb : Grid 484 b) :
    Tracks (484 + 484) (3 / 5) (mulPred A (newPred (some a)) (some b)) (a * b) := by
  have h := IsProd.mul hA (κ := 0) (μ := 0) (δ := 0) (κ' := 17 / 16 / 2 ^ 53) (μ' := 31 / 16 / 2 ^ 53) (by omega)
    (le_refl _) (le_refl _) (le_refl _) (by norm_num) (by norm_num) (by norm_num)
    (IsProd.new (Near.exact ha)) (Near.exact hb)
  exact h.tracks (by norm_num) (by norm_num)

/-- The quick orientation is right whenever it is determinate, for coordinates that are zero or at
least `2^-432` in magnitude (and of any magnitude above, including those that overflow). -/
theorem C92_quick_orientation_partial (hA : Binary64 A) (x1 y1 x2 y2 x y : K) (hx1 : Grid 484 x1) (hy1 : Grid 484 y1)
    (hx2 : Grid 484 x2) (hy2 : Grid 484 y2) (hx : Grid 484 x) (hy : Grid 484 y) :
    RightO (simpleOrientation A x1 y1 x2 y2 x y) x1 y1 x2 y2 x y := by
  simp only [simpleOrientation]
  split
  · rename_i h
    simp only [RightO, cross]
    rcases h with ⟨h1, h2⟩ | ⟨h1, h2⟩
    · rw [h1, h2]; ring
    · rw [h1, h2]; ring
  · have hk : 484 + 484 + 52 ≤ 1022 := by norm_num
    have t1 := Tracks.add hA hk (by norm_num) (by norm_num) (prod2 hA hx1 hy2) (prod2 hA hx2 hy)
    have w := fun {a b : K} (ha : Grid 484 a) (hb : Grid 484 b) (ρ : K) (hr : 3 / 5 ≤ ρ) =>
      (prod2 hA ha hb).mono (le_refl _) hr
    have t2 := Tracks.add hA hk (by norm_num) (by norm_num) t1 (w hx hy1 _ (by norm_num))
    have t3 := Tracks.sub hA hk (by norm_num) (by norm_num) t2 (w hx1 hy _ (by norm_num))
    have t4 := Tracks.sub hA hk (by norm_num) (by norm_num) t3 (w hx2 hy1 _ (by norm_num))
    have t5 := Tracks.sub hA hk (by norm_num) (by norm_num) t4 (w hx hy2 _ (by norm_num))
    obtain ⟨s1, s2⟩ := (t5.eq (w := cross x1 y1 x2 y2 x y) (by simp only [cross]; ring)).sign (by norm_num)
    split
    · rename_i h
      exact s1 h
    · split
      · rename_i h
        exact s2 h
      · trivial

/-- So `Orientation` is right whenever the second stage is, or is not needed. -/
theorem C92_orientation_partial (hA : Binary64 A) (lu : K → K → K → K → K → K → OrientationKind) (x1 y1 x2 y2 x y : K)
    (hx1 : Grid 484 x1) (hy1 : Grid 484 y1)
    (hx2 : Grid 484 x2) (hy2 : Grid 484 y2) (hx : Grid 484 x) (hy : Grid 484 y)
    (hlu : simpleOrientation A x1 y1 x2 y2 x y = .indeterminate →
      RightO (lu x1 y1 x2 y2 x y) x1 y1 x2 y2 x y) :
    RightO (orientation A lu x1 y1 x2 y2 x y) x1 y1 x2 y2 x y := by
  have h := C92_quick_orientation_partial hA x1 y1 x2 y2 x y hx1 hy1 hx2 hy2 hx hy
  simp only [orientation]
  split
  · exact hlu (by assumption)
  · exact h

omit [IsStrictOrderedRing K] in
/-- The orientation computed with rational numbers is always determinate and right. -/
theorem C92_robust_orientation (x1 y1 x2 y2 x y : K) :
    robustOrientation x1 y1 x2 y2 x y ≠ .indeterminate ∧
    RightO (robustOrientation x1 y1 x2 y2 x y) x1 y1 x2 y2 x y := by
  have e : cross x1 y1 x2 y2 x y = (x1 * y2 + x2 * y + x * y1) - (x1 * y + x2 * y1 + x * y2) := by
    simp only [cross]; ring
  simp only [robustOrientation]
  split
  · exact ⟨by simp, by simp only [RightO, e]; assumption⟩
  · split
    · exact ⟨by simp, by simp only [RightO, e]; assumption⟩
    · refine ⟨by simp, ?_⟩
      simp only [RightO, e]
      exact le_antisymm (not_lt.mp (by assumption)) (not_lt.mp (by assumption))

/-! ## Circles -/

/-- The square of a distance. -/
def dist2 (x y cx cy : K) : K := (x - cx) * (x - cx) + (y - cy) * (y - cy)

/-- An answer is right: for three points in counterclockwise order, and the circle through them. -/
def RightC (o : RelativePosition) (x1 y1 x2 y2 x3 y3 x y : K) : Prop :=
  0 < cross x1 y1 x2 y2 x3 y3 → ∀ cx cy R, dist2 x1 y1 cx cy = R → dist2 x2 y2 cx cy = R → dist2 x3 y3 cx cy = R →
    match o with
    | .inside => dist2 x y cx cy < R
    | .outside => R < dist2 x y cx cy
    | .on => dist2 x y cx cy = R
    | .indeterminate => True

omit [LinearOrder K] [IsStrictOrderedRing K] in
/-- There is a circle through three points that are not on a line. -/
theorem circle_exists (h2 : (2 : K) ≠ 0) (x1 y1 x2 y2 x3 y3 : K) (h : cross x1 y1 x2 y2 x3 y3 ≠ 0) :
    ∃ cx cy R, dist2 x1 y1 cx cy = R ∧ dist2 x2 y2 cx cy = R ∧ dist2 x3 y3 cx cy = R := by
  let c := cross x1 y1 x2 y2 x3 y3
  let p := x2 * x2 + y2 * y2 - x1 * x1 - y1 * y1
  let q := x3 * x3 + y3 * y3 - x1 * x1 - y1 * y1
  let cx := (p * (y3 - y1) - q * (y2 - y1)) / (2 * c)
  let cy := (q * (x2 - x1) - p * (x3 - x1)) / (2 * c)
  have hc : (2 * c) ≠ 0 := mul_ne_zero h2 h
  have hx : cx * (2 * c) = p * (y3 - y1) - q * (y2 - y1) := div_mul_cancel₀ _ hc
  have hy : cy * (2 * c) = q * (x2 - x1) - p * (x3 - x1) := div_mul_cancel₀ _ hc
  have hcd : c = (x2 - x1) * (y3 - y1) - (x3 - x1) * (y2 - y1) := rfl
  refine ⟨cx, cy, _, rfl, ?_, ?_⟩
  · have : 2 * c * (dist2 x2 y2 cx cy - dist2 x1 y1 cx cy) = 0 := by
      have e1 : dist2 x2 y2 cx cy - dist2 x1 y1 cx cy = p - 2 * cx * (x2 - x1) - 2 * cy * (y2 - y1) := by
        simp only [dist2, p]; ring
      rw [e1]
      linear_combination (-2 * (x2 - x1)) * hx + (-2 * (y2 - y1)) * hy + 2 * p * hcd
    have := (mul_eq_zero.mp this).resolve_left hc
    exact sub_eq_zero.mp this
  · have : 2 * c * (dist2 x3 y3 cx cy - dist2 x1 y1 cx cy) = 0 := by
      have e1 : dist2 x3 y3 cx cy - dist2 x1 y1 cx cy = q - 2 * cx * (x3 - x1) - 2 * cy * (y3 - y1) := by
        simp only [dist2, q]; ring
      rw [e1]
      linear_combination (-2 * (x3 - x1)) * hx + (-2 * (y3 - y1)) * hy + 2 * q * hcd
    have := (mul_eq_zero.mp this).resolve_left hc
    exact sub_eq_zero.mp this

/-- The determinant of the code, as a sum of its rows from left to right. -/
def detOf (m : List K) : K :=
  let r (a b c d : Nat) (plus : Bool) : K := rowBig a b c d plus m
  r 3 2 1 0 false + r 3 1 2 0 true + r 2 1 3 0 false + r 3 2 0 1 true + r 3 0 2 1 false + r 2 0 3 1 true +
    r 3 1 0 2 false + r 3 0 1 2 true + r 1 0 3 2 false + r 2 1 0 3 true + r 2 0 1 3 false + r 1 0 2 3 true

/-- The matrix of the code. -/
def matOf (x1 y1 x2 y2 x3 y3 x y : K) : List K :=
  [x1, y1, x1 * x1 + y1 * y1, 1, x2, y2, x2 * x2 + y2 * y2, 1, x3, y3, x3 * x3 + y3 * y3, 1, x, y, x * x + y * y, 1]

omit [LinearOrder K] [IsStrictOrderedRing K] in
theorem det_circle (x1 y1 x2 y2 x3 y3 x y cx cy R : K) (h1 : dist2 x1 y1 cx cy = R) (h2 : dist2 x2 y2 cx cy = R)
    (h3 : dist2 x3 y3 cx cy = R) :
    detOf (matOf x1 y1 x2 y2 x3 y3 x y) = cross x1 y1 x2 y2 x3 y3 * (R - dist2 x y cx cy) := by
  simp only [detOf, matOf, rowBig, List.getD_cons_succ, List.getD_cons_zero, if_true, Nat.reduceAdd]
  simp only [dist2, cross] at *
  simp
  linear_combination (((x3 - x2) * (y - y2) - (x - x2) * (y3 - y2))) * h1 -
    ((x3 - x1) * (y - y1) - (x - x1) * (y3 - y1)) * h2 + ((x2 - x1) * (y - y1) - (x - x1) * (y2 - y1)) * h3

theorem right_of_sign (x1 y1 x2 y2 x3 y3 x y : K) (o : RelativePosition)
    (h : match o with
      | .inside => 0 < detOf (matOf x1 y1 x2 y2 x3 y3 x y)
      | .outside => detOf (matOf x1 y1 x2 y2 x3 y3 x y) < 0
      | .on => detOf (matOf x1 y1 x2 y2 x3 y3 x y) = 0
      | .indeterminate => True) : RightC o x1 y1 x2 y2 x3 y3 x y := by
  intro hc cx cy R h1 h2 h3
  have e := det_circle x1 y1 x2 y2 x3 y3 x y cx cy R h1 h2 h3
  rcases o with _ | _ | _ | _ <;> simp only [e] at h ⊢
  · have := (mul_pos_iff_of_pos_left hc).mp h
    linarith
  · have := (mul_eq_zero.mp h).resolve_left (ne_of_gt hc)
    linarith
  · have : 0 < cross x1 y1 x2 y2 x3 y3 * (dist2 x y cx cy - R) := by linarith
    have := (mul_pos_iff_of_pos_left hc).mp this
    linarith

/-- The position computed with rational numbers is always determinate and right. -/
theorem C92_robust_incircle (x1 y1 x2 y2 x3 y3 x y : K) :
    robustIncircle x1 y1 x2 y2 x3 y3 x y ≠ .indeterminate ∧
    RightC (robustIncircle x1 y1 x2 y2 x3 y3 x y) x1 y1 x2 y2 x3 y3 x y := by
  have key : ∀ d : K, d = detOf (matOf x1 y1 x2 y2 x3 y3 x y) →
      (if 0 < d then RelativePosition.inside else if d < 0 then .outside else .on) ≠ .indeterminate ∧
      RightC (if 0 < d then RelativePosition.inside else if d < 0 then .outside else .on) x1 y1 x2 y2 x3 y3 x y := by
    rintro d rfl
    split
    · exact ⟨by simp, right_of_sign _ _ _ _ _ _ _ _ _ (by assumption)⟩
    · split
      · exact ⟨by simp, right_of_sign _ _ _ _ _ _ _ _ _ (by assumption)⟩
      · exact ⟨by simp, right_of_sign _ _ _ _ _ _ _ _ _
          (le_antisymm (not_lt.mp (by assumption)) (not_lt.mp (by assumption)))⟩
  simp only [robustIncircle]
  apply key
  simp only [detOf, matOf]
  ring

/-! ### The quick test -/

/-- The relative error allowed for the third column. -/
def δS : K := 21 / 10 / 2 ^ 53

theorem fsq_near (hA : Binary64 A) {k : Nat} (hk : k + k ≤ 1022) {x y : K} (hx : Grid k x) (hy : Grid k y) :
    Near (k + k) δS (fsq A x y) (x * x + y * y) := by
  intro s hs
  simp only [fsq] at hs
  obtain ⟨a, b, ea, eb, h⟩ := fadd_some hs
  simp only [fmul] at ea eb
  have ga := hx.mul hx
  have gb := hy.mul hy
  have ga' : Grid 1074 (x * x) := ga.mono (by omega)
  have gb' : Grid 1074 (y * y) := gb.mono (by omega)
  have gra := hA.grid _ _ _ (by omega) ea ga
  have grb := hA.grid _ _ _ (by omega) eb gb
  have gs := gra.add grb
  have gs' : Grid 1074 (a + b) := gs.mono (by omega)
  refine ⟨hA.grid _ _ _ (by omega) h gs, ?_⟩
  obtain ⟨la, ua⟩ := rnd_lower hA ea (mul_self_nonneg x) (Or.inl ga')
  obtain ⟨lb, ub⟩ := rnd_lower hA eb (mul_self_nonneg y) (Or.inl gb')
  have pa := hA.nonneg _ _ ea (mul_self_nonneg x)
  have pb := hA.nonneg _ _ eb (mul_self_nonneg y)
  have ps := hA.nonneg _ _ h (add_nonneg pa pb)
  obtain ⟨ls, us⟩ := rnd_lower hA h (add_nonneg pa pb) (Or.inl gs')
  rw [abs_of_nonneg ps, abs_le, δS]
  have hX := mul_self_nonneg x
  have hY := mul_self_nonneg y
  generalize x * x = X at *
  generalize y * y = Y at *
  have hsum : (X + Y) * (1 - 1 / 2 ^ 53) ≤ a + b := by linarith
  have hsum' : a + b ≤ (X + Y) * (1 + 1 / 2 ^ 53) := by linarith
  have hS : 0 ≤ X + Y := add_nonneg hX hY
  generalize X + Y = S at *
  generalize a + b = T at *
  have l : S * (1 - 1 / 2 ^ 53) * (1 - 1 / 2 ^ 53) ≤ s :=
    le_trans (mul_le_mul_of_nonneg_right hsum (by norm_num)) ls
  have u : s ≤ S * (1 + 1 / 2 ^ 53) * (1 + 1 / 2 ^ 53) :=
    le_trans us (mul_le_mul_of_nonneg_right hsum' (by norm_num))
  constructor
  · have : S * (1 - (1 - 1 / 2 ^ 53) * (1 - 1 / 2 ^ 53)) ≤ S * (21 / 10 / 2 ^ 53 * ((1 - 1 / 2 ^ 53) * (1 - 1 / 2 ^ 53))) :=
      mul_le_mul_of_nonneg_left (by norm_num) hS
    have h2 : 21 / 10 / 2 ^ 53 * (S * (1 - 1 / 2 ^ 53) * (1 - 1 / 2 ^ 53)) ≤ 21 / 10 / 2 ^ 53 * s :=
      mul_le_mul_of_nonneg_left l (by positivity)
    linarith
  · have : S * ((1 + 1 / 2 ^ 53) * (1 + 1 / 2 ^ 53) - 1) ≤ S * (21 / 10 / 2 ^ 53 * ((1 - 1 / 2 ^ 53) * (1 - 1 / 2 ^ 53))) :=
      mul_le_mul_of_nonneg_left (by norm_num) hS
    have h2 : 21 / 10 / 2 ^ 53 * (S * (1 - 1 / 2 ^ 53) * (1 - 1 / 2 ^ 53)) ≤ 21 / 10 / 2 ^ 53 * s :=
      mul_le_mul_of_nonneg_left l (by positivity)
    linarith

/-- A product of four numbers, one of them from the third column. -/
theorem prod4 (hA : Binary64 A) {j1 j2 j3 j4 : Nat} {δ1 δ2 δ3 δ4 : K} {f1 f2 f3 f4 : Option K} {F1 F2 F3 F4 : K}
    (hj : j1 + j2 + j3 + j4 ≤ 960)
    (hδ : (δ1 = δS ∧ δ2 = 0 ∧ δ3 = 0 ∧ δ4 = 0) ∨ (δ1 = 0 ∧ δ2 = δS ∧ δ3 = 0 ∧ δ4 = 0) ∨
      (δ1 = 0 ∧ δ2 = 0 ∧ δ3 = δS ∧ δ4 = 0) ∨ (δ1 = 0 ∧ δ2 = 0 ∧ δ3 = 0 ∧ δ4 = δS))
    (h1 : Near j1 δ1 f1 F1) (h2 : Near j2 δ2 f2 F2) (h3 : Near j3 δ3 f3 F3) (h4 : Near j4 δ4 f4 F4) :
    Tracks 960 (7 / 8) (mulPred A (mulPred A (mulPred A (newPred f1) f2) f3) f4) (F1 * F2 * F3 * F4) := by
  have κ1 : δ1 = 0 ∨ δ1 = δS := by rcases hδ with h | h | h | h <;> simp [h]
  rcases hδ with ⟨rfl, rfl, rfl, rfl⟩ | ⟨rfl, rfl, rfl, rfl⟩ | ⟨rfl, rfl, rfl, rfl⟩ | ⟨rfl, rfl, rfl, rfl⟩
  · have q1 := (IsProd.new h1).mul hA (κ' := 31 / 10 * (101 / 100) / 2 ^ 53) (μ' := 199 / 100 / 2 ^ 53) (by omega)
      (by norm_num [δS]) (by norm_num [δS]) (by norm_num [δS]) (by norm_num [δS]) (by norm_num [δS]) (by norm_num [δS]) h2
    have q2 := q1.mul hA (κ' := 41 / 10 * (101 / 100) / 2 ^ 53) (μ' := 398 / 100 / 2 ^ 53) (by omega)
      (by norm_num [δS]) (by norm_num [δS]) (by norm_num [δS]) (by norm_num [δS]) (by norm_num [δS]) (by norm_num [δS]) h3
    have q3 := q2.mul hA (κ' := 51 / 10 * (101 / 100) / 2 ^ 53) (μ' := 597 / 100 / 2 ^ 53) (by omega)
      (by norm_num [δS]) (by norm_num [δS]) (by norm_num [δS]) (by norm_num [δS]) (by norm_num [δS]) (by norm_num [δS]) h4
    exact (q3.tracks (ρ := 7 / 8) (by norm_num) (by norm_num)).mono hj (le_refl _)
  · have q1 := (IsProd.new h1).mul hA (κ' := 31 / 10 * (101 / 100) / 2 ^ 53) (μ' := 199 / 100 / 2 ^ 53) (by omega)
      (by norm_num [δS]) (by norm_num [δS]) (by norm_num [δS]) (by norm_num [δS]) (by norm_num [δS]) (by norm_num [δS]) h2
    have q2 := q1.mul hA (κ' := 41 / 10 * (101 / 100) / 2 ^ 53) (μ' := 398 / 100 / 2 ^ 53) (by omega)
      (by norm_num [δS]) (by norm_num [δS]) (by norm_num [δS]) (by norm_num [δS]) (by norm_num [δS]) (by norm_num [δS]) h3
    have q3 := q2.mul hA (κ' := 51 / 10 * (101 / 100) / 2 ^ 53) (μ' := 597 / 100 / 2 ^ 53) (by omega)
      (by norm_num [δS]) (by norm_num [δS]) (by norm_num [δS]) (by norm_num [δS]) (by norm_num [δS]) (by norm_num [δS]) h4
    exact (q3.tracks (ρ := 7 / 8) (by norm_num) (by norm_num)).mono hj (le_refl _)
  · have q1 := (IsProd.new h1).mul hA (κ' := 101 / 100 / 2 ^ 53) (μ' := 199 / 100 / 2 ^ 53) (by omega)
      (by norm_num [δS]) (by norm_num [δS]) (by norm_num [δS]) (by norm_num [δS]) (by norm_num [δS]) (by norm_num [δS]) h2
    have q2 := q1.mul hA (κ' := 41 / 10 * (101 / 100) / 2 ^ 53) (μ' := 398 / 100 / 2 ^ 53) (by omega)
      (by norm_num [δS]) (by norm_num [δS]) (by norm_num [δS]) (by norm_num [δS]) (by norm_num [δS]) (by norm_num [δS]) h3
    have q3 := q2.mul hA (κ' := 51 / 10 * (101 / 100) / 2 ^ 53) (μ' := 597 / 100 / 2 ^ 53) (by omega)
      (by norm_num [δS]) (by norm_num [δS]) (by norm_num [δS]) (by norm_num [δS]) (by norm_num [δS]) (by norm_num [δS]) h4
    exact (q3.tracks (ρ := 7 / 8) (by norm_num) (by norm_num)).mono hj (le_refl _)
  · have q1 := (IsProd.new h1).mul hA (κ' := 101 / 100 / 2 ^ 53) (μ' := 199 / 100 / 2 ^ 53) (by omega)
      (by norm_num [δS]) (by norm_num [δS]) (by norm_num [δS]) (by norm_num [δS]) (by norm_num [δS]) (by norm_num [δS]) h2
    have q2 := q1.mul hA (κ' := 202 / 100 / 2 ^ 53) (μ' := 398 / 100 / 2 ^ 53) (by omega)
      (by norm_num [δS]) (by norm_num [δS]) (by norm_num [δS]) (by norm_num [δS]) (by norm_num [δS]) (by norm_num [δS]) h3
    have q3 := q2.mul hA (κ' := 51 / 10 * (101 / 100) / 2 ^ 53) (μ' := 597 / 100 / 2 ^ 53) (by omega)
      (by norm_num [δS]) (by norm_num [δS]) (by norm_num [δS]) (by norm_num [δS]) (by norm_num [δS]) (by norm_num [δS]) h4
    exact (q3.tracks (ρ := 7 / 8) (by norm_num) (by norm_num)).mono hj (le_refl _)

/-- The grid of a column. -/
def colGrid (c : Nat) : Nat := [240, 240, 480, 0].getD c 0
/-- The relative error of a column. -/
def colErr (c : Nat) : K := [0, 0, δS, 0].getD c 0

/-- A row of the determinant. -/
theorem row_tracks (hA : Binary64 A) (m : List (Option K)) (M : List K)
    (h : ∀ r c, r < 4 → c < 4 → Near (colGrid c) (colErr c) (m.getD (c + 4 * r) none) (M.getD (c + 4 * r) 0))
    (a b c d : Nat) (plus : Bool) (ha : a < 4) (hb : b < 4) (hc : c < 4) (hd : d < 4)
    (hg : colGrid a + colGrid b + colGrid c + colGrid d ≤ 960)
    (hE : (a = 2 ∧ b ≠ 2 ∧ c ≠ 2 ∧ d ≠ 2) ∨ (a ≠ 2 ∧ b = 2 ∧ c ≠ 2 ∧ d ≠ 2) ∨
      (a ≠ 2 ∧ b ≠ 2 ∧ c = 2 ∧ d ≠ 2) ∨ (a ≠ 2 ∧ b ≠ 2 ∧ c ≠ 2 ∧ d = 2)) :
    Tracks 960 (7 / 8 + 1 / 2 ^ 50) (rowFloat A a b c d plus m) (rowBig a b c d plus M) := by
  have z : ∀ i, i < 4 → i ≠ 2 → colErr (K := K) i = 0 := by
    intro i hi h2
    have : i = 0 ∨ i = 1 ∨ i = 3 := by omega
    rcases this with rfl | rfl | rfl <;> simp [colErr]
  have z2 : colErr (K := K) 2 = δS := by simp [colErr]
  have p1 : Tracks 960 (7 / 8) (mulPred A (mulPred A (mulPred A (newPred (m.getD a none)) (m.getD (b + 4) none))
      (m.getD (c + 8) none)) (m.getD (d + 12) none)) (M.getD a 0 * M.getD (b + 4) 0 * M.getD (c + 8) 0 * M.getD (d + 12) 0) :=
    prod4 hA hg (by
      rcases hE with ⟨e1, e2, e3, e4⟩ | ⟨e1, e2, e3, e4⟩ | ⟨e1, e2, e3, e4⟩ | ⟨e1, e2, e3, e4⟩
      · subst e1; simp [z b hb e2, z c hc e3, z d hd e4, z2]
      · subst e2; simp [z a ha e1, z c hc e3, z d hd e4, z2]
      · subst e3; simp [z a ha e1, z b hb e2, z d hd e4, z2]
      · subst e4; simp [z a ha e1, z b hb e2, z c hc e3, z2])
      (h 0 a (by omega) ha) (h 1 b (by omega) hb) (h 2 c (by omega) hc) (h 3 d (by omega) hd)
  have p2 : Tracks 960 (7 / 8) (mulPred A (mulPred A (mulPred A (newPred (m.getD b none)) (m.getD (a + 4) none))
      (m.getD (c + 8) none)) (m.getD (d + 12) none)) (M.getD b 0 * M.getD (a + 4) 0 * M.getD (c + 8) 0 * M.getD (d + 12) 0) :=
    prod4 hA (by omega) (by
      rcases hE with ⟨e1, e2, e3, e4⟩ | ⟨e1, e2, e3, e4⟩ | ⟨e1, e2, e3, e4⟩ | ⟨e1, e2, e3, e4⟩
      · subst e1; simp [z b hb e2, z c hc e3, z d hd e4, z2]
      · subst e2; simp [z a ha e1, z c hc e3, z d hd e4, z2]
      · subst e3; simp [z a ha e1, z b hb e2, z d hd e4, z2]
      · subst e4; simp [z a ha e1, z b hb e2, z c hc e3, z2])
      (h 0 b (by omega) hb) (h 1 a (by omega) ha) (h 2 c (by omega) hc) (h 3 d (by omega) hd)
  have hk : 960 + 52 ≤ 1022 := by norm_num
  simp only [rowFloat, rowBig]
  split
  · exact (Tracks.sub hA hk (by norm_num) (by norm_num) p2 p1).eq (by ring)
  · exact (Tracks.sub hA hk (by norm_num) (by norm_num) p1 p2).eq (by ring)

theorem det_tracks (hA : Binary64 A) (m : List (Option K)) (M : List K)
    (h : ∀ r c, r < 4 → c < 4 → Near (colGrid c) (colErr c) (m.getD (c + 4 * r) none) (M.getD (c + 4 * r) 0)) :
    Tracks 960 1 (addPred A (addPred A (addPred A (addPred A (addPred A (addPred A (addPred A (addPred A (addPred A
    (addPred A (addPred A (rowFloat A 3 2 1 0 false m) (rowFloat A 3 1 2 0 true m)) (rowFloat A 2 1 3 0 false m))
    (rowFloat A 3 2 0 1 true m)) (rowFloat A 3 0 2 1 false m)) (rowFloat A 2 0 3 1 true m)) (rowFloat A 3 1 0 2 false m))
    (rowFloat A 3 0 1 2 true m)) (rowFloat A 1 0 3 2 false m)) (rowFloat A 2 1 0 3 true m)) (rowFloat A 2 0 1 3 false m))
    (rowFloat A 1 0 2 3 true m)) (detOf M) := by
  have hk : 960 + 52 ≤ 1022 := by norm_num
  have R := fun (a b c d : Nat) (plus : Bool) (ha : a < 4) (hb : b < 4) (hc : c < 4) (hd : d < 4) hg hE (ρ : K) (hr : 7 / 8 + 1 / 2 ^ 50 ≤ ρ) =>
    (row_tracks hA m M h a b c d plus ha hb hc hd hg hE).mono (le_refl _) hr
  have t0 := R 3 2 1 0 false (by decide) (by decide) (by decide) (by decide) (by decide) (by decide) _ (le_refl _)
  have t1 := Tracks.add hA hk (by norm_num) (by norm_num) t0
    (R 3 1 2 0 true (by decide) (by decide) (by decide) (by decide) (by decide) (by decide) _ (by norm_num))
  have t2 := Tracks.add hA hk (by norm_num) (by norm_num) t1
    (R 2 1 3 0 false (by decide) (by decide) (by decide) (by decide) (by decide) (by decide) _ (by norm_num))
  have t3 := Tracks.add hA hk (by norm_num) (by norm_num) t2
    (R 3 2 0 1 true (by decide) (by decide) (by decide) (by decide) (by decide) (by decide) _ (by norm_num))
  have t4 := Tracks.add hA hk (by norm_num) (by norm_num) t3
    (R 3 0 2 1 false (by decide) (by decide) (by decide) (by decide) (by decide) (by decide) _ (by norm_num))
  have t5 := Tracks.add hA hk (by norm_num) (by norm_num) t4
    (R 2 0 3 1 true (by decide) (by decide) (by decide) (by decide) (by decide) (by decide) _ (by norm_num))
  have t6 := Tracks.add hA hk (by norm_num) (by norm_num) t5
    (R 3 1 0 2 false (by decide) (by decide) (by decide) (by decide) (by decide) (by decide) _ (by norm_num))
  have t7 := Tracks.add hA hk (by norm_num) (by norm_num) t6
    (R 3 0 1 2 true (by decide) (by decide) (by decide) (by decide) (by decide) (by decide) _ (by norm_num))
  have t8 := Tracks.add hA hk (by norm_num) (by norm_num) t7
    (R 1 0 3 2 false (by decide) (by decide) (by decide) (by decide) (by decide) (by decide) _ (by norm_num))
  have t9 := Tracks.add hA hk (by norm_num) (by norm_num) t8
    (R 2 1 0 3 true (by decide) (by decide) (by decide) (by decide) (by decide) (by decide) _ (by norm_num))
  have t10 := Tracks.add hA hk (by norm_num) (by norm_num) t9
    (R 2 0 1 3 false (by decide) (by decide) (by decide) (by decide) (by decide) (by decide) _ (by norm_num))
  have t11 := Tracks.add hA hk (by norm_num) (by norm_num) t10
    (R 1 0 2 3 true (by decide) (by decide) (by decide) (by decide) (by decide) (by decide) _ (by norm_num))
  exact (t11.eq rfl).mono (le_refl _) (by norm_num)

/-- The quick test for circles is right whenever it is determinate, for coordinates that are zero
or at least `2^-188` in magnitude. -/
theorem C92_quick_incircle_partial (hA : Binary64 A) (x1 y1 x2 y2 x3 y3 x y : K)
    (hx1 : Grid 240 x1) (hy1 : Grid 240 y1) (hx2 : Grid 240 x2) (hy2 : Grid 240 y2)
    (hx3 : Grid 240 x3) (hy3 : Grid 240 y3) (hx : Grid 240 x) (hy : Grid 240 y) :
    RightC (simpleIncircle A x1 y1 x2 y2 x3 y3 x y) x1 y1 x2 y2 x3 y3 x y := by
  have near : ∀ r c, r < 4 → c < 4 → Near (colGrid c) (colErr c)
      (([some x1, some y1, fsq A x1 y1, some 1, some x2, some y2, fsq A x2 y2, some 1,
        some x3, some y3, fsq A x3 y3, some 1, some x, some y, fsq A x y, some 1] : List (Option K)).getD (c + 4 * r) none)
      ((matOf x1 y1 x2 y2 x3 y3 x y).getD (c + 4 * r) 0) := by
    have sq := fun {a b : K} (ha : Grid 240 a) (hb : Grid 240 b) => fsq_near hA (by norm_num) ha hb
    have c0 : colErr (K := K) 0 = 0 := rfl
    have c1 : colErr (K := K) 1 = 0 := rfl
    have c2 : colErr (K := K) 2 = δS := rfl
    have c3 : colErr (K := K) 3 = 0 := rfl
    have g0 : colGrid 0 = 240 := rfl
    have g1 : colGrid 1 = 240 := rfl
    have g2 : colGrid 2 = 240 + 240 := rfl
    have g3 : colGrid 3 = 0 := rfl
    have one : Near 0 0 (some (1 : K)) 1 := Near.exact (Grid.one 0)
    intro r c hr hc
    have hr' : r = 0 ∨ r = 1 ∨ r = 2 ∨ r = 3 := by omega
    have hc' : c = 0 ∨ c = 1 ∨ c = 2 ∨ c = 3 := by omega
    rcases hc' with rfl | rfl | rfl | rfl
    · rw [c0, g0]
      rcases hr' with rfl | rfl | rfl | rfl
      · exact Near.exact hx1
      · exact Near.exact hx2
      · exact Near.exact hx3
      · exact Near.exact hx
    · rw [c1, g1]
      rcases hr' with rfl | rfl | rfl | rfl
      · exact Near.exact hy1
      · exact Near.exact hy2
      · exact Near.exact hy3
      · exact Near.exact hy
    · rw [c2, g2]
      rcases hr' with rfl | rfl | rfl | rfl
      · exact sq hx1 hy1
      · exact sq hx2 hy2
      · exact sq hx3 hy3
      · exact sq hx hy
    · rw [c3, g3]
      rcases hr' with rfl | rfl | rfl | rfl <;> exact one
  have t := (det_tracks hA _ _ near).sign (le_refl _)
  simp only [simpleIncircle]
  split
  · rename_i h
    exact right_of_sign _ _ _ _ _ _ _ _ _ (t.2 h)
  · split
    · rename_i h
      exact right_of_sign _ _ _ _ _ _ _ _ _ (t.1 h)
    · exact right_of_sign _ _ _ _ _ _ _ _ _ trivial

theorem second_stage {P : RelativePosition → Prop} (o l : RelativePosition) (h : P o)
    (hl : o = .indeterminate → P l) :
    P (secondStage l o) := by
  cases o with
  | indeterminate => exact hl rfl
  | inside => exact h
  | outside => exact h
  | on => exact h

/-- So `Incircle` is right whenever the second stage is, or is not needed. -/
theorem C92_incircle_partial (hA : Binary64 A) (lu : K → K → K → K → K → K → K → K → RelativePosition)
    (x1 y1 x2 y2 x3 y3 x y : K)
    (hx1 : Grid 240 x1) (hy1 : Grid 240 y1) (hx2 : Grid 240 x2) (hy2 : Grid 240 y2)
    (hx3 : Grid 240 x3) (hy3 : Grid 240 y3) (hx : Grid 240 x) (hy : Grid 240 y)
    (hlu : simpleIncircle A x1 y1 x2 y2 x3 y3 x y = .indeterminate →
      RightC (lu x1 y1 x2 y2 x3 y3 x y) x1 y1 x2 y2 x3 y3 x y) :
    RightC (incircle A lu x1 y1 x2 y2 x3 y3 x y) x1 y1 x2 y2 x3 y3 x y := by
  exact second_stage (P := fun o => RightC o x1 y1 x2 y2 x3 y3 x y) _ _
    (C92_quick_incircle_partial hA x1 y1 x2 y2 x3 y3 x y hx1 hy1 hx2 hy2 hx3 hy3 hx hy) hlu

end
end Verif.FastJet.Pred
