import Verif.HepPDT.Reso
import Mathlib.Tactic.FieldSimp
import Mathlib.Tactic.NormNum
import Mathlib.Tactic.Positivity
import Mathlib.Algebra.Order.Ring.Rat

/-!
# Widths and lifetimes (C193)
-/

namespace Verif.HepPDT.Reso

section
variable {K : Type} [Field K] [LinearOrder K] [IsStrictOrderedRing K]

theorem hbar_pos : (0 : K) < hbar := by unfold hbar; positivity

theorem epsilon_pos : (0 : K) < epsilon := by unfold epsilon; positivity

/-- **C193** (there and back): a lifetime that is set is the one that is read, with its error, if both are at least 10^-20 s. -/
theorem C193_lifetime_partial (w lt : Meas K) (hv : epsilon ≤ lt.value) (hs : epsilon ≤ lt.sigma) : lifetime (setWidth w lt) = lt := by
  have hv0 : lt.value ≠ 0 := ne_of_gt (lt_of_lt_of_le epsilon_pos hv)
  have hb : (hbar : K) ≠ 0 := ne_of_gt hbar_pos
  obtain ⟨v, s⟩ := lt
  simp only at hv hs hv0
  simp only [setWidth, if_neg (not_lt.mpr hv), if_neg (not_lt.mpr hs), lifetime, Meas.mk.injEq]
  constructor <;> field_simp

/-- **C193** (small errors): of a lifetime with a smaller error the value is kept, and the error becomes 0. -/
theorem C193_error (w lt : Meas K) (hv : epsilon ≤ lt.value) (hs : lt.sigma < epsilon) : lifetime (setWidth w lt) = ⟨lt.value, 0⟩ := by
  have hv0 : lt.value ≠ 0 := ne_of_gt (lt_of_lt_of_le epsilon_pos hv)
  have hb : (hbar : K) ≠ 0 := ne_of_gt hbar_pos
  obtain ⟨v, s⟩ := lt
  simp only at hv hs hv0
  simp only [setWidth, if_neg (not_lt.mpr hv), if_pos hs, lifetime, Meas.mk.injEq]
  constructor <;> simp [hb]

omit [LinearOrder K] [IsStrictOrderedRing K] in
/-- **C193** (relation): the width set and its lifetime are as quantum mechanics says: their product is Planck's constant, and their
relative errors are equal. -/
theorem C193_product (w : Meas K) (hw : w.value ≠ 0) :
    w.value * (lifetime w).value = 658211889 / (10 ^ 33) ∧ (lifetime w).sigma * w.value = (lifetime w).value * w.sigma := by
  constructor
  · show w.value * (hbar / w.value) = hbar
    rw [mul_div_cancel₀ _ hw]
  · simp only [lifetime]
    field_simp

/-- **C193** (no lifetime): what is not greater than zero changes nothing. -/
theorem C193_zero (w lt : Meas K) (h : lt.value ≤ 0) : setWidth w lt = w := if_pos (lt_of_le_of_lt h epsilon_pos)

omit [IsStrictOrderedRing K] in
/-- **C193** (shorter): nor does any lifetime below 10^-20 s. -/
theorem C193_short (w lt : Meas K) (h : lt.value < 1 / 10 ^ 20) : setWidth w lt = w := if_pos h

end

/-- The lifetime of a Z boson, 2.6·10^-25 s, is not set: the width stays what it was. -/
theorem C193_short_counterexample : ∃ (w lt : Meas ℚ), lt.value = 26 / 10 ^ 26 ∧ lt.sigma = 1 / 10 ^ 28 ∧ setWidth w lt = w ∧
    lifetime (setWidth w lt) ≠ lt := by
  refine ⟨⟨1, 0⟩, ⟨26 / 10 ^ 26, 1 / 10 ^ 28⟩, rfl, rfl, C193_short _ _ (by norm_num), ?_⟩
  rw [C193_short _ _ (by norm_num)]
  intro h
  have := congrArg Meas.value h
  simp only [lifetime, hbar] at this
  norm_num at this

/-- The error of a lifetime of 3·10^-17 s known to 9·10^-21 s is lost. -/
theorem C193_error_counterexample : ∃ lt : Meas ℚ, lt.value = 3 / 10 ^ 17 ∧ lt.sigma = 9 / 10 ^ 21 ∧ ∀ w, (lifetime (setWidth w lt)).sigma = 0 := by
  refine ⟨⟨3 / 10 ^ 17, 9 / 10 ^ 21⟩, rfl, rfl, fun w => ?_⟩
  rw [C193_error _ _ (by norm_num [epsilon]) (by norm_num [epsilon])]

example : ∃ lt : Meas ℚ, (epsilon ≤ lt.value ∧ epsilon ≤ lt.sigma) ∧ lt.value = 22 / 10 ^ 7 :=
  ⟨⟨22 / 10 ^ 7, 1 / 10 ^ 12⟩, ⟨by norm_num [epsilon], by norm_num [epsilon]⟩, rfl⟩

end Verif.HepPDT.Reso
