import Verif.Hplot.Label
import Mathlib.Tactic.Linarith
import Mathlib.Tactic.NormNum
import Mathlib.Algebra.Order.Ring.Rat

/-!
# The place of a label (C196)
-/

namespace Verif.Hplot.Label

section
variable {K : Type} [Field K] [LinearOrder K] [IsStrictOrderedRing K]

/-- What an adjusted coordinate is. -/
theorem adjust_spec (x size : K) (hx : 0 ≤ x) :
    0 ≤ adjust x size ∧ adjust x size ≤ x ∧ (size ≤ 1 → adjust x size + size ≤ 1) ∧ (x + size ≤ 1 → adjust x size = x) ∧
      (1 ≤ size → 1 < x + size → adjust x size = 0) ∧ (size ≤ 1 → adjust x size = x ∨ adjust x size + size = 1) := by
  unfold adjust
  simp only
  split
  · rename_i h
    split
    · rename_i h1
      refine ⟨le_refl 0, hx, fun hs => ?_, fun hs => absurd h (not_lt.mpr hs), fun _ _ => rfl, fun hs => ?_⟩
      · linarith
      · exact Or.inr (by linarith)
    · rename_i h1
      have h1 := not_lt.mp h1
      refine ⟨h1, by linarith, fun hs => by linarith, fun hs => absurd h (not_lt.mpr hs), fun hs _ => by linarith, fun _ => Or.inr (by linarith)⟩
  · rename_i h
    have h := not_lt.mp h
    rw [if_neg (not_lt.mpr hx)]
    exact ⟨hx, le_refl x, fun _ => h, fun _ => rfl, fun _ h' => absurd h (not_le.mpr h'), fun _ => Or.inl rfl⟩

omit [IsStrictOrderedRing K] in
/-- **C196** (place): a label that fits is where it was put, in the units of the axes. -/
theorem C196_fits (x y : K) (auto : Bool) (l : Lbl K) (b : Box K) (a : Axes K) (hl : newLabel x y true auto = some l)
    (hx : x + b.hiX ≤ 1) (hy : y + b.hiY ≤ 1) :
    ∃ l', draw l b a = some (l', a.minX + x * (a.maxX - a.minX), a.minY + y * (a.maxY - a.minY)) := by
  unfold newLabel at hl
  split at hl
  · cases hl
  · cases hl
    have hn : ¬ (1 < x + b.hiX ∨ 1 < y + b.hiY) := fun h => h.elim (not_lt.mpr hx) (not_lt.mpr hy)
    simp only [draw, if_true, place, if_neg hn, Option.map_some]
    exact ⟨_, rfl⟩

/-- **C196** (adjusted): with automatic adjustment a label whose text is not larger than the canvas ends within the range of the axes, and
is moved to the left and down only, by no more than its whole box needs. -/
theorem C196_adjusted (x y : K) (l : Lbl K) (b : Box K) (a : Axes K) (hl : newLabel x y true true = some l)
    (hbx : b.loX ≤ 0) (hby : b.loY ≤ 0) (hsx : b.hiX - b.loX ≤ 1) (hsy : b.hiY - b.loY ≤ 1) :
    ∃ l' u v, draw l b a = some (l', a.minX + u * (a.maxX - a.minX), a.minY + v * (a.maxY - a.minY)) ∧
      (0 ≤ u ∧ u ≤ x ∧ u + b.hiX ≤ 1 ∧ (u = x ∨ u + (b.hiX - b.loX) = 1)) ∧
      (0 ≤ v ∧ v ≤ y ∧ v + b.hiY ≤ 1 ∧ (v = y ∨ v + (b.hiY - b.loY) = 1)) := by
  unfold newLabel at hl
  split at hl
  · cases hl
  · rename_i hc
    have hc : (0 ≤ x ∧ x ≤ 1) ∧ (0 ≤ y ∧ y ≤ 1) := Classical.not_not.mp fun h => hc ⟨rfl, h⟩
    cases hl
    by_cases hn : 1 < x + b.hiX ∨ 1 < y + b.hiY
    · simp only [draw, if_true, place, if_pos hn, Option.map_some]
      obtain ⟨h1, h2, h3, _, _, h6⟩ := adjust_spec x (b.hiX - b.loX) hc.1.1
      obtain ⟨g1, g2, g3, _, _, g6⟩ := adjust_spec y (b.hiY - b.loY) hc.2.1
      refine ⟨_, _, _, rfl, ⟨h1, h2, ?_, h6 hsx⟩, ⟨g1, g2, ?_, g6 hsy⟩⟩
      · have := h3 hsx; linarith
      · have := g3 hsy; linarith
    · simp only [draw, if_true, place, if_neg hn, Option.map_some]
      have hx := not_lt.mp fun h => hn (Or.inl h)
      have hy := not_lt.mp fun h => hn (Or.inr h)
      exact ⟨_, _, _, rfl, ⟨hc.1.1, le_refl _, hx, Or.inl rfl⟩, ⟨hc.2.1, le_refl _, hy, Or.inl rfl⟩⟩

omit [IsStrictOrderedRing K] in
/-- **C196** (refused): without adjustment a label that does not fit is refused, and so is one put outside the canvas. -/
theorem C196_refused (x y : K) (b : Box K) (a : Axes K) :
    (∀ l, newLabel x y true false = some l → (1 < x + b.hiX ∨ 1 < y + b.hiY) → draw l b a = none) ∧
    ∀ auto, (newLabel x y true auto).isSome ↔ (0 ≤ x ∧ x ≤ 1) ∧ (0 ≤ y ∧ y ≤ 1) := by
  constructor
  · intro l hl hn
    unfold newLabel at hl
    split at hl
    · cases hl
    · cases hl
      simp only [draw, if_true, place, if_pos hn]
      rfl
  · intro auto
    unfold newLabel
    by_cases h : (0 ≤ x ∧ x ≤ 1) ∧ (0 ≤ y ∧ y ≤ 1)
    · rw [if_neg (fun hc => hc.2 h)]; simp only [Option.isSome_some, h, and_self]
    · rw [if_pos ⟨rfl, h⟩]; simp only [Option.isSome_none, Bool.false_eq_true, false_iff]; exact h

omit [IsStrictOrderedRing K] in
/-- **C196** (in data): a label in the units of the data is drawn there, whatever the axes and its size. -/
theorem C196_data (x y : K) (auto : Bool) (b : Box K) (a : Axes K) : ∃ l l', newLabel x y false auto = some l ∧ draw l b a = some (l', x, y) :=
  ⟨_, _, if_neg (fun h => by cases h.1), rfl⟩

end

/-! ## Counterexamples and example -/

/-- A label drawn on a second plot is where it was on the first one, although the axes differ. -/
theorem C196_second_counterexample : ∃ (l l' : Lbl ℚ), newLabel (1 / 2) (1 / 2) true false = some l ∧
    draw l ⟨0, 1 / 10, 0, 1 / 10⟩ ⟨0, 10, 0, 10⟩ = some (l', 5, 5) ∧
    ∃ l'', draw l' ⟨0, 1 / 10, 0, 1 / 10⟩ ⟨0, 100, 0, 100⟩ = some (l'', 5, 5) := by
  refine ⟨⟨1 / 2, 1 / 2, true, false, none⟩, ⟨1 / 2, 1 / 2, true, false, some (5, 5)⟩, if_neg (by norm_num), ?_, _, rfl⟩
  have hn : ¬ ((1 : ℚ) < 1 / 2 + 1 / 10 ∨ (1 : ℚ) < 1 / 2 + 1 / 10) := by norm_num
  simp only [draw, if_true, place, if_neg hn, Option.map_some, scale]
  norm_num

/-- A label that does not fit in one direction only is moved in the other one too, if its text has a part below its place. -/
theorem C196_other_counterexample : place true (⟨0, 1 / 2, -(1 / 10), 1 / 10⟩ : Box ℚ) (8 / 10) (9 / 10) = some (1 / 2, 8 / 10) := by
  unfold place adjust
  norm_num

example : place true (⟨0, 1 / 2, 0, 1 / 10⟩ : Box ℚ) (8 / 10) (9 / 10) = some (1 / 2, 9 / 10) := by
  unfold place adjust
  norm_num

end Verif.Hplot.Label
