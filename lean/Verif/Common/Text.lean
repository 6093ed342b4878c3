import Mathlib.Data.List.Basic
import Mathlib.Data.List.Infix

/-!
# Cutting texts

The functions of the Go package `strings` that look for a separator, on lists of characters.
-/

namespace Verif.Text

/-- `strings.Index` and the two parts of the text around the first occurrence of a separator. -/
def cut (sep : List Char) : List Char → Option (List Char × List Char)
  | [] => none
  | c :: r =>
    if sep.isPrefixOf (c :: r) then some ([], (c :: r).drop sep.length)
    else (cut sep r).map fun p => (c :: p.1, p.2)

/-- The text after the last occurrence of a character (`strings.LastIndex`). -/
def afterLast (x : Char) : List Char → Option (List Char)
  | [] => none
  | c :: r => match afterLast x r with
    | some t => some t
    | none => if c = x then some r else none

theorem cut_sound {sep s a b : List Char} (h : cut sep s = some (a, b)) : s = a ++ sep ++ b := by
  induction s generalizing a b with
  | nil => cases h
  | cons c r ih =>
    simp only [cut] at h
    split at h
    · rename_i hp
      cases h
      obtain ⟨t, ht⟩ := List.isPrefixOf_iff_prefix.mp hp
      rw [← ht]
      simp
    · cases hc : cut sep r with
      | none => rw [hc] at h; cases h
      | some p =>
        rw [hc] at h
        cases h
        rw [ih hc]
        rfl

theorem cut_one (x : Char) {a : List Char} (ha : x ∉ a) (b : List Char) : cut [x] (a ++ x :: b) = some (a, b) := by
  induction a with
  | nil => simp [cut, List.isPrefixOf]
  | cons c a ih =>
    simp only [List.mem_cons, not_or] at ha
    simp only [List.cons_append, cut, List.isPrefixOf, ih ha.2]
    simp [ha.1]

theorem cut_one_none (x : Char) {a : List Char} : cut [x] a = none ↔ x ∉ a := by
  induction a with
  | nil => simp [cut]
  | cons c a ih =>
    simp only [cut, List.isPrefixOf, List.mem_cons, not_or]
    by_cases h : x = c
    · subst h
      simp
    · simp only [beq_iff_eq, h, Bool.and_true, if_false, Option.map_eq_none_iff, ih, not_false_eq_true, true_and]

theorem cut_one_not_mem {x : Char} {s a b : List Char} (h : cut [x] s = some (a, b)) : x ∉ a := by
  induction s generalizing a b with
  | nil => cases h
  | cons c r ih =>
    simp only [cut, List.isPrefixOf, Bool.and_true, beq_iff_eq] at h
    split at h
    · cases h
      simp
    · rename_i hx
      cases hc : cut [x] r with
      | none => rw [hc] at h; cases h
      | some p =>
        rw [hc] at h
        cases h
        simp only [List.mem_cons, not_or]
        exact ⟨hx, ih hc⟩

theorem cut_scheme {a : List Char} (ha : ':' ∉ a) (b : List Char) :
    cut [':', '/', '/'] (a ++ [':', '/', '/'] ++ b) = some (a, b) := by
  induction a with
  | nil => simp [cut, List.isPrefixOf]
  | cons c a ih =>
    simp only [List.mem_cons, not_or] at ha
    simp only [List.cons_append, cut, List.isPrefixOf, ih ha.2]
    simp [ha.1]

theorem cut_none_of {sep s : List Char} (hs : sep ≠ []) : cut sep s = none ↔ ¬ sep <:+: s := by
  induction s with
  | nil => simp [cut, hs]
  | cons c r ih =>
    simp only [cut, List.infix_cons_iff, not_or]
    split
    · rename_i hp
      simp only [reduceCtorEq, false_iff, not_and, not_not]
      intro h
      exact absurd (List.isPrefixOf_iff_prefix.mp hp) h
    · rename_i hp
      rw [Option.map_eq_none_iff, ih]
      have : ¬ sep <+: c :: r := fun h => hp (List.isPrefixOf_iff_prefix.mpr h)
      simp [this]

theorem afterLast_none {x : Char} {a : List Char} : afterLast x a = none ↔ x ∉ a := by
  induction a with
  | nil => simp [afterLast]
  | cons c a ih =>
    simp only [afterLast, List.mem_cons, not_or]
    split
    · rename_i t ht
      have : ¬ (x ∉ a) := fun h => by rw [ih.mpr h] at ht; cases ht
      simp [this]
    · rename_i ht
      have := ih.mp ht
      by_cases hc : c = x
      · subst hc
        simp
      · simp [hc, this, Ne.symm hc]

theorem afterLast_eq {x : Char} (a : List Char) {b : List Char} (hb : x ∉ b) : afterLast x (a ++ x :: b) = some b := by
  induction a with
  | nil => simp [afterLast, afterLast_none.mpr hb]
  | cons c a ih => simp only [List.cons_append, afterLast, ih]

theorem afterLast_sound {x : Char} {s b : List Char} (h : afterLast x s = some b) : ∃ a, s = a ++ x :: b := by
  induction s generalizing b with
  | nil => cases h
  | cons c s ih =>
    simp only [afterLast] at h
    split at h
    · rename_i t ht
      cases h
      obtain ⟨a, rfl⟩ := ih ht
      exact ⟨c :: a, rfl⟩
    · split at h
      · rename_i hc
        cases h
        subst hc
        exact ⟨[], rfl⟩
      · cases h

theorem afterLast_not_mem {x : Char} {s b : List Char} (h : afterLast x s = some b) : x ∉ b := by
  induction s generalizing b with
  | nil => cases h
  | cons c s ih =>
    simp only [afterLast] at h
    split at h
    · rename_i t ht
      cases h
      exact ih ht
    · rename_i ht
      split at h
      · cases h
        exact afterLast_none.mp ht
      · cases h

end Verif.Text
