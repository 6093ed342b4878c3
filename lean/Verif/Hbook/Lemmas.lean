import Verif.Hbook.Model
import Mathlib.Tactic.Ring
import Mathlib.Data.List.Perm.Basic

/-!
# Lemmas on the histogram model
-/

namespace Verif.Hbook

variable {F α : Type} [LinearOrder α] [BoundedOrder α] [GoFloat F α]

omit [BoundedOrder α] in
theorem flt_iff {x y : F} : flt x y = true ↔ ∃ a b, val x = some a ∧ val y = some b ∧ a < b := by
  unfold flt
  cases hx : val x <;> cases hy : val y <;> simp

omit [BoundedOrder α] in
theorem fle_iff {x y : F} : fle x y = true ↔ ∃ a b, val x = some a ∧ val y = some b ∧ a ≤ b := by
  unfold fle
  cases hx : val x <;> cases hy : val y <;> simp

omit [BoundedOrder α] in
theorem feq_iff {x y : F} : feq x y = true ↔ ∃ a, val x = some a ∧ val y = some a := by
  unfold feq
  cases hx : val x <;> cases hy : val y <;> simp [eq_comm]

omit [BoundedOrder α] in
theorem fle_trans {x y z : F} (h1 : fle x y = true) (h2 : fle y z = true) : fle x z = true := by
  rw [fle_iff] at *
  obtain ⟨a, b, ha, hb, hab⟩ := h1
  obtain ⟨b', c, hb', hc, hbc⟩ := h2
  rw [hb] at hb'; cases hb'
  exact ⟨a, c, ha, hc, le_trans hab hbc⟩

omit [BoundedOrder α] in
theorem flt_of_fle_flt {x y z : F} (h1 : fle x y = true) (h2 : flt y z = true) : flt x z = true := by
  rw [fle_iff] at h1
  rw [flt_iff] at *
  obtain ⟨a, b, ha, hb, hab⟩ := h1
  obtain ⟨b', c, hb', hc, hbc⟩ := h2
  rw [hb] at hb'; cases hb'
  exact ⟨a, c, ha, hc, lt_of_le_of_lt hab hbc⟩

omit [BoundedOrder α] in
theorem flt_of_flt_fle {x y z : F} (h1 : flt x y = true) (h2 : fle y z = true) : flt x z = true := by
  rw [fle_iff] at h2
  rw [flt_iff] at *
  obtain ⟨a, b, ha, hb, hab⟩ := h1
  obtain ⟨b', c, hb', hc, hbc⟩ := h2
  rw [hb] at hb'; cases hb'
  exact ⟨a, c, ha, hc, lt_of_lt_of_le hab hbc⟩

omit [BoundedOrder α] in
theorem fle_of_flt {x y : F} (h : flt x y = true) : fle x y = true := by
  rw [flt_iff] at h
  rw [fle_iff]
  obtain ⟨a, b, ha, hb, hab⟩ := h
  exact ⟨a, b, ha, hb, le_of_lt hab⟩

omit [BoundedOrder α] in
theorem fle_of_feq {x y : F} (h : feq x y = true) : fle x y = true := by
  rw [feq_iff] at h
  rw [fle_iff]
  obtain ⟨a, ha, hb⟩ := h
  exact ⟨a, a, ha, hb, le_refl _⟩

omit [BoundedOrder α] in
theorem feq_symm {x y : F} (h : feq x y = true) : feq y x = true := by
  rw [feq_iff] at *
  obtain ⟨a, ha, hb⟩ := h
  exact ⟨a, hb, ha⟩

omit [BoundedOrder α] in
/-- A strict and a reversed weak comparison exclude each other. -/
theorem not_fle_of_flt {x y : F} (h : flt x y = true) : fle y x = false := by
  rw [flt_iff] at h
  obtain ⟨a, b, ha, hb, hab⟩ := h
  cases hf : fle y x with
  | false => rfl
  | true =>
    rw [fle_iff] at hf
    obtain ⟨b', a', hb', ha', hba⟩ := hf
    rw [hb] at hb'; cases hb'
    rw [ha] at ha'; cases ha'
    exact absurd hab (not_lt.mpr hba)

omit [BoundedOrder α] in
theorem not_flt_of_fle {x y : F} (h : fle x y = true) : flt y x = false := by
  cases hf : flt y x with
  | false => rfl
  | true => exact absurd h (by rw [not_fle_of_flt hf]; simp)

omit [BoundedOrder α] in
/-- For numbers, the two comparisons are complementary. -/
theorem fle_of_not_flt {x y : F} (hx : isNaN x = false) (hy : isNaN y = false)
    (h : flt x y = false) : fle y x = true := by
  unfold isNaN at *
  unfold flt at h
  unfold fle
  cases hvx : val x <;> cases hvy : val y <;> simp_all

omit [BoundedOrder α] in
theorem not_nan_left {x y : F} (h : fle x y = true) : isNaN x = false := by
  rw [fle_iff] at h
  obtain ⟨a, b, ha, -, -⟩ := h
  simp [isNaN, ha]

omit [BoundedOrder α] in
theorem not_nan_right {x y : F} (h : fle x y = true) : isNaN y = false := by
  rw [fle_iff] at h
  obtain ⟨a, b, -, hb, -⟩ := h
  simp [isNaN, hb]

omit [BoundedOrder α] in
theorem flt_nan {x y : F} (h : isNaN x = true) : flt x y = false := by
  unfold isNaN at h
  unfold flt
  cases hvx : val x <;> simp_all

omit [BoundedOrder α] in
theorem fle_nan_right {x y : F} (h : isNaN y = true) : fle x y = false := by
  unfold isNaN at h
  unfold fle
  cases hvx : val y <;> cases hx : val x <;> simp_all

/-- Ranges in increasing order, none overlapping another. -/
def OrderedRanges (rs : List (Range F)) : Prop :=
  (∀ r ∈ rs, fle r.lo r.hi = true) ∧ rs.Pairwise fun a b => fle a.hi b.lo = true

/-- The range contains the number. -/
def Range.Contains (r : Range F) (x : F) : Prop := fle r.lo x = true ∧ flt x r.hi = true

instance (r : Range F) (x : F) : Decidable (r.Contains x) := by unfold Range.Contains; infer_instance

omit [BoundedOrder α] in
theorem OrderedRanges.hi_le_hi {rs : List (Range F)} (h : OrderedRanges rs) {i j : Nat} {a b : Range F}
    (hij : i ≤ j) (ha : rs[i]? = some a) (hb : rs[j]? = some b) : fle a.hi b.hi = true := by
  rcases Nat.lt_or_ge i j with hlt | hge
  · obtain ⟨hi, rfl⟩ := List.getElem?_eq_some_iff.mp ha
    obtain ⟨hj, rfl⟩ := List.getElem?_eq_some_iff.mp hb
    have h1 := List.pairwise_iff_getElem.mp h.2 i j hi hj hlt
    exact fle_trans h1 (h.1 _ (List.getElem_mem hj))
  · have : i = j := by omega
    subst this
    rw [ha] at hb; cases hb
    obtain ⟨hi, rfl⟩ := List.getElem?_eq_some_iff.mp ha
    have := h.1 _ (List.getElem_mem hi)
    rw [fle_iff] at *
    obtain ⟨x, y, -, hy, -⟩ := this
    exact ⟨y, y, hy, hy, le_refl _⟩

omit [BoundedOrder α] in
theorem OrderedRanges.hi_le_lo {rs : List (Range F)} (h : OrderedRanges rs) {i j : Nat} {a b : Range F}
    (hij : i < j) (ha : rs[i]? = some a) (hb : rs[j]? = some b) : fle a.hi b.lo = true := by
  obtain ⟨hi, rfl⟩ := List.getElem?_eq_some_iff.mp ha
  obtain ⟨hj, rfl⟩ := List.getElem?_eq_some_iff.mp hb
  exact List.pairwise_iff_getElem.mp h.2 i j hi hj hij

omit [BoundedOrder α] in
theorem search_mono {rs : List (Range F)} (h : OrderedRanges rs) (v : F) :
    ∀ a b, a ≤ b → b < rs.length →
      belowMax rs v a = true →
      belowMax rs v b = true := by
  intro a b hab hb ha
  have hea : rs[a]? = some rs[a] := List.getElem?_eq_getElem (by omega)
  have heb : rs[b]? = some rs[b] := List.getElem?_eq_getElem hb
  simp only [belowMax, hea] at ha
  simp only [belowMax, heb]
  exact flt_of_flt_fle ha (h.hi_le_hi hab hea heb)

omit [BoundedOrder α] in
theorem indexOf_over {rs : List (Range F)} {v : F} (h : ∀ r ∈ rs, flt v r.hi = false) :
    indexOf rs v = -2 := by
  unfold indexOf
  have : goSearch rs.length (belowMax rs v) = rs.length := by
    apply goSearch_none
    intro k hk
    simp only [belowMax, List.getElem?_eq_getElem hk]
    exact h _ (List.getElem_mem hk)
  simp only [this, List.getElem?_eq_none (Nat.le_refl _)]

omit [BoundedOrder α] in
theorem indexOf_bin {rs : List (Range F)} (h : OrderedRanges rs) {v : F} {i : Nat} {r : Range F}
    (hr : rs[i]? = some r) (hc : r.Contains v) : indexOf rs v = i := by
  obtain ⟨hi, hri⟩ := List.getElem?_eq_some_iff.mp hr
  unfold indexOf
  have : goSearch rs.length (belowMax rs v) = i := by
    apply goSearch_eq (search_mono h v) hi
    · simp only [belowMax, hr]; exact hc.2
    · intro k hk
      have hk' : rs[k]? = some rs[k] := List.getElem?_eq_getElem (by omega)
      simp only [belowMax, hk']
      exact not_flt_of_fle (fle_trans (h.hi_le_lo hk (List.getElem?_eq_getElem (by omega)) hr) hc.1)
  simp only [this, hr]
  rw [if_neg, if_pos]
  · simp [hc.1, hc.2]
  · rw [not_flt_of_fle hc.1]; simp

omit [BoundedOrder α] in
theorem indexOf_under {rs : List (Range F)} (h : OrderedRanges rs) {v : F} {r : Range F}
    (hr : rs.head? = some r) (hv : flt v r.lo = true) : indexOf rs v = -1 := by
  cases rs with
  | nil => simp at hr
  | cons r' l =>
    simp only [List.head?_cons, Option.some.injEq] at hr
    subst hr
    unfold indexOf
    have : goSearch (r' :: l).length (belowMax (r' :: l) v) = 0 := by
      apply goSearch_eq (search_mono h v) (by simp)
      · exact flt_of_flt_fle hv (h.1 _ (by simp))
      · intro k hk; omega
    simp only [this, List.getElem?_cons_zero]
    rw [if_pos ⟨trivial, hv⟩]

omit [BoundedOrder α] in
theorem indexOf_gap {rs : List (Range F)} (h : OrderedRanges rs) {v : F}
    (h0 : ∀ r, rs.head? = some r → flt v r.lo = false) (h1 : ∃ r ∈ rs, flt v r.hi = true)
    (h2 : ∀ r ∈ rs, ¬ r.Contains v) : indexOf rs v = rs.length := by
  unfold indexOf
  obtain ⟨r, hr, hv⟩ := h1
  obtain ⟨j, hj, rfl⟩ := List.mem_iff_getElem.mp hr
  have hs := goSearch_spec (search_mono h v)
  have hlt : goSearch rs.length (belowMax rs v) < rs.length := by
    rcases Nat.lt_or_ge (goSearch rs.length (belowMax rs v)) rs.length with h' | h'
    · exact h'
    · have := hs.1 j (by omega)
      simp only [belowMax, List.getElem?_eq_getElem hj] at this
      exact absurd hv (by rw [this]; simp)
  simp only [List.getElem?_eq_getElem hlt]
  rw [if_neg, if_neg]
  · intro hc
    rw [Bool.and_eq_true] at hc
    exact h2 _ (List.getElem_mem hlt) hc
  · rintro ⟨he, hf⟩
    have hh : rs.head? = some rs[goSearch rs.length (belowMax rs v)] := by
      rw [List.head?_eq_getElem?, List.getElem?_eq_getElem (by omega)]
      congr 1
      simp only [he]
    exact absurd hf (by rw [h0 _ hh]; simp)

end Verif.Hbook
