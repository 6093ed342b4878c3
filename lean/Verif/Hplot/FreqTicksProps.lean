import Verif.Hplot.FreqTicks
import Mathlib.Tactic.FieldSimp
import Mathlib.Tactic.Ring
import Mathlib.Tactic.Linarith
import Mathlib.Algebra.Order.Ring.Rat

/-!
# Ticks at a fixed frequency (C191)
-/

namespace Verif.Hplot.FreqTicks

section
variable {K L : Type} [Field K] [LinearOrder K] [IsStrictOrderedRing K]

/-- **C191** (ticks): with two ticks or more and a frequency that is not 0 there are as many ticks as asked for; the first is at the lower
end, the last at the upper end, all have the same distance to the next, and the labelled ones are those at multiples of the frequency. -/
theorem C191_ticks_partial (text : Option K → L) (n : Nat) (freq : Int) (lo hi : K) (hn : 2 ≤ n) (hf : freq ≠ 0) :
    ∃ (v : Nat → K) (l : List (Option K × Option L)), ticks text n freq lo hi = .ticks l ∧ l.length = n ∧ v 0 = lo ∧ v (n - 1) = hi ∧
      (∀ i, v (i + 1) - v i = v 1 - v 0) ∧
      ∀ i, i < n → ∃ lab, l[i]? = some (some (v i), lab) ∧ (lab.isSome ↔ freq ∣ (i : Int)) ∧ ∀ t, lab = some t → t = text (some (v i)) := by
  have hc : ((n - 1 : Nat) : K) ≠ 0 := by
    have : (n - 1 : Nat) ≠ 0 := by omega
    exact_mod_cast this
  have h1 : ¬ n = 1 := by omega
  refine ⟨fun i => lo + (i : K) * (hi - lo) / ((n - 1 : Nat) : K), _, if_neg (fun h => hf h.2), by simp, by simp, ?_, ?_, ?_⟩
  · show lo + ((n - 1 : Nat) : K) * (hi - lo) / ((n - 1 : Nat) : K) = hi
    rw [mul_div_assoc, mul_div_cancel₀ _ hc]
    ring
  · intro i
    show lo + ((i + 1 : Nat) : K) * (hi - lo) / ((n - 1 : Nat) : K) - (lo + (i : K) * (hi - lo) / ((n - 1 : Nat) : K))
      = lo + ((1 : Nat) : K) * (hi - lo) / ((n - 1 : Nat) : K) - (lo + ((0 : Nat) : K) * (hi - lo) / ((n - 1 : Nat) : K))
    push_cast
    ring
  · intro i hi'
    refine ⟨if i % freq.natAbs = 0 then some (text (value lo hi n i)) else none, ?_, ?_, ?_⟩
    · rw [List.getElem?_map, List.getElem?_range hi']
      simp only [Option.map_some, value, if_neg h1]
    · have e : freq ∣ (i : Int) ↔ i % freq.natAbs = 0 := by
        rw [← Nat.dvd_iff_mod_eq_zero, ← Int.natAbs_dvd, Int.natCast_dvd_natCast]
      rw [e]
      split <;> simp [*]
    · intro t ht
      split at ht
      · cases ht
        simp only [value, if_neg h1]
      · cases ht

/-- **C191** (within): the ticks are within the range and in order. -/
theorem C191_within (text : Option K → L) (n : Nat) (freq : Int) (lo hi : K) (hlo : lo < hi)
    (l : List (Option K × Option L)) (h : ticks text n freq lo hi = .ticks l) (i j : Nat) (x y : K) (a b : Option L) (hij : i < j)
    (hx : l[i]? = some (some x, a)) (hy : l[j]? = some (some y, b)) : lo ≤ x ∧ x < y ∧ y ≤ hi := by
  unfold ticks at h
  split at h
  · cases h
  · cases h
    have get : ∀ k z c, ((List.range n).map fun i => (value lo hi n i,
        if i % freq.natAbs = 0 then some (text (value lo hi n i)) else none))[k]? = some (some z, c) → k < n ∧ value lo hi n k = some z := by
      intro k z c hk
      rw [List.getElem?_map] at hk
      cases hr : (List.range n)[k]? with
      | none => rw [hr] at hk; cases hk
      | some k' =>
        obtain ⟨hkn, hk'⟩ := List.getElem?_eq_some_iff.mp hr
        rw [List.getElem_range] at hk'
        rw [hr, ← hk'] at hk
        simp only [Option.map_some, Option.some.injEq, Prod.mk.injEq] at hk
        rw [List.length_range] at hkn
        exact ⟨hkn, hk.1⟩
    obtain ⟨_, hx⟩ := get i x a hx
    obtain ⟨hj, hy⟩ := get j y b hy
    have h1 : ¬ n = 1 := by omega
    simp only [value, if_neg h1, Option.some.injEq] at hx hy
    have hc : (0 : K) < ((n - 1 : Nat) : K) := by
      have : 0 < (n - 1 : Nat) := by omega
      exact_mod_cast this
    have hd : 0 < (hi - lo) / ((n - 1 : Nat) : K) := div_pos (sub_pos.mpr hlo) hc
    have hi0 : (0 : K) ≤ (i : K) := Nat.cast_nonneg i
    have hij' : (i : K) < (j : K) := by exact_mod_cast hij
    have hjn : (j : K) ≤ ((n - 1 : Nat) : K) := by
      have : j ≤ n - 1 := by omega
      exact_mod_cast this
    rw [mul_div_assoc] at hx hy
    have e : ((n - 1 : Nat) : K) * ((hi - lo) / ((n - 1 : Nat) : K)) = hi - lo := mul_div_cancel₀ _ (ne_of_gt hc)
    refine ⟨?_, ?_, ?_⟩
    · rw [← hx]; have := mul_nonneg hi0 (le_of_lt hd); linarith
    · rw [← hx, ← hy]; have := mul_lt_mul_of_pos_right hij' hd; linarith
    · rw [← hy]; have := mul_le_mul_of_nonneg_right hjn (le_of_lt hd); linarith

end

/-- A single tick has no place. -/
theorem C191_one_counterexample : ∃ l, ticks (fun _ : Option ℚ => ()) 1 1 0 10 = .ticks l ∧ l = [(none, some ())] := ⟨_, rfl, rfl⟩

/-- Without a frequency there are no ticks but a panic. -/
theorem C191_frequency_counterexample : ticks (fun _ : Option ℚ => ()) 5 0 0 10 = .panic := rfl

example : ∃ l, ticks (fun x : Option ℚ => x) 3 2 0 10 = .ticks l ∧ l = [(some 0, some (some 0)), (some 5, none), (some 10, some (some 10))] :=
  ⟨_, rfl, by decide +kernel⟩

end Verif.Hplot.FreqTicks
