/-!
# Go's `sort.Search`

The loop of the standard library (binary search over `[0, n)`), with the number of
iterations bounded by `n`.
-/

namespace Verif

/-- `for i < j { h := (i+j)/2; if !f(h) { i = h+1 } else { j = h } }; return i`. -/
def searchLoop (f : Nat → Bool) : Nat → Nat → Nat → Nat
  | 0, i, _ => i
  | n + 1, i, j =>
    if i < j then
      let h := (i + j) / 2
      if f h then searchLoop f n i h else searchLoop f n (h + 1) j
    else i

/-- `sort.Search(n, f)`. -/
def goSearch (n : Nat) (f : Nat → Bool) : Nat := searchLoop f n 0 n

theorem searchLoop_spec (f : Nat → Bool) (m : Nat) :
    ∀ i j, i ≤ j → j - i ≤ m →
      i ≤ searchLoop f m i j ∧ searchLoop f m i j ≤ j ∧
      (∀ (_ : ∀ a b, a ≤ b → b < j → f a = true → f b = true),
        (∀ k, i ≤ k → k < searchLoop f m i j → f k = false) ∧
        (searchLoop f m i j < j → f (searchLoop f m i j) = true)) := by
  induction m with
  | zero =>
    intro i j hij hm
    have : i = j := by omega
    subst this
    simp only [searchLoop]
    exact ⟨Nat.le_refl _, Nat.le_refl _, fun _ => ⟨fun k h1 h2 => by omega, fun h => by omega⟩⟩
  | succ m ih =>
    intro i j hij hm
    simp only [searchLoop]
    by_cases hlt : i < j
    · rw [if_pos hlt]
      by_cases hf : f ((i + j) / 2) = true
      · rw [if_pos hf]
        obtain ⟨h1, h2, h3⟩ := ih i ((i + j) / 2) (by omega) (by omega)
        refine ⟨h1, by omega, ?_⟩
        intro mono
        obtain ⟨h4, h5⟩ := h3 (fun a b hab hb => mono a b hab (by omega))
        refine ⟨h4, ?_⟩
        intro _
        by_cases he : searchLoop f m i ((i + j) / 2) < (i + j) / 2
        · exact h5 he
        · have : searchLoop f m i ((i + j) / 2) = (i + j) / 2 := by omega
          rw [this]; exact hf
      · rw [if_neg hf]
        obtain ⟨h1, h2, h3⟩ := ih ((i + j) / 2 + 1) j (by omega) (by omega)
        refine ⟨by omega, h2, ?_⟩
        intro mono
        obtain ⟨h4, h5⟩ := h3 mono
        refine ⟨?_, h5⟩
        intro k hk1 hk2
        by_cases hk : k ≤ (i + j) / 2
        · cases hfk : f k with
          | false => rfl
          | true => exact absurd (mono k _ hk (by omega) hfk) hf
        · exact h4 k (by omega) hk2
    · rw [if_neg hlt]
      exact ⟨Nat.le_refl _, hij, fun _ => ⟨fun k h1 h2 => by omega, fun h => by omega⟩⟩

/-- Whatever the predicate, the result lies in `[0, n]`. -/
theorem goSearch_le (n : Nat) (f : Nat → Bool) : goSearch n f ≤ n :=
  (searchLoop_spec f n 0 n (Nat.zero_le _) (by omega)).2.1

/-- For a monotone predicate the result is the first index at which it holds. -/
theorem goSearch_spec {n : Nat} {f : Nat → Bool} (mono : ∀ a b, a ≤ b → b < n → f a = true → f b = true) :
    (∀ k, k < goSearch n f → f k = false) ∧ (goSearch n f < n → f (goSearch n f) = true) := by
  obtain ⟨_, _, h⟩ := searchLoop_spec f n 0 n (Nat.zero_le _) (by omega)
  obtain ⟨h1, h2⟩ := h mono
  exact ⟨fun k hk => h1 k (Nat.zero_le _) hk, h2⟩

/-- The first index, characterised. -/
theorem goSearch_eq {n : Nat} {f : Nat → Bool} {i : Nat} (mono : ∀ a b, a ≤ b → b < n → f a = true → f b = true)
    (hi : i < n) (h1 : f i = true) (h0 : ∀ k, k < i → f k = false) : goSearch n f = i := by
  obtain ⟨h3, h4⟩ := goSearch_spec mono
  have hle := goSearch_le n f
  rcases Nat.lt_trichotomy (goSearch n f) i with h | h | h
  · have := h0 _ h
    rw [h4 (by omega)] at this
    exact absurd this (by simp)
  · exact h
  · have := h3 i h
    rw [h1] at this
    exact absurd this (by simp)

theorem goSearch_none {n : Nat} {f : Nat → Bool} (h : ∀ k, k < n → f k = false) : goSearch n f = n := by
  have mono : ∀ a b, a ≤ b → b < n → f a = true → f b = true := by
    intro a b hab hb ha
    rw [h a (by omega)] at ha
    exact absurd ha (by simp)
  obtain ⟨_, h4⟩ := goSearch_spec mono
  have hle := goSearch_le n f
  rcases Nat.lt_or_ge (goSearch n f) n with h' | h'
  · have := h4 h'
    rw [h _ h'] at this
    exact absurd this (by simp)
  · omega

end Verif
