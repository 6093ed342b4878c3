import Mathlib.Tactic.Ring
import Mathlib.Tactic.Linarith
import Mathlib.Algebra.Order.Archimedean.Basic
import Mathlib.Algebra.Order.Ring.Cast
import Verif.Hplot.MinorTicks

/-!
# Minor ticks (C188)
-/

namespace Verif.Hplot.MinorTicks

variable {K : Type} [Field K] [LinearOrder K] [IsStrictOrderedRing K]

/-! ## Specification -/

/-- Values of which each is at least `d` from all others. -/
def Apart (d : K) (vs : List K) : Prop := vs.Pairwise fun a b => d ≤ |a - b|

/-! ## Proofs -/

omit [IsStrictOrderedRing K] in
theorem down_spec {lo l0 δ : K} (f : Nat) : ∀ {i j : ℤ}, down lo l0 δ f i = some j →
    l0 + ((j - 1 : ℤ) : K) * δ ≤ lo ∧ (j = i ∨ lo < l0 + (j : K) * δ) := by
  induction f with
  | zero => intro i j h; cases h
  | succ f ih =>
    intro i j h
    rw [down] at h
    split at h
    · rename_i hc
      obtain ⟨h1, h2⟩ := ih h
      refine ⟨h1, Or.inr ?_⟩
      rcases h2 with rfl | h2
      · exact hc
      · exact h2
    · rename_i hc
      injection h with h
      subst h
      exact ⟨not_lt.mp hc, Or.inl rfl⟩

/-- What `scan` adds. -/
structure Added (lo hi l0 δ : K) (i : ℤ) (ts ms : List (K × Bool)) : Prop where
  minor : ∀ m ∈ ms, m.2 = false
  range : ∀ m ∈ ms, lo ≤ m.1 ∧ m.1 ≤ hi
  apart : Apart (δ / 2) (ms.map Prod.fst)
  away : ∀ t ∈ ts, ∀ m ∈ ms, δ / 2 ≤ |t.1 - m.1|
  full : ∀ n : ℤ, i ≤ n → l0 + (n : K) * δ ≤ hi → ∃ t ∈ ts ++ ms, |t.1 - (l0 + (n : K) * δ)| < δ / 2
  grid : ∀ m ∈ ms, ∃ n : ℤ, m.1 = l0 + (n : K) * δ

theorem scan_spec {lo hi l0 δ : K} (hδ : 0 < δ) (f : Nat) : ∀ {i : ℤ} {ts res : List (K × Bool)}, lo ≤ l0 + (i : K) * δ →
    scan hi l0 δ f i ts = some res → ∃ ms, res = ts ++ ms ∧ Added lo hi l0 δ i ts ms := by
  induction f with
  | zero => intro i ts res _ h; cases h
  | succ f ih =>
    intro i ts res hlo h
    rw [scan] at h
    split at h
    · rename_i hc
      injection h with h
      subst h
      refine ⟨[], (List.append_nil _).symm, ?_⟩
      refine ⟨fun m hm => (List.not_mem_nil hm).elim, fun m hm => (List.not_mem_nil hm).elim, List.Pairwise.nil,
        fun t _ m hm => (List.not_mem_nil hm).elim, fun n hn hle => ?_, fun m hm => (List.not_mem_nil hm).elim⟩
      have : (i : K) * δ ≤ (n : K) * δ := mul_le_mul_of_nonneg_right (by exact_mod_cast hn) hδ.le
      exact absurd hle (by linarith)
    · rename_i hc
      have hnext : lo ≤ l0 + ((i + 1 : ℤ) : K) * δ := by
        have : ((i + 1 : ℤ) : K) * δ = (i : K) * δ + δ := by push_cast; ring
        linarith
      obtain ⟨ms, rfl, hA⟩ := ih hnext h
      unfold addTick at hA ⊢
      by_cases he : ∃ t ∈ ts, |t.1 - (l0 + (i : K) * δ)| < δ / 2
      · rw [if_pos he] at hA
        rw [if_pos he]
        refine ⟨ms, rfl, hA.minor, hA.range, hA.apart, hA.away, fun n hn hle => ?_, hA.grid⟩
        rcases eq_or_lt_of_le hn with rfl | hn
        · obtain ⟨t, ht, hd⟩ := he
          exact ⟨t, List.mem_append_left _ ht, hd⟩
        · exact hA.full n (by omega) hle
      · rw [if_neg he] at hA
        rw [if_neg he]
        have hfar : ∀ t ∈ ts, δ / 2 ≤ |t.1 - (l0 + (i : K) * δ)| := fun t ht => not_lt.mp fun hd => he ⟨t, ht, hd⟩
        refine ⟨(l0 + (i : K) * δ, false) :: ms, by rw [List.append_assoc]; rfl, ?_, ?_, ?_, ?_, ?_, ?_⟩
        · intro m hm
          rcases List.mem_cons.mp hm with rfl | hm
          · rfl
          · exact hA.minor m hm
        · intro m hm
          rcases List.mem_cons.mp hm with rfl | hm
          · exact ⟨hlo, not_lt.mp hc⟩
          · exact hA.range m hm
        · unfold Apart
          rw [List.map_cons, List.pairwise_cons]
          refine ⟨fun b hb => ?_, hA.apart⟩
          obtain ⟨m, hm, rfl⟩ := List.mem_map.mp hb
          exact hA.away _ (List.mem_append_right _ (List.mem_singleton_self _)) m hm
        · intro t ht m hm
          rcases List.mem_cons.mp hm with rfl | hm
          · exact hfar t ht
          · exact hA.away t (List.mem_append_left _ ht) m hm
        · intro n hn hle
          rcases eq_or_lt_of_le hn with rfl | hn
          · refine ⟨_, List.mem_append_right _ List.mem_cons_self, ?_⟩
            rw [sub_self, abs_zero]
            linarith
          · obtain ⟨t, ht, hd⟩ := hA.full n (by omega) hle
            rw [List.append_assoc] at ht
            exact ⟨t, ht, hd⟩
        · intro m hm
          rcases List.mem_cons.mp hm with rfl | hm
          · exact ⟨i, rfl⟩
          · exact hA.grid m hm

omit [IsStrictOrderedRing K] in
theorem elect_values (tol major last : K) (ts : List (K × Bool)) : (electLast tol major last ts).map Prod.fst = ts.map Prod.fst := by
  unfold electLast
  split
  · rename_i v hv
    split
    · have : ts = ts.dropLast ++ [(v, false)] := by
        obtain ⟨hne, he⟩ := List.getLast?_eq_some_iff.mp hv |> fun ⟨l, hl⟩ => (⟨l, hl⟩ : ∃ l, ts = l ++ [(v, false)])
        rw [he, List.dropLast_concat]
      conv_rhs => rw [this]
      rw [List.map_append, List.map_append]
      rfl
    · rfl
  · rfl

/-- **C188** (ticks): after the labels come minor ticks, at multiples of the minor distance from the first label. They are within the range;
no two of them, and none of them and a label, are nearer than half the minor distance; and no multiple within the range is farther than
that from a tick, but for one at its lower end. -/
theorem C188_ticks (fuel : Nat) (tiny tol lo hi step major l0 δ : K) (ls : List K) (res : List (K × Bool)) (hl : lo ≤ l0) (hδ : 0 < δ)
    (hm : minorDelta tiny step major = some δ) (h : ticks fuel tiny tol lo hi step major l0 ls = some res) :
    ∃ ms, res.map Prod.fst = (l0 :: ls) ++ ms ∧ (∀ m ∈ ms, lo ≤ m ∧ m ≤ hi) ∧ (∀ m ∈ ms, ∃ n : ℤ, m = l0 + n * δ) ∧ Apart (δ / 2) ms ∧
      (∀ t ∈ l0 :: ls, ∀ m ∈ ms, δ / 2 ≤ |t - m|) ∧
      (∀ n : ℤ, lo < l0 + n * δ → l0 + n * δ ≤ hi → ∃ t ∈ (l0 :: ls) ++ ms, |t - (l0 + n * δ)| < δ / 2) := by
  unfold ticks at h
  rw [hm] at h
  simp only [Option.map_eq_some_iff, Option.bind_eq_some_iff] at h
  obtain ⟨r, ⟨i, hd, hs⟩, rfl⟩ := h
  obtain ⟨h1, h2⟩ := down_spec fuel hd
  have hlo : lo ≤ l0 + (i : K) * δ := by
    rcases h2 with rfl | h2
    · simpa using hl
    · exact h2.le
  obtain ⟨ms, rfl, hA⟩ := scan_spec hδ fuel hlo hs
  refine ⟨ms.map Prod.fst, ?_, ?_, ?_, hA.apart, ?_, ?_⟩
  · rw [elect_values, List.map_append, List.map_map]
    congr 1
    exact (List.map_congr_left (fun _ _ => rfl)).trans (List.map_id _)
  · intro m hm
    obtain ⟨x, hx, rfl⟩ := List.mem_map.mp hm
    exact hA.range x hx
  · intro m hm
    obtain ⟨x, hx, rfl⟩ := List.mem_map.mp hm
    exact hA.grid x hx
  · intro t ht m hm
    obtain ⟨x, hx, rfl⟩ := List.mem_map.mp hm
    exact hA.away (t, true) (List.mem_map.mpr ⟨t, ht, rfl⟩) x hx
  · intro n hn hle
    have hin : i ≤ n := by
      by_contra hc
      have : n ≤ i - 1 := by omega
      have : (n : K) * δ ≤ ((i - 1 : ℤ) : K) * δ := mul_le_mul_of_nonneg_right (by exact_mod_cast this) hδ.le
      linarith
    obtain ⟨t, ht, hd⟩ := hA.full n hin hle
    rcases List.mem_append.mp ht with ht | ht
    · obtain ⟨v, hv, rfl⟩ := List.mem_map.mp ht
      exact ⟨v, List.mem_append_left _ hv, hd⟩
    · exact ⟨t.1, List.mem_append_right _ (List.mem_map.mpr ⟨t, ht, rfl⟩), hd⟩

omit [IsStrictOrderedRing K] in
theorem elect_major {tol major last v : K} {ts : List (K × Bool)} (h : (v, true) ∈ electLast tol major last ts) :
    (v, true) ∈ ts ∨ |v - last - major| ≤ tol := by
  unfold electLast at h
  split at h
  · split at h
    · rename_i hc
      rcases List.mem_append.mp h with h | h
      · exact Or.inl (List.dropLast_subset _ h)
      · have := (Prod.mk.inj (List.mem_singleton.mp h)).1
        rw [this]
        exact Or.inr hc
    · exact Or.inl h
  · exact Or.inl h

/-- **C188** (labelled): a tick is labelled only if it is one of the labels, or at the distance of labels after the last one. -/
theorem C188_labelled (fuel : Nat) (tiny tol lo hi step major l0 : K) (ls : List K) (res : List (K × Bool)) (hl : lo ≤ l0) (hmaj : 0 < major)
    (hstep : 0 < step) (h : ticks fuel tiny tol lo hi step major l0 ls = some res) (v : K) (hv : (v, true) ∈ res) :
    v ∈ l0 :: ls ∨ |v - (l0 :: ls).getLast (List.cons_ne_nil _ _) - major| ≤ tol := by
  unfold ticks at h
  cases hm : minorDelta tiny step major with
  | none =>
    rw [hm] at h
    injection h with h
    subst h
    obtain ⟨x, hx, he⟩ := List.mem_map.mp hv
    rw [← (Prod.mk.inj he).1]
    exact Or.inl hx
  | some δ =>
    have hδ : 0 < δ := by
      unfold minorDelta at hm
      split at hm
      · injection hm with hm; rw [← hm]; exact div_pos hmaj (by norm_num)
      · split at hm
        · injection hm with hm; rw [← hm]; exact div_pos hmaj hstep
        · split at hm
          · cases hm
          · injection hm with hm; rw [← hm]; exact div_pos hmaj (by norm_num)
    rw [hm] at h
    simp only [Option.map_eq_some_iff, Option.bind_eq_some_iff] at h
    obtain ⟨r, ⟨i, hd, hs⟩, rfl⟩ := h
    obtain ⟨h1, h2⟩ := down_spec fuel hd
    have hlo : lo ≤ l0 + (i : K) * δ := by
      rcases h2 with rfl | h2
      · simpa using hl
      · exact h2.le
    obtain ⟨ms, rfl, hA⟩ := scan_spec hδ fuel hlo hs
    rcases elect_major hv with hv | hv
    · rcases List.mem_append.mp hv with hv | hv
      · obtain ⟨x, hx, he⟩ := List.mem_map.mp hv
        rw [← (Prod.mk.inj he).1]
        exact Or.inl hx
      · exact absurd (hA.minor _ hv) (by simp)
    · exact Or.inr hv

omit [IsStrictOrderedRing K] in
theorem down_some (lo l0 δ : K) (n : Nat) : ∀ (f : Nat) (i : ℤ), l0 + ((i - 1 - n : ℤ) : K) * δ ≤ lo → n < f → down lo l0 δ f i ≠ none := by
  induction n with
  | zero =>
    intro f i h hf
    obtain ⟨f, rfl⟩ : ∃ g, f = g + 1 := ⟨f - 1, by omega⟩
    rw [down, if_neg (by simpa using h)]
    exact fun h => by cases h
  | succ n ih =>
    intro f i h hf
    obtain ⟨f, rfl⟩ : ∃ g, f = g + 1 := ⟨f - 1, by omega⟩
    rw [down]
    split
    · refine ih f (i - 1) ?_ (by omega)
      have e : (i - 1 - 1 - n : ℤ) = i - 1 - ((n + 1 : Nat) : ℤ) := by push_cast; ring
      rw [e]
      exact h
    · exact fun h => by cases h

omit [IsStrictOrderedRing K] in
theorem scan_some (hi l0 δ : K) (n : Nat) : ∀ (f : Nat) (i : ℤ) (ts : List (K × Bool)), hi < l0 + ((i + n : ℤ) : K) * δ → n < f →
    scan hi l0 δ f i ts ≠ none := by
  induction n with
  | zero =>
    intro f i ts h hf
    obtain ⟨f, rfl⟩ : ∃ g, f = g + 1 := ⟨f - 1, by omega⟩
    rw [scan, if_pos (by simpa using h)]
    exact fun h => by cases h
  | succ n ih =>
    intro f i ts h hf
    obtain ⟨f, rfl⟩ : ∃ g, f = g + 1 := ⟨f - 1, by omega⟩
    rw [scan]
    split
    · exact fun h => by cases h
    · refine ih f (i + 1) _ ?_ (by omega)
      have e : (i + 1 + n : ℤ) = i + ((n + 1 : Nat) : ℤ) := by push_cast; ring
      rw [e]
      exact h

/-- **C188** (ends): the two loops end. -/
theorem C188_ends [Archimedean K] (tiny tol lo hi step major l0 : K) (ls : List K) (hl : lo ≤ l0) (hmaj : 0 < major) (hstep : 0 < step) :
    ∃ N, ∀ fuel, N ≤ fuel → ticks fuel tiny tol lo hi step major l0 ls ≠ none := by
  unfold ticks
  cases hm : minorDelta tiny step major with
  | none => exact ⟨0, fun _ _ h => by cases h⟩
  | some δ =>
    have hδ : 0 < δ := by
      unfold minorDelta at hm
      split at hm
      · injection hm with hm; rw [← hm]; exact div_pos hmaj (by norm_num)
      · split at hm
        · injection hm with hm; rw [← hm]; exact div_pos hmaj hstep
        · split at hm
          · cases hm
          · injection hm with hm; rw [← hm]; exact div_pos hmaj (by norm_num)
    obtain ⟨a, ha⟩ := Archimedean.arch (l0 - lo) hδ
    obtain ⟨b, hb⟩ := Archimedean.arch (hi - lo) hδ
    rw [nsmul_eq_mul] at ha hb
    refine ⟨a + b + 2, fun fuel hf => ?_⟩
    have h1 := down_some lo l0 δ a fuel 0 (by
      have e : (((0 : ℤ) - 1 - a : ℤ) : K) * δ = -(a * δ) - δ := by push_cast; ring
      rw [e]
      linarith) (by omega)
    cases hd : down lo l0 δ fuel 0 with
    | none => exact absurd hd h1
    | some i =>
      have hlo : lo ≤ l0 + (i : K) * δ := by
        rcases (down_spec fuel hd).2 with rfl | h2
        · simpa using hl
        · exact h2.le
      have h2 := scan_some hi l0 δ (b + 1) fuel i ((l0 :: ls).map fun v => (v, true)) (by
        have e : ((i + ((b + 1 : Nat) : ℤ) : ℤ) : K) * δ = i * δ + b * δ + δ := by push_cast; ring
        rw [e]
        linarith) (by omega)
      intro h
      simp only [Option.map_eq_none_iff] at h
      rw [hd, Option.bind_some] at h
      exact h2 h

/-! ## Counterexample and examples -/

/-- A multiple of the minor distance at the lower end of the range is left out, one at the upper end is not. -/
theorem C188_lower_end_counterexample : ticks 9 (1 / 1000) 0 (1 / 2) (5 / 2 : ℚ) 6 1 1 [2]
    = some [(1, true), (2, true), (3 / 2, false), (5 / 2, false)] := by decide +kernel

/-- The last one is labelled. -/
example : ticks 20 (1 / 1000) 0 (1 / 2) (3 : ℚ) 2 1 1 [2]
    = some [(1, true), (2, true), (3 / 2, false), (5 / 2, false), (3, true)] := by decide +kernel

example : minorDelta (1 / 1000) 2 (1 : ℚ) = some (1 / 2) := by decide +kernel

end Verif.Hplot.MinorTicks
