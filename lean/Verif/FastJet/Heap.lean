import Verif.FastJet.Lemmas
import Mathlib.Order.Defs.LinearOrder

/-!
# The min-heap of candidate pairs (C80)

`fastjet/internal/heap/heap.go`.  An index out of range is `none`.
-/

namespace Verif.FastJet.PairHeap

/-- fastjet/internal/heap/heap.go:9-14 (`pair`). -/
structure Pair (F : Type) where
  jeti : Int
  jetj : Int
  dij  : F
deriving DecidableEq, Repr

/-- fastjet/internal/heap/heap.go:17-20 (`Heap`). -/
structure Heap (F : Type) where
  n     : Nat
  items : List (Pair F)
deriving Repr

variable {F : Type}

/-- fastjet/internal/heap/heap.go:23-27 (`New`); the argument is the number zero. -/
def new (zero : F) : Heap F := ⟨0, [⟨0, 0, zero⟩]⟩

/-- fastjet/internal/heap/heap.go:111-113 (`less`); the first argument is `<`. -/
def less (lt : F → F → Bool) (items : List (Pair F)) (i j : Nat) : Option Bool :=
  match items[i]?, items[j]? with
  | some a, some b => some (lt a.dij b.dij)
  | _, _ => none

/-- fastjet/internal/heap/heap.go:116-118 (`swap`). -/
def swap (items : List (Pair F)) (i j : Nat) : Option (List (Pair F)) :=
  match items[i]?, items[j]? with
  | some a, some b => some ((items.set i b).set j a)
  | _, _ => none

/-- fastjet/internal/heap/heap.go:65-78 (`moveUp`); the first number bounds the loop. -/
def moveUp (lt : F → F → Bool) : Nat → List (Pair F) → Nat → Option (List (Pair F))
  | 0, _, _ => none
  | fuel + 1, items, i =>
    let parent := i / 2
    if parent = 0 then some items
    else
      match less lt items i parent with
      | none => none
      | some false => some items
      | some true =>
        match swap items i parent with
        | none => none
        | some items' => moveUp lt fuel items' parent

/-- fastjet/internal/heap/heap.go:30-39 (`Push`). -/
def push (lt : F → F → Bool) (h : Heap F) (item : Pair F) : Option (Heap F) :=
  let n := h.n + 1
  let items := if n ≥ h.items.length then h.items ++ [item] else h.items.set n item
  (moveUp lt (n + 1) items n).map fun it => ⟨n, it⟩

/-- fastjet/internal/heap/heap.go:84-107 (`moveDown`): the child to compare with. -/
def smallestChild (lt : F → F → Bool) (n : Nat) (items : List (Pair F)) (i : Nat) : Option Nat :=
  let left := 2 * i
  let right := 2 * i + 1
  if left = n then some left
  else
    match less lt items left right with
    | none => none
    | some true => some left
    | some false => some right

/-- fastjet/internal/heap/heap.go:84-107 (`moveDown`); the first number bounds the loop. -/
def moveDown (lt : F → F → Bool) (n : Nat) : Nat → List (Pair F) → Nat → Option (List (Pair F))
  | 0, _, _ => none
  | fuel + 1, items, i =>
    if 2 * i > n then some items
    else
      match smallestChild lt n items i with
      | none => none
      | some c =>
        match less lt items c i with
        | none => none
        | some false => some items
        | some true =>
          match swap items i c with
          | none => none
          | some items' => moveDown lt n fuel items' c

/-- fastjet/internal/heap/heap.go:43-55 (`Pop`); an empty heap gives no pair (-1, -1, 0). -/
def pop (lt : F → F → Bool) (h : Heap F) : Option (Option (Pair F) × Heap F) :=
  if h.n = 0 then some (none, h)
  else
    match h.items[1]? with
    | none => none
    | some item =>
      let n := h.n - 1
      if n = 0 then some (some item, ⟨n, h.items⟩)
      else
        match swap h.items 1 (n + 1) with
        | none => none
        | some items => (moveDown lt n (n + 1) items 1).map fun it => (some item, ⟨n, it⟩)

/-- fastjet/internal/heap/heap.go:58-60 (`IsEmpty`). -/
def isEmpty (h : Heap F) : Bool := h.n == 0

/-! ## Specification: a bag of pairs -/

/-- What the heap holds. -/
def contents (h : Heap F) : List (Pair F) := h.items.tail.take h.n

/-- The distance at an index. -/
def K (z : F) (items : List (Pair F)) (i : Nat) : F := ((items[i]?).map (·.dij)).getD z

/-- The order of the heap: no item is before its parent. -/
structure Valid [LinearOrder F] (z : F) (h : Heap F) : Prop where
  len : h.n < h.items.length
  order : ∀ i, 2 ≤ i → i ≤ h.n → K z h.items (i / 2) ≤ K z h.items i

/-! ## Swapping -/

theorem swap_perm {α : Type} (l : List α) (i j : Nat) (a b : α) (hi : l[i]? = some a)
    (hj : l[j]? = some b) : ((l.set i b).set j a).Perm l := by
  have hil := getElem?_lt hi
  have hjl := getElem?_lt hj
  by_cases hij : i = j
  · subst hij
    rw [hi] at hj
    simp only [Option.some.injEq] at hj
    subst hj
    obtain ⟨h1, h2⟩ := List.getElem?_eq_some_iff.1 hi
    rw [← h2]; simp
  · have h1 := set_perm (l.set i b) j a (by simpa using hjl)
    have h2 := perm_getElem_eraseIdx (l.set i b) j b
      (by rw [List.getElem?_set_ne hij]; exact hj)
    have h3 := set_perm l i b hil
    have h4 := (List.perm_cons b).1 (h2.symm.trans h3)
    have h5 := perm_getElem_eraseIdx l i a hi
    exact h1.trans ((h4.cons a).trans h5.symm)

theorem swap_some (items : List (Pair F)) (i j : Nat) (hi : i < items.length)
    (hj : j < items.length) :
    swap items i j = some ((items.set i items[j]).set j items[i]) := by
  simp only [swap, List.getElem?_eq_getElem hi, List.getElem?_eq_getElem hj]

theorem K_swap (z : F) (items items' : List (Pair F)) (i j : Nat) (h : swap items i j = some items')
    (m : Nat) :
    K z items' m = if m = j then K z items i else if m = i then K z items j else K z items m := by
  simp only [swap] at h
  cases hi : items[i]? with
  | none => rw [hi] at h; simp at h
  | some a =>
    cases hj : items[j]? with
    | none => rw [hi, hj] at h; simp at h
    | some b =>
      rw [hi, hj] at h
      simp only [Option.some.injEq] at h
      subst h
      have hil := getElem?_lt hi
      have hjl := getElem?_lt hj
      simp only [K]
      by_cases h1 : m = j
      · subst h1
        rw [if_pos rfl, hi, List.getElem?_set_self (by simpa using hjl)]
      · rw [if_neg h1, List.getElem?_set_ne (Ne.symm h1)]
        by_cases h2 : m = i
        · subst h2
          rw [if_pos rfl, hj, List.getElem?_set_self hil]
        · rw [if_neg h2, List.getElem?_set_ne (Ne.symm h2)]

theorem swap_length (items items' : List (Pair F)) (i j : Nat) (h : swap items i j = some items') :
    items'.length = items.length := by
  simp only [swap] at h
  split at h
  · simp at h; rw [← h]; simp
  · simp at h

/-- Swapping inside the heap keeps what it holds. -/
theorem swap_contents (n : Nat) (items items' : List (Pair F)) (i j : Nat) (h1 : 1 ≤ i)
    (h2 : i ≤ n) (h3 : 1 ≤ j) (h4 : j ≤ n) (h : swap items i j = some items') :
    (items'.tail.take n).Perm (items.tail.take n) := by
  simp only [swap] at h
  cases hi : items[i]? with
  | none => rw [hi] at h; simp at h
  | some a =>
    cases hj : items[j]? with
    | none => rw [hi, hj] at h; simp at h
    | some b =>
      rw [hi, hj] at h
      simp only [Option.some.injEq] at h
      subst h
      cases items with
      | nil => simp at hi
      | cons d body =>
        obtain ⟨i', rfl⟩ : ∃ i', i = i' + 1 := ⟨i - 1, by omega⟩
        obtain ⟨j', rfl⟩ : ∃ j', j = j' + 1 := ⟨j - 1, by omega⟩
        simp only [List.getElem?_cons_succ] at hi hj
        simp only [List.set_cons_succ, List.tail_cons, List.take_set]
        apply swap_perm
        · rw [List.getElem?_take_of_lt (by omega)]; exact hi
        · rw [List.getElem?_take_of_lt (by omega)]; exact hj

theorem less_eq [LinearOrder F] (lt : F → F → Bool) (hlt : ∀ x y, lt x y = decide (x < y)) (z : F)
    (items : List (Pair F)) (i j : Nat) (hi : i < items.length) (hj : j < items.length) :
    less lt items i j = some (decide (K z items i < K z items j)) := by
  simp only [less, List.getElem?_eq_getElem hi, List.getElem?_eq_getElem hj, hlt, K,
    Option.map_some, Option.getD_some]

/-! ## Moving up -/

theorem moveUp_spec [LinearOrder F] (lt : F → F → Bool) (hlt : ∀ x y, lt x y = decide (x < y))
    (z : F) (n : Nat) : ∀ (fuel : Nat) (items : List (Pair F)) (i : Nat), i < fuel → 1 ≤ i → i ≤ n →
    n < items.length →
    (∀ j, 2 ≤ j → j ≤ n → j ≠ i → K z items (j / 2) ≤ K z items j) →
    (∀ j, 2 ≤ i → j ≤ n → j / 2 = i → K z items (i / 2) ≤ K z items j) →
    ∃ items', moveUp lt fuel items i = some items' ∧ Valid z ⟨n, items'⟩ ∧
      (items'.tail.take n).Perm (items.tail.take n)
  | 0, _, _, hf, _, _, _, _, _ => absurd hf (Nat.not_lt_zero _)
  | fuel + 1, items, i, hf, h1, hin, hlen, ha, hb => by
    simp only [moveUp]
    by_cases hp : i / 2 = 0
    · rw [if_pos hp]
      refine ⟨items, rfl, ⟨hlen, ?_⟩, List.Perm.refl _⟩
      intro j hj hjn
      exact ha j hj hjn (by omega)
    · rw [if_neg hp, less_eq lt hlt z items i (i / 2) (by omega) (by omega)]
      by_cases hc : K z items i < K z items (i / 2)
      · rw [decide_eq_true hc]
        dsimp only
        rw [swap_some items i (i / 2) (by omega) (by omega)]
        have hs := swap_some items i (i / 2) (by omega) (by omega)
        generalize ((items.set i items[i / 2]).set (i / 2) items[i]) = items' at hs
        have hK := K_swap z items items' i (i / 2) hs
        have hne : i ≠ i / 2 := by omega
        obtain ⟨r, hr1, hr2, hr3⟩ := moveUp_spec lt hlt z n fuel items' (i / 2) (by omega)
          (by omega) (by omega) (by rw [swap_length _ _ _ _ hs]; exact hlen)
          (by
            intro j hj hjn hjp
            rw [hK j, if_neg hjp, hK (j / 2)]
            by_cases e1 : j = i
            · subst e1
              rw [if_pos rfl, if_pos rfl]
              exact le_of_lt hc
            · rw [if_neg e1]
              by_cases e2 : j / 2 = i / 2
              · rw [if_pos e2]
                have := ha j hj hjn e1
                rw [e2] at this
                exact le_trans (le_of_lt hc) this
              · rw [if_neg e2]
                by_cases e3 : j / 2 = i
                · rw [if_pos e3]
                  exact hb j (by omega) hjn e3
                · rw [if_neg e3]
                  exact ha j hj hjn e1)
          (by
            intro j hi2 hjn hjp
            have q1 : i / 2 / 2 ≠ i / 2 := by omega
            have q2 : i / 2 / 2 ≠ i := by omega
            rw [hK (i / 2 / 2), if_neg q1, if_neg q2, hK j, if_neg (by omega)]
            have hpp := ha (i / 2) hi2 (by omega) (by omega)
            by_cases e1 : j = i
            · rw [if_pos e1]; exact hpp
            · rw [if_neg e1]
              have := ha j (by omega) hjn e1
              rw [hjp] at this
              exact le_trans hpp this)
        refine ⟨r, hr1, hr2, hr3.trans ?_⟩
        exact swap_contents n items items' i (i / 2) h1 hin (by omega) (by omega) hs
      · rw [decide_eq_false hc]
        dsimp only
        refine ⟨items, rfl, ⟨hlen, ?_⟩, List.Perm.refl _⟩
        intro j hj hjn
        by_cases e : j = i
        · subst e; exact not_lt.1 hc
        · exact ha j hj hjn e

/-! ## Moving down -/

theorem smallestChild_spec [LinearOrder F] (lt : F → F → Bool)
    (hlt : ∀ x y, lt x y = decide (x < y)) (z : F) (n : Nat) (items : List (Pair F)) (i : Nat)
    (h2 : 2 * i ≤ n) (hlen : n < items.length) :
    ∃ c, smallestChild lt n items i = some c ∧ (c = 2 * i ∨ c = 2 * i + 1) ∧ c ≤ n ∧
      ∀ j, (j = 2 * i ∨ j = 2 * i + 1) → j ≤ n → K z items c ≤ K z items j := by
  simp only [smallestChild]
  by_cases he : 2 * i = n
  · rw [if_pos he]
    refine ⟨2 * i, rfl, .inl rfl, h2, ?_⟩
    intro j hj hjn
    rcases hj with e | e
    · rw [e]
    · omega
  · rw [if_neg he, less_eq lt hlt z items (2 * i) (2 * i + 1) (by omega) (by omega)]
    by_cases hc : K z items (2 * i) < K z items (2 * i + 1)
    · rw [decide_eq_true hc]
      refine ⟨2 * i, rfl, .inl rfl, h2, ?_⟩
      intro j hj hjn
      rcases hj with e | e
      · rw [e]
      · rw [e]; exact le_of_lt hc
    · rw [decide_eq_false hc]
      refine ⟨2 * i + 1, rfl, .inr rfl, by omega, ?_⟩
      intro j hj hjn
      rcases hj with e | e
      · rw [e]; exact not_lt.1 hc
      · rw [e]

theorem moveDown_spec [LinearOrder F] (lt : F → F → Bool) (hlt : ∀ x y, lt x y = decide (x < y))
    (z : F) (n : Nat) : ∀ (fuel : Nat) (items : List (Pair F)) (i : Nat), n < fuel + i → 1 ≤ i →
    i ≤ n → n < items.length →
    (∀ j, 2 ≤ j → j ≤ n → j / 2 ≠ i → K z items (j / 2) ≤ K z items j) →
    (∀ j, 2 ≤ i → j ≤ n → j / 2 = i → K z items (i / 2) ≤ K z items j) →
    ∃ items', moveDown lt n fuel items i = some items' ∧ Valid z ⟨n, items'⟩ ∧
      (items'.tail.take n).Perm (items.tail.take n)
  | 0, _, _, hf, _, _, _, _, _ => by omega
  | fuel + 1, items, i, hf, h1, hin, hlen, ha, hb => by
    simp only [moveDown]
    by_cases hp : 2 * i > n
    · rw [if_pos hp]
      refine ⟨items, rfl, ⟨hlen, ?_⟩, List.Perm.refl _⟩
      intro j hj hjn
      have hjn' : j ≤ n := hjn
      exact ha j hj hjn (by omega)
    · rw [if_neg hp]
      obtain ⟨c, hc1, hc2, hc3, hc4⟩ := smallestChild_spec lt hlt z n items i (by omega) hlen
      have hci : c / 2 = i := by omega
      rw [hc1]
      dsimp only
      rw [less_eq lt hlt z items c i (by omega) (by omega)]
      by_cases hc : K z items c < K z items i
      · rw [decide_eq_true hc]
        dsimp only
        rw [swap_some items i c (by omega) (by omega)]
        have hs := swap_some items i c (by omega) (by omega)
        generalize ((items.set i items[c]).set c items[i]) = items' at hs
        have hK := K_swap z items items' i c hs
        obtain ⟨r, hr1, hr2, hr3⟩ := moveDown_spec lt hlt z n fuel items' c (by omega)
          (by omega) (by omega) (by rw [swap_length _ _ _ _ hs]; exact hlen)
          (by
            intro j hj hjn hjc
            rw [hK (j / 2), if_neg hjc]
            by_cases e1 : j / 2 = i
            · rw [if_pos e1, hK j]
              by_cases e2 : j = c
              · rw [if_pos e2]; exact le_of_lt hc
              · rw [if_neg e2, if_neg (by omega)]
                exact hc4 j (by omega) hjn
            · rw [if_neg e1, hK j, if_neg (by omega)]
              by_cases e2 : j = i
              · subst e2
                rw [if_pos rfl]
                exact hb c hj hc3 hci
              · rw [if_neg e2]
                exact ha j hj hjn e1)
          (by
            intro j _ hjn hjc
            rw [hci, hK i, if_neg (by omega), if_pos rfl, hK j, if_neg (by omega),
              if_neg (by omega)]
            have := ha j (by omega) hjn (by omega)
            rw [hjc] at this
            exact this)
        refine ⟨r, hr1, hr2, hr3.trans ?_⟩
        exact swap_contents n items items' i c h1 hin (by omega) hc3 hs
      · rw [decide_eq_false hc]
        dsimp only
        refine ⟨items, rfl, ⟨hlen, ?_⟩, List.Perm.refl _⟩
        intro j hj hjn
        by_cases e : j / 2 = i
        · rw [e]
          exact le_trans (not_lt.1 hc) (hc4 j (by omega) hjn)
        · exact ha j hj hjn e

/-! ## The operations -/

theorem K_mem (h : Heap F) (p : Pair F)
    (hp : p ∈ contents h) : ∃ i, 1 ≤ i ∧ i ≤ h.n ∧ h.items[i]? = some p := by
  obtain ⟨i, hi⟩ := List.mem_iff_getElem?.1 hp
  simp only [contents] at hi
  have hil := getElem?_lt hi
  simp only [List.length_take, List.length_tail] at hil
  rw [List.getElem?_take_of_lt (by omega), List.getElem?_tail] at hi
  exact ⟨i + 1, by omega, by omega, hi⟩

theorem root_min [LinearOrder F] (z : F) (h : Heap F) (hv : Valid z h) : ∀ (m i : Nat), i ≤ m →
    1 ≤ i → i ≤ h.n → K z h.items 1 ≤ K z h.items i
  | 0, i, hm, h1, _ => by omega
  | m + 1, i, hm, h1, hn => by
    by_cases e : i = 1
    · rw [e]
    · exact le_trans (root_min z h hv m (i / 2) (by omega) (by omega) (by omega))
        (hv.order i (by omega) hn)

/-- A new heap is empty. -/
theorem C80_new [LinearOrder F] (z : F) : Valid z (new z) ∧ contents (new z) = [] :=
  ⟨⟨by simp [new], fun i h1 h2 => by simp only [new] at h2; omega⟩, rfl⟩

/-- C80, `Push`: the heap then holds the pair and what it held before. -/
theorem C80_push [LinearOrder F] (lt : F → F → Bool) (hlt : ∀ x y, lt x y = decide (x < y)) (z : F)
    (h : Heap F) (hv : Valid z h) (p : Pair F) :
    ∃ h', push lt h p = some h' ∧ Valid z h' ∧ (contents h').Perm (p :: contents h) := by
  have hlen := hv.len
  simp only [push]
  have key : ∀ items : List (Pair F), (∀ i, i ≤ h.n → items[i]? = h.items[i]?) →
      items[h.n + 1]? = some p →
      ∃ h', (moveUp lt (h.n + 1 + 1) items (h.n + 1)).map (fun it => Heap.mk (h.n + 1) it) = some h' ∧
        Valid z h' ∧ (contents h').Perm (p :: contents h) := by
    intro items hsame hnew
    have hil : h.n + 1 < items.length := getElem?_lt hnew
    have hK : ∀ i, i ≤ h.n → K z items i = K z h.items i := fun i hi => by
      simp only [K, hsame i hi]
    obtain ⟨r, r1, r2, r3⟩ := moveUp_spec lt hlt z (h.n + 1) (h.n + 1 + 1) items (h.n + 1)
      (by omega) (by omega) (Nat.le_refl _) hil
      (by
        intro j hj hjn hjne
        rw [hK j (by omega), hK (j / 2) (by omega)]
        exact hv.order j hj (by omega))
      (by intro j _ hjn hj2; omega)
    refine ⟨⟨h.n + 1, r⟩, by rw [r1]; rfl, r2, ?_⟩
    simp only [contents]
    refine r3.trans ?_
    have e : items.tail.take (h.n + 1) = h.items.tail.take h.n ++ [p] := by
      rw [List.take_add_one]
      have h1 : items.tail[h.n]? = some p := by rw [List.getElem?_tail]; exact hnew
      rw [h1]
      congr 1
      apply List.ext_getElem?
      intro i
      by_cases hi : i < h.n
      · rw [List.getElem?_take_of_lt hi, List.getElem?_take_of_lt hi, List.getElem?_tail,
          List.getElem?_tail, hsame (i + 1) (by omega)]
      · rw [List.getElem?_take_eq_none (by omega), List.getElem?_take_eq_none (by omega)]
    rw [e]
    exact List.perm_append_comm
  by_cases hc : h.n + 1 ≥ h.items.length
  · rw [if_pos hc]
    apply key
    · intro i hi
      rw [List.getElem?_append_left (by omega)]
    · have : h.items.length = h.n + 1 := by omega
      rw [← this]; simp
  · rw [if_neg hc]
    apply key
    · intro i hi
      rw [List.getElem?_set_ne (by omega)]
    · rw [List.getElem?_set_self (by omega)]

/-- C80, `Pop` of a heap that is not empty: it returns a pair at the smallest distance, and the
heap then holds the others. -/
theorem C80_pop [LinearOrder F] (lt : F → F → Bool) (hlt : ∀ x y, lt x y = decide (x < y)) (z : F)
    (h : Heap F) (hv : Valid z h) (hne : contents h ≠ []) :
    ∃ p h', pop lt h = some (some p, h') ∧ Valid z h' ∧ (contents h).Perm (p :: contents h') ∧
      ∀ q ∈ contents h, p.dij ≤ q.dij := by
  have hlen := hv.len
  have hn : h.n ≠ 0 := by
    intro e; apply hne; simp [contents, e]
  have h1 : 1 < h.items.length := by omega
  have hroot : ∀ q ∈ contents h, (h.items[1]).dij ≤ q.dij := by
    intro q hq
    obtain ⟨i, i1, i2, i3⟩ := K_mem h q hq
    have := root_min z h hv i i (Nat.le_refl _) i1 i2
    simpa [K, List.getElem?_eq_getElem h1, i3] using this
  simp only [pop]
  rw [if_neg hn, List.getElem?_eq_getElem h1]
  dsimp only
  by_cases hz : h.n - 1 = 0
  · rw [if_pos hz]
    have hn1 : h.n = 1 := by omega
    refine ⟨_, _, rfl, ⟨by dsimp only; omega, fun i a b => by dsimp only at b; omega⟩, ?_, hroot⟩
    simp only [contents, hn1]
    have e : h.items.tail.take 1 = [h.items[1]] := by
      have : h.items.tail[0]? = some h.items[1] := by
        rw [List.getElem?_tail]; exact List.getElem?_eq_getElem h1
      cases ht : h.items.tail with
      | nil => rw [ht] at this; simp at this
      | cons a t => rw [ht] at this; simp at this; simp [this]
    rw [e]
    simp
  · rw [if_neg hz]
    have hnn : h.n - 1 + 1 = h.n := by omega
    rw [hnn, swap_some h.items 1 h.n h1 hlen]
    have hs := swap_some h.items 1 h.n h1 hlen
    have hlast : ((h.items.set 1 h.items[h.n]).set h.n h.items[1])[h.n]? = some h.items[1] := by
      rw [List.getElem?_set_self (by simpa using hlen)]
    generalize ((h.items.set 1 h.items[h.n]).set h.n h.items[1]) = items' at hs hlast
    have hK := K_swap z h.items items' 1 h.n hs
    have hl' := swap_length _ _ _ _ hs
    obtain ⟨r, r1, r2, r3⟩ := moveDown_spec lt hlt z (h.n - 1) h.n items' 1 (by omega)
      (Nat.le_refl _) (by omega) (by omega)
      (by
        intro j hj hjn hj2
        rw [hK j, hK (j / 2), if_neg (by omega), if_neg hj2, if_neg (by omega), if_neg (by omega)]
        exact hv.order j hj (by omega))
      (by intro j hj; omega)
    dsimp only
    rw [r1]
    refine ⟨h.items[1], ⟨h.n - 1, r⟩, rfl, r2, ?_, hroot⟩
    have c1 := swap_contents h.n h.items items' 1 h.n (Nat.le_refl _) (by omega) (by omega)
      (Nat.le_refl _) hs
    simp only [contents]
    refine c1.symm.trans ?_
    have e : items'.tail.take h.n = items'.tail.take (h.n - 1) ++ [h.items[1]] := by
      rw [← hnn, List.take_add_one]
      have : items'.tail[h.n - 1]? = some h.items[1] := by
        rw [List.getElem?_tail, hnn]; exact hlast
      rw [this]
      simp
    rw [e]
    exact List.perm_append_comm.trans (r3.symm.cons _)

/-- C80, `Pop` of an empty heap gives no pair; and a heap says it is empty exactly when it holds
nothing. -/
theorem C80_empty [LinearOrder F] (lt : F → F → Bool) (z : F) (h : Heap F) (hv : Valid z h) :
    (isEmpty h = true ↔ contents h = []) ∧ (isEmpty h = true → pop lt h = some (none, h)) := by
  have hl := hv.len
  constructor
  · simp only [isEmpty, contents, beq_iff_eq, List.take_eq_nil_iff]
    constructor
    · exact .inl
    · intro h'
      rcases h' with e | e
      · exact e
      · have := congrArg List.length e
        simp at this; omega
  · intro e
    simp only [isEmpty, beq_iff_eq] at e
    simp [pop, e]

/-! ## Pushing and popping -/

/-- Push all. -/
def pushAll (lt : F → F → Bool) : Heap F → List (Pair F) → Option (Heap F)
  | h, [] => some h
  | h, p :: ps =>
    match push lt h p with
    | none => none
    | some h' => pushAll lt h' ps

/-- Pop as often as said. -/
def popAll (lt : F → F → Bool) : Nat → Heap F → Option (List (Pair F))
  | 0, _ => some []
  | n + 1, h =>
    match pop lt h with
    | some (some p, h') => (popAll lt n h').map (p :: ·)
    | _ => none

theorem pushAll_spec [LinearOrder F] (lt : F → F → Bool) (hlt : ∀ x y, lt x y = decide (x < y))
    (z : F) : ∀ (ps : List (Pair F)) (h : Heap F), Valid z h →
    ∃ h', pushAll lt h ps = some h' ∧ Valid z h' ∧ (contents h').Perm (ps ++ contents h)
  | [], h, hv => ⟨h, rfl, hv, List.Perm.refl _⟩
  | p :: ps, h, hv => by
    obtain ⟨h1, e1, v1, c1⟩ := C80_push lt hlt z h hv p
    obtain ⟨h2, e2, v2, c2⟩ := pushAll_spec lt hlt z ps h1 v1
    refine ⟨h2, by simp only [pushAll, e1, e2], v2, c2.trans ?_⟩
    refine (c1.append_left ps).trans ?_
    exact List.perm_middle

theorem popAll_spec [LinearOrder F] (lt : F → F → Bool) (hlt : ∀ x y, lt x y = decide (x < y))
    (z : F) : ∀ (n : Nat) (h : Heap F), Valid z h → (contents h).length = n →
    ∃ l, popAll lt n h = some l ∧ l.Perm (contents h) ∧ l.Pairwise (fun a b => a.dij ≤ b.dij)
  | 0, h, hv, hl => ⟨[], rfl, by rw [List.eq_nil_of_length_eq_zero hl], List.Pairwise.nil⟩
  | n + 1, h, hv, hl => by
    obtain ⟨p, h1, e1, v1, c1, m1⟩ := C80_pop lt hlt z h hv (by intro e; simp [e] at hl)
    have hl1 : (contents h1).length = n := by
      have := c1.length_eq; simp at this; omega
    obtain ⟨l, e2, c2, s2⟩ := popAll_spec lt hlt z n h1 v1 hl1
    refine ⟨p :: l, by simp only [popAll, e1, e2, Option.map_some], (c2.cons p).trans c1.symm, ?_⟩
    refine List.pairwise_cons.2 ⟨?_, s2⟩
    intro q hq
    exact m1 q (c1.symm.subset (by simp [c2.subset hq]))

/-- C80: pushing any pairs on a new heap and popping as often gives the pairs, each as often as it
was pushed, by increasing distance. -/
theorem C80_sorts [LinearOrder F] (lt : F → F → Bool) (hlt : ∀ x y, lt x y = decide (x < y)) (z : F)
    (ps : List (Pair F)) : ∃ h l, pushAll lt (new z) ps = some h ∧ popAll lt ps.length h = some l ∧
      l.Perm ps ∧ l.Pairwise (fun a b => a.dij ≤ b.dij) := by
  obtain ⟨h, e1, v1, c1⟩ := pushAll_spec lt hlt z ps (new z) (C80_new z).1
  rw [(C80_new z).2, List.append_nil] at c1
  obtain ⟨l, e2, c2, s2⟩ := popAll_spec lt hlt z ps.length h v1 c1.length_eq
  exact ⟨h, l, e1, e2, c2.trans c1, s2⟩

/-- The theorems on a concrete heap, used after it was emptied. -/
example : (do
    let h ← pushAll (fun x y => decide (x < y)) (new (0 : Nat)) [⟨1, 2, 5⟩, ⟨3, 4, 1⟩, ⟨5, 6, 3⟩, ⟨7, 8, 1⟩]
    let r ← pop (fun x y => decide (x < y)) h
    let h' ← push (fun x y => decide (x < y)) r.2 ⟨9, 9, 2⟩
    let l ← popAll (fun x y => decide (x < y)) 4 h'
    pure (l.map (·.dij))) = some [1, 2, 3, 5] := by
  decide +kernel

/-- With NaN (`none`) among the distances the order is lost: a pair at distance 5 comes before
one at distance 1. -/
theorem C80_nan_counterexample : (do
    let lt := fun (x y : Option Nat) => match x, y with | some a, some b => decide (a < b) | _, _ => false
    let h ← pushAll lt (new (some 0)) [⟨0, 0, some 5⟩, ⟨1, 1, none⟩, ⟨2, 2, some 6⟩, ⟨3, 3, some 1⟩]
    let l ← popAll lt 4 h
    pure (l.map (·.dij))) = some [some 5, some 1, some 6, none] := by
  decide +kernel

end Verif.FastJet.PairHeap
