/-!
# C21: access to single entries of a branch

`groot/rtree/branch.go`, the functions below `loadEntry`: which basket is used for an entry.
The branch keeps the number and bounds of the basket used last, and a list of the baskets it has
inflated; an element of that list is here the number of the basket (of the tables of the branch)
which was read into it.
-/

namespace Verif.RTree.Access

/-- groot/rtree/branch.go:1160-1169 (`basketCtx`) and the list of inflated baskets. -/
structure State where
  id      : Nat
  first   : Int
  next    : Int
  baskets : List Nat

/-- A branch read from a file, with no basket in memory. -/
def fresh : State := ⟨0, -1, -1, []⟩

/-- groot/rtree/branch.go:628-656 (`findBasketIndex`), the loop, from index `i` on. -/
def scan (entry : Nat) : Nat → List Nat → Option Nat
  | _, [] => none
  | i, v :: vs => if v > entry ∧ v > 0 then some i else scan entry (i + 1) vs

/-- groot/rtree/branch.go:628-656 (`findBasketIndex`); a negative index is `none`. `tab` is
`basketEntry`. -/
def find (tab : List Nat) (s : State) (entry : Nat) : Option Nat :=
  if entry = 0 then some 0
  else if s.first ≤ entry ∧ (entry : Int) < s.next then some s.id
  else
    match scan entry s.id (tab.drop s.id) with
    | some (i + 1) => some i
    | _ => none

/-- groot/rtree/branch.go:591-626 (`loadBasket`) and
groot/rtree/branch.go:559-589 (`loadEntry`): the basket used for the entry and the position in
it.  The inflated baskets are taken to have a buffer, and reading them from the file to
succeed. -/
def load (tab : List Nat) (s : State) (entry : Nat) : Option ((Nat × Int) × State) :=
  match find tab s entry with
  | none => none
  | some ib =>
    match tab[ib]?, tab[ib + 1]? with
    | some first, some next =>
      let j := (entry : Int) - first
      if h : ib < s.baskets.length then
        some ((s.baskets[ib], j), ⟨ib, first, next, s.baskets⟩)
      else
        some ((ib, j), ⟨ib, first, next, s.baskets ++ [ib]⟩)
    | _, _ => none

/-- A sequence of accesses. -/
def loads (tab : List Nat) : List Nat → State → Option (List (Nat × Int) × State)
  | [], s => some ([], s)
  | e :: es, s =>
    match load tab s e with
    | none => none
    | some (r, s') => (loads tab es s').map fun q => (r :: q.1, q.2)

/-! ### Specification -/

/-- Basket `k` holds the entry, `j` entries after its first one. -/
def In (tab : List Nat) (entry : Nat) (r : Nat × Int) : Prop :=
  ∃ a b, tab[r.1]? = some a ∧ tab[r.1 + 1]? = some b ∧ a ≤ entry ∧ entry < b ∧
    r.2 = (entry : Int) - a

/-- Tables of a branch: the first basket starts at entry 0, and no basket is empty. -/
structure Layout (tab : List Nat) : Prop where
  zero : tab[0]? = some 0
  incr : ∀ i a b, tab[i]? = some a → tab[i + 1]? = some b → a < b

/-! ### Proofs -/

theorem Layout.mono {tab : List Nat} (h : Layout tab) {i j a b : Nat} (hij : i ≤ j)
    (ha : tab[i]? = some a) (hb : tab[j]? = some b) : a + (j - i) ≤ b := by
  induction j generalizing b with
  | zero =>
    have : i = 0 := by omega
    subst this; rw [ha] at hb; cases hb; omega
  | succ j ih =>
    by_cases h1 : i = j + 1
    · subst h1; rw [ha] at hb; cases hb; omega
    · have hj : j < tab.length := by
        have := (List.getElem?_eq_some_iff.mp hb).1; omega
      have hc : tab[j]? = some tab[j] := List.getElem?_eq_getElem hj
      have := ih (by omega) hc
      have := h.incr j _ _ hc hb
      omega

/-- The basket holding an entry is unique. -/
theorem Layout.unique {tab : List Nat} (h : Layout tab) {e : Nat} {r r' : Nat × Int}
    (h1 : In tab e r) (h2 : In tab e r') : r = r' := by
  obtain ⟨a, b, a1, a2, a3, a4, a5⟩ := h1
  obtain ⟨c, d, c1, c2, c3, c4, c5⟩ := h2
  have h1 : r.1 = r'.1 := by
    apply Nat.le_antisymm
    · apply Nat.le_of_not_lt; intro hlt
      have := h.mono (i := r'.1 + 1) (j := r.1) (by omega) c2 a1
      omega
    · apply Nat.le_of_not_lt; intro hlt
      have := h.mono (i := r.1 + 1) (j := r'.1) (by omega) a2 c1
      omega
  have h2 : r.2 = r'.2 := by
    rw [a5, c5]
    rw [h1] at a1
    rw [a1] at c1; cases c1; rfl
  exact Prod.ext h1 h2

theorem scan_spec {e : Nat} {i : Nat} {vs : List Nat} {r : Nat} (h : scan e i vs = some r) :
    ∃ k v, r = i + k ∧ vs[k]? = some v ∧ e < v ∧ ∀ l < k, ∀ w, vs[l]? = some w → w ≤ e := by
  induction vs generalizing i with
  | nil => simp [scan] at h
  | cons v vs ih =>
    simp only [scan] at h
    split at h
    · next hv =>
      simp only [Option.some.injEq] at h
      exact ⟨0, v, by omega, rfl, hv.1, fun l hl => by omega⟩
    · next hv =>
      obtain ⟨k, w, h1, h2, h3, h4⟩ := ih h
      refine ⟨k + 1, w, by omega, by simpa using h2, h3, fun l hl x hx => ?_⟩
      cases l with
      | zero => simp only [List.getElem?_cons_zero, Option.some.injEq] at hx; omega
      | succ l => exact h4 l (by omega) x (by simpa using hx)

theorem scan_some {e i : Nat} {vs : List Nat} {k v : Nat} (hk : vs[k]? = some v) (hv : e < v) :
    ∃ r, scan e i vs = some r := by
  induction vs generalizing i k with
  | nil => simp at hk
  | cons w vs ih =>
    simp only [scan]
    split
    · exact ⟨_, rfl⟩
    · next hw =>
      cases k with
      | zero => simp only [List.getElem?_cons_zero, Option.some.injEq] at hk; omega
      | succ k => exact ih (by simpa using hk)

/-- What holds after accesses in ascending order, the last one to an entry not above `e`. -/
structure Inv (tab : List Nat) (s : State) (e : Nat) : Prop where
  bk : ∀ p q, s.baskets[p]? = some q → p ≤ q ∧ q ≤ s.id
  cur : (s.first = -1 ∧ s.next = -1 ∧ s.id = 0) ∨
    ∃ a b : Nat, tab[s.id]? = some a ∧ tab[s.id + 1]? = some b ∧ s.first = a ∧ s.next = b ∧ a ≤ e
  start : ∀ a, tab[s.id]? = some a → a ≤ e

theorem fresh_inv {tab : List Nat} (h : Layout tab) : Inv tab fresh 0 where
  bk := by simp [fresh]
  cur := Or.inl ⟨rfl, rfl, rfl⟩
  start := by
    intro a ha
    rw [show fresh.id = 0 from rfl, h.zero] at ha
    cases ha; exact Nat.le_refl _

theorem Inv.later {tab : List Nat} {s : State} {e e' : Nat} (h : Inv tab s e) (he : e ≤ e') :
    Inv tab s e' where
  bk := h.bk
  cur := by
    rcases h.cur with h | ⟨a, b, h1, h2, h3, h4, h5⟩
    · exact Or.inl h
    · exact Or.inr ⟨a, b, h1, h2, h3, h4, by omega⟩
  start := fun a ha => Nat.le_trans (h.start a ha) he

theorem find_right {tab : List Nat} (hl : Layout tab) {s : State} {e last : Nat}
    (h : Inv tab s e) (hlast : tab.getLast? = some last) (he : e < last) :
    ∃ ib a b, find tab s e = some ib ∧ tab[ib]? = some a ∧ tab[ib + 1]? = some b ∧ a ≤ e ∧ e < b ∧
      s.id ≤ ib := by
  have hlen : 0 < tab.length := by
    cases tab with
    | nil => simp at hlast
    | cons => simp
  have hlast' : tab[tab.length - 1]? = some last := by
    rw [List.getLast?_eq_getElem?] at hlast; exact hlast
  have hidlt : s.id < tab.length := by
    rcases h.cur with ⟨_, _, h3⟩ | ⟨a, b, h1, _⟩
    · omega
    · exact (List.getElem?_eq_some_iff.mp h1).1
  unfold find
  split
  · next h0 =>
    subst h0
    have h1 : tab.length ≠ 1 := by
      intro h1
      rw [h1, hl.zero] at hlast'
      cases hlast'; omega
    have h2 : tab[0 + 1]? = some tab[1] := List.getElem?_eq_getElem (by omega)
    refine ⟨0, 0, tab[1], rfl, hl.zero, h2, Nat.le_refl _, hl.incr 0 _ _ hl.zero h2, ?_⟩
    have h3 : tab[s.id]? = some tab[s.id] := List.getElem?_eq_getElem hidlt
    have h4 := h.start _ h3
    have h5 := hl.mono (i := 0) (j := s.id) (by omega) hl.zero h3
    omega
  · split
    · next h0 hin =>
      rcases h.cur with ⟨h1, h2, _⟩ | ⟨a, b, h1, h2, h3, h4, h5⟩
      · omega
      · exact ⟨s.id, a, b, rfl, h1, h2, h5, by omega, Nat.le_refl _⟩
    · next h0 hin =>
      obtain ⟨r, hr⟩ := scan_some (e := e) (i := s.id) (vs := tab.drop s.id)
        (k := tab.length - 1 - s.id) (v := last)
        (by rw [List.getElem?_drop, show s.id + (tab.length - 1 - s.id) = tab.length - 1 by omega]
            exact hlast') he
      obtain ⟨k, v, k1, k2, k3, k4⟩ := scan_spec hr
      have hk0 : k ≠ 0 := by
        rintro rfl
        rw [List.getElem?_drop, Nat.add_zero] at k2
        have := h.start v k2
        omega
      rw [hr, k1]
      rw [List.getElem?_drop] at k2
      have hkl : s.id + (k - 1) < tab.length := by
        have := (List.getElem?_eq_some_iff.mp k2).1
        omega
      have hw : tab[s.id + (k - 1)]? = some tab[s.id + (k - 1)] := List.getElem?_eq_getElem hkl
      have := k4 (k - 1) (by omega) _ (by rw [List.getElem?_drop]; exact hw)
      refine ⟨s.id + (k - 1), _, v, ?_, hw, ?_, this, k3, by omega⟩
      · rw [show s.id + k = s.id + (k - 1) + 1 by omega]
      · rw [show s.id + (k - 1) + 1 = s.id + k by omega]; exact k2

theorem load_right {tab : List Nat} (hl : Layout tab) {s : State} {e last : Nat}
    (h : Inv tab s e) (hlast : tab.getLast? = some last) (he : e < last) :
    ∃ r s', load tab s e = some (r, s') ∧ In tab e r ∧ Inv tab s' e := by
  obtain ⟨ib, a, b, f1, f2, f3, f4, f5, f6⟩ := find_right hl h hlast he
  unfold load
  rw [f1]
  dsimp only
  rw [f2, f3]
  dsimp only
  split
  · next hlt =>
    have hb := h.bk ib s.baskets[ib] (List.getElem?_eq_getElem hlt)
    have hq : s.baskets[ib] = ib := by omega
    refine ⟨_, _, rfl, ⟨a, b, by simpa [hq] using f2, by simpa [hq] using f3, f4, f5, rfl⟩, ?_, ?_, ?_⟩
    · intro p q hp
      have := h.bk p q hp
      exact ⟨this.1, by dsimp only; omega⟩
    · exact Or.inr ⟨a, b, f2, f3, rfl, rfl, f4⟩
    · intro c hc
      dsimp only at hc
      rw [f2] at hc; cases hc; exact f4
  · next hge =>
    refine ⟨_, _, rfl, ⟨a, b, f2, f3, f4, f5, rfl⟩, ?_, ?_, ?_⟩
    · intro p q hp
      dsimp only at hp ⊢
      rw [List.getElem?_append] at hp
      split at hp
      · have := h.bk p q hp
        exact ⟨this.1, by omega⟩
      · next hp1 =>
        have : p - s.baskets.length = 0 := by
          have := (List.getElem?_eq_some_iff.mp hp).1
          simp only [List.length_singleton] at this
          omega
        rw [this] at hp
        simp only [List.getElem?_cons_zero, Option.some.injEq] at hp
        subst hp
        exact ⟨by omega, Nat.le_refl _⟩
    · exact Or.inr ⟨a, b, f2, f3, rfl, rfl, f4⟩
    · intro c hc
      dsimp only at hc
      rw [f2] at hc; cases hc; exact f4

theorem loads_right {tab : List Nat} (hl : Layout tab) {last : Nat}
    (hlast : tab.getLast? = some last) (es : List Nat) {s : State} {e0 : Nat}
    (h : Inv tab s e0) (hasc : (e0 :: es).Pairwise (· ≤ ·)) (hlt : ∀ e ∈ es, e < last) :
    ∃ rs s', loads tab es s = some (rs, s') ∧ rs.length = es.length ∧
      ∀ (i : Nat) e r, es[i]? = some e → rs[i]? = some r → In tab e r := by
  induction es generalizing s e0 with
  | nil => exact ⟨[], s, rfl, rfl, by simp⟩
  | cons e es ih =>
    rw [List.pairwise_cons] at hasc
    obtain ⟨r, s1, l1, l2, l3⟩ := load_right hl (h.later (hasc.1 e (by simp))) hlast
      (hlt e (by simp))
    obtain ⟨rs, s2, m1, m2, m3⟩ := ih l3 hasc.2 (fun x hx => hlt x (by simp [hx]))
    refine ⟨r :: rs, s2, ?_, by simp [m2], ?_⟩
    · simp only [loads, l1, m1, Option.map_some]
    · intro i x y hx hy
      cases i with
      | zero =>
        simp only [List.getElem?_cons_zero, Option.some.injEq] at hx hy
        subst hx hy; exact l2
      | succ i => exact m3 i x y (by simpa using hx) (by simpa using hy)

/-- **C21 (partial).**  Loading entries of a branch in ascending order, with any gaps and
repetitions, always succeeds and uses the basket which holds the entry, at the right position.
Missing: other orders, see the counterexamples. -/
theorem C21_ascending_partial (tab : List Nat) (hl : Layout tab) (last : Nat)
    (hlast : tab.getLast? = some last) (es : List Nat) (hasc : es.Pairwise (· ≤ ·))
    (hlt : ∀ e ∈ es, e < last) :
    ∃ rs s', loads tab es fresh = some (rs, s') ∧ rs.length = es.length ∧
      ∀ (i : Nat) e r, es[i]? = some e → rs[i]? = some r → In tab e r :=
  loads_right hl hlast es (fresh_inv hl)
    (List.pairwise_cons.mpr ⟨fun _ _ => Nat.zero_le _, hasc⟩) hlt

/-- **C21 (partial).**  From any state of the branch, loading again an entry of the basket used
last stays within that basket's bounds. -/
theorem C21_same_basket (tab : List Nat) (s : State) (e : Nat) (he : e ≠ 0)
    (h : s.first ≤ e ∧ (e : Int) < s.next) : find tab s e = some s.id := by
  unfold find
  rw [if_neg he, if_pos h]

def tab4 : List Nat := [0, 10, 20, 30, 40]

example : Layout tab4 where
  zero := rfl
  incr := by
    intro i a b ha hb
    rcases i with _ | _ | _ | _ | _ | i <;> simp [tab4] at ha hb <;> omega

example : (loads tab4 [3, 3, 12, 35, 36, 39] fresh).map (·.1)
    = some [(0, 3), (0, 3), (1, 2), (3, 5), (3, 6), (3, 9)] := by decide +kernel

/-- **C21, counterexample.**  Going back: after entry 25, entry 5 is looked up in the second
basket, five entries before its first one. -/
theorem C21_backward_counterexample :
    (loads tab4 [5, 15, 25, 5] fresh).map (·.1) = some [(0, 5), (1, 5), (2, 5), (1, -5)] ∧
      ¬ In tab4 5 (1, -5) := by
  constructor
  · decide +kernel
  · rintro ⟨a, b, h1, h2, h3, h4, _⟩
    simp [tab4] at h1
    omega

/-- **C21, counterexample.**  After loading entry 25 first, entry 0 is served silently from the
basket of entry 25: the value of entry 20. -/
theorem C21_skipped_counterexample :
    (loads tab4 [25, 0] fresh).map (·.1) = some [(2, 5), (2, 0)] ∧ ¬ In tab4 0 (2, 0) := by
  constructor
  · decide +kernel
  · rintro ⟨a, b, h1, h2, h3, h4, _⟩
    simp [tab4] at h1
    omega

end Verif.RTree.Access
