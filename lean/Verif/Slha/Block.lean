import Verif.Slha.Model
import Mathlib.Data.List.Basic
import Mathlib.Data.List.Nodup

/-!
# C117: the values of a block by their indices

A block is a finite map from lists of integers to values: `Get` gives what the last `Set` with the
same indices stored, and an error for indices never set.
-/

namespace Verif.Slha
open Verif.Strconv Verif.Text

/-! ### Specification -/

/-- The history of a block: the values set, the last one first. -/
def lastSet {F : Type} (hist : List (List Int × Val F)) (args : List Int) : Option (Val F) :=
  (hist.find? fun h => h.1 == args).map (·.2)

/-- An integer of Go. -/
def IsInt (i : Int) : Prop := -(2 ^ 63 : Nat) ≤ i ∧ i < (2 ^ 63 : Nat)

/-! ### Indices -/

theorem formatInt_inj {i j : Int} (h : formatInt i = formatInt j) : i = j := by
  have hd : ∀ {n m : Nat}, formatUint n = formatUint m → n = m := by
    intro n m h
    have h1 := digitsVal_format n
    rw [h, digitsVal_format] at h1
    exact (Option.some.inj h1).symm
  have hm : ∀ {n m : Nat}, formatUint n ≠ '-' :: formatUint m := by
    intro n m h
    have : '-' ∈ formatUint n := by rw [h]; simp
    exact absurd (format_digits this) (by decide)
  match i, j with
  | .ofNat n, .ofNat m => rw [hd h]
  | .ofNat n, .negSucc m => exact absurd h hm
  | .negSucc n, .ofNat m => exact absurd h.symm hm
  | .negSucc n, .negSucc m =>
    simp only [formatInt, List.cons.injEq, true_and] at h
    have := hd h
    rw [show n = m by omega]

theorem formatInt_free {x : Char} (hx : x.isDigit = false) (hm : x ≠ '-') (i : Int) : x ∉ formatInt i := by
  intro h
  rcases formatInt_chars h with h | h
  · rw [hx] at h; cases h
  · exact hm h

theorem strindex_free (args : List Int) : ∀ t ∈ strindex args, '#' ∉ t := by
  intro t ht
  obtain ⟨i, _, rfl⟩ := List.mem_map.mp ht
  exact formatInt_free rfl (by decide) i

/-- **C117.** Two indices are the same value exactly when they were made from the same integers. -/
theorem C117_index (a b : List Int) : newIndex a = newIndex b ↔ a = b := by
  refine ⟨fun h => ?_, fun h => by rw [h]⟩
  simp only [newIndex, Index.mk.injEq] at h
  have key : strindex a = strindex b := by
    by_cases ha : a = []
    · subst ha
      have : b = [] := by simpa using h.1.symm
      rw [this]
    · have hb : b ≠ [] := by
        rintro rfl
        exact ha (by simpa using h.1)
      rw [← splitC_joinC (x := '#') (l := strindex a) (by simpa [strindex] using ha) (strindex_free a), h.2,
        splitC_joinC (by simpa [strindex] using hb) (strindex_free b)]
  exact List.map_injective_iff.mpr (fun i j => formatInt_inj) key

example : newIndex [1, 12] ≠ newIndex [11, 2] := by rw [Ne, C117_index]; decide

theorem coordsOf_strindex {a : List Int} (ha : ∀ i ∈ a, IsInt i) : coordsOf (strindex a) = .ok a := by
  induction a with
  | nil => rfl
  | cons i a ih =>
    have h1 : (formatInt i).isEmpty = false := by simp [formatInt_ne_nil]
    have h2 : parseInt 64 (formatInt i) = some i := parseInt_format (ha i (by simp)).1 (ha i (by simp)).2
    simp only [strindex, List.map_cons, coordsOf, h1, h2, Bool.false_eq_true, if_false]
    rw [← strindex, ih (fun j hj => ha j (by simp [hj]))]
    rfl

/-- **C117.** An index gives back the integers it was made from, if there are any. -/
theorem C117_coords {a : List Int} (hn : a ≠ []) (ha : ∀ i ∈ a, IsInt i) : (newIndex a).index = .ok a := by
  simp only [Index.index, newIndex]
  rw [splitC_joinC (by simpa [strindex] using hn) (strindex_free a), coordsOf_strindex ha]

example : (newIndex [3, -1000021]).index = .ok [3, -1000021] :=
  C117_coords (by decide) (by simp [IsInt])

/-- **C117.** The index of no integers gives back one: 0. -/
theorem C117_coords_counterexample : (newIndex []).index = .ok [0] := by decide

/-! ### Values -/

theorem dataPos_none {F : Type} {l : List (Item F)} {x : Index} : dataPos l x = none ↔ dataGet l x = none := by
  induction l with
  | nil => simp [dataPos, dataGet]
  | cons it r ih => simp only [dataPos, dataGet]; split <;> simp [ih]

theorem dataGet_none {F : Type} {l : List (Item F)} {x : Index} : dataGet l x = none ↔ ∀ it ∈ l, it.index ≠ x := by
  induction l with
  | nil => simp [dataGet]
  | cons it r ih =>
    simp only [dataGet]
    split
    · rename_i h; simp [h]
    · rename_i h; simp [h, ih]

theorem dataGet_append {F : Type} (l : List (Item F)) (it : Item F) (x : Index) :
    dataGet (l ++ [it]) x = (dataGet l x).or (if it.index = x then some it.value else none) := by
  induction l with
  | nil => simp [dataGet]
  | cons i r ih => simp only [List.cons_append, dataGet]; split <;> simp [ih]

theorem dataGet_modify {F : Type} {l : List (Item F)} {x : Index} {p : Nat} (h : dataPos l x = some p)
    (w : Value F) (y : Index) :
    dataGet (l.modify p fun it => { it with value := w }) y = if y = x then some w else dataGet l y := by
  induction l generalizing p with
  | nil => cases h
  | cons it r ih =>
    simp only [dataPos] at h
    split at h
    · rename_i hi
      cases h
      subst hi
      by_cases hy : it.index = y
      · simp [dataGet, hy]
      · simp [dataGet, hy, Ne.symm hy]
    · rename_i hi
      cases hp : dataPos r x with
      | none => rw [hp] at h; cases h
      | some q =>
        rw [hp] at h
        simp only [Option.map_some, Option.some.injEq] at h
        subst h
        simp only [List.modify_succ_cons, dataGet, ih hp]
        by_cases hy : it.index = y
        · subst hy; simp [hi]
        · simp [hy]

theorem get_set {F : Type} (b : Block F) (v : Val F) (a c : List Int) :
    (b.set v a).get c = if c = a then some ⟨some v, ((b.get a).map (·.c)).getD []⟩ else b.get c := by
  have hc : ((b.get a).getD ⟨none, []⟩).c = ((b.get a).map (·.c)).getD [] := by cases b.get a <;> rfl
  simp only [Block.set]
  split
  · rename_i hp
    rw [dataPos_none] at hp
    simp only [Block.get, dataGet_append, C117_index]
    by_cases h : c = a
    · subst h
      simp [hp]
    · have h' : a ≠ c := fun e => h e.symm
      simp [h, h']
  · rename_i p hp
    simp only [Block.get, dataGet_modify hp, C117_index]
    by_cases h : c = a
    · simp only [h, if_true]
      rw [Block.get] at hc
      rw [hc]
    · simp [h]

/-- **C117.** After `Set`, `Get` with the same indices gives the value, with the comment there was. -/
theorem C117_get_set {F : Type} (b : Block F) (v : Val F) (a : List Int) :
    (b.set v a).get a = some ⟨some v, ((b.get a).map (·.c)).getD []⟩ := by simp [get_set]

/-- **C117.** `Set` changes the value at no other indices. -/
theorem C117_get_other {F : Type} (b : Block F) (v : Val F) {a c : List Int} (h : c ≠ a) :
    (b.set v a).get c = b.get c := by simp [get_set, h]

example : (((⟨nMASS, [], (0 : Nat), []⟩ : Block Nat).set (.flt 5) [25]).set (.flt 7) [2, 5]).get [25]
    = some ⟨some (.flt 5), []⟩ := by
  rw [C117_get_other _ _ (by decide), C117_get_set]
  rfl

theorem sets_get {F : Type} (b : Block F) (hist : List (List Int × Val F)) (a : List Int) :
    ((hist.foldr (fun h b => b.set h.2 h.1) b).get a).map (·.v)
      = ((lastSet hist a).map some).or ((b.get a).map (·.v)) := by
  induction hist with
  | nil => simp [lastSet]
  | cons h r ih =>
    rw [List.foldr_cons, get_set]
    by_cases he : a = h.1
    · subst he
      simp [lastSet]
    · have : (h.1 == a) = false := by rw [beq_eq_false_iff_ne]; exact fun e => he e.symm
      simp only [he, if_false, ih, lastSet, List.find?_cons, this]

/-- **C117.** `Get` gives the value last set with these indices, and an error if there is none, for
any sequence of `Set`s (given from the last to the first) on an empty block. -/
theorem C117_history {F : Type} (name c : List Char) (q : F) (hist : List (List Int × Val F)) (a : List Int) :
    ((hist.foldr (fun h b => b.set h.2 h.1) (⟨name, c, q, []⟩ : Block F)).get a).map (·.v)
      = (lastSet hist a).map some := by
  rw [sets_get]
  simp [Block.get, dataGet]

example : (([([1], .int 4), ([1, 1], .int 3), ([1], .int 2)] : List (List Int × Val Nat)).foldr
    (fun h b => b.set h.2 h.1) (⟨nMODSEL, [], 0, []⟩ : Block Nat)).get [1] = some ⟨some (.int 4), []⟩ := by decide

/-- **C117.** `Set` keeps the order: it changes a value in place or appends one at the end, and
nothing else of the block. -/
theorem C117_order {F : Type} (b : Block F) (v : Val F) (a : List Int) :
    (b.set v a).name = b.name ∧ (b.set v a).comment = b.comment ∧ (b.set v a).q = b.q ∧
    (b.set v a).data.map (·.index)
      = b.data.map (·.index) ++ (if b.get a = none then [newIndex a] else []) := by
  have hm : ∀ (l : List (Item F)) (p : Nat) (w : Value F),
      (l.modify p fun it => { it with value := w }).map (·.index) = l.map (·.index) := by
    intro l
    induction l with
    | nil => intro p w; simp
    | cons i r ih => intro p w; cases p <;> simp [ih]
  simp only [Block.set]
  split
  · rename_i hp
    rw [dataPos_none] at hp
    refine ⟨rfl, rfl, rfl, ?_⟩
    simp [Block.get, hp]
  · rename_i p hp
    have : b.get a ≠ none := by
      intro h
      rw [Block.get, ← dataPos_none, hp] at h
      cases h
    refine ⟨rfl, rfl, rfl, ?_⟩
    simp [hm, this]

/-- **C117.** The indices of a block stay distinct. -/
theorem C117_distinct {F : Type} (b : Block F) (v : Val F) (a : List Int) (h : (b.data.map (·.index)).Nodup) :
    ((b.set v a).data.map (·.index)).Nodup := by
  rw [(C117_order b v a).2.2.2]
  split
  · rename_i hg
    rw [List.nodup_append]
    refine ⟨h, by simp, ?_⟩
    intro x hx y hy
    simp only [List.mem_singleton] at hy
    subst hy
    obtain ⟨it, hit, rfl⟩ := List.mem_map.mp hx
    exact dataGet_none.mp hg it hit
  · simpa using h

/-- **C117.** A value can be read by the indices of each item, if the indices are distinct. -/
theorem C117_items {F : Type} (b : Block F) (h : (b.data.map (·.index)).Nodup) {a : List Int} {w : Value F}
    (hw : (⟨newIndex a, w⟩ : Item F) ∈ b.data) : b.get a = some w := by
  have key : ∀ l : List (Item F), (l.map (·.index)).Nodup → (⟨newIndex a, w⟩ : Item F) ∈ l →
      dataGet l (newIndex a) = some w := by
    intro l
    induction l with
    | nil => intro _ h; cases h
    | cons i r ih =>
      intro hn hm
      simp only [List.map_cons, List.nodup_cons] at hn
      simp only [dataGet]
      split
      · rename_i hi
        simp only [List.mem_cons] at hm
        rcases hm with rfl | hm
        · rfl
        · exact absurd (List.mem_map.mpr ⟨_, hm, hi.symm⟩) hn.1
      · rename_i hi
        simp only [List.mem_cons] at hm
        rcases hm with rfl | hm
        · exact absurd rfl hi
        · exact ih hn.2 hm
  exact key b.data h hw

example : ((⟨nMODSEL, [], 0, []⟩ : Block Nat).set (.int 2) [1]).data.map (·.index) = [newIndex [1]] := by decide

end Verif.Slha
