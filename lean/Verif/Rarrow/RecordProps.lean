import Verif.Rarrow.Record

/-!
# C160: the Arrow records of a tree hold the entries asked for

The specification speaks of lists of entries: `tree.drop b |>.take n`, the
entries from `b` on, `n` of them.
-/

namespace Verif.Rarrow

variable {α : Type}

/-- `rs` cuts the list `xs` in pieces of `n`, the last one not empty and of at
most `n`. -/
structure Pieces (n : Nat) (xs : List α) (rs : List (List α)) : Prop where
  all : rs.flatten = xs
  full : ∀ (i : Nat) (r : List α), rs[i]? = some r → i + 1 < rs.length → r.length = n
  last : ∀ r ∈ rs, 0 < r.length ∧ r.length ≤ n

/-- There is at most one way to cut a list in pieces of `n`: the conditions
above leave nothing open. -/
theorem Pieces.unique {n : Nat} : ∀ {xs : List α} {rs qs : List (List α)},
    Pieces n xs rs → Pieces n xs qs → rs = qs
  | xs, [], [], _, _ => rfl
  | xs, [], q :: qs, h1, h2 => by
    have := h2.last q (by simp)
    have e := h2.all
    rw [← h1.all] at e
    simp at e
    rw [e.1] at this
    simp at this
  | xs, r :: rs, [], h1, h2 => by
    have := h1.last r (by simp)
    have e := h1.all
    rw [← h2.all] at e
    simp at e
    rw [e.1] at this
    simp at this
  | xs, r :: rs, q :: qs, h1, h2 => by
    have e : r ++ rs.flatten = q ++ qs.flatten := by
      have a := h1.all
      have b := h2.all
      simp only [List.flatten_cons] at a b
      rw [a, b]
    have hr := h1.last r (by simp)
    have hq := h2.last q (by simp)
    have pos : ∀ {ts : List (List α)}, (∀ t ∈ ts, 0 < t.length ∧ t.length ≤ n) → ts ≠ [] →
        0 < ts.flatten.length := by
      intro ts h hne
      cases ts with
      | nil => exact absurd rfl hne
      | cons t ts =>
        have := h t (by simp)
        simp
        omega
    have fr : rs ≠ [] → r.length = n := fun hne =>
      h1.full 0 r (by simp) (by
        have := List.length_pos_iff.2 hne
        simp only [List.length_cons]; omega)
    have fq : qs ≠ [] → q.length = n := fun hne =>
      h2.full 0 q (by simp) (by
        have := List.length_pos_iff.2 hne
        simp only [List.length_cons]; omega)
    have el := congrArg List.length e
    simp only [List.length_append] at el
    have pr := pos (ts := rs) (fun t ht => h1.last t (by simp [ht]))
    have pq := pos (ts := qs) (fun t ht => h2.last t (by simp [ht]))
    have hl : r.length = q.length := by
      by_cases h1 : rs = [] <;> by_cases h2 : qs = []
      · subst h1; subst h2; simpa using el
      · have := fq h2; have := pq h2; subst h1; simp at el; omega
      · have := fr h1; have := pr h1; subst h2; simp at el; omega
      · rw [fr h1, fq h2]
    obtain ⟨e1, e2⟩ := List.append_inj e hl
    subst e1
    have t1 : Pieces n rs.flatten rs := ⟨rfl, fun i t ht hi => h1.full (i + 1) t (by simpa using ht)
      (by simp only [List.length_cons]; omega), fun t ht => h1.last t (by simp [ht])⟩
    have t2 : Pieces n rs.flatten qs := ⟨e2.symm, fun i t ht hi => h2.full (i + 1) t (by simpa using ht)
      (by simp only [List.length_cons]; omega), fun t ht => h2.last t (by simp [ht])⟩
    rw [Pieces.unique t1 t2]

/-! ## One record -/

theorem load_eq (tree : List α) (b e : Nat) (hbe : b ≤ e) (he : e ≤ tree.length) :
    load tree (b : Int) (e : Int) = some ((tree.drop b).take (e - b)) := by
  have h1 : ¬ (e : Int) < 0 := by omega
  have h2 : ¬ (b : Int) < 0 := by omega
  have h3 : ¬ (e : Int) < b := by omega
  have h4 : ¬ (tree.length : Int) < b := by omega
  have h5 : ¬ (tree.length : Int) < e := by omega
  simp only [load, h1, h2, h3, h4, h5, if_false, Int.toNat_natCast]

theorem newRecord_mk (tree : List α) (k b e : Int) :
    newRecord tree ⟨k, b, e⟩
      = (if (if e < 0 then (tree.length : Int) else e) < (if b ≤ 0 then 0 else b) then none
        else (load tree (if b ≤ 0 then 0 else b) (if e < 0 then (tree.length : Int) else e)).map
          fun rows => ⟨if b ≤ 0 then 0 else b,
            (if e < 0 then (tree.length : Int) else e) - (if b ≤ 0 then 0 else b), rows⟩) := rfl

/-- **C160**: a record made with a start and an end holds the entries from the
start, included, to the end, not included, and says how many there are. -/
theorem C160_record (tree : List α) (b e : Nat) (hbe : b ≤ e) (he : e ≤ tree.length) :
    newRecord tree ((Config.zero.withStart b).withEnd e)
      = some ⟨b, (e : Int) - b, (tree.drop b).take (e - b)⟩ := by
  have h1 : ¬ (e : Int) < 0 := by omega
  have h3 : ¬ (e : Int) < b := by omega
  have hb : (if (b : Int) ≤ 0 then 0 else (b : Int)) = b := by split <;> omega
  show newRecord tree ⟨0, b, e⟩ = _
  simp only [newRecord_mk, h1, if_false, hb, h3,
    load_eq tree b e hbe he, Option.map_some]

example : newRecord [10, 11, 12, 13] ((Config.zero.withStart 1).withEnd 3)
    = some ⟨1, 2, [11, 12]⟩ := C160_record [10, 11, 12, 13] 1 3 (by decide) (by decide)

/-- **C160**: without options a record holds all the entries. -/
theorem C160_whole (tree : List α) :
    newRecord tree Config.zero = some ⟨0, (tree.length : Int), tree⟩ := by
  have := load_eq tree 0 tree.length (by omega) (Nat.le_refl _)
  have h3 : ¬ (tree.length : Int) < 0 := by omega
  simp only [newRecord, Config.zero, show (-1 : Int) < 0 by decide, if_true, Int.le_refl, h3, if_false]
  have h0 : load tree 0 (tree.length : Int) = some tree := by simpa using this
  simp [h0]

example : newRecord [10, 11] Config.zero = some ⟨0, 2, [10, 11]⟩ := C160_whole [10, 11]

/-- **C160**: an end after the last entry, or before the start, is not taken
for another range: the record is refused. -/
theorem C160_refused (tree : List α) (b e : Nat) (h : e < b ∨ tree.length < e) :
    newRecord tree ((Config.zero.withStart b).withEnd e) = none := by
  have h1 : ¬ (e : Int) < 0 := by omega
  have hb : (if (b : Int) ≤ 0 then 0 else (b : Int)) = b := by split <;> omega
  show newRecord tree ⟨0, b, e⟩ = _
  simp only [newRecord_mk, h1, if_false, hb]
  split
  · rfl
  · rename_i h3
    have h2 : ¬ (b : Int) < 0 := by omega
    have h5 : (tree.length : Int) < e := by omega
    simp only [load, h1, h2, h3, h5, if_false, if_true, ite_self, Option.map_none]

example : newRecord [10, 11] ((Config.zero.withStart 1).withEnd 3) = none :=
  C160_refused [10, 11] 1 3 (Or.inr (by decide))

theorem add64_eq (a b : Int) (h0 : -2 ^ 63 ≤ a + b) (h1 : a + b < 2 ^ 63) : add64 a b = a + b := by
  simp only [add64]
  rw [Int.bmod_eq_of_le] <;> omega

/-- **C160**: a slice of a record, within the rows of the record, holds those
rows of the record. -/
theorem C160_slice_partial (tree : List α) (b e i j : Nat) (r : Rec α)
    (hr : newRecord tree ((Config.zero.withStart b).withEnd e) = some r)
    (hbe : b ≤ e) (he : e ≤ tree.length) (hn : tree.length < 2 ^ 63)
    (hij : i ≤ j) (hj : j ≤ r.rows.length) :
    r.newSlice tree i j = some ⟨(b : Int) + i, (j : Int) - i, (r.rows.drop i).take (j - i)⟩ := by
  rw [C160_record tree b e hbe he] at hr
  obtain rfl := Option.some.inj hr
  simp only [List.length_take, List.length_drop] at hj
  have e1 : add64 (b : Int) i = ((b + i : Nat) : Int) := by
    rw [add64_eq _ _ (by omega) (by omega)]; omega
  have e2 : add64 (b : Int) j = ((b + j : Nat) : Int) := by
    rw [add64_eq _ _ (by omega) (by omega)]; omega
  simp only [Rec.newSlice, e1, e2]
  rw [C160_record tree (b + i) (b + j) (by omega) (by omega)]
  have e3 : (tree.drop (b + i)).take (b + j - (b + i))
      = (((tree.drop b).take (e - b)).drop i).take (j - i) := by
    have hm : min (j - i) (e - b - i) = j - i := by omega
    have hm' : b + j - (b + i) = j - i := by omega
    rw [List.drop_take, List.drop_drop, List.take_take, hm, hm']
  rw [e3]
  have : ((b + j : Nat) : Int) - ((b + i : Nat) : Int) = (j : Int) - i := by omega
  rw [this]
  simp

example : (⟨1, 3, [11, 12, 13]⟩ : Rec Nat).newSlice [10, 11, 12, 13] 1 2 = some ⟨2, 1, [12]⟩ :=
  C160_slice_partial [10, 11, 12, 13] 1 4 1 2 ⟨1, 3, [11, 12, 13]⟩ (by decide) (by decide) (by decide)
    (by simp) (by decide) (by decide)

/-- **C160** does not hold for slices in general: the slice of a record is said
to panic when it is outside the rows of the record; a record of the first entry
gives a slice with the second and third, and a slice starting before the record
holds entries before it. -/
theorem C160_slice_counterexample :
    ∃ (tree : List Nat) (r : Rec Nat), newRecord tree ((Config.zero.withStart 1).withEnd 2) = some r ∧
      r.rows = [11] ∧
      (r.newSlice tree 1 3).map (·.rows) = some [12, 13] ∧
      (r.newSlice tree (-1) 0).map (·.rows) = some [10] ∧
      (r.newSlice tree 0 (-2)).map (·.rows) = some [11, 12, 13] :=
  ⟨[10, 11, 12, 13], ⟨1, 1, [11]⟩, by decide, rfl, by decide, by decide, by decide⟩

/-! ## The reader of records -/

theorem next_eq (tree : List α) (b e n : Nat) (hbe : b < e) (he : e ≤ tree.length)
    (hn : b + n < 2 ^ 63) :
    next tree ⟨e, b, n⟩
      = .rec' ⟨b, ((min (b + n) e : Nat) : Int) - b, (tree.drop b).take (min (b + n) e - b)⟩
          ⟨e, ((b + n : Nat) : Int), n⟩ := by
  have h : ¬ (e : Int) ≤ b := by omega
  have e1 : add64 (b : Int) n = ((b + n : Nat) : Int) := by
    rw [add64_eq _ _ (by omega) (by omega)]; omega
  have e2 : min ((b + n : Nat) : Int) (e : Int) = ((min (b + n) e : Nat) : Int) := by omega
  simp only [next, h, if_false, e1, e2]
  rw [C160_record tree b (min (b + n) e) (by omega) (by omega)]

/-- The rows of the records in turn. -/
def rowsOf (rs : List (Rec α)) : List (List α) := rs.map (·.rows)

theorem loop_eq (tree : List α) (e n : Nat) (he : e ≤ tree.length) (hn : 0 < n)
    (ho : e + n < 2 ^ 63) : ∀ (k b : Nat), b ≤ e + n → e ≤ b + k →
    ∃ rs, loop tree (k + 1) ⟨e, b, n⟩ = some (rs, true) ∧
      Pieces n ((tree.drop b).take (e - b)) (rowsOf rs) := by
  intro k
  induction k with
  | zero =>
    intro b hb hk
    have h : (e : Int) ≤ b := by omega
    refine ⟨[], ?_, ?_⟩
    · simp only [loop, next, h, if_true]
    · have : e - b = 0 := by omega
      exact ⟨by simp [rowsOf, this], by simp [rowsOf], by simp [rowsOf]⟩
  | succ k ih =>
    intro b hb hk
    by_cases h : e ≤ b
    · have h' : (e : Int) ≤ b := by omega
      refine ⟨[], ?_, ?_⟩
      · rw [loop]; simp only [next, h', if_true]
      · have : e - b = 0 := by omega
        exact ⟨by simp [rowsOf, this], by simp [rowsOf], by simp [rowsOf]⟩
    · obtain ⟨rs, h1, h2⟩ := ih (b + n) (by omega) (by omega)
      have hx := next_eq tree b e n (by omega) he (by omega)
      refine ⟨⟨b, ((min (b + n) e : Nat) : Int) - b, (tree.drop b).take (min (b + n) e - b)⟩ :: rs, ?_, ?_⟩
      · rw [loop, hx]
        simp only [h1, Option.map_some]
      · have hlen : ((tree.drop b).take (min (b + n) e - b)).length = min n (e - b) := by
          simp only [List.length_take, List.length_drop]; omega
        refine ⟨?_, ?_, ?_⟩
        · have := h2.all
          simp only [rowsOf, List.map_cons, List.flatten_cons] at this ⊢
          rw [this]
          by_cases hc : b + n ≤ e
          · have m1 : min (b + n) e - b = n := by omega
            rw [m1]
            have : e - b = n + (e - (b + n)) := by omega
            rw [this, List.take_add, List.drop_drop]
          · have m1 : min (b + n) e - b = e - b := by omega
            have m2 : e - (b + n) = 0 := by omega
            rw [m1, m2]; simp
        · intro i r hi hl
          cases i with
          | zero =>
            simp only [rowsOf, List.map_cons, List.getElem?_cons_zero, Option.some.injEq] at hi
            subst hi
            rw [hlen]
            have : rs ≠ [] := by
              intro h0; subst h0; simp [rowsOf] at hl
            by_cases hc : b + n ≤ e
            · omega
            · exfalso
              have m2 : e - (b + n) = 0 := by omega
              have hall := h2.all
              rw [m2] at hall
              cases rs with
              | nil => exact this rfl
              | cons q qs =>
                have := h2.last q.rows (by simp [rowsOf])
                simp [rowsOf] at hall
                rw [hall.1] at this
                simp at this
          | succ i =>
            refine h2.full i r (by simpa [rowsOf] using hi) ?_
            simp only [rowsOf, List.map_cons, List.length_cons] at hl ⊢
            omega
        · intro r hr
          simp only [rowsOf, List.map_cons, List.mem_cons] at hr
          rcases hr with rfl | hr
          · rw [hlen]; omega
          · exact h2.last r hr


/-- **C160**: a loop over a reader of records, with a start, an end other than
0 and a chunk of `n` rows, comes to its end, and the records one after the
other are the entries from the start to the end, each once and in order, cut in
records of `n` rows, the last one maybe shorter.  `k` bounds the number of
rounds of the loop. -/
theorem C160_records_partial (tree : List α) (b e n k : Nat) (hbe : b ≤ e) (he : e ≤ tree.length)
    (h0 : 0 < e) (hn : 0 < n) (ho : e + n < 2 ^ 63) (hk : e - b < k) :
    ∃ rs, loop tree k (newReader tree (((Config.zero.withStart b).withEnd e).withChunk n)) = some (rs, true) ∧
      Pieces n ((tree.drop b).take (e - b)) (rowsOf rs) := by
  have hr : newReader tree (((Config.zero.withStart b).withEnd e).withChunk n) = ⟨e, b, n⟩ := by
    have h1 : ¬ (e : Int) ≤ 0 := by omega
    have h2 : ¬ (n : Int) = 0 := by omega
    have h3 : ¬ (n : Int) < 0 := by omega
    have hb : (if (b : Int) ≤ 0 then 0 else (b : Int)) = b := by split <;> omega
    simp only [newReader, Config.withChunk, Config.withEnd, Config.withStart, h1, h2, h3, if_false]
    exact congrArg (fun x : Int => (⟨e, x, n⟩ : Reader)) hb
  rw [hr]
  obtain ⟨k, rfl⟩ : ∃ m, k = m + 1 := ⟨k - 1, by omega⟩
  exact loop_eq tree e n he hn ho k b (by omega) (by omega)

example : loop [10, 11, 12, 13, 14] 9 (newReader [10, 11, 12, 13, 14]
      (((Config.zero.withStart 1).withEnd 4).withChunk 2))
    = some ([⟨1, 2, [11, 12]⟩, ⟨3, 1, [13]⟩], true) := by decide

example : ∃ rs, loop [10, 11, 12, 13, 14] 9 (newReader [10, 11, 12, 13, 14]
      (((Config.zero.withStart (1 : Nat)).withEnd (4 : Nat)).withChunk (2 : Nat))) = some (rs, true) ∧
      Pieces 2 [11, 12, 13] (rowsOf rs) :=
  C160_records_partial [10, 11, 12, 13, 14] 1 4 2 9 (by decide) (by decide) (by decide) (by decide)
    (by decide) (by decide)

/-- **C160**: without options a reader gives every entry of the tree in a record
of its own. -/
theorem C160_default (tree : List α) (k : Nat) (hn : tree.length + 1 < 2 ^ 63) (hk : tree.length < k) :
    ∃ rs, loop tree k (newReader tree Config.zero) = some (rs, true) ∧
      rowsOf rs = tree.map fun x => [x] := by
  have hr : newReader tree Config.zero = ⟨(tree.length : Int), ((0 : Nat) : Int), ((1 : Nat) : Int)⟩ := by
    simp [newReader, Config.zero]
  rw [hr]
  obtain ⟨k, rfl⟩ : ∃ m, k = m + 1 := ⟨k - 1, by omega⟩
  obtain ⟨rs, h1, h2⟩ := loop_eq tree tree.length 1 (Nat.le_refl _) (by omega) hn k 0 (by omega) (by omega)
  refine ⟨rs, h1, h2.unique ?_⟩
  refine ⟨?_, ?_, ?_⟩
  · have : ∀ l : List α, (l.map fun x => [x]).flatten = l := by
      intro l; induction l with
      | nil => rfl
      | cons a l ih => simp [ih]
    simp [this]
  · intro i r hi _
    simp at hi
    obtain ⟨a, _, rfl⟩ := hi
    rfl
  · intro r hr
    simp at hr
    obtain ⟨a, _, rfl⟩ := hr
    simp

example : ∃ rs, loop [10, 11] 5 (newReader [10, 11] Config.zero) = some (rs, true) ∧
      rowsOf rs = [[10], [11]] := C160_default [10, 11] 5 (by decide) (by decide)

/-- **C160**: a negative chunk gives one record of all the entries. -/
theorem C160_all (tree : List α) (c : Int) (k : Nat) (hc : c < 0) (h0 : tree ≠ [])
    (hn : 2 * tree.length < 2 ^ 63) (hk : tree.length < k) :
    ∃ rs, loop tree k (newReader tree (Config.zero.withChunk c)) = some (rs, true) ∧
      rowsOf rs = [tree] := by
  have hl : 0 < tree.length := List.length_pos_iff.2 h0
  have hr : newReader tree (Config.zero.withChunk c)
      = ⟨(tree.length : Int), ((0 : Nat) : Int), (tree.length : Int)⟩ := by
    have h1 : ¬ c = 0 := by omega
    simp [newReader, Config.zero, Config.withChunk, h1, hc]
  rw [hr]
  obtain ⟨k, rfl⟩ : ∃ m, k = m + 1 := ⟨k - 1, by omega⟩
  obtain ⟨rs, h1, h2⟩ := loop_eq tree tree.length tree.length (Nat.le_refl _) (by omega) (by omega) k 0
    (by omega) (by omega)
  refine ⟨rs, h1, h2.unique ?_⟩
  refine ⟨by simp, ?_, ?_⟩
  · intro i r hi h
    simp at h
  · intro r hr
    simp at hr
    subst hr
    exact ⟨hl, Nat.le_refl _⟩

example : ∃ rs, loop [10, 11] 5 (newReader [10, 11] (Config.zero.withChunk (-1))) = some (rs, true) ∧
      rowsOf rs = [[10, 11]] := C160_all [10, 11] (-1) 5 (by decide) (by decide) (by decide) (by decide)

/-- **C160** does not hold for an end of 0: a record made with it has no row, a
reader made with it gives all the entries. -/
theorem C160_end_counterexample :
    ∃ tree : List Nat, tree ≠ [] ∧
      newRecord tree (Config.zero.withEnd 0) = some ⟨0, 0, []⟩ ∧
      (loop tree 9 (newReader tree ((Config.zero.withEnd 0).withChunk 2))).map (fun p => rowsOf p.1)
        = some [tree] :=
  ⟨[10, 11], by decide, by decide, by decide⟩

/-- **C160** does not hold for tables: a table is made with the same options and
has all the entries whatever the start and the end. -/
theorem C160_table_counterexample (tree : List α) (c : Config) : newTable tree c = some tree := by
  have := load_eq tree 0 tree.length (by omega) (Nat.le_refl _)
  simpa [newTable] using this

example : newTable [10, 11, 12] ((Config.zero.withStart 1).withEnd 2) = some [10, 11, 12] :=
  C160_table_counterexample _ _

/-- **C160** does not hold for a chunk so large that the next entry is not an
`int64` any more: the first record goes past the end asked for, and the reader
then starts again from the first entry, twice, so that an entry is in three records. -/
theorem C160_chunk_counterexample :
    ∃ (tree : List Nat) (c : Config), c = ((Config.zero.withStart 1).withEnd 2).withChunk (2 ^ 63 - 1) ∧
      (loop tree 4 (newReader tree c)).map (fun p => (rowsOf p.1, p.2))
        = some ([[11, 12], [10, 11, 12], [10, 11]], true) :=
  ⟨[10, 11, 12], _, rfl, by decide +kernel⟩

end Verif.Rarrow
