import Verif.RTree.Props

/-!
# C20: chains of trees

`Chain` and the reader of a chain: which trees are read for a range of entries, which part of
each, and the entry numbers handed to the callback.  A tree is what the reader of a chain sees
of it: its number of entries, whether a reader for a range can be made, and what reading a range
delivers.
-/

namespace Verif.RTree

/-- groot/rtree/reader.go:72-116 (`setup`): the range of a `Reader` for a tree with `n` entries;
`none` if it is refused.  A negative end means all entries. -/
def setup (beg fin : Int) (n : Nat) : Option (Nat × Nat) :=
  let e := if fin < 0 then (n : Int) else fin
  if beg < 0 then none
  else if beg > e then none
  else if beg > n then none
  else if e > n then none
  else some (beg.toNat, e.toNat)

/-- One tree of a chain. -/
structure ChTree (β : Type) where
  entries : Nat
  /-- `newReader` for a range of entries does not panic -/
  opens : Nat → Nat → Bool
  /-- `run(off, beg, end, f)` on a fresh reader: the calls of `f`; `none` for an error -/
  read : Nat → Nat → Nat → Option (List (Nat × β))

/-- groot/rtree/chain.go:26-53 (`Chain`), the tables `offs` and `tots`; the loop of
groot/rtree/rchain.go:97-119 (`findTrees`) recomputes the same numbers. -/
def bounds : Nat → List Nat → List (Nat × Nat)
  | _, [] => []
  | eoff, n :: ns => (eoff, eoff + n) :: bounds (eoff + n) ns

/-- groot/rtree/rchain.go:97-119 (`findTrees`), `ibeg`: the first tree holding entry `beg`. -/
def treeBeg (bs : List (Nat × Nat)) (beg : Nat) : Option Nat :=
  bs.findIdx? (fun b => b.1 ≤ beg && beg < b.2)

/-- groot/rtree/rchain.go:97-119 (`findTrees`), `iend`: one past the first tree which reaches
`fin`, or the number of trees. -/
def treeEnd (bs : List (Nat × Nat)) (fin : Nat) : Nat :=
  match bs.findIdx? (fun b => fin ≤ b.2) with
  | some i => i + 1
  | none => bs.length

/-- groot/rtree/rchain.go:67-95 (`run`), the loop over the trees.  `max(beg-eoff, 0)` is the
subtraction of natural numbers; so is `min(end-eoff, tots-eoff)`, a negative end being as good as
0 for the loop over the entries. -/
def runTrees {β : Type} (off beg fin : Nat) :
    List (ChTree β × Nat × Nat) → Option (List (Nat × β))
  | [] => some []
  | (t, eoff, tots) :: rest =>
    let ibeg := beg - eoff
    let iend := min (fin - eoff) (tots - eoff)
    if t.opens ibeg iend then
      match t.read (eoff + off) ibeg iend with
      | none => none
      | some out => (runTrees off beg fin rest).map (out ++ ·)
    else none

/-- groot/rtree/rchain.go:27-49 (`newRChain`), with the reader for the first entry of the first
tree of groot/rtree/rchain.go:57-65 (`loadRVars`), and
groot/rtree/rchain.go:67-95 (`run`); `none` for a panic or an error. -/
def chainRead {β : Type} (trees : List (ChTree β)) (off beg fin : Nat) :
    Option (List (Nat × β)) :=
  let bs := bounds 0 (trees.map (·.entries))
  match treeBeg bs beg with
  | none => none
  | some ibeg =>
    let iend := treeEnd bs fin
    if trees.head?.all (·.opens 0 1) then
      if ibeg ≤ iend then runTrees off beg fin (((trees.zip bs).drop ibeg).take (iend - ibeg))
      else none
    else none

/-! ### Specification -/

/-- Rows with their entry numbers. -/
def numbered {β : Type} (off : Nat) (rows : List β) : List (Nat × β) :=
  rows.mapIdx fun n v => (off + n, v)

/-- The elements `beg … fin-1` of a list. -/
def slice {γ : Type} (l : List γ) (beg fin : Nat) : List γ := (l.drop beg).take (fin - beg)

/-- A tree holding these rows: any range of entries can be read, and delivers these entries,
with their numbers. -/
def GoodTree {β : Type} (t : ChTree β) (rows : List β) : Prop :=
  t.entries = rows.length ∧ t.opens 0 1 = true ∧
  ∀ off beg fin, beg ≤ fin → fin ≤ rows.length →
    t.opens beg fin = true ∧ t.read off beg fin = some (slice (numbered off rows) beg fin)

/-! ### Proofs -/

theorem numbered_append {β : Type} (off : Nat) (a b : List β) :
    numbered off (a ++ b) = numbered off a ++ numbered (off + a.length) b := by
  simp only [numbered, List.mapIdx_append]
  congr 1
  congr 1
  funext n v
  rw [Nat.add_comm n, Nat.add_assoc]

theorem numbered_length {β : Type} (off : Nat) (a : List β) :
    (numbered off a).length = a.length := by simp [numbered]

theorem slice_append {γ : Type} (a b : List γ) (beg fin : Nat) :
    slice (a ++ b) beg fin
      = slice a beg (min fin a.length) ++ slice b (beg - a.length) (fin - a.length) := by
  unfold slice
  rw [List.drop_append, List.take_append]
  congr 1
  · rw [List.take_eq_take_iff, List.length_drop]; omega
  · rw [List.length_drop]
    by_cases h : beg ≤ a.length
    · congr 1; omega
    · congr 1; omega

theorem slice_empty {γ : Type} (l : List γ) (beg fin : Nat)
    (h : fin ≤ beg ∨ l.length ≤ beg) : slice l beg fin = [] := by
  unfold slice
  rcases h with h | h
  · rw [show fin - beg = 0 by omega, List.take_zero]
  · rw [List.drop_eq_nil_of_le h, List.take_nil]

theorem bounds_length (e : Nat) (ns : List Nat) : (bounds e ns).length = ns.length := by
  induction ns generalizing e with
  | nil => rfl
  | cons n ns ih => simp [bounds, ih]

theorem bounds_get (e : Nat) (ns : List Nat) (i : Nat) :
    (bounds e ns)[i]? = (ns[i]?).map fun n => (e + (ns.take i).sum, e + (ns.take i).sum + n) := by
  induction ns generalizing e i with
  | nil => simp [bounds]
  | cons n ns ih =>
    cases i with
    | zero => simp [bounds]
    | succ i =>
      simp only [bounds, List.getElem?_cons_succ, ih, List.take_succ_cons, List.sum_cons]
      congr 1
      funext m
      rw [Nat.add_assoc]

theorem sum_take_succ (ns : List Nat) (i n : Nat) (h : ns[i]? = some n) :
    (ns.take (i + 1)).sum = (ns.take i).sum + n := by
  rw [List.take_add_one, h]; simp

theorem sum_take_mono (ns : List Nat) {i j : Nat} (h : i ≤ j) :
    (ns.take i).sum ≤ (ns.take j).sum := by
  have : ns.take j = ns.take i ++ (ns.take j).drop i := by
    have h1 := List.take_append_drop i (ns.take j)
    rw [List.take_take, Nat.min_eq_left h] at h1
    exact h1.symm
  rw [this, List.sum_append]; omega

/-- What one tree contributes. -/
def part {β : Type} (off beg fin : Nat) (r : List β) (b : Nat × Nat) : List (Nat × β) :=
  slice (numbered (b.1 + off) r) (beg - b.1) (min (fin - b.1) r.length)

/-- All contributions together are the range of the concatenation. -/
theorem parts_all {β : Type} (off beg fin eoff : Nat) (rows : List (List β)) :
    ((rows.zip (bounds eoff (rows.map (·.length)))).map
        fun p => part off beg fin p.1 p.2).flatten
      = slice (numbered (eoff + off) rows.flatten) (beg - eoff) (fin - eoff) := by
  induction rows generalizing eoff with
  | nil => simp [bounds, slice, numbered]
  | cons r rows ih =>
    simp only [List.map_cons, bounds, List.zip_cons_cons, List.flatten_cons]
    rw [ih, numbered_append, slice_append, numbered_length]
    congr 1
    rw [Nat.sub_sub, Nat.sub_sub, show eoff + r.length + off = eoff + off + r.length by omega]

/-- Leaving out items at both ends which contribute nothing. -/
theorem flatten_mid {γ δ : Type} (P : γ → List δ) (l : List γ) (i j : Nat) (hij : i ≤ j)
    (h1 : ∀ k x, k < i → l[k]? = some x → P x = [])
    (h2 : ∀ k x, j ≤ k → l[k]? = some x → P x = []) :
    (((l.drop i).take (j - i)).map P).flatten = (l.map P).flatten := by
  have hl : l = l.take i ++ ((l.drop i).take (j - i) ++ l.drop j) := by
    have : (l.drop i).drop (j - i) = l.drop j := by rw [List.drop_drop]; congr 1; omega
    rw [← this, List.take_append_drop, List.take_append_drop]
  have n1 : ((l.take i).map P).flatten = [] := by
    rw [List.flatten_eq_nil_iff]
    intro y hy
    obtain ⟨x, hx, rfl⟩ := List.mem_map.mp hy
    obtain ⟨k, hk, rfl⟩ := List.mem_iff_getElem.mp hx
    rw [List.length_take] at hk
    rw [List.getElem_take]
    exact h1 k _ (by omega) (List.getElem?_eq_getElem (by omega))
  have n2 : ((l.drop j).map P).flatten = [] := by
    rw [List.flatten_eq_nil_iff]
    intro y hy
    obtain ⟨x, hx, rfl⟩ := List.mem_map.mp hy
    obtain ⟨k, hk, rfl⟩ := List.mem_iff_getElem.mp hx
    rw [List.length_drop] at hk
    rw [List.getElem_drop]
    exact h2 (j + k) _ (by omega) (List.getElem?_eq_getElem (by omega))
  have h3 : (l.map P).flatten
      = ((l.take i ++ ((l.drop i).take (j - i) ++ l.drop j)).map P).flatten := by rw [← hl]
  rw [h3, List.map_append, List.map_append, List.flatten_append, List.flatten_append, n1, n2]
  simp

/-- The loop over trees which hold these rows. -/
theorem runTrees_good {β : Type} {off beg fin : Nat} {l : List (ChTree β × Nat × Nat)}
    {rl : List (List β × Nat × Nat)}
    (h : All2 (fun p q => GoodTree p.1 q.1 ∧ p.2 = q.2 ∧ q.2.2 = q.2.1 + q.1.length ∧
      beg - q.2.1 ≤ min (fin - q.2.1) q.1.length) l rl) :
    runTrees off beg fin l = some ((rl.map fun p => part off beg fin p.1 p.2).flatten) := by
  induction l generalizing rl with
  | nil =>
    cases rl with
    | nil => rfl
    | cons => exact absurd h (by simp [All2])
  | cons p l ih =>
    cases rl with
    | nil => exact absurd h (by simp [All2])
    | cons q rl =>
      obtain ⟨t, eoff, tots⟩ := p
      obtain ⟨r, e', t'⟩ := q
      obtain ⟨⟨hg, heq, htot, hle⟩, hrest⟩ := h
      simp only [Prod.mk.injEq] at heq htot hle
      obtain ⟨rfl, rfl⟩ := heq
      have hmin : min (fin - eoff) (tots - eoff) = min (fin - eoff) r.length := by
        rw [htot]; congr 1; omega
      simp only at hg
      obtain ⟨o1, o2⟩ := hg.2.2 (eoff + off) (beg - eoff) (min (fin - eoff) r.length) hle
        (Nat.min_le_right _ _)
      simp only [runTrees, hmin, o1, o2, if_true, ih hrest, Option.map_some, List.map_cons,
        List.flatten_cons]
      rfl

theorem All2.get {α β : Type} {R : α → β → Prop} {l : List α} {m : List β} (h : All2 R l m)
    {i : Nat} {a : α} {b : β} (ha : l[i]? = some a) (hb : m[i]? = some b) : R a b := by
  induction l generalizing m i with
  | nil => simp at ha
  | cons x l ih =>
    cases m with
    | nil => simp at hb
    | cons y m =>
      cases i with
      | zero =>
        simp only [List.getElem?_cons_zero, Option.some.injEq] at ha hb
        subst ha hb; exact h.1
      | succ i => exact ih h.2 (by simpa using ha) (by simpa using hb)

theorem All2.of_get {α β : Type} {R : α → β → Prop} {l : List α} {m : List β}
    (hl : l.length = m.length)
    (h : ∀ (i : Nat) a b, l[i]? = some a → m[i]? = some b → R a b) : All2 R l m := by
  induction l generalizing m with
  | nil =>
    cases m with
    | nil => trivial
    | cons => simp at hl
  | cons x l ih =>
    cases m with
    | nil => simp at hl
    | cons y m =>
      exact ⟨h 0 x y rfl rfl, ih (by simpa using hl) fun i a b ha hb =>
        h (i + 1) a b (by simpa using ha) (by simpa using hb)⟩

theorem good_lengths {β : Type} {trees : List (ChTree β)} {rows : List (List β)}
    (h : All2 GoodTree trees rows) : trees.map (·.entries) = rows.map (·.length) := by
  induction trees generalizing rows with
  | nil => cases rows with
    | nil => rfl
    | cons => exact absurd h (by simp [All2])
  | cons t trees ih => cases rows with
    | nil => exact absurd h (by simp [All2])
    | cons r rows => rw [List.map_cons, List.map_cons, ih h.2, h.1.1]

/-- Where the tree holding `beg` is found. -/
theorem treeBeg_spec (ns : List Nat) (beg : Nat) (h : beg < ns.sum) :
    ∃ i, treeBeg (bounds 0 ns) beg = some i ∧ i < ns.length ∧ (ns.take i).sum ≤ beg ∧
      beg < (ns.take (i + 1)).sum := by
  unfold treeBeg
  cases hf : (bounds 0 ns).findIdx? (fun b => b.1 ≤ beg && beg < b.2) with
  | none =>
    exfalso
    rw [List.findIdx?_eq_none_iff] at hf
    have : ∀ i, i ≤ ns.length → (ns.take i).sum ≤ beg := by
      intro i
      induction i with
      | zero => simp
      | succ i ih =>
        intro hi
        have hb := bounds_get 0 ns i
        rw [List.getElem?_eq_getElem (l := ns) (by omega), Option.map_some] at hb
        have := hf _ (List.mem_of_getElem? hb)
        have h1 := ih (by omega)
        simp only [Nat.zero_add, Bool.and_eq_false_iff, decide_eq_false_iff_not] at this
        rw [sum_take_succ ns i _ (List.getElem?_eq_getElem (by omega))]
        omega
    have := this ns.length (Nat.le_refl _)
    rw [List.take_length] at this
    omega
  | some i =>
    rw [List.findIdx?_eq_some_iff_getElem] at hf
    obtain ⟨hi, h1, h2⟩ := hf
    rw [bounds_length] at hi
    have hb := bounds_get 0 ns i
    rw [List.getElem?_eq_getElem (by rw [bounds_length]; exact hi), List.getElem?_eq_getElem hi,
      Option.map_some, Option.some.injEq] at hb
    rw [hb] at h1
    simp only [Nat.zero_add, Bool.and_eq_true, decide_eq_true_eq] at h1
    refine ⟨i, rfl, hi, h1.1, ?_⟩
    rw [sum_take_succ ns i _ (List.getElem?_eq_getElem hi)]
    exact h1.2

/-- Where the reading stops. -/
theorem treeEnd_spec (ns : List Nat) (fin : Nat) (h : fin ≤ ns.sum) (hne : ns ≠ []) :
    ∃ j, treeEnd (bounds 0 ns) fin = j + 1 ∧ j < ns.length ∧ fin ≤ (ns.take (j + 1)).sum ∧
      ∀ k < j, (ns.take (k + 1)).sum < fin := by
  unfold treeEnd
  cases hf : (bounds 0 ns).findIdx? (fun b => fin ≤ b.2) with
  | none =>
    exfalso
    rw [List.findIdx?_eq_none_iff] at hf
    have hl : 0 < ns.length := List.length_pos_iff.mpr hne
    have hb := bounds_get 0 ns (ns.length - 1)
    rw [List.getElem?_eq_getElem (l := ns) (by omega), Option.map_some] at hb
    have h1 := hf _ (List.mem_of_getElem? hb)
    simp only [Nat.zero_add, decide_eq_false_iff_not] at h1
    rw [← sum_take_succ ns _ _ (List.getElem?_eq_getElem (by omega)),
      show ns.length - 1 + 1 = ns.length by omega, List.take_length] at h1
    omega
  | some j =>
    rw [List.findIdx?_eq_some_iff_getElem] at hf
    obtain ⟨hj, h1, h2⟩ := hf
    have hj' := hj
    rw [bounds_length] at hj'
    have key : ∀ (k : Nat) (hk : k < ns.length), ((bounds 0 ns)[k]'(by rw [bounds_length]; exact hk)).2
        = (ns.take (k + 1)).sum := by
      intro k hk
      have hb := bounds_get 0 ns k
      rw [List.getElem?_eq_getElem (by rw [bounds_length]; exact hk), List.getElem?_eq_getElem hk,
        Option.map_some, Option.some.injEq] at hb
      rw [hb, sum_take_succ ns k _ (List.getElem?_eq_getElem hk), Nat.zero_add]
    refine ⟨j, rfl, hj', ?_, fun k hk => ?_⟩
    · rw [key j hj'] at h1; simpa using h1
    · have := h2 k hk
      rw [key k (by omega)] at this
      simpa using this

/-- **C20 (partial).**  Reading a non-empty range `[beg, fin)` of a chain of trees, empty trees
included, delivers exactly the entries `beg … fin-1` of the concatenation of the trees, in order,
numbered globally.  Missing: the empty ranges, see the counterexamples below and
`C20_empty_range_partial`. -/
theorem C20_chain_partial {β : Type} (trees : List (ChTree β)) (rows : List (List β))
    (hgood : All2 GoodTree trees rows) (off beg fin : Nat) (hbf : beg < fin)
    (hfin : fin ≤ rows.flatten.length) :
    chainRead trees off beg fin
      = some (((rows.flatten.drop beg).take (fin - beg)).mapIdx fun n v => (off + beg + n, v)) := by
  have hsum : (rows.map (·.length)).sum = rows.flatten.length := by
    rw [List.length_flatten]
  have hlen := hgood.length
  have hns : rows.map (·.length) ≠ [] := by
    intro h; rw [h] at hsum; simp only [List.sum_nil] at hsum; omega
  obtain ⟨i, i1, i2, i3, i4⟩ := treeBeg_spec (rows.map (·.length)) beg (by omega)
  obtain ⟨j, j1, j2, j3, j4⟩ := treeEnd_spec (rows.map (·.length)) fin (by omega) hns
  have hij : i ≤ j := by
    apply Nat.le_of_not_lt
    intro hlt
    have := sum_take_mono (rows.map (·.length)) (i := j + 1) (j := i) (by omega)
    omega
  have hhead : trees.head?.all (·.opens 0 1) = true := by
    cases trees with
    | nil => rfl
    | cons t trees =>
      cases rows with
      | nil => exact absurd hgood (by simp [All2])
      | cons r rows => exact hgood.1.2.1
  unfold chainRead
  dsimp only
  rw [good_lengths hgood, i1]
  dsimp only
  rw [if_pos hhead, j1, if_pos (by omega)]
  have hrun := runTrees_good (off := off) (beg := beg) (fin := fin)
    (l := ((trees.zip (bounds 0 (rows.map (·.length)))).drop i).take (j + 1 - i))
    (rl := ((rows.zip (bounds 0 (rows.map (·.length)))).drop i).take (j + 1 - i)) (by
      apply All2.of_get
      · simp only [List.length_take, List.length_drop, List.length_zip, bounds_length,
          List.length_map, hlen]
      · intro k p q hp hq
        rw [List.getElem?_take] at hp hq
        split at hp
        · next hk =>
          rw [if_pos hk] at hq
          rw [List.getElem?_drop] at hp hq
          rw [List.getElem?_zip_eq_some] at hp hq
          have hb := bounds_get 0 (rows.map (·.length)) (i + k)
          rw [hq.2, List.getElem?_map, hq.1] at hb
          simp only [Option.map_some, Option.some.injEq, Nat.zero_add] at hb
          refine ⟨hgood.get hp.1 hq.1, ?_, ?_, ?_⟩
          · have := hp.2.symm.trans hq.2
            simpa using this
          · rw [hb]
          · rw [hb]
            have hr : (rows.map (·.length))[i + k]? = some q.1.length := by
              rw [List.getElem?_map, hq.1]; rfl
            have hs := sum_take_succ _ _ _ hr
            have hm := sum_take_mono (rows.map (·.length)) (i := i + 1) (j := i + k + 1) (by omega)
            have hfe : ((rows.map (·.length)).take (i + k)).sum ≤ fin := by
              by_cases h0 : i + k = 0
              · rw [h0]; simp
              · have := j4 (i + k - 1) (by omega)
                rw [show i + k - 1 + 1 = i + k by omega] at this
                omega
            dsimp only
            omega
        · exact absurd hp (by simp))
  rw [hrun]
  have hmid := flatten_mid (fun p : List β × Nat × Nat => part off beg fin p.1 p.2)
    (rows.zip (bounds 0 (rows.map (·.length)))) i (j + 1) (by omega) (by
      intro k x hk hx
      rw [List.getElem?_zip_eq_some] at hx
      have hb := bounds_get 0 (rows.map (·.length)) k
      rw [hx.2, List.getElem?_map, hx.1] at hb
      simp only [Option.map_some, Option.some.injEq, Nat.zero_add] at hb
      have hr : (rows.map (·.length))[k]? = some x.1.length := by
        rw [List.getElem?_map, hx.1]; rfl
      have hs := sum_take_succ _ _ _ hr
      have hm := sum_take_mono (rows.map (·.length)) (i := k + 1) (j := i) (by omega)
      apply slice_empty
      right
      rw [numbered_length, hb]
      dsimp only
      omega) (by
      intro k x hk hx
      rw [List.getElem?_zip_eq_some] at hx
      have hb := bounds_get 0 (rows.map (·.length)) k
      rw [hx.2, List.getElem?_map, hx.1] at hb
      simp only [Option.map_some, Option.some.injEq, Nat.zero_add] at hb
      have hm := sum_take_mono (rows.map (·.length)) (i := j + 1) (j := k) (by omega)
      apply slice_empty
      left
      rw [hb]
      dsimp only
      omega)
  rw [hmid, parts_all]
  simp only [Nat.sub_zero, Nat.zero_add, slice, numbered]
  congr 1
  apply List.ext_getElem?
  intro n
  rw [List.getElem?_take, List.getElem?_drop, List.getElem?_mapIdx, List.getElem?_mapIdx,
    List.getElem?_take, List.getElem?_drop]
  split
  · rw [Nat.add_assoc]
  · rfl

/-- **C20, empty ranges (partial).**  In a chain without empty trees, an empty range before the
end delivers nothing.  Missing: see the counterexamples below. -/
theorem C20_empty_range_partial {β : Type} (trees : List (ChTree β)) (rows : List (List β))
    (hgood : All2 GoodTree trees rows) (hne : ∀ r ∈ rows, r ≠ []) (off beg : Nat)
    (hbeg : beg < rows.flatten.length) : chainRead trees off beg beg = some [] := by
  have hsum : (rows.map (·.length)).sum = rows.flatten.length := by
    rw [List.length_flatten]
  have hlen := hgood.length
  have hns : rows.map (·.length) ≠ [] := by
    intro h; rw [h] at hsum; simp only [List.sum_nil] at hsum; omega
  obtain ⟨i, i1, i2, i3, i4⟩ := treeBeg_spec (rows.map (·.length)) beg (by omega)
  obtain ⟨j, j1, j2, j3, j4⟩ := treeEnd_spec (rows.map (·.length)) beg (by omega) hns
  have hhead : trees.head?.all (·.opens 0 1) = true := by
    cases trees with
    | nil => rfl
    | cons t trees =>
      cases rows with
      | nil => exact absurd hgood (by simp [All2])
      | cons r rows => exact hgood.1.2.1
  have hij : i ≤ j + 1 := by
    apply Nat.le_of_not_lt
    intro hlt
    have h1 := sum_take_mono (rows.map (·.length)) (i := j + 1 + 1) (j := i) (by omega)
    rw [List.length_map] at i2
    have hr : (rows.map (·.length))[j + 1]? = some (rows[j + 1]'(by omega)).length := by
      rw [List.getElem?_map, List.getElem?_eq_getElem (by omega)]; rfl
    have hs := sum_take_succ _ _ _ hr
    have := List.length_pos_iff.mpr (hne (rows[j + 1]'(by omega)) (List.getElem_mem _))
    omega
  have hji : j ≤ i := by
    apply Nat.le_of_not_lt
    intro hlt
    have := j4 i hlt
    omega
  unfold chainRead
  dsimp only
  rw [good_lengths hgood, i1]
  dsimp only
  rw [if_pos hhead, j1, if_pos (by omega)]
  have hrun := runTrees_good (off := off) (beg := beg) (fin := beg)
    (l := ((trees.zip (bounds 0 (rows.map (·.length)))).drop i).take (j + 1 - i))
    (rl := ((rows.zip (bounds 0 (rows.map (·.length)))).drop i).take (j + 1 - i)) (by
      apply All2.of_get
      · simp only [List.length_take, List.length_drop, List.length_zip, bounds_length,
          List.length_map, hlen]
      · intro k p q hp hq
        rw [List.getElem?_take] at hp hq
        split at hp
        · next hk =>
          rw [if_pos hk] at hq
          rw [List.getElem?_drop] at hp hq
          rw [List.getElem?_zip_eq_some] at hp hq
          have hb := bounds_get 0 (rows.map (·.length)) (i + k)
          rw [hq.2, List.getElem?_map, hq.1] at hb
          simp only [Option.map_some, Option.some.injEq, Nat.zero_add] at hb
          refine ⟨hgood.get hp.1 hq.1, ?_, ?_, ?_⟩
          · have := hp.2.symm.trans hq.2
            simpa using this
          · rw [hb]
          · rw [hb]
            have hr : (rows.map (·.length))[i + k]? = some q.1.length := by
              rw [List.getElem?_map, hq.1]; rfl
            have hs := sum_take_succ _ _ _ hr
            have hm := sum_take_mono (rows.map (·.length)) (i := i + 1) (j := i + k + 1) (by omega)
            dsimp only
            omega
        · exact absurd hp (by simp))
  rw [hrun]
  congr 1
  rw [List.flatten_eq_nil_iff]
  intro y hy
  obtain ⟨x, _, rfl⟩ := List.mem_map.mp hy
  apply slice_empty
  left
  omega

/-- **C20, the range of a reader.**  A range is accepted exactly if `0 ≤ beg ≤ end ≤ entries`,
a negative end standing for all entries. -/
theorem C20_setup (beg fin : Int) (n : Nat) :
    (setup beg fin n = none ↔
      ¬(0 ≤ beg ∧ beg ≤ (if fin < 0 then (n : Int) else fin) ∧
        (if fin < 0 then (n : Int) else fin) ≤ n)) ∧
    ∀ b e, setup beg fin n = some (b, e) →
      (b : Int) = beg ∧ (e : Int) = (if fin < 0 then (n : Int) else fin) ∧ b ≤ e ∧ e ≤ n := by
  unfold setup
  dsimp only
  generalize (if fin < 0 then (n : Int) else fin) = e
  constructor
  · split
    · simp; omega
    split
    · simp; omega
    split
    · simp; omega
    split
    · simp; omega
    · simp; omega
  · intro b e'
    split
    · simp
    split
    · simp
    split
    · simp
    split
    · simp
    · simp; omega

/-- A tree which delivers these rows. -/
def ideal {β : Type} (rows : List β) : ChTree β :=
  ⟨rows.length, fun _ _ => true, fun off b f => some (slice (numbered off rows) b f)⟩

theorem ideal_good {β : Type} (rows : List β) : GoodTree (ideal rows) rows :=
  ⟨rfl, rfl, fun _ _ _ _ _ => ⟨rfl, rfl⟩⟩

/-- The theorem's hypotheses can be met, with an empty tree in the middle. -/
example : All2 GoodTree [ideal [10, 11], ideal [], ideal [12, 13, 14]] [[10, 11], [], [12, 13, 14]] :=
  ⟨ideal_good _, ideal_good _, ideal_good _, trivial⟩

example : chainRead [ideal [10, 11], ideal [], ideal [12, 13, 14]] 100 1 4
    = some [(101, 11), (102, 12), (103, 13)] := by decide +kernel

/-- **C20, counterexample.**  The empty range at the end of a chain (also the default range of a
chain whose trees are all empty, and of a chain of no trees) is accepted by the range check but
the reader panics, while a single tree delivers nothing. -/
theorem C20_end_counterexample {β : Type} (trees : List (ChTree β)) (off : Nat) :
    let n : Nat := (trees.map (·.entries)).sum
    setup n n n = some (n, n) ∧ chainRead trees off n n = none := by
  dsimp only
  constructor
  · unfold setup
    dsimp only
    have : ¬ ((((trees.map (·.entries)).sum : Nat) : Int) < 0) := by omega
    rw [if_neg this, if_neg (by omega), if_neg (by omega), if_neg (by omega)]
    simp
  · unfold chainRead
    dsimp only
    have : treeBeg (bounds 0 (trees.map (·.entries))) (trees.map (·.entries)).sum = none := by
      unfold treeBeg
      rw [List.findIdx?_eq_none_iff]
      intro x hx
      obtain ⟨k, hk, rfl⟩ := List.mem_iff_getElem.mp hx
      rw [bounds_length] at hk
      have hb := bounds_get 0 (trees.map (·.entries)) k
      rw [List.getElem?_eq_getElem (by rw [bounds_length]; exact hk), List.getElem?_eq_getElem hk,
        Option.map_some, Option.some.injEq] at hb
      have hs := sum_take_succ (trees.map (·.entries)) k _ (List.getElem?_eq_getElem hk)
      have hm := sum_take_mono (trees.map (·.entries)) (i := k + 1)
        (j := (trees.map (·.entries)).length) (by omega)
      rw [List.take_length] at hm
      rw [hb]
      simp only [Nat.zero_add, Bool.and_eq_false_iff, decide_eq_false_iff_not]
      omega
    rw [this]

/-- **C20, counterexample.**  With an empty tree in the middle, the empty range at its position
panics: the slice of trees has its bounds the wrong way round. -/
theorem C20_empty_tree_counterexample :
    chainRead [ideal [1, 2, 3, 4, 5], ideal [], ideal [6, 7, 8, 9, 10]] 0 5 5 = none := by
  decide +kernel

/-! ### Chains of trees written to files -/

/-- The tree of some tables, as the reader of a chain sees it: decoding with the codecs of the
leaves. -/
def fileTree {α : Type} (decs : List (Bytes → Option α)) (f : File) (ts : List Tables) (n : Nat) :
    ChTree (List (Option α)) where
  entries := n
  opens := fun beg fin => (openAll ts beg fin).isSome
  read := fun off beg fin => (readTree f ts off beg fin).map fun out =>
    out.map fun o => (o.1, decodeRow decs o.2)

theorem findEnd_mono (spans : List Span) {a b : Nat} (h : a ≤ b) :
    findEnd spans a ≤ findEnd spans b := by
  unfold findEnd
  cases hb : spans.findIdx? (fun v => b ≤ v.fin) with
  | none =>
    cases ha : spans.findIdx? (fun v => a ≤ v.fin) with
    | none => exact Nat.le_refl _
    | some i =>
      rw [List.findIdx?_eq_some_iff_getElem] at ha
      obtain ⟨hi, _⟩ := ha
      exact hi
  | some j =>
    rw [List.findIdx?_eq_some_iff_getElem] at hb
    obtain ⟨hj, h1, _⟩ := hb
    simp only [decide_eq_true_eq] at h1
    cases ha : spans.findIdx? (fun v => a ≤ v.fin) with
    | none =>
      rw [List.findIdx?_eq_none_iff] at ha
      have := ha _ (List.getElem_mem hj)
      simp only [decide_eq_false_iff_not] at this
      omega
    | some i =>
      rw [List.findIdx?_eq_some_iff_getElem] at ha
      obtain ⟨hi, _, h3⟩ := ha
      dsimp only
      have : ¬ j < i := by
        intro hlt
        have := h3 j hlt
        simp only [decide_eq_true_eq] at this
        omega
      omega

/-- A longer range can be opened if a shorter one can. -/
theorem requested_mono {t : Tables} {beg a b : Nat} (h : a ≤ b)
    (hs : (requested t beg a).isSome = true) : (requested t beg b).isSome = true := by
  unfold requested at hs ⊢
  dsimp only at hs ⊢
  split at hs
  · next heq => exact hs
  · next l heq =>
    split at hs
    · next hge => rw [if_pos hge]; rfl
    · next hge =>
      rw [if_neg hge]
      split at hs
      · exact absurd hs (by simp)
      · next ib hib =>
        have hm := findEnd_mono (spansOf t.entry t.seek t.bytes) h
        by_cases hc : ib ≤ findEnd (spansOf t.entry t.seek t.bytes) a
        · rw [if_pos (by omega)]; rfl
        · rw [if_neg hc] at hs; exact absurd hs (by simp)

theorem openAll_some {ts : List Tables} {beg fin : Nat} :
    (openAll ts beg fin).isSome = true ↔ ∀ t ∈ ts, (requested t beg fin).isSome = true := by
  unfold openAll
  induction ts with
  | nil => simp
  | cons t ts ih =>
    rw [List.mapM_cons]
    simp only [List.mem_cons, forall_eq_or_imp, ← ih]
    cases requested t beg fin with
    | none => simp
    | some l =>
      cases (List.mapM (fun t => Option.map (fun sp => RBranch.mk t.eoff none sp)
        (requested t beg fin)) ts) with
      | none => simp
      | some _ => simp

/-- A tree of a file holding these rows of values: written row by row with any basket sizes and
anything else in between, closed, and read back from the file with codecs which read what they
wrote. -/
def WrittenTree {α : Type} (encs : List (α → Bytes)) (decs : List (Bytes → Option α))
    (t : ChTree (List (Option α))) (vals : List (List α)) : Prop :=
  ∃ z conf f0 ops s ts f1 f,
    rowsOf ops = vals.map (fun v => List.zipWith (fun e x => e x) encs v) ∧
    (∀ v ∈ vals, v.length = encs.length) ∧
    ConfOk conf ∧ (∀ p s, f0.disk p = some s → p < f0.fend) ∧
    (∀ row ∈ rowsOf ops, All2 ColFits conf row) ∧
    vals.length + 1 < 2 ^ 31 ∧
    steps z ops (newWriter conf f0, f0) = some s ∧
    closeTree z s = some (ts, f1) ∧ Later f1 f ∧
    t = fileTree decs f ts vals.length

theorem written_good {α : Type} {encs : List (α → Bytes)} {decs : List (Bytes → Option α)}
    (hcodec : All2 Codec encs decs) {t : ChTree (List (Option α))} {vals : List (List α)}
    (h : WrittenTree encs decs t vals) : GoodTree t (vals.map fun v => v.map some) := by
  obtain ⟨z, conf, f0, ops, s, ts, f1, f, w1, w2, w3, w4, w5, w6, w7, w8, w9, rfl⟩ := h
  have hlen : (rowsOf ops).length = vals.length := by rw [w1, List.length_map]
  obtain ⟨cols, h2, t3⟩ := written_tables z conf f0 ops s ts f1 f w3 w4 w5 (by omega) w7 w8 w9
  have hopen : ∀ beg fin, beg ≤ fin → fin ≤ vals.length →
      (openAll ts beg fin).isSome = true := by
    intro beg fin hbf hfin
    obtain ⟨rbs, b1, _⟩ := openAll_inv (fin := fin) t3 hbf
      (fun c hc => by rw [h2.1 c hc, hlen]; exact hfin)
    rw [b1]; rfl
  refine ⟨by simp [fileTree], ?_, ?_⟩
  · have h0 := hopen 0 0 (Nat.le_refl _) (Nat.zero_le _)
    show (openAll ts 0 1).isSome = true
    rw [openAll_some] at h0 ⊢
    exact fun t ht => requested_mono (Nat.zero_le _) (h0 t ht)
  · intro off beg fin hbf hfin
    rw [List.length_map] at hfin
    refine ⟨hopen beg fin hbf hfin, ?_⟩
    obtain ⟨out, h1, h2, h3⟩ := C18_read z conf f0 ops s ts f1 f w3 w4 w5 (by omega) w7 w8
      w9 off beg fin hbf (by omega)
    show (readTree f ts off beg fin).map _ = _
    rw [h1, Option.map_some]
    congr 1
    apply List.ext_getElem?
    intro n
    unfold slice numbered
    rw [List.getElem?_map, List.getElem?_take, List.getElem?_drop, List.getElem?_mapIdx,
      List.getElem?_map]
    by_cases hn : n < fin - beg
    · have ho : out[n]? = some out[n] := List.getElem?_eq_getElem (by omega)
      obtain ⟨e1, row, e2, e3⟩ := h3 n _ ho
      rw [ho, if_pos hn, List.getElem?_eq_getElem (by omega)]
      simp only [Option.map_some, Option.some.injEq, Prod.mk.injEq]
      refine ⟨by rw [e1, Nat.add_assoc], ?_⟩
      rw [w1, List.getElem?_map, List.getElem?_eq_getElem (by omega)] at e2
      simp only [Option.map_some, Option.some.injEq] at e2
      rw [← e2] at e3
      exact decode_row hcodec (w2 _ (List.getElem_mem _)) e3
    · rw [if_neg hn, List.getElem?_eq_none (by omega)]
      rfl

/-- **C20, from file to chain (partial).**  Trees written with a `Writer` to files, whatever
their basket sizes, and chained: reading a non-empty range delivers the values written for the
entries `beg … fin-1` counted over all trees, in order, with these numbers.  Missing: as for
`C20_chain_partial`. -/
theorem C20_files_partial {α : Type} (encs : List (α → Bytes)) (decs : List (Bytes → Option α))
    (hcodec : All2 Codec encs decs) (trees : List (ChTree (List (Option α))))
    (vals : List (List (List α))) (hw : All2 (WrittenTree encs decs) trees vals)
    (beg fin : Nat) (hbf : beg < fin) (hfin : fin ≤ vals.flatten.length) :
    chainRead trees 0 beg fin
      = some (((vals.flatten.drop beg).take (fin - beg)).mapIdx
          fun n v => (beg + n, v.map some)) := by
  have hg : All2 GoodTree trees (vals.map fun vs => vs.map fun v => v.map some) := by
    clear hfin hbf
    induction trees generalizing vals with
    | nil => cases vals with
      | nil => trivial
      | cons => exact absurd hw (by simp [All2])
    | cons t trees ih => cases vals with
      | nil => exact absurd hw (by simp [All2])
      | cons v vals => exact ⟨written_good hcodec hw.1, ih vals hw.2⟩
  have hfl : (vals.map fun vs => vs.map fun v => v.map (some : α → Option α)).flatten
      = vals.flatten.map fun v => v.map some := by
    rw [List.map_flatten]
  have := C20_chain_partial trees _ hg 0 beg fin hbf (by rw [hfl, List.length_map]; exact hfin)
  rw [this, hfl]
  congr 1
  apply List.ext_getElem?
  intro n
  rw [List.getElem?_mapIdx, List.getElem?_mapIdx, List.getElem?_take, List.getElem?_take,
    List.getElem?_drop, List.getElem?_drop, List.getElem?_map]
  split
  · cases vals.flatten[beg + n]? with
    | none => rfl
    | some v => simp
  · rfl

/-- Bytes in columns of one byte each, as a codec. -/
def byteDec : Bytes → Option (UInt8)
  | [] => none
  | b :: _ => some b

/-- A tree of one column of bytes, with three entries in two baskets. -/
def opsB : List Op := [.write [[1]], .write [[2]], .other 70, .write [[3]]]

/-- The hypotheses of `C20_files_partial` can be met. -/
example : ∃ t, WrittenTree [fun b : UInt8 => [b]] [byteDec] t [[1], [2], [3]] := by
  refine ⟨_, id, [(.fixed 1, 60, 1)], ⟨100, fun _ => none⟩, opsB, _, _, _, _, rfl, ?_, ?_, ?_, ?_,
    by decide, rfl, rfl, Later.refl _, rfl⟩
  · simp
  · intro c hc; simp at hc; subst hc; decide
  · simp
  · intro row hr
    simp [opsB, rowsOf] at hr
    rcases hr with rfl | rfl | rfl <;>
      refine ⟨⟨?_, by decide⟩, trivial⟩ <;> intro n hn <;> simp at hn <;> subst hn <;> rfl

example : All2 Codec [fun b : UInt8 => [b]] [byteDec] := ⟨fun _ _ => rfl, trivial⟩

end Verif.RTree
