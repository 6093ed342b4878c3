import Verif.SliceOp.Model

/-!
# Slice operations (C52)
-/

namespace Verif.SliceOp

variable {E : Type}

/-! ## Specification -/

/-- Writing to `dst` does not run over elements of `src` that are still to be read: `dst`
is new memory, starts at or before `src`, or starts after the end of `src`. -/
def Safe (dst : Option Slice) (src : Slice) : Prop :=
  ∀ d, dst = some d → d.base ≤ src.base ∨ src.base + src.len ≤ d.base

/-- A cell does not belong to the memory of `dst`. -/
def Outside (dst : Option Slice) (a : Nat) : Prop :=
  ∀ d, dst = some d → a < d.base ∨ d.base + d.cap ≤ a

/-- The indices of the elements for which `f` holds, counted from `i`. -/
def indicesFrom (f : E → Bool) : Nat → List E → List Nat
  | _, [] => []
  | i, x :: xs => if f x then i :: indicesFrom f (i + 1) xs else indicesFrom f (i + 1) xs

/-- Elements at the given positions. -/
def Picks (xs : List E) (indices : List Int) (ys : List E) : Prop :=
  ys.length = indices.length ∧
  ∀ (k : Nat) (v : Int), indices[k]? = some v → 0 ≤ v ∧ ∃ x, xs[v.toNat]? = some x ∧ ys[k]? = some x

/-! ## Proofs -/

@[simp] theorem read_length (m : Mem E) (b n : Nat) : (m.read b n).length = n := by simp [Mem.read]

theorem read_getElem? (m : Mem E) (b n i : Nat) : (m.read b n)[i]? = if i < n then some (m (b + i)) else none := by
  unfold Mem.read
  rw [List.getElem?_map]
  by_cases h : i < n
  · rw [List.getElem?_range h, if_pos h]; rfl
  · rw [if_neg h, List.getElem?_eq_none (by simpa using h)]; rfl

theorem read_succ (m : Mem E) (b n : Nat) : m.read b (n + 1) = m.read b n ++ [m (b + n)] := by
  simp [Mem.read, List.range_succ]

theorem read_congr {m m' : Mem E} {b n : Nat} (h : ∀ i, i < n → m (b + i) = m' (b + i)) : m.read b n = m'.read b n := by
  apply List.ext_getElem?
  intro i
  rw [read_getElem?, read_getElem?]
  by_cases hi : i < n
  · rw [if_pos hi, if_pos hi, h i hi]
  · rw [if_neg hi, if_neg hi]

/-- Generic filtering with positions. -/
def filterMapFrom (g : Nat → E → Option E) : Nat → List E → List E
  | _, [] => []
  | i, x :: xs => match g i x with
    | some y => y :: filterMapFrom g (i + 1) xs
    | none => filterMapFrom g (i + 1) xs

/-- What remains to be read from index `i` on. -/
theorem read_cons (m : Mem E) (b i k : Nat) : m.read (b + i) (k + 1) = m (b + i) :: m.read (b + (i + 1)) k := by
  unfold Mem.read
  rw [List.range_succ_eq_map]
  simp [Function.comp_def, Nat.add_comm, Nat.add_left_comm]

/-- Effect of an append. -/
theorem append_contents (m : Mem E) (d : Dst E) (x : E) :
    (append m d x).2.contents (append m d x).1 = d.contents m ++ [x] := by
  unfold append
  cases d with
  | own xs => rfl
  | shared s =>
    simp only
    split
    · simp only [Dst.contents, Mem.contents]
      rw [read_succ]
      congr 1
      · apply read_congr
        intro i hi
        unfold Mem.upd
        rw [if_neg (by omega)]
      · simp [Mem.upd]
    · rfl

theorem appendLoop_spec (g : Nat → E → Option E) (src : Slice) (dst : Option Slice) (hs : Safe dst src)
    (k i : Nat) (hik : i + k = src.len) (m : Mem E) (d : Dst E)
    (hd : d.len ≤ i) (hsh : ∀ s, d = .shared s → ∃ s0, dst = some s0 ∧ s.base = s0.base ∧ s.cap = s0.cap) :
    (appendLoop g src k i m d).2.contents (appendLoop g src k i m d).1 =
      d.contents m ++ filterMapFrom g i (m.read (src.base + i) k) ∧
    ∀ a, Outside dst a → (appendLoop g src k i m d).1 a = m a := by
  induction k generalizing i m d with
  | zero => simp [appendLoop, filterMapFrom, Mem.read]
  | succ k ih =>
    unfold appendLoop
    rw [read_cons]
    cases hg : g i (m (src.base + i)) with
    | none =>
      simp only [filterMapFrom, hg]
      exact ih (i + 1) (by omega) m d (by omega) hsh
    | some y =>
      simp only [filterMapFrom, hg]
      have hlen : (append m d y).2.len ≤ i + 1 := by
        unfold append
        cases d with
        | own xs => simpa [Dst.len] using hd
        | shared s =>
          simp only [Dst.len] at hd
          simp only
          split
          · simpa [Dst.len] using hd
          · simpa [Dst.len, Mem.contents] using hd
      have hsh' : ∀ s, (append m d y).2 = .shared s → ∃ s0, dst = some s0 ∧ s.base = s0.base ∧ s.cap = s0.cap := by
        intro s h
        unfold append at h
        cases d with
        | own xs => simp at h
        | shared t =>
          simp only at h
          obtain ⟨s0, h0, h1, h2⟩ := hsh t rfl
          split at h
          · simp only [Dst.shared.injEq] at h
            subst h
            exact ⟨s0, h0, h1, h2⟩
          · simp at h
      obtain ⟨e1, e2⟩ := ih (i + 1) (by omega) (append m d y).1 (append m d y).2 hlen hsh'
      -- cells still to be read, and cells outside the destination, are untouched
      have hmem : ∀ a, (Outside dst a ∨ ∃ j, i < j ∧ j < src.len ∧ a = src.base + j) → (append m d y).1 a = m a := by
        intro a ha
        unfold append
        cases d with
        | own xs => rfl
        | shared s =>
          simp only
          split
          · rename_i hcap
            obtain ⟨s0, h0, h1, h2⟩ := hsh s rfl
            simp only [Dst.len] at hd
            unfold Mem.upd
            simp only
            rw [if_neg]
            rcases ha with ha | ⟨j, hj1, hj2, rfl⟩
            · have := ha s0 h0
              omega
            · have := hs s0 h0
              omega
          · rfl
      refine ⟨?_, ?_⟩
      · rw [e1, append_contents]
        have : (append m d y).1.read (src.base + (i + 1)) k = m.read (src.base + (i + 1)) k := by
          apply read_congr
          intro j hj
          exact hmem _ (.inr ⟨i + 1 + j, by omega, by omega, by omega⟩)
        rw [this]
        simp
      · intro a ha
        rw [e2 a ha, hmem a (.inl ha)]

theorem cleared_shared {dst : Option Slice} : ∀ s, (cleared dst : Dst E) = .shared s →
    ∃ s0, dst = some s0 ∧ s.base = s0.base ∧ s.cap = s0.cap := by
  intro s h
  cases dst with
  | none => simp [cleared] at h
  | some s0 =>
    simp only [cleared, Dst.shared.injEq] at h
    subst h
    exact ⟨s0, rfl, rfl, rfl⟩

theorem cleared_contents (m : Mem E) (dst : Option Slice) : (cleared dst : Dst E).contents m = [] := by
  cases dst <;> simp [cleared, Dst.contents, Mem.contents, Mem.read]

theorem cleared_len (dst : Option Slice) : (cleared dst : Dst E).len = 0 := by
  cases dst <;> simp [cleared, Dst.len]

theorem filterMapFrom_filter (f : E → Bool) (i : Nat) (xs : List E) :
    filterMapFrom (fun _ x => if f x then some x else none) i xs = xs.filter f := by
  induction xs generalizing i with
  | nil => rfl
  | cons x xs ih =>
    unfold filterMapFrom
    cases hf : f x <;> simp [hf, ih]

theorem filterMapFrom_indices (f : Int → Bool) (i : Nat) (xs : List Int) :
    filterMapFrom (fun i x => if f x then some (i : Int) else none) i xs = (indicesFrom f i xs).map (fun n => (n : Int)) := by
  induction xs generalizing i with
  | nil => rfl
  | cons x xs ih =>
    unfold filterMapFrom indicesFrom
    cases hf : f x <;> simp [ih]

/-- **C52** (`Filter`): the result holds exactly the elements of `src` for which `f` holds,
in order, for every destination that is new, starts at or before `src` (in particular
`src` itself), or does not overlap `src`; memory outside the destination is not touched. -/
theorem C52_filter (m : Mem E) (dst : Option Slice) (src : Slice) (f : E → Bool) (hs : Safe dst src) :
    (filter m dst src f).2.contents (filter m dst src f).1 = (m.contents src).filter f ∧
    ∀ a, Outside dst a → (filter m dst src f).1 a = m a := by
  have := appendLoop_spec (fun _ x => if f x then some x else none) src dst hs src.len 0 (by omega) m (cleared dst)
    (by rw [cleared_len]; omega) cleared_shared
  rw [cleared_contents, filterMapFrom_filter] at this
  exact this

/-- **C52** (`Find` on integers): the result holds exactly the indices of the elements for
which `f` holds, in increasing order, for every destination safe with respect to `src`. -/
theorem C52_find_ints (m : Mem Int) (dst : Option Slice) (src : Slice) (f : Int → Bool) (hs : Safe dst src) :
    (findInts m dst src f).2.contents (findInts m dst src f).1 =
      (indicesFrom f 0 (m.contents src)).map (fun n => (n : Int)) ∧
    ∀ a, Outside dst a → (findInts m dst src f).1 a = m a := by
  have := appendLoop_spec (fun i x => if f x then some (i : Int) else none) src dst hs src.len 0 (by omega) m (cleared dst)
    (by rw [cleared_len]; omega) cleared_shared
  rw [cleared_contents, filterMapFrom_indices] at this
  exact this

/-- **C52** (`Find`): `i` is in the result exactly when element `i` satisfies `f`, and the
result increases strictly. -/
theorem C52_find (src : List E) (f : E → Bool) :
    (∀ i, i ∈ find src f ↔ ∃ x, src[i]? = some x ∧ f x = true) ∧ (find src f).Pairwise (· < ·) := by
  constructor
  · intro i
    unfold find
    simp only [List.mem_map, List.mem_filter, Prod.exists]
    constructor
    · rintro ⟨x, j, ⟨h1, h2⟩, rfl⟩
      rw [List.mem_zipIdx_iff_getElem?] at h1
      exact ⟨x, h1, h2⟩
    · rintro ⟨x, h1, h2⟩
      exact ⟨x, i, ⟨List.mem_zipIdx_iff_getElem?.mpr h1, h2⟩, rfl⟩
  · unfold find
    rw [List.pairwise_map]
    apply List.Pairwise.filter
    have : (src.zipIdx.map (·.2)).Pairwise (· < ·) := by
      rw [List.zipIdx_map_snd]
      simpa using List.pairwise_lt_range' (s := 0) (n := src.length)
    exact List.pairwise_map.mp this

/-! ### Map and Take -/

/-- Effect of a store on the destination. -/
theorem store_contents (m : Mem E) (d : Dst E) (i : Nat) (x : E) (hi : i < d.len) :
    (store m d i x).2.contents (store m d i x).1 = (d.contents m).set i x := by
  unfold store
  cases d with
  | own xs => rfl
  | shared s =>
    simp only [Dst.contents, Mem.contents]
    apply List.ext_getElem?
    intro j
    rw [List.getElem?_set, read_getElem?, read_getElem?, read_length]
    simp only [Dst.len] at hi
    by_cases hij : i = j
    · subst hij
      simp [hi, Mem.upd]
    · have : ¬ j = i := by omega
      simp [hij, Mem.upd, this]

theorem store_len (m : Mem E) (d : Dst E) (i : Nat) (x : E) : (store m d i x).2.len = d.len := by
  unfold store; cases d <;> simp [Dst.len]

theorem store_mem (m : Mem E) (d : Dst E) (i : Nat) (x : E) (a : Nat)
    (h : ∀ s, d = .shared s → a ≠ s.base + i) : (store m d i x).1 a = m a := by
  unfold store
  cases d with
  | own xs => rfl
  | shared s => simp only [Mem.upd]; rw [if_neg (h s rfl)]

theorem store_shared (m : Mem E) (d : Dst E) (i : Nat) (x : E) (s : Slice) :
    (store m d i x).2 = .shared s ↔ d = .shared s := by
  unfold store; cases d <;> simp

theorem mapLoop_spec (f : E → E) (src : Slice) (k i : Nat) (hik : i + k = src.len) (m : Mem E) (d : Dst E)
    (hd : d.len = src.len) (hsafe : ∀ s, d = .shared s → s.base ≤ src.base ∨ src.base + src.len ≤ s.base) :
    (mapLoop f src k i m d).2.contents (mapLoop f src k i m d).1 =
      (d.contents m).take i ++ (m.read (src.base + i) k).map f ∧
    ∀ a, (∀ s, d = .shared s → a < s.base ∨ s.base + s.len ≤ a) → (mapLoop f src k i m d).1 a = m a := by
  induction k generalizing i m d with
  | zero =>
    refine ⟨?_, fun _ _ => rfl⟩
    simp only [mapLoop]
    have : (d.contents m).length = i := by
      cases d <;> simp [Dst.contents, Dst.len, Mem.contents] at * <;> omega
    rw [List.take_of_length_le (by omega)]
    simp [Mem.read]
  | succ k ih =>
    unfold mapLoop
    rw [read_cons]
    have hi : i < d.len := by omega
    obtain ⟨e1, e2⟩ := ih (i + 1) (by omega) (store m d i (f (m (src.base + i)))).1
      (store m d i (f (m (src.base + i)))).2 (by rw [store_len]; exact hd)
      (fun s h => hsafe s ((store_shared ..).mp h))
    refine ⟨?_, ?_⟩
    · rw [e1, store_contents _ _ _ _ hi]
      have hread : (store m d i (f (m (src.base + i)))).1.read (src.base + (i + 1)) k =
          m.read (src.base + (i + 1)) k := by
        apply read_congr
        intro j hj
        apply store_mem
        intro s h
        have := hsafe s h
        omega
      rw [hread]
      have hl : i < (d.contents m).length := by
        cases d <;> simp [Dst.contents, Dst.len, Mem.contents] at * <;> omega
      rw [List.map_cons, List.take_succ_eq_append_getElem (by simpa using hl),
        List.take_set_of_le (Nat.le_refl i)]
      simp
    · intro a ha
      rw [e2 a (fun s h => ha s ((store_shared ..).mp h))]
      apply store_mem
      intro s h
      have := ha s h
      subst h
      simp only [Dst.len] at hi
      omega

theorem orMake_shared [Inhabited E] {dst : Option Slice} {n : Nat} {s : Slice} :
    (orMake dst n : Dst E) = .shared s ↔ dst = some s := by
  cases dst <;> simp [orMake]

/-- **C52** (`Map`): `Map` panics exactly when a destination of another length is given;
otherwise the result holds the images of the elements of `src` in order, for every
destination safe with respect to `src`. -/
theorem C52_map [Inhabited E] (m : Mem E) (dst : Option Slice) (src : Slice) (f : E → E) (hs : Safe dst src) :
    (map m dst src f = none ↔ ∃ d, dst = some d ∧ d.len ≠ src.len) ∧
    ∀ r, map m dst src f = some r →
      r.2.contents r.1 = (m.contents src).map f ∧
      ∀ a, (∀ d, dst = some d → a < d.base ∨ d.base + d.len ≤ a) → r.1 a = m a := by
  have hlen : src.len ≠ (orMake dst src.len : Dst E).len ↔ ∃ d, dst = some d ∧ d.len ≠ src.len := by
    cases dst with
    | none => simp [orMake, Dst.len]
    | some d => simp [orMake, Dst.len, eq_comm]
  unfold map
  by_cases h : src.len ≠ (orMake dst src.len : Dst E).len
  · rw [if_pos h]
    exact ⟨⟨fun _ => hlen.mp h, fun _ => rfl⟩, fun r hr => by simp at hr⟩
  · rw [if_neg h]
    refine ⟨⟨fun hc => by simp at hc, fun hc => absurd (hlen.mpr hc) h⟩, ?_⟩
    intro r hr
    simp only [Option.some.injEq] at hr
    subst hr
    obtain ⟨e1, e2⟩ := mapLoop_spec f src src.len 0 (by omega) m (orMake dst src.len) (by simpa [eq_comm] using h)
      (fun s hsh => hs s (orMake_shared.mp hsh))
    refine ⟨by simpa [Mem.contents] using e1, ?_⟩
    intro a ha
    exact e2 a (fun s hsh => ha s (orMake_shared.mp hsh))

theorem contents_length (m : Mem E) (d : Dst E) : (d.contents m).length = d.len := by
  cases d <;> simp [Dst.contents, Dst.len, Mem.contents]

/-- All indices are positions of the source, and they increase strictly. -/
def Valid (src : Slice) (indices : List Int) : Prop :=
  indices.Pairwise (· < ·) ∧ ∀ v ∈ indices, 0 ≤ v ∧ v < src.len

theorem valid_cons_cons {src : Slice} {a b : Int} {l : List Int} :
    Valid src (a :: b :: l) ↔ a < b ∧ (0 ≤ a ∧ a < src.len) ∧ Valid src (b :: l) := by
  unfold Valid
  simp only [List.pairwise_cons, List.mem_cons, forall_eq_or_imp]
  constructor
  · rintro ⟨⟨⟨h1, -⟩, h2⟩, h3, h4⟩
    exact ⟨h1, h3, h2, h4⟩
  · rintro ⟨h1, h3, ⟨h2, h2'⟩, h4⟩
    exact ⟨⟨⟨h1, fun c hc => Int.lt_trans h1 (h2 c hc)⟩, h2, h2'⟩, h3, h4⟩

theorem takeLoop_spec (src : Slice) (vs : List Int) (i : Nat) (v0 : Int) (m : Mem E) (d : Dst E)
    (hd : d.len = i + vs.length) (hi : 1 ≤ i) (hv : (i : Int) - 1 ≤ v0)
    (hsafe : ∀ s, d = .shared s → s.base ≤ src.base ∨ src.base + src.len ≤ s.base) :
    (Valid src (v0 :: vs) ↔ (takeLoop src i v0 vs m d).isSome) ∧
    ∀ r, takeLoop src i v0 vs m d = some r →
      r.2.contents r.1 = (d.contents m).take (i - 1) ++ (v0 :: vs).map (fun v => m (src.base + v.toNat)) ∧
      ∀ a, (∀ s, d = .shared s → a < s.base ∨ s.base + s.len ≤ a) → r.1 a = m a := by
  induction vs generalizing i v0 m d with
  | nil =>
    unfold takeLoop load
    by_cases h : 0 ≤ v0 ∧ v0 < src.len
    · rw [if_pos h]
      refine ⟨by simp [Valid, h], ?_⟩
      intro r hr
      simp only [Option.some.injEq] at hr
      subst hr
      refine ⟨?_, ?_⟩
      · have hl := contents_length m d
        simp only [List.length_nil, Nat.add_zero] at hd
        rw [store_contents _ _ _ _ (by omega)]
        obtain ⟨k, rfl⟩ : ∃ k, i = k + 1 := ⟨i - 1, by omega⟩
        simp only [Nat.add_sub_cancel]
        have : (d.contents m).set k (m (src.base + v0.toNat)) =
            ((d.contents m).set k (m (src.base + v0.toNat))).take (k + 1) := by
          rw [List.take_of_length_le (by simp; omega)]
        rw [this, List.take_succ_eq_append_getElem (by simp; omega), List.take_set_of_le (Nat.le_refl k)]
        simp
      · intro a ha
        apply store_mem
        intro s hs
        have := ha s hs
        subst hs
        simp only [Dst.len, List.length_nil, Nat.add_zero] at hd
        omega
    · rw [if_neg h]
      refine ⟨by simp [Valid]; omega, ?_⟩
      intro r hr
      simp at hr
  | cons v1 vs ih =>
    rw [valid_cons_cons]
    unfold takeLoop
    by_cases hlt : v0 < v1
    · rw [if_pos hlt]
      unfold load
      by_cases h : 0 ≤ v0 ∧ v0 < src.len
      · rw [if_pos h]
        simp only [List.length_cons] at hd
        obtain ⟨e1, e2⟩ := ih (i + 1) v1 (store m d (i - 1) (m (src.base + v0.toNat))).1
          (store m d (i - 1) (m (src.base + v0.toNat))).2 (by rw [store_len]; omega) (by omega) (by omega)
          (fun s hs => hsafe s ((store_shared ..).mp hs))
        refine ⟨by simp only; rw [← e1]; tauto, ?_⟩
        intro r hr
        simp only at hr
        have hval : Valid src (v1 :: vs) := e1.mpr (by rw [hr]; rfl)
        obtain ⟨f1, f2⟩ := e2 r hr
        refine ⟨?_, ?_⟩
        · rw [f1, store_contents _ _ _ _ (by omega)]
          have hl := contents_length m d
          obtain ⟨k, rfl⟩ : ∃ k, i = k + 1 := ⟨i - 1, by omega⟩
          simp only [Nat.add_sub_cancel]
          rw [List.take_succ_eq_append_getElem (by simp; omega), List.take_set_of_le (Nat.le_refl k)]
          simp only [List.getElem_set_self, List.append_assoc, List.singleton_append]
          congr 1
          rw [List.map_cons (a := v0)]
          congr 1
          apply List.map_congr_left
          intro v hvm
          apply store_mem
          intro s hs
          have h1 := hsafe s hs
          have h2 := hval.2 v hvm
          have h3 : v1 ≤ v := by
            rcases List.mem_cons.mp hvm with rfl | hvm
            · exact Int.le_refl _
            · exact Int.le_of_lt ((List.pairwise_cons.mp hval.1).1 v hvm)
          omega
        · intro a ha
          rw [f2 a (fun s hs => ha s ((store_shared ..).mp hs))]
          apply store_mem
          intro s hs
          have := ha s hs
          subst hs
          simp only [Dst.len] at hd
          omega
      · rw [if_neg h]
        refine ⟨by simp [h], ?_⟩
        intro r hr
        simp at hr
    · rw [if_neg hlt]
      refine ⟨by simp [hlt], ?_⟩
      intro r hr
      simp at hr

theorem valid_length {src : Slice} {l : List Int} (h : Valid src l) : l.length ≤ src.len := by
  -- strictly increasing non-negative integers: element k is at least k
  have key : ∀ (l : List Int) (b : Int), l.Pairwise (· < ·) → (∀ v ∈ l, b ≤ v ∧ v < src.len) → b ≤ src.len →
      (l.length : Int) ≤ src.len - b := by
    intro l
    induction l with
    | nil => intro b _ _ hb; simp; omega
    | cons a l ih =>
      intro b hp hr hb
      have ha := hr a (by simp)
      have hp' := List.pairwise_cons.mp hp
      have := ih (a + 1) hp'.2 (fun v hv => ⟨by have := hp'.1 v hv; omega, (hr v (by simp [hv])).2⟩) (by omega)
      simp only [List.length_cons]
      omega
  have := key l 0 h.1 h.2 (by omega)
  omega

/-- **C52** (`Take`): `Take` succeeds exactly when the indices increase strictly and are all
positions of `src`, and the destination, if any, has as many elements as there are
indices; unsorted, duplicate, negative and too large indices are refused.  The result
then holds the elements at the given positions, for every destination safe with respect
to `src`, and the memory outside the destination is not touched. -/
theorem C52_take [Inhabited E] (m : Mem E) (dst : Option Slice) (src : Slice) (indices : List Int)
    (hs : Safe dst src) :
    ((take m dst src indices).isSome ↔
      (Valid src indices ∧ ∀ d, dst = some d → d.len = indices.length)) ∧
    ∀ r, take m dst src indices = some r →
      Picks (m.contents src) indices (r.2.contents r.1) ∧
      ∀ a, (∀ d, dst = some d → a < d.base ∨ d.base + d.len ≤ a) → r.1 a = m a := by
  have hlen : (orMake dst indices.length : Dst E).len ≠ indices.length ↔
      ¬ ∀ d, dst = some d → d.len = indices.length := by
    cases dst with
    | none => simp [orMake, Dst.len]
    | some d => simp [orMake, Dst.len]
  unfold take
  by_cases h1 : indices.length > src.len
  · rw [if_pos h1]
    refine ⟨⟨fun h => by simp at h, fun h => ?_⟩, fun r hr => by simp at hr⟩
    have := valid_length h.1
    omega
  rw [if_neg h1]
  by_cases h2 : (orMake dst indices.length : Dst E).len ≠ indices.length
  · rw [if_pos h2]
    exact ⟨⟨fun h => by simp at h, fun h => absurd h.2 (hlen.mp h2)⟩, fun r hr => by simp at hr⟩
  rw [if_neg h2]
  have hok : ∀ d, dst = some d → d.len = indices.length := not_not.mp (fun h => h2 (hlen.mpr h))
  cases indices with
  | nil =>
    refine ⟨by simp [Valid]; exact fun d hd => by simpa using hok d hd, ?_⟩
    intro r hr
    simp only [Option.some.injEq] at hr
    subst hr
    refine ⟨⟨?_, by simp⟩, fun a _ => rfl⟩
    rw [contents_length]
    cases dst with
    | none => simp [orMake, Dst.len]
    | some d => simpa [orMake, Dst.len] using hok d rfl
  | cons v vs =>
    simp only [List.length_cons] at h2 hok hlen
    have hdl : (orMake dst (vs.length + 1) : Dst E).len = vs.length + 1 := not_not.mp h2
    simp only
    unfold load
    by_cases h : 0 ≤ v ∧ v < src.len
    · rw [if_pos h]
      simp only
      have hsh : ∀ s, (store m (orMake dst (vs.length + 1)) 0 (m (src.base + v.toNat))).2 = .shared s → dst = some s :=
        fun s hs' => orMake_shared.mp ((store_shared ..).mp hs')
      obtain ⟨e1, e2⟩ := takeLoop_spec src vs 1 v (store m (orMake dst (vs.length + 1)) 0 (m (src.base + v.toNat))).1
        (store m (orMake dst (vs.length + 1)) 0 (m (src.base + v.toNat))).2
        (by rw [store_len, hdl]; omega) (by omega) (by omega) (fun s hs' => hs s (hsh s hs'))
      refine ⟨by rw [← e1]; exact ⟨fun hv => ⟨hv, by simpa using hok⟩, fun hv => hv.1⟩, ?_⟩
      intro r hr
      have hval : Valid src (v :: vs) := e1.mpr (by rw [hr]; rfl)
      obtain ⟨f1, f2⟩ := e2 r hr
      -- the first store does not change what is read from the source
      have hread : ∀ w ∈ v :: vs, (store m (orMake dst (vs.length + 1)) 0 (m (src.base + v.toNat))).1 (src.base + w.toNat) =
          m (src.base + w.toNat) := by
        intro w hw
        cases dst with
        | none => rfl
        | some d =>
          simp only [orMake, store, Mem.upd, Nat.add_zero]
          split
          · rename_i he
            have h3 := hs d rfl
            have h4 := hval.2 w hw
            have h5 : v ≤ w := by
              rcases List.mem_cons.mp hw with rfl | hw
              · exact Int.le_refl _
              · exact Int.le_of_lt ((List.pairwise_cons.mp hval.1).1 w hw)
            have : v.toNat = w.toNat := by omega
            rw [this]
          · rfl
      refine ⟨⟨?_, ?_⟩, ?_⟩
      · rw [f1]; simp
      · intro k w hk
        have hw : w ∈ v :: vs := List.mem_of_getElem? hk
        have hr := hval.2 w hw
        refine ⟨hr.1, m (src.base + w.toNat), ?_, ?_⟩
        · rw [Mem.contents, read_getElem?, if_pos (by omega)]
        · rw [f1]
          simp only [Nat.sub_self, List.take_zero, List.nil_append]
          rw [List.getElem?_map, hk, Option.map_some, hread w hw]
      · intro a ha
        rw [f2 a (fun s hs' => ha s (hsh s hs'))]
        apply store_mem
        intro s hs'
        have hds := orMake_shared.mp hs'
        have := ha s hds
        have := hok s hds
        omega
    · rw [if_neg h]
      refine ⟨⟨fun hc => by simp at hc, fun hc => ?_⟩, fun r hr => by simp at hr⟩
      exact absurd (hc.1.2 v (by simp)) h

/-- **C52** (`Resize`): a negative size is refused; otherwise the result has the requested
length, its elements are those of the slice as far as both go, and elements that did not
fit in the capacity are zero values. -/
theorem C52_resize [Inhabited E] (m : Mem E) (s : Slice) (n : Int) (hcap : s.len ≤ s.cap) :
    (resize m s n = none ↔ n < 0) ∧
    ∀ r, resize m s n = some r →
      ((r.contents m).length : Int) = n ∧
      (∀ i : Nat, i < s.len → (i : Int) < n → (r.contents m)[i]? = (m.contents s)[i]?) ∧
      (∀ i : Nat, s.cap ≤ i → (i : Int) < n → (r.contents m)[i]? = some default) := by
  unfold resize
  by_cases h : (s.cap : Int) < n
  · rw [if_pos h]
    refine ⟨⟨fun hc => by simp at hc, fun hc => by omega⟩, ?_⟩
    intro r hr
    simp only [Option.some.injEq] at hr
    subst hr
    refine ⟨?_, ?_, ?_⟩
    · simp only [Dst.contents, List.length_append, read_length, List.length_replicate]
      omega
    · intro i h1 h2
      simp only [Dst.contents]
      rw [List.getElem?_append_left (by simp; omega), Mem.contents, read_getElem?, read_getElem?,
        if_pos (by omega), if_pos h1]
    · intro i h1 h2
      simp only [Dst.contents]
      rw [List.getElem?_append_right (by simpa using h1), List.getElem?_replicate, if_pos]
      simp only [read_length]
      omega
  · rw [if_neg h]
    by_cases hn : n < 0
    · rw [if_pos hn]
      exact ⟨⟨fun _ => hn, fun _ => rfl⟩, fun r hr => by simp at hr⟩
    · rw [if_neg hn]
      refine ⟨⟨fun hc => by simp at hc, fun hc => absurd hc hn⟩, ?_⟩
      intro r hr
      simp only [Option.some.injEq] at hr
      subst hr
      refine ⟨?_, ?_, fun i h1 h2 => by omega⟩
      · simp only [Dst.contents, Mem.contents, read_length]; omega
      · intro i h1 h2
        simp only [Dst.contents, Mem.contents]
        rw [read_getElem?, read_getElem?, if_pos (by omega), if_pos h1]

/-! ## Examples -/

/-- Cells holding their own address. -/
def addrMem : Mem Int := fun a => a

/-- Filtering in place. -/
example : (filter addrMem (some ⟨2, 3, 6⟩) ⟨2, 5, 6⟩ (fun x => x % 2 == 0)).2.contents
    (filter addrMem (some ⟨2, 3, 6⟩) ⟨2, 5, 6⟩ (fun x => x % 2 == 0)).1 = [2, 4, 6] :=
  (C52_filter addrMem (some ⟨2, 3, 6⟩) ⟨2, 5, 6⟩ _ (by intro d hd; cases hd; simp)).1.trans (by decide)

/-- A destination with too little capacity. -/
example : (filter addrMem (some ⟨0, 1, 1⟩) ⟨2, 5, 6⟩ (fun x => x % 2 == 0)).2.contents
    (filter addrMem (some ⟨0, 1, 1⟩) ⟨2, 5, 6⟩ (fun x => x % 2 == 0)).1 = [2, 4, 6] := by decide

/-- A destination inside the source, after its start, is not safe: elements are overwritten
before they are read. -/
theorem C52_overlap_counterexample :
    (filter addrMem (some ⟨3, 0, 5⟩) ⟨2, 4, 6⟩ (fun _ => true)).2.contents
      (filter addrMem (some ⟨3, 0, 5⟩) ⟨2, 4, 6⟩ (fun _ => true)).1 = [2, 2, 2, 2] ∧
    (addrMem.contents ⟨2, 4, 6⟩).filter (fun _ => true) = [2, 3, 4, 5] := by decide

example : ((take addrMem (some ⟨2, 2, 5⟩) ⟨2, 5, 5⟩ [1, 3]).map fun r => r.2.contents r.1) = some [3, 5] := by decide
example : Valid ⟨2, 5, 5⟩ [1, 3] := ⟨by decide, by decide⟩
example : take addrMem none ⟨2, 5, 5⟩ [3, 1] = none := by rfl
example : take addrMem none ⟨2, 5, 5⟩ [1, 1] = none := by rfl
example : take addrMem none ⟨2, 5, 5⟩ [1, 5] = none := by rfl
example : ((map addrMem (some ⟨2, 3, 5⟩) ⟨2, 3, 5⟩ (· * 10)).map fun r => r.2.contents r.1) = some [20, 30, 40] := by decide
example : find [4, 7, 6] (fun x => x % 2 == 0) = [0, 2] := by decide
example : (findInts addrMem none ⟨4, 3, 3⟩ (fun x => x % 2 == 0)).2.contents addrMem = [0, 2] := by decide
example : ((resize addrMem ⟨2, 2, 3⟩ 5).map fun r => r.contents addrMem) = some [2, 3, 4, 0, 0] := by decide

end Verif.SliceOp
