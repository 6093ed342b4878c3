import Verif.Riofs.NameCycle

/-!
# Properties of name;cycle parsing and of Get/Put (C09, C11)
-/

namespace Verif.Riofs

/-- "name;cycle" as printed by the library (`%s;%d`). -/
def nameCycle (name : List UInt8) (c : Int) : List UInt8 := name ++ 59 :: intEnc c

/-- **C09** (part): parsing a formatted name;cycle gives back both; a bare name
selects the reserved cycle 9999 meaning "highest". -/
theorem C09_parse_format_partial (name : List UInt8) (hn : (59 : UInt8) ∉ name) (c : Int)
    (h1 : -32768 ≤ c) (h2 : c ≤ 32767) :
    decodeNameCycle (nameCycle name c) = some (name, c) ∧ decodeNameCycle name = some (name, 9999) := by
  constructor
  · unfold decodeNameCycle nameCycle
    rw [splitOn_append _ _ _ hn, splitOn_no_sep _ _ (not_mem_intEnc (by decide) (by decide) c)]
    simp only [atoi_intEnc c (by omega) (by omega)]
    rw [Int.bmod_def]
    simp; omega
  · unfold decodeNameCycle
    rw [splitOn_no_sep _ _ hn]

/-- Two formatted name;cycle strings parse to the same result only if they are the same. -/
theorem C09_parse_injective_partial (n1 n2 : List UInt8) (h1 : (59 : UInt8) ∉ n1) (h2 : (59 : UInt8) ∉ n2)
    (c1 c2 : Int) (hc1 : -32768 ≤ c1 ∧ c1 ≤ 32767) (hc2 : -32768 ≤ c2 ∧ c2 ≤ 32767)
    (h : decodeNameCycle (nameCycle n1 c1) = decodeNameCycle (nameCycle n2 c2)) : n1 = n2 ∧ c1 = c2 := by
  rw [(C09_parse_format_partial n1 h1 c1 hc1.1 hc1.2).1, (C09_parse_format_partial n2 h2 c2 hc2.1 hc2.2).1] at h
  simpa using h

/-- "foo;12". -/
example : decodeNameCycle [102, 111, 111, 59, 49, 50] = some ([102, 111, 111], 12) := by decide

/-- Cycle numbers that are not 16-bit are silently reduced modulo 2^16: "a;65537" is
cycle 1 of "a"; a malformed cycle is taken as "highest"; a second ';' panics. -/
theorem C09_aliasing_counterexample :
    decodeNameCycle [97, 59, 54, 53, 53, 51, 55] = some ([97], 1) ∧
    decodeNameCycle [97, 59, 120] = some ([97], 9999) ∧
    decodeNameCycle [97, 59, 98, 59, 49] = none := by decide

/-! ### Helpers on `maxCycle` and `scanCycle` -/

theorem maxCycle_some {Obj : Type} (ks : List (DKey Obj)) (h : ks ≠ []) :
    ∃ m, maxCycle ks = some m ∧ m ∈ ks ∧ ∀ k ∈ ks, k.cycle ≤ m.cycle := by
  induction ks with
  | nil => exact absurd rfl h
  | cons k ks ih =>
    by_cases hk : ks = []
    · subst hk
      exact ⟨k, rfl, by simp, by simp⟩
    · obtain ⟨m, e, hm, hmax⟩ := ih hk
      simp only [maxCycle, e]
      split
      · refine ⟨k, rfl, by simp, ?_⟩
        intro x hx
        rcases List.mem_cons.mp hx with rfl | hx
        · exact Int.le_refl _
        · have := hmax x hx; omega
      · refine ⟨m, rfl, by simp [hm], ?_⟩
        intro x hx
        rcases List.mem_cons.mp hx with rfl | hx
        · omega
        · exact hmax x hx

theorem scanCycle_some {Obj : Type} (name cls : List UInt8) (ks : List (DKey Obj)) (c : Int)
    (hcls : ∀ k ∈ ks, k.name = name → k.cls = cls) :
    ∃ m, scanCycle name cls ks c = some m ∧ c ≤ m ∧ (∀ k ∈ ks, k.name = name → k.cycle ≤ m) ∧
      (m = c ∨ ∃ k ∈ ks, k.name = name ∧ k.cycle = m) := by
  induction ks generalizing c with
  | nil => exact ⟨c, rfl, Int.le_refl _, by simp, Or.inl rfl⟩
  | cons k ks ih =>
    have hcls' : ∀ k ∈ ks, k.name = name → k.cls = cls := fun x hx => hcls x (by simp [hx])
    simp only [scanCycle]
    by_cases hn : k.name = name
    · simp only [hn, ne_eq, not_true_eq_false, if_false, hcls k (by simp) hn]
      obtain ⟨m, e, h1, h2, h3⟩ := ih (if k.cycle > c then k.cycle else c) hcls'
      refine ⟨m, e, ?_, ?_, ?_⟩
      · split at h1 <;> omega
      · intro x hx hxn
        rcases List.mem_cons.mp hx with rfl | hx
        · split at h1 <;> omega
        · exact h2 x hx hxn
      · rcases h3 with h3 | ⟨x, hx, hxn, hxc⟩
        · split at h3
          · exact Or.inr ⟨k, by simp, hn, h3.symm⟩
          · exact Or.inl h3
        · exact Or.inr ⟨x, by simp [hx], hxn, hxc⟩
    · simp only [ne_eq, hn, not_false_eq_true, if_true]
      obtain ⟨m, e, h1, h2, h3⟩ := ih c hcls'
      refine ⟨m, e, h1, ?_, ?_⟩
      · intro x hx hxn
        rcases List.mem_cons.mp hx with rfl | hx
        · exact absurd hxn hn
        · exact h2 x hx hxn
      · rcases h3 with h3 | ⟨x, hx, hxn, hxc⟩
        · exact Or.inl h3
        · exact Or.inr ⟨x, by simp [hx], hxn, hxc⟩

/-! ### C11 -/

/-- What a directory holds, seen through its API: the objects by name and cycle. -/
def Holds {Obj : Type} (keys : List (DKey Obj)) (name : List UInt8) (c : Int) (o : Obj) : Prop :=
  ∃ k ∈ keys, k.name = name ∧ k.cycle = c ∧ k.obj = o

/-- No (name, cycle) pair occurs twice, cycles are 16-bit. -/
def Distinct {Obj : Type} (keys : List (DKey Obj)) : Prop :=
  keys.Pairwise (fun a b => ¬ (a.name = b.name ∧ a.cycle = b.cycle)) ∧
  ∀ k ∈ keys, -32768 ≤ k.cycle ∧ k.cycle ≤ 32767

theorem pairwise_eq {α : Type} {R : α → α → Prop} {l : List α} (h : l.Pairwise R)
    (hsymm : ∀ a b, R a b → R b a) {a b : α} (ha : a ∈ l) (hb : b ∈ l) (hr : ¬ R a b) : a = b := by
  induction l with
  | nil => simp at ha
  | cons c l ih =>
    have h' := List.pairwise_cons.mp h
    rcases List.mem_cons.mp ha with rfl | ha' <;> rcases List.mem_cons.mp hb with rfl | hb'
    · rfl
    · exact absurd (h'.1 b hb') hr
    · exact absurd (hsymm _ _ (h'.1 a ha')) hr
    · exact ih h'.2 ha' hb'

/-- Lookup of a specific cycle finds exactly the object held under it. -/
theorem get_cycle {Obj : Type} (keys : List (DKey Obj)) (hd : Distinct keys) (name : List UInt8)
    (hn : (59 : UInt8) ∉ name) (c : Int) (h1 : -32768 ≤ c) (h2 : c ≤ 32767) (h9 : c ≠ 9999) (o : Obj) :
    get keys (nameCycle name c) = .found o ↔ Holds keys name c o := by
  unfold get
  rw [(C09_parse_format_partial name hn c h1 h2).1]
  simp only [ne_eq, h9, not_false_eq_true, if_true]
  cases hf : keys.find? (fun k => decide (k.name = name ∧ k.cycle = c)) with
  | none =>
    simp only [reduceCtorEq, false_iff]
    rintro ⟨k, hk, hkn, hkc, _⟩
    have := List.find?_eq_none.mp hf k hk
    simp [hkn, hkc] at this
  | some k =>
    have hk := List.mem_of_find?_eq_some hf
    have hp := List.find?_some hf
    simp only [decide_eq_true_eq] at hp
    simp only [GetResult.found.injEq]
    constructor
    · rintro rfl; exact ⟨k, hk, hp.1, hp.2, rfl⟩
    · rintro ⟨k', hk', hn', hc', rfl⟩
      have := pairwise_eq hd.1 (fun a b h hh => h ⟨hh.1.symm, hh.2.symm⟩) hk hk'
        (by simp [hp.1, hp.2, hn', hc'])
      rw [this]

/-- Lookup of a bare name finds the object of the highest cycle. -/
theorem get_bare {Obj : Type} (keys : List (DKey Obj)) (hd : Distinct keys) (name : List UInt8)
    (hn : (59 : UInt8) ∉ name) (o : Obj) :
    get keys name = .found o ↔
      ∃ c, Holds keys name c o ∧ ∀ c' o', Holds keys name c' o' → c' ≤ c := by
  unfold get
  have : decodeNameCycle name = some (name, 9999) := by
    unfold decodeNameCycle; rw [splitOn_no_sep _ _ hn]
  rw [this]
  simp only [ne_eq, not_true_eq_false, if_false]
  by_cases he : keys.filter (fun k => decide (k.name = name)) = []
  · rw [he]
    simp only [maxCycle, reduceCtorEq, false_iff]
    rintro ⟨c, ⟨k, hk, hkn, _⟩, _⟩
    have : k ∈ keys.filter (fun k => decide (k.name = name)) := List.mem_filter.mpr ⟨hk, by simpa using hkn⟩
    rw [he] at this
    simp at this
  · obtain ⟨m, e, hm, hmax⟩ := maxCycle_some _ he
    rw [e]
    have hm' := List.mem_filter.mp hm
    have hmn : m.name = name := by simpa using hm'.2
    simp only [GetResult.found.injEq]
    constructor
    · rintro rfl
      refine ⟨m.cycle, ⟨m, hm'.1, hmn, rfl, rfl⟩, ?_⟩
      rintro c' o' ⟨k, hk, hkn, hkc, _⟩
      have := hmax k (List.mem_filter.mpr ⟨hk, by simpa using hkn⟩)
      omega
    · rintro ⟨c, ⟨k, hk, hkn, hkc, rfl⟩, hmx⟩
      have h1 := hmax k (List.mem_filter.mpr ⟨hk, by simpa using hkn⟩)
      have h2 := hmx m.cycle m.obj ⟨m, hm'.1, hmn, rfl, rfl⟩
      have : m = k := pairwise_eq hd.1 (fun a b h hh => h ⟨hh.1.symm, hh.2.symm⟩) hm'.1 hk
        (by
          have : m.cycle = k.cycle := by omega
          simp [hmn, hkn, this])
      rw [this]

/-- **C11** (part): on a directory with distinct (name, cycle) pairs, putting an
object under a name without ';' and '/' whose existing keys have the same class and
a highest cycle below 32767 succeeds; the new directory holds exactly what it held
before plus the new object under the next cycle; the bare name gives the new
object; every lookup of another name or of another cycle of this name gives what it
gave before; and (name, cycle) pairs remain distinct. -/
theorem C11_put_get_partial {Obj : Type} (keys : List (DKey Obj)) (hd : Distinct keys)
    (name objName cls keyCls : List UInt8) (obj : Obj)
    (hne : name ≠ []) (hsemi : (59 : UInt8) ∉ name) (hslash : (47 : UInt8) ∉ name)
    (hcls : ∀ k ∈ keys, k.name = name → k.cls = cls)
    (hmax : ∀ k ∈ keys, k.name = name → k.cycle < 32767) :
    ∃ keys' c, put keys name objName cls keyCls obj = some keys' ∧ Distinct keys' ∧
      -- next cycle: above all existing ones, and immediately above the highest
      (∀ c' o', Holds keys name c' o' → c' < c) ∧
      (c = 1 ∨ ∃ o', Holds keys name (c - 1) o') ∧
      (∀ n' c' o', Holds keys' n' c' o' ↔ Holds keys n' c' o' ∨ (n' = name ∧ c' = c ∧ o' = obj)) ∧
      get keys' name = .found obj ∧
      (∀ n' c' : _, (59 : UInt8) ∉ n' → -32768 ≤ c' → c' ≤ 32767 → c' ≠ 9999 → (n', c') ≠ (name, c) →
        get keys' (nameCycle n' c') = get keys (nameCycle n' c')) ∧
      (∀ n', (59 : UInt8) ∉ n' → n' ≠ name → get keys' n' = get keys n') := by
  obtain ⟨m, e, h0, h1, h2⟩ := scanCycle_some name cls keys 0 hcls
  have hm : m < 32767 := by
    rcases h2 with rfl | ⟨k, hk, hkn, hkc⟩
    · omega
    · rw [← hkc]; exact hmax k hk hkn
  have hwrap : Int.bmod (m + 1) (2 ^ 16) = m + 1 := by
    rw [Int.bmod_def]; simp; omega
  have hput : put keys name objName cls keyCls obj = some (keys ++ [⟨name, m + 1, keyCls, obj⟩]) := by
    unfold put
    simp [hslash, hne, e, hwrap]
  have hholds : ∀ n' c' o', Holds (keys ++ [⟨name, m + 1, keyCls, obj⟩]) n' c' o' ↔
      Holds keys n' c' o' ∨ (n' = name ∧ c' = m + 1 ∧ o' = obj) := by
    intro n' c' o'
    simp only [Holds, List.mem_append, List.mem_singleton, or_and_right, exists_or, exists_eq_left]
    constructor
    · rintro (h | ⟨rfl, rfl, rfl⟩)
      · exact Or.inl h
      · exact Or.inr ⟨rfl, rfl, rfl⟩
    · rintro (h | ⟨rfl, rfl, rfl⟩)
      · exact Or.inl h
      · exact Or.inr ⟨rfl, rfl, rfl⟩
  have hdist : Distinct (keys ++ [⟨name, m + 1, keyCls, obj⟩]) := by
    refine ⟨?_, ?_⟩
    · rw [List.pairwise_append]
      refine ⟨hd.1, by simp, ?_⟩
      intro a ha b hb
      simp only [List.mem_singleton] at hb
      subst hb
      rintro ⟨hn, hc⟩
      have := h1 a ha hn
      simp only at hc
      omega
    · intro k hk
      rcases List.mem_append.mp hk with hk | hk
      · exact hd.2 k hk
      · simp only [List.mem_singleton] at hk
        subst hk
        simp only; omega
  refine ⟨_, m + 1, hput, hdist, ?_, ?_, hholds, ?_, ?_, ?_⟩
  · rintro c' o' ⟨k, hk, hkn, rfl, _⟩
    have := h1 k hk hkn
    omega
  · rcases h2 with rfl | ⟨k, hk, hkn, hkc⟩
    · exact Or.inl (by omega)
    · exact Or.inr ⟨k.obj, k, hk, hkn, by omega, rfl⟩
  · rw [get_bare _ hdist name hsemi]
    refine ⟨m + 1, (hholds _ _ _).mpr (Or.inr ⟨rfl, rfl, rfl⟩), ?_⟩
    intro c' o' h
    rcases (hholds _ _ _).mp h with ⟨k, hk, hkn, hkc, _⟩ | ⟨_, rfl, _⟩
    · have := h1 k hk hkn
      omega
    · exact Int.le_refl _
  · intro n' c' hn' hc1 hc2 hc9 hne'
    unfold get
    rw [(C09_parse_format_partial n' hn' c' hc1 hc2).1]
    simp only [ne_eq, hc9, not_false_eq_true, if_true, List.find?_append]
    have : [(⟨name, m + 1, keyCls, obj⟩ : DKey Obj)].find? (fun k => decide (k.name = n' ∧ k.cycle = c')) = none := by
      rw [List.find?_eq_none]
      intro x hx
      simp only [List.mem_singleton] at hx
      subst hx
      simp only [decide_eq_true_eq]
      rintro ⟨rfl, rfl⟩
      exact hne' rfl
    rw [this, Option.or_none]
  · intro n' hn' hne'
    unfold get
    have : decodeNameCycle n' = some (n', 9999) := by
      unfold decodeNameCycle; rw [splitOn_no_sep _ _ hn']
    rw [this]
    simp only [ne_eq, not_true_eq_false, if_false, List.filter_append]
    have : [(⟨name, m + 1, keyCls, obj⟩ : DKey Obj)].filter (fun k => decide (k.name = n')) = [] := by
      rw [List.filter_eq_nil_iff]
      intro x hx
      simp only [List.mem_singleton] at hx
      subst hx
      simpa using fun h => hne' h.symm
    rw [this, List.append_nil]

/-- A directory with two cycles of "a" and one of "b" meets the hypotheses for "a". -/
example : let keys : List (DKey Nat) := [⟨[97], 1, [84], 10⟩, ⟨[98], 1, [85], 11⟩, ⟨[97], 2, [84], 12⟩]
    Distinct keys ∧ (∀ k ∈ keys, k.name = [97] → k.cls = [84]) ∧ (∀ k ∈ keys, k.name = [97] → k.cycle < 32767) ∧
    (put keys [97] [] [84] [84] 13).map (fun ks => get ks [97]) = some (.found 13) := by
  refine ⟨⟨by decide, by decide⟩, by decide, by decide, by decide⟩

/-- A key whose name contains ';' can be stored but not found again (the part after
';' is taken as a cycle), and two ';' make the lookup panic. -/
theorem C11_semicolon_counterexample :
    (put ([] : List (DKey Nat)) [97, 59, 98] [] [84] [84] 1).map (fun ks => get ks [97, 59, 98]) = some .noKey ∧
    (put ([] : List (DKey Nat)) [97, 59, 98, 59] [] [84] [84] 1).map (fun ks => get ks [97, 59, 98, 59]) = some .panic := by
  decide

/-- Cycle 9999 cannot be addressed once a higher cycle exists: "a;9999" gives cycle 10000. -/
theorem C11_cycle_9999_counterexample :
    let keys : List (DKey Nat) := [⟨[97], 9999, [84], 1⟩, ⟨[97], 10000, [84], 2⟩]
    Distinct keys ∧ Holds keys [97] 9999 1 ∧ get keys (nameCycle [97] 9999) = .found 2 := by
  refine ⟨⟨by decide, by decide⟩, ⟨⟨[97], 9999, [84], 1⟩, by simp, rfl, rfl, rfl⟩, by decide⟩

/-- After cycle 32767 the cycle number wraps to -32768: the bare name keeps giving
the old object. -/
theorem C11_cycle_wrap_counterexample :
    (put ([⟨[97], 32767, [84], 1⟩] : List (DKey Nat)) [97] [] [84] [84] 2).map (fun ks => get ks [97])
      = some (.found 1) := by decide

/-- A Go type whose class name is rewritten for ROOT (`keyCls ≠ cls`) cannot be put twice. -/
theorem C11_rewritten_class_counterexample (name cls keyCls : List UInt8) (h : keyCls ≠ cls)
    (hn : name ≠ []) (hs : (47 : UInt8) ∉ name) (o1 o2 : Nat) :
    ∃ keys, put [] name [] cls keyCls o1 = some keys ∧ put keys name [] cls keyCls o2 = none := by
  refine ⟨[⟨name, 1, keyCls, o1⟩], ?_, ?_⟩
  · simp [put, hs, hn, scanCycle]
  · simp [put, hs, hn, scanCycle, h]

end Verif.Riofs
