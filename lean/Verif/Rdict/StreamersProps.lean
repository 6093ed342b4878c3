import Verif.Rdict.Streamers
import Mathlib.Data.List.Sort
import Mathlib.Order.Basic

/-!
# Streamers are found (C173)
-/

namespace Verif.Rdict.Streamers

open Verif.Text

/-! ## Specification -/

/-- Some order of the map, sorted by version, as sort.Slice may leave it. -/
def SortsVers (srt : List SI → List SI) : Prop :=
  ∀ l, (srt l).Perm l ∧ (srt l).Pairwise fun a b => a.vers ≤ b.vers

/-- The order of Values: by name, then by version. -/
def NameVers (a b : SI) : Prop := a.name < b.name ∨ (a.name = b.name ∧ a.vers ≤ b.vers)

/-- The registry after a sequence of calls of Add. -/
def adds (l : List SI) : List SI := l.foldl add []

/-- A map has one value for each key. -/
def Keys (db : List SI) : Prop := db.Pairwise fun a b => ¬ (a.name = b.name ∧ a.vers = b.vers)

/-! ## The registry -/

theorem add_keys {db : List SI} (h : Keys db) (s : SI) : Keys (add db s) := by
  unfold Keys add
  rw [List.pairwise_append]
  refine ⟨h.filter _, List.pairwise_singleton _ _, ?_⟩
  intro a ha b hb
  rw [List.mem_singleton] at hb
  subst hb
  have := (List.mem_filter.1 ha).2
  rw [Bool.not_eq_true', decide_eq_false_iff_not] at this
  exact this

theorem foldl_keys (l : List SI) : ∀ db, Keys db → Keys (l.foldl add db) := by
  induction l with
  | nil => exact fun _ h => h
  | cons a t ih => exact fun db h => ih _ (add_keys h a)

theorem adds_keys (l : List SI) : Keys (adds l) := foldl_keys l [] List.Pairwise.nil

theorem uniq {db : List SI} (hdb : Keys db) : ∀ a ∈ db, ∀ b ∈ db, a.name = b.name → a.vers = b.vers → a = b := by
  induction db with
  | nil => intro a ha; cases ha
  | cons x t ih =>
    rw [Keys, List.pairwise_cons] at hdb
    intro a ha b hb hn hv
    rcases List.mem_cons.1 ha with ea | ha' <;> rcases List.mem_cons.1 hb with eb | hb'
    · exact ea.trans eb.symm
    · rw [ea] at hn hv
      exact absurd ⟨hn, hv⟩ (hdb.1 b hb')
    · rw [eb] at hn hv
      exact absurd ⟨hn.symm, hv.symm⟩ (hdb.1 a ha')
    · exact ih hdb.2 a ha' b hb' hn hv

theorem find_add (db : List SI) (s : SI) (c : List Char) (v : Int) :
    (add db s).find? (fun o => decide (o.name = c ∧ o.vers = v)) =
      if s.name = c ∧ s.vers = v then some s else db.find? fun o => decide (o.name = c ∧ o.vers = v) := by
  unfold add
  rw [List.find?_append]
  split
  · rename_i h
    have : (db.filter fun o => !decide (o.name = s.name ∧ o.vers = s.vers)).find?
        (fun o => decide (o.name = c ∧ o.vers = v)) = none := by
      rw [List.find?_eq_none]
      intro x hx
      have := (List.mem_filter.1 hx).2
      rw [h.1, h.2, Bool.not_eq_true', decide_eq_false_iff_not] at this
      rw [decide_eq_true_eq]
      exact this
    rw [this]
    simp [h]
  · rename_i h
    have h1 : [s].find? (fun o => decide (o.name = c ∧ o.vers = v)) = none := by simpa using h
    rw [h1, Option.or_none]
    induction db with
    | nil => rfl
    | cons a t ih =>
      by_cases hk : a.name = s.name ∧ a.vers = s.vers
      · have h2 : ¬ (a.name = c ∧ a.vers = v) := by rw [hk.1, hk.2]; exact h
        rw [List.filter_cons_of_neg (by simpa using hk), ih, List.find?_cons_of_neg (by simpa using h2)]
      · rw [List.filter_cons_of_pos (by rw [Bool.not_eq_true', decide_eq_false_iff_not]; exact hk)]
        by_cases h2 : a.name = c ∧ a.vers = v
        · rw [List.find?_cons_of_pos (by simpa using h2), List.find?_cons_of_pos (by simpa using h2)]
        · rw [List.find?_cons_of_neg (by simpa using h2), List.find?_cons_of_neg (by simpa using h2), ih]

/-- **C173** (versions): the streamer of a class with a given version is the one added last with this name and this
version, whatever was added before and between. -/
theorem C173_exact (srt : List SI → List SI) (l : List SI) (c : List Char) (v : Int) (hv : 0 ≤ v) :
    get srt (adds l) c v = l.reverse.find? fun s => decide (s.name = c ∧ s.vers = v) := by
  unfold get
  rw [if_neg (by omega)]
  have key : ∀ (l : List SI) (db : List SI),
      (l.foldl add db).find? (fun s => decide (s.name = c ∧ s.vers = v)) =
        (l.reverse.find? fun s => decide (s.name = c ∧ s.vers = v)).or
          (db.find? fun s => decide (s.name = c ∧ s.vers = v)) := by
    intro l
    induction l with
    | nil => intro db; simp
    | cons a t ih =>
      intro db
      rw [List.foldl_cons, ih, find_add, List.reverse_cons, List.find?_append, Option.or_assoc]
      congr 1
      by_cases h : a.name = c ∧ a.vers = v
      · simp [h]
      · have h1 : [a].find? (fun s => decide (s.name = c ∧ s.vers = v)) = none := by simpa using h
        rw [if_neg h, h1, Option.none_or]
  have := key l []
  simpa [adds] using this

/-- **C173** (latest): without version one gets one of the streamers for the class, and none has a greater version; there is
none only if there is no streamer for the class. -/
theorem C173_latest (srt : List SI → List SI) (hs : SortsVers srt) (db : List SI) (c : List Char) (v : Int) (hv : v < 0) :
    (∀ s, get srt db c v = some s → s ∈ db ∧ hit c s = true ∧ ∀ o ∈ db, o.name = c → o.vers ≤ s.vers) ∧
      (get srt db c v = none → ∀ o ∈ db, o.name ≠ c) := by
  unfold get
  rw [if_pos hv]
  obtain ⟨hperm, hsort⟩ := hs (db.filter (hit c))
  constructor
  · intro s h
    have hmem := List.mem_filter.1 (hperm.mem_iff.1 (List.mem_of_getLast? h))
    refine ⟨hmem.1, hmem.2, fun o ho hn => ?_⟩
    have hmo : o ∈ srt (db.filter (hit c)) := hperm.mem_iff.2 (List.mem_filter.2 ⟨ho, by simp [hit, hn]⟩)
    obtain ⟨pre, hpre⟩ := List.getLast?_eq_some_iff.1 h
    rw [hpre] at hmo hsort
    rcases List.mem_append.1 hmo with hm | hm
    · exact (List.pairwise_append.1 hsort).2.2 o hm s (List.mem_singleton.2 rfl)
    · rw [List.mem_singleton.1 hm]
  · intro h o ho hn
    have hnil := List.getLast?_eq_none_iff.1 h
    rw [hnil] at hperm
    have : o ∈ db.filter (hit c) := List.mem_filter.2 ⟨ho, by simp [hit, hn]⟩
    rw [List.nil_perm.1 hperm] at this
    cases this

/-! ## Names -/

theorem repl_chars (c : Char) : ∀ x ∈ repl c, x ≠ '.' ∧ x ≠ '/' ∧ x ≠ '-' := by
  unfold repl
  split
  · decide
  · split
    · decide
    · split
      · decide
      · rename_i h1 h2 h3
        intro x hx
        rw [List.mem_singleton] at hx
        subst hx
        exact ⟨h3, h2, h1⟩

theorem cxx_chars (n : List Char) : ∀ x ∈ goName2Cxx n, x ≠ '.' ∧ x ≠ '/' ∧ x ≠ '-' := by
  intro x hx
  unfold goName2Cxx at hx
  split at hx
  · obtain ⟨c, _, hc⟩ := List.mem_flatMap.1 hx
    exact repl_chars c x hc
  · split at hx
    · obtain ⟨c, _, hc⟩ := List.mem_flatMap.1 hx
      exact repl_chars c x hc
    · obtain ⟨c, _, hc⟩ := List.mem_flatMap.1 hx
      exact repl_chars c x hc

/-- **C173** (Go names): the title of a streamer, which has the name of the Go type, is of no use in the registry: for the
name of a Go type, with a package, only streamers whose name is this name itself are found. -/
theorem C173_goname (c : List Char) (h : '.' ∈ c ∨ '/' ∈ c ∨ '-' ∈ c) (s : SI) (hh : hit c s = true) : s.name = c := by
  unfold hit at hh
  by_contra hne
  simp only [hne, decide_false, Bool.false_or, Bool.and_eq_true, decide_eq_true_eq] at hh
  obtain ⟨⟨_, h2⟩, h3⟩ := hh
  unfold typename at h2 h3
  split at h2
  · cases h2
  · rename_i lang rest hc
    rw [hc] at h3
    simp only at h3
    split at h2
    · cases h2
    · rename_i hl
      rw [if_neg hl] at h3
      split at h2
      · rename_i hg
        rw [if_pos hg] at h3
        simp only [decide_eq_true_eq] at h2 h3
        rw [h3] at h2
        have := cxx_chars c
        rw [h2] at this
        rcases h with h | h | h
        · exact (this _ h).1 rfl
        · exact (this _ h).2.1 rfl
        · exact (this _ h).2.2 rfl
      · cases h2

/-- The Go name of a class is in the title, and is not found. -/
theorem C173_goname_counterexample (srt : List SI → List SI) (hs : SortsVers srt) :
    (typename "p::T".toList "Go;p.T".toList) = ("p.T".toList, true) ∧
      get srt (adds [⟨"p::T".toList, "Go;p.T".toList, 1, 0⟩]) "p.T".toList (-1) = none := by
  refine ⟨by decide, ?_⟩
  unfold get
  rw [if_pos (by decide)]
  have : (adds [⟨"p::T".toList, "Go;p.T".toList, 1, 0⟩]).filter (hit "p.T".toList) = [] := by decide
  rw [this]
  have := (hs []).1
  rw [List.perm_nil.1 this]
  rfl

theorem cxx_path (p t : List Char) (hp : p ≠ []) (ht : '.' ∉ t) :
    goName2Cxx (p ++ '.' :: t) = p.flatMap repl ++ [':', ':'] ++ t.flatMap repl := by
  unfold goName2Cxx
  rw [afterLast_eq p ht]
  have hl : p.length ≠ 0 := fun h => hp (List.length_eq_zero_iff.1 h)
  simp only [List.length_append, List.length_cons]
  rw [if_neg (by omega), show p.length + (t.length + 1) - t.length - 1 = p.length by omega, List.take_left' rfl]
  simp only [List.flatMap_append]
  rfl

theorem enc_inj : ∀ {a b : List Char}, (∀ x ∈ a, x ≠ ':' ∧ x ≠ '.' ∧ x ≠ '-') → (∀ x ∈ b, x ≠ ':' ∧ x ≠ '.' ∧ x ≠ '-') →
    a.flatMap repl = b.flatMap repl → a = b := by
  have one : ∀ x : Char, x ≠ ':' ∧ x ≠ '.' ∧ x ≠ '-' → (x = '/' ∧ repl x = [':', ':']) ∨ (x ≠ '/' ∧ repl x = [x]) := by
    intro x hx
    unfold repl
    rw [if_neg hx.2.2]
    by_cases h : x = '/'
    · exact Or.inl ⟨h, if_pos h⟩
    · right; rw [if_neg h, if_neg hx.2.1]; exact ⟨h, rfl⟩
  intro a
  induction a with
  | nil =>
    intro b _ hb h
    cases b with
    | nil => rfl
    | cons y t =>
      exfalso
      rw [List.flatMap_cons, List.flatMap_nil] at h
      rcases one y (hb y List.mem_cons_self) with ⟨_, e⟩ | ⟨_, e⟩ <;> rw [e] at h <;> simp at h
  | cons x s ih =>
    intro b ha hb h
    cases b with
    | nil =>
      exfalso
      rw [List.flatMap_cons, List.flatMap_nil] at h
      rcases one x (ha x List.mem_cons_self) with ⟨_, e⟩ | ⟨_, e⟩ <;> rw [e] at h <;> simp at h
    | cons y t =>
      have hx := ha x List.mem_cons_self
      have hy := hb y List.mem_cons_self
      rw [List.flatMap_cons, List.flatMap_cons] at h
      have key : x = y ∧ s.flatMap repl = t.flatMap repl := by
        rcases one x hx with ⟨ex, e⟩ | ⟨ex, e⟩ <;> rcases one y hy with ⟨ey, e'⟩ | ⟨ey, e'⟩ <;> rw [e, e'] at h
        · exact ⟨ex.trans ey.symm, by simpa using h⟩
        · simp only [List.cons_append, List.nil_append, List.cons.injEq] at h
          exact absurd h.1.symm hy.1
        · simp only [List.cons_append, List.nil_append, List.cons.injEq] at h
          exact absurd h.1 hx.1
        · simpa using h
      rw [key.1, ih (fun z hz => ha z (List.mem_cons_of_mem _ hz)) (fun z hz => hb z (List.mem_cons_of_mem _ hz)) key.2]

/-- **C173** (C++ names): Go types with different names have different C++ names, if the paths of their packages have no
dots, dashes or colons. Missing: other paths, see the counterexample. -/
theorem C173_cxx_partial (p t p' t' : List Char) (hp : p ≠ []) (hp' : p' ≠ [])
    (h1 : ∀ x ∈ p ++ t, x ≠ ':' ∧ x ≠ '.' ∧ x ≠ '-') (h2 : ∀ x ∈ p' ++ t', x ≠ ':' ∧ x ≠ '.' ∧ x ≠ '-')
    (ht : '/' ∉ t) (ht' : '/' ∉ t') (he : goName2Cxx (p ++ '.' :: t) = goName2Cxx (p' ++ '.' :: t')) :
    p = p' ∧ t = t' := by
  have a1 : '.' ∉ t := fun h => (h1 _ (List.mem_append_right _ h)).2.1 rfl
  have a2 : '.' ∉ t' := fun h => (h2 _ (List.mem_append_right _ h)).2.1 rfl
  rw [cxx_path p t hp a1, cxx_path p' t' hp' a2] at he
  have e : ∀ q u : List Char, q.flatMap repl ++ [':', ':'] ++ u.flatMap repl = (q ++ '/' :: u).flatMap repl := by
    intro q u
    rw [List.flatMap_append, List.flatMap_cons, List.append_assoc]
    rfl
  rw [e, e] at he
  have hq : ∀ q u : List Char, (∀ x ∈ q ++ u, x ≠ ':' ∧ x ≠ '.' ∧ x ≠ '-') →
      ∀ x ∈ q ++ '/' :: u, x ≠ ':' ∧ x ≠ '.' ∧ x ≠ '-' := by
    intro q u h x hx
    rcases List.mem_append.1 hx with hx | hx
    · exact h x (List.mem_append_left _ hx)
    · rcases List.mem_cons.1 hx with hx | hx
      · subst hx; decide
      · exact h x (List.mem_append_right _ hx)
  have heq := enc_inj (hq p t h1) (hq p' t' h2) he
  have hl := congrArg (afterLast '/') heq
  rw [afterLast_eq p ht, afterLast_eq p' ht', Option.some.injEq] at hl
  subst hl
  exact ⟨List.append_cancel_right heq, rfl⟩

/-- Two types of different packages have the same name. -/
theorem C173_cxx_counterexample : goName2Cxx "go-hep.org/x.T".toList = goName2Cxx "go_hep_org/x.T".toList ∧
    goName2Cxx "go-hep.org/x/hep/hbook.H1D".toList = "go_hep_org::x::hep::hbook::H1D".toList := by
  decide

/-! ## The answers do not depend on the order of the map -/

/-- **C173** (order): the latest streamer does not depend on the order of the map or on the sort, if all streamers for the
class have its name; by the theorem above this holds for the names of Go types. -/
theorem C173_order (s1 s2 : List SI → List SI) (h1 : SortsVers s1) (h2 : SortsVers s2) (l l' : List SI)
    (hp : (adds l).Perm l') (c : List Char) (v : Int) (hall : ∀ s ∈ adds l, hit c s = true → s.name = c) :
    get s1 (adds l) c v = get s2 l' c v := by
  have hk := adds_keys l
  by_cases hv : v < 0
  · obtain ⟨g1, n1⟩ := C173_latest s1 h1 (adds l) c v hv
    obtain ⟨g2, n2⟩ := C173_latest s2 h2 l' c v hv
    cases e1 : get s1 (adds l) c v with
    | none =>
      cases e2 : get s2 l' c v with
      | none => rfl
      | some b =>
        obtain ⟨hb, hh, _⟩ := g2 b e2
        exact absurd (hall b (hp.mem_iff.2 hb) hh) (n1 e1 b (hp.mem_iff.2 hb))
    | some a =>
      obtain ⟨ha, hh, hmax⟩ := g1 a e1
      have hna := hall a ha hh
      cases e2 : get s2 l' c v with
      | none => exact absurd hna (n2 e2 a (hp.mem_iff.1 ha))
      | some b =>
        obtain ⟨hb, hhb, hmaxb⟩ := g2 b e2
        have hb' := hp.mem_iff.2 hb
        have hnb := hall b hb' hhb
        rw [uniq hk a ha b hb' (hna.trans hnb.symm) (le_antisymm (hmaxb a (hp.mem_iff.1 ha) hna) (hmax b hb' hnb))]
  · unfold get
    rw [if_neg hv, if_neg hv]
    cases e1 : (adds l).find? (fun s => decide (s.name = c ∧ s.vers = v)) with
    | none =>
      rw [eq_comm, List.find?_eq_none]
      intro x hx
      exact List.find?_eq_none.1 e1 x (hp.mem_iff.2 hx)
    | some a =>
      have ha := List.mem_of_find?_eq_some e1
      have hpa : a.name = c ∧ a.vers = v := by simpa using List.find?_some e1
      cases e2 : l'.find? (fun s => decide (s.name = c ∧ s.vers = v)) with
      | none =>
        have := List.find?_eq_none.1 e2 a (hp.mem_iff.1 ha)
        exact absurd hpa (by simpa using this)
      | some b =>
        have hb := List.mem_of_find?_eq_some e2
        have hpb : b.name = c ∧ b.vers = v := by simpa using List.find?_some e2
        rw [uniq hk a ha b (hp.mem_iff.2 hb) (hpa.1.trans hpb.1.symm) (hpa.2.trans hpb.2.symm)]

/-- A sort. -/
def isort (l : List SI) : List SI := l.insertionSort fun a b => a.vers ≤ b.vers

theorem isort_sorts : SortsVers isort := by
  intro l
  have : Std.Total fun a b : SI => a.vers ≤ b.vers := ⟨fun a b => le_total _ _⟩
  have : IsTrans SI fun a b => a.vers ≤ b.vers := ⟨fun a b c h h' => le_trans h h'⟩
  exact ⟨List.perm_insertionSort _ _, List.pairwise_insertionSort _ _⟩

/-- With a title that names the class, the streamer of the class or that of another one is found, as the order of the map
is. -/
theorem C173_order_counterexample : ∃ a b : SI, a.name = "T".toList ∧ b.name ≠ "T".toList ∧
    get isort (adds [a, b]) "T".toList (-1) = some b ∧ get isort (adds [b, a]) "T".toList (-1) = some a ∧
    (adds [a, b]).Perm (adds [b, a]) := by
  exact ⟨⟨"T".toList, [], 1, 0⟩, ⟨"U".toList, "Go;T".toList, 1, 1⟩, rfl, by decide, by decide, by decide, by decide⟩

/-- **C173** (Values): all streamers, each once, sorted by name and version; the result does not depend on the order of
the map. -/
theorem C173_values (s1 s2 : List SI → List SI)
    (h1 : ∀ l, (s1 l).Perm l ∧ (s1 l).Pairwise NameVers) (h2 : ∀ l, (s2 l).Perm l ∧ (s2 l).Pairwise NameVers)
    (l l' : List SI) (hp : (adds l).Perm l') :
    values s1 (adds l) = values s2 l' ∧ (values s1 (adds l)).Perm (adds l) := by
  refine ⟨?_, (h1 _).1⟩
  have hk := adds_keys l
  refine List.Perm.eq_of_pairwise (le := NameVers) ?_ (h1 _).2 (h2 _).2 ((h1 _).1.trans (hp.trans (h2 _).1.symm))
  intro a b ha hb hab hba
  have hb' : b ∈ s1 (adds l) := (h1 _).1.mem_iff.2 (hp.mem_iff.2 ((h2 _).1.mem_iff.1 hb))
  have hkey : a.name = b.name ∧ a.vers = b.vers := by
    rcases hab with h | ⟨hn, hv⟩ <;> rcases hba with h' | ⟨hn', hv'⟩
    · exact absurd h' (List.lt_asymm h)
    · rw [hn'] at h; exact absurd h (List.lt_irrefl _)
    · rw [hn] at h'; exact absurd h' (List.lt_irrefl _)
    · exact ⟨hn, le_antisymm hv hv'⟩
  exact uniq hk a ((h1 _).1.mem_iff.1 ha) b ((h1 _).1.mem_iff.1 hb') hkey.1 hkey.2

/-! ## The streamers of a file -/

theorem mem_addStreamer (core : List Char → Bool) (st : St) (s : SI) (hc : core s.name = false) :
    s ∈ (addStreamer core st s).sinfos := by
  unfold addStreamer
  rw [hc, if_neg (by decide)]
  split
  · assumption
  · exact List.mem_append_right _ (List.mem_singleton.2 rfl)

theorem addStreamer_mono (core : List Char → Bool) (st : St) (s o : SI) (h : o ∈ st.sinfos) :
    o ∈ (addStreamer core st s).sinfos := by
  unfold addStreamer
  split
  · exact h
  · split
    · exact h
    · exact List.mem_append_left _ h

theorem addStreamer_db (core : List Char → Bool) (st : St) (s : SI) : (addStreamer core st s).db = st.db := by
  unfold addStreamer
  split
  · rfl
  · split <;> rfl

/-- **C173** (each once): no streamer is twice in a file. -/
theorem C173_once (core : List Char → Bool) (st : St) (h : st.sinfos.Nodup) (s : SI) :
    (addStreamer core st s).sinfos.Nodup := by
  unfold addStreamer
  split
  · exact h
  · split
    · exact h
    · rename_i hn
      rw [List.nodup_append]
      refine ⟨h, List.nodup_singleton _, ?_⟩
      intro a ha b hb e
      rw [List.mem_singleton] at hb
      subst hb; subst e
      exact hn ha

theorem streamerInfo_hit {srt : List SI → List SI} (hs : SortsVers srt) {st : St} {c : List Char} {v : Int} (hv : v < 0)
    {s : SI} (h : streamerInfo srt st c v = some s) : fileHit c s = true := by
  unfold streamerInfo at h
  split at h
  · cases h
  · split at h
    · rename_i he
      cases h
      exact List.find?_some he
    · have := ((C173_latest srt hs st.db c v hv).1 s h).2.1
      unfold hit at this
      unfold fileHit
      simp only [Bool.or_eq_true, Bool.and_eq_true] at this ⊢
      exact this.imp_right fun h => h.1.2

/-- **C173** (Put): after an object has been put into a file, there is a streamer of its class in the file: one with the C++
name of its class, or with its Go name in the title; and those that were there are still there. -/
theorem C173_put (core : List Char → Bool) (srt : List SI → List SI) (hs : SortsVers srt) (st st' : St) (cls : List Char)
    (vers : Int) (hc : core cls = false) (hcore : ∀ s, fileHit (goName2Cxx cls) s = true → core s.name = false)
    (h : putStreamer core srt st cls vers = some st') :
    (∃ s ∈ st'.sinfos, s.name = goName2Cxx cls ∨ (typename (goName2Cxx cls) s.title).2 = true) ∧
      (∀ o ∈ st.sinfos, o ∈ st'.sinfos) := by
  have fin : ∀ s, fileHit (goName2Cxx cls) s = true → s.name = goName2Cxx cls ∨ (typename (goName2Cxx cls) s.title).2 = true := by
    intro s hh
    simpa [fileHit] using hh
  unfold putStreamer at h
  rw [hc, if_neg (by decide)] at h
  split at h
  · rename_i s he
    cases h
    have hh := streamerInfo_hit hs (by decide) he
    exact ⟨⟨s, mem_addStreamer _ _ _ (hcore s hh), fin s hh⟩, fun o ho => addStreamer_mono _ _ _ _ ho⟩
  · rw [Option.bind_eq_some_iff] at h
    obtain ⟨st1, h1, h2⟩ := h
    rw [Option.map_eq_some_iff] at h2
    obtain ⟨s, he, rfl⟩ := h2
    have hh := streamerInfo_hit hs (by decide) he
    refine ⟨⟨s, mem_addStreamer _ _ _ (hcore s hh), fin s hh⟩, fun o ho => addStreamer_mono _ _ _ _ ?_⟩
    unfold infoFrom at h1
    rw [Option.map_eq_some_iff] at h1
    obtain ⟨s', _, rfl⟩ := h1
    exact addStreamer_mono _ _ _ _ ho

theorem addDeps_mono (core skip : List Char → Bool) (srt : List SI → List SI) : ∀ (ds : List (List Char × Int)) (st st' : St),
    addDeps core skip srt st ds = some st' → st'.db = st.db ∧ ∀ o ∈ st.sinfos, o ∈ st'.sinfos := by
  intro ds
  induction ds with
  | nil => intro st st' h; cases h; exact ⟨rfl, fun _ h => h⟩
  | cons d ds ih =>
    intro st st' h
    rw [addDeps] at h
    split at h
    · exact ih st st' h
    · rw [Option.bind_eq_some_iff] at h
      obtain ⟨s, _, h⟩ := h
      obtain ⟨h1, h2⟩ := ih _ _ h
      exact ⟨h1.trans (addStreamer_db _ _ _), fun o ho => h2 o (addStreamer_mono _ _ _ _ ho)⟩

/-- **C173** (dependencies): if a file is closed without error, the streamer of every base class and member that is not of
a core type is in the file: the registered one with the version of the base class, or for members the latest one. -/
theorem C173_deps (core skip : List Char → Bool) (srt : List SI → List SI) (st st' : St) (ds : List (List Char × Int))
    (h : addDeps core skip srt st ds = some st') (d : List Char × Int) (hd : d ∈ ds) (hk : skip d.1 = false) :
    ∃ s, get srt st.db d.1 d.2 = some s ∧ (core s.name = false → s ∈ st'.sinfos) := by
  induction ds generalizing st with
  | nil => cases hd
  | cons e ds ih =>
    rw [addDeps] at h
    split at h
    · rename_i hsk
      rcases List.mem_cons.1 hd with rfl | hd
      · rw [hk] at hsk; cases hsk
      · exact ih st h hd
    · rw [Option.bind_eq_some_iff] at h
      obtain ⟨s, hs, h⟩ := h
      rcases List.mem_cons.1 hd with rfl | hd
      · exact ⟨s, hs, fun hc => (addDeps_mono core skip srt ds _ _ h).2 s (mem_addStreamer _ _ _ hc)⟩
      · obtain ⟨s', h1, h2⟩ := ih _ h hd
        rw [addStreamer_db] at h1
        exact ⟨s', h1, h2⟩

/-- **C173** (RegisterStreamer): a streamer of a class that is known neither in the file nor in the registry is afterwards in
both. Missing: if the registry has one already, the file does not get it, see the counterexample. -/
theorem C173_register_partial (core : List Char → Bool) (srt : List SI → List SI) (st : St) (s : SI)
    (hc : core s.name = false) (hn : streamerInfo srt st s.name s.vers = none) :
    s ∈ (register core srt st s).sinfos ∧ s ∈ (register core srt st s).db := by
  unfold register
  rw [hn]
  refine ⟨mem_addStreamer _ _ _ hc, ?_⟩
  rw [addStreamer_db]
  exact List.mem_append_right _ (List.mem_singleton.2 rfl)

/-- A streamer that the registry has is not added to a file that has another one. -/
theorem C173_register_counterexample (srt : List SI → List SI) :
    ∃ a s : SI, (register (fun _ => false) srt ⟨adds [a, s], [a]⟩ s).sinfos = [a] ∧ s.name ≠ a.name :=
  ⟨⟨"A".toList, [], 1, 0⟩, ⟨"B".toList, [], 1, 1⟩, rfl, by decide⟩

/-- The version is ignored for the streamers of the file: one asks for version 2 and gets version 1, also if the file has
version 2; and one asks for the latest and gets the first. -/
theorem C173_version_counterexample (srt : List SI → List SI) :
    ∃ a b : SI, a.name = b.name ∧ a.vers = 1 ∧ b.vers = 2 ∧ streamerInfo srt ⟨adds [a, b], [a, b]⟩ a.name 2 = some a ∧
      streamerInfo srt ⟨adds [a, b], [a, b]⟩ a.name (-1) = some a :=
  ⟨⟨"A".toList, [], 1, 0⟩, ⟨"A".toList, [], 2, 1⟩, rfl, rfl, rfl, rfl, rfl⟩

/-! ## Examples -/

/-- A sort that meets the hypotheses. -/
example : SortsVers isort := isort_sorts

example : get id (adds [⟨"A".toList, [], 3, 0⟩, ⟨"A".toList, [], 2, 1⟩, ⟨"A".toList, [], 3, 2⟩]) "A".toList 3 =
    some ⟨"A".toList, [], 3, 2⟩ := by
  rw [C173_exact id _ _ 3 (by decide)]
  decide

example : ∃ st', putStreamer (fun _ => false) id ⟨adds [⟨"p::T".toList, "Go;p.T".toList, 1, 0⟩], []⟩ "p.T".toList (-1) = some st' ∧
    st'.sinfos = [⟨"p::T".toList, "Go;p.T".toList, 1, 0⟩] := ⟨_, rfl, by decide⟩

example : ∃ st', addDeps (fun _ => false) (fun n => decide (n = "int".toList)) id ⟨adds [⟨"B".toList, [], 1, 0⟩], []⟩
    [("int".toList, -1), ("B".toList, 1)] = some st' ∧ st'.sinfos = [⟨"B".toList, [], 1, 0⟩] := ⟨_, rfl, by decide⟩

end Verif.Rdict.Streamers
