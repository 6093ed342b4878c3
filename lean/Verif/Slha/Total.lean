import Verif.Slha.Codec

/-!
# C119: what `Decode` does with any text

`Decode` gives a document or an error for every text, except for data lines that are too short: they
are panics.
-/

namespace Verif.Slha
open Verif.Strconv Verif.Text

variable {F : Type} {fl : Floats F}

/-! ### Specification -/

/-- The section of the line that follows some lines: that of the last line beginning with a letter B
or D. -/
def sectionOf (ls : List (List Char)) : Sec :=
  ls.foldl (fun s l => if l.head? = some 'B' ∨ l.head? = some 'b' then .block
    else if l.head? = some 'D' ∨ l.head? = some 'd' then .decay else s) .none

/-- The texts of a data line before its comment. -/
def textsOf (line : List Char) : List (List Char) :=
  words (trimSpace (match cut ['#'] line with
    | some (a, _) => a
    | none => line))

/-- A line of a decay whose branching ratio is a number, and which ends before its number of
particles, gives a negative one, or has fewer particles than it says. -/
def ShortDecay (fl : Floats F) (line : List Char) : Prop :=
  textsOf line = [] ∨ ∃ t r, textsOf line = t :: r ∧ (fl.parse t).isSome ∧
    (r = [] ∨ ∃ n ids k, r = n :: ids ∧ parseInt 64 n = some k ∧
      (k < 0 ∨ ((ids.length : Int) < k ∧ ∀ t ∈ ids, (parseInt 64 t).isSome)))

/-- A data line: it begins with a space or a tabulation. -/
def IsData (line : List Char) : Prop := line.head? = some ' ' ∨ line.head? = some '\t'

/-- A data line too short for its section. -/
def TooShort (fl : Floats F) (sec : Sec) (line : List Char) : Prop :=
  IsData line ∧ ((sec = .block ∧ textsOf line = []) ∨ (sec = .decay ∧ ShortDecay fl line))

/-! ### Proofs -/

theorem texts_eq (line : List Char) : words (trimSpace (uncomment line).1) = textsOf line := by
  rw [uncomment, textsOf]
  cases cut ['#'] line <;> rfl

theorem bind_panic {α β : Type} {r : Res α} {f : α → Res β} :
    r.bind f = .panic ↔ r = .panic ∨ ∃ a, r = .ok a ∧ f a = .panic := by
  cases r <;> simp [Res.bind]

theorem bind_isOk {α β : Type} {r : Res α} {f : α → Res β} {b : β} :
    r.bind f = .ok b ↔ ∃ a, r = .ok a ∧ f a = .ok b := by
  cases r <;> simp [Res.bind]

theorem atois_panic (l : List (List Char)) : atois l ≠ .panic := by
  induction l with
  | nil => simp [atois]
  | cons t r ih =>
    simp only [atois]
    split
    · simp
    · rw [Ne, bind_panic]
      simp [ih]

theorem readVal_panic (name s : List Char) : readVal fl name s ≠ .panic := by
  simp only [readVal, anyvalue]
  split
  · split <;> simp
  · split
    · simp
    · split
      · simp
      · split
        · simp
        · split
          · simp
          · split <;> simp

theorem readItem_panic (name line : List Char) : readItem fl name line = .panic ↔ textsOf line = [] := by
  simp only [readItem, texts_eq]
  cases h : (textsOf line).reverse with
  | nil => simpa using h
  | cons s r =>
    have : textsOf line ≠ [] := by intro h'; rw [h'] at h; cases h
    simp only [bind_panic, this, iff_false]
    rintro (h | ⟨a, _, h | ⟨v, _, h⟩⟩)
    · exact atois_panic _ h
    · exact readVal_panic _ _ h
    · cases h

theorem readIds_panic (n : Nat) (ts : List (List Char)) :
    readIds n ts = .panic ↔ ts.length < n ∧ ∀ t ∈ ts, (parseInt 64 t).isSome := by
  induction n generalizing ts with
  | zero => simp [readIds]
  | succ n ih =>
    cases ts with
    | nil => simp [readIds]
    | cons t r =>
      simp only [readIds]
      cases hp : parseInt 64 t with
      | none => simp [hp]
      | some i => simp [bind_panic, ih, hp]

theorem readDecay_panic (line : List Char) : readDecay fl line = .panic ↔ ShortDecay fl line := by
  simp only [readDecay, texts_eq, ShortDecay]
  cases h : textsOf line with
  | nil => simp
  | cons t r =>
    cases hp : fl.parse t with
    | none =>
      simp only [hp, reduceCtorEq, false_or, List.cons.injEq, false_iff]
      rintro ⟨t', r', ⟨rfl, rfl⟩, hs, _⟩
      rw [hp] at hs
      cases hs
    | some x =>
      cases r with
      | nil =>
        simp only [hp, true_iff]
        exact .inr ⟨t, [], rfl, by rw [hp]; rfl, .inl rfl⟩
      | cons n ids =>
        have key : (∃ t' r', t :: n :: ids = t' :: r' ∧ (fl.parse t').isSome = true ∧
            (r' = [] ∨ ∃ n' ids' k, r' = n' :: ids' ∧ parseInt 64 n' = some k ∧
              (k < 0 ∨ ((ids'.length : Int) < k ∧ ∀ t ∈ ids', (parseInt 64 t).isSome))))
            ↔ ∃ k, parseInt 64 n = some k ∧ (k < 0 ∨ ((ids.length : Int) < k ∧ ∀ t ∈ ids, (parseInt 64 t).isSome)) := by
          constructor
          · rintro ⟨t', r', he, _, hr | ⟨n', ids', k, hr, hk, hh⟩⟩
            · cases he; cases hr
            · cases he; cases hr
              exact ⟨k, hk, hh⟩
          · rintro ⟨k, hk, hh⟩
            exact ⟨t, n :: ids, rfl, by rw [hp]; rfl, .inr ⟨n, ids, k, rfl, hk, hh⟩⟩
        simp only [hp, reduceCtorEq, false_or, key]
        cases hn : parseInt 64 n with
        | none => simp
        | some k =>
          simp only [Option.some.injEq, exists_eq_left']
          by_cases hk : k < 0
          · simp [hk]
          · simp only [hk, if_false, false_or, bind_panic, reduceCtorEq, and_false, exists_false, or_false, readIds_panic]
            have : ids.length < k.toNat ↔ (ids.length : Int) < k := by omega
            rw [this]

/-- What the loop keeps: there is a current block or particle, and no value is a Go integer outside
the block `MODSEL`, none a text outside the blocks of texts. -/
structure Good (fl : Floats F) (s : St F) : Prop where
  block : s.sec = .block → s.data.blocks ≠ []
  decay : s.sec = .decay → s.data.particles ≠ []
  floats : ∀ b ∈ s.data.blocks, b.name = nMASS → ∀ it ∈ b.data, ∃ x, it.value.v = some (.flt x)

/-- `strconv.ParseFloat` accepts integers. -/
def AcceptsInts (fl : Floats F) : Prop := ∀ s i, parseInt 64 s = some i → (fl.parse s).isSome

theorem readItem_float (ha : AcceptsInts fl) {line : List Char} {it : Item F}
    (h : readItem fl nMASS line = .ok it) : ∃ x, it.value.v = some (.flt x) := by
  simp only [readItem] at h
  cases hw : (words (trimSpace (uncomment line).1)).reverse with
  | nil => rw [hw] at h; cases h
  | cons s r =>
    rw [hw] at h
    simp only [bind_isOk] at h
    obtain ⟨a, _, v, hv, he⟩ := h
    cases he
    simp only [readVal, show nMASS ≠ nMODSEL by decide, show nMASS ≠ nSPINFO by decide,
      show nMASS ≠ nDCINFO by decide, or_false, if_false, anyvalue] at hv
    cases hp : fl.parse s with
    | some x => rw [hp] at hv; cases hv; exact ⟨x, rfl⟩
    | none =>
      rw [hp] at hv
      simp only at hv
      split at hv
      · cases hv; exact ⟨_, rfl⟩
      · split at hv
        · cases hv; exact ⟨_, rfl⟩
        · split at hv
          · rename_i hi
            have := ha s _ hi
            rw [hp] at this
            cases this
          · cases hv

theorem exists_last {α : Type} {l : List α} (h : l ≠ []) : ∃ r x, l = r ++ [x] :=
  ⟨l.dropLast, l.getLast h, (List.dropLast_append_getLast h).symm⟩

theorem readBlock_data {line : List Char} {b : Block F} (h : readBlock fl line = .ok b) : b.data = [] := by
  simp only [readBlock] at h
  split at h
  · cases h
  · split at h
    · cases h; rfl
    · split at h
      · cases h
      · cases h; rfl

theorem readBlock_panic (line : List Char) : readBlock fl line ≠ .panic := by
  simp only [readBlock]
  split
  · simp
  · split
    · simp
    · split <;> simp

theorem readParticle_panic (line : List Char) : readParticle fl line ≠ .panic := by
  simp only [readParticle]
  split
  · simp
  · split
    · simp
    · split <;> simp

theorem toUpper_eq {c u l : Char} (hu : u.toNat + 32 = l.toNat) (h1 : 65 ≤ u.toNat) (h2 : u.toNat ≤ 90) :
    c.toUpper = u ↔ c = u ∨ c = l := by
  have hlow : ∀ n : Nat, 97 ≤ n → n ≤ 122 → (Char.ofNat n).toUpper = Char.ofNat (n - 32) := by
    intro n hn1 hn2
    interval_cases n <;> decide
  have hnat : ∀ n : Nat, 97 ≤ n → n ≤ 122 → (Char.ofNat (n - 32)).toNat = n - 32 := by
    intro n hn1 hn2
    interval_cases n <;> decide
  have hul : u = Char.ofNat u.toNat := (Char.ofNat_toNat u).symm
  have hll : l = Char.ofNat l.toNat := (Char.ofNat_toNat l).symm
  by_cases hl : 97 ≤ c.toNat ∧ c.toNat ≤ 122
  · have hc := hlow c.toNat hl.1 hl.2
    rw [Char.ofNat_toNat] at hc
    rw [hc]
    constructor
    · intro h
      right
      have h3 := congrArg Char.toNat h
      have h4 := hnat c.toNat hl.1 hl.2
      rw [h4] at h3
      apply Char.toNat_inj.mp
      omega
    · rintro (rfl | rfl)
      · omega
      · rw [← hu]
        simp
  · have : c.toUpper = c := by
      rw [Char.toUpper, dif_neg]
      intro hh
      exact hl ⟨hh.1, hh.2⟩
    rw [this]
    constructor
    · exact .inl
    · rintro (h | rfl)
      · exact h
      · exact absurd ⟨by omega, by omega⟩ hl

theorem toUpper_B (c : Char) : c.toUpper = 'B' ↔ c = 'B' ∨ c = 'b' := toUpper_eq (by decide) (by decide) (by decide)
theorem toUpper_D (c : Char) : c.toUpper = 'D' ↔ c = 'D' ∨ c = 'd' := toUpper_eq (by decide) (by decide) (by decide)

/-- The section after a line. -/
def secStep (s : Sec) (l : List Char) : Sec :=
  if l.head? = some 'B' ∨ l.head? = some 'b' then .block
    else if l.head? = some 'D' ∨ l.head? = some 'd' then .decay else s

theorem step_good (ha : AcceptsInts fl) {s s' : St F} {line : List Char} (hg : Good fl s)
    (h : step fl s line = .ok s') : Good fl s' ∧ s'.sec = secStep s.sec line := by
  cases line with
  | nil => cases h; exact ⟨hg, by simp [secStep]⟩
  | cons c r =>
    simp only [step, toUpper_B, toUpper_D] at h
    simp only [secStep, List.head?_cons, Option.some.injEq]
    split_ifs at h with h1 h2 h3 h4
    · cases h
      subst h1
      exact ⟨hg, by simp⟩
    · rw [bind_isOk] at h
      obtain ⟨b, hb, h⟩ := h
      cases h
      refine ⟨⟨by simp, by simp, ?_⟩, by simp [h2]⟩
      intro b' hb' hn it hit
      simp only [List.mem_append, List.mem_singleton] at hb'
      rcases hb' with hb' | rfl
      · exact hg.floats b' hb' hn it hit
      · rw [readBlock_data hb] at hit
        cases hit
    · rw [bind_isOk] at h
      obtain ⟨p, hp, h⟩ := h
      cases h
      exact ⟨⟨by simp, by simp, hg.floats⟩, by simp [h2, h3]⟩
    · refine (show Good fl s' ∧ s'.sec = s.sec from ?_).imp id (fun e => by rw [e]; simp [h2, h3])
      cases hsec : s.sec with
      | none => rw [hsec] at h; cases h; exact ⟨hg, hsec⟩
      | block =>
        rw [hsec] at h
        obtain ⟨bs, b, hbs⟩ := exists_last (hg.block hsec)
        simp only [hbs, onLast_append, bind_isOk] at h
        obtain ⟨l, ⟨b', ⟨it, hit, e1⟩, e2⟩, e3⟩ := h
        cases e1; cases e2; cases e3
        refine ⟨⟨by simp, (fun e => by cases e), ?_⟩, rfl⟩
        intro b' hb' hn it' hit'
        simp only [List.mem_append, List.mem_singleton] at hb'
        rcases hb' with hb' | rfl
        · exact hg.floats b' (by rw [hbs]; simp [hb']) hn it' hit'
        · simp only [List.mem_append, List.mem_singleton] at hit'
          simp only at hn
          rcases hit' with hit' | rfl
          · exact hg.floats b (by rw [hbs]; simp) hn it' hit'
          · rw [hn] at hit
            exact readItem_float ha hit
      | decay =>
        rw [hsec] at h
        obtain ⟨ps, p, hps⟩ := exists_last (hg.decay hsec)
        simp only [hps, onLast_append, bind_isOk] at h
        obtain ⟨l, ⟨p', ⟨d, hd, e1⟩, e2⟩, e3⟩ := h
        cases e1; cases e2; cases e3
        exact ⟨⟨(fun e => by cases e), by simp, hg.floats⟩, rfl⟩
    · cases h
      exact ⟨hg, by simp [h2, h3]⟩

theorem step_panic {s : St F} {line : List Char} (hg : Good fl s) :
    step fl s line = .panic ↔ TooShort fl s.sec line := by
  cases line with
  | nil => simp [step, TooShort, IsData]
  | cons c r =>
    simp only [step, toUpper_B, toUpper_D, TooShort, IsData, List.head?_cons, Option.some.injEq]
    split_ifs with h1 h2 h3 h4
    · subst h1; simp
    · simp only [bind_panic, readBlock_panic, reduceCtorEq, and_false, exists_false, or_false, false_iff]
      rcases h2 with rfl | rfl <;> simp
    · simp only [bind_panic, readParticle_panic, reduceCtorEq, and_false, exists_false, or_false, false_iff]
      rcases h3 with rfl | rfl <;> simp
    · have h4' : (c = ' ' ∨ c = '\t') = True := eq_true (Or.symm h4)
      simp only [h4', true_and]
      cases hsec : s.sec with
      | none => simp
      | block =>
        obtain ⟨bs, b, hbs⟩ := exists_last (hg.block hsec)
        simp only [hbs, onLast_append, bind_panic, readItem_panic]
        simp
      | decay =>
        obtain ⟨ps, p, hps⟩ := exists_last (hg.decay hsec)
        simp only [hps, onLast_append, bind_panic, readDecay_panic]
        simp
    · have h4' : (c = ' ' ∨ c = '\t') = False := eq_false fun h => h4 (Or.symm h)
      simp [h4']

theorem steps_panic (ha : AcceptsInts fl) : ∀ {ls : List (List Char)} {s : St F}, Good fl s →
    (steps fl s ls = .panic → ∃ pre l post, ls = pre ++ l :: post ∧ TooShort fl (pre.foldl secStep s.sec) l) ∧
    (∀ s', steps fl s ls = .ok s' → Good fl s' ∧ s'.sec = ls.foldl secStep s.sec)
  | [], s, hg => ⟨fun h => (by cases h), fun s' h => (by cases h; exact ⟨hg, rfl⟩)⟩
  | l :: ls, s, hg => by
    simp only [steps, bind_panic, bind_isOk]
    refine ⟨?_, ?_⟩
    · rintro (h | ⟨s1, h1, h2⟩)
      · exact ⟨[], l, ls, rfl, (step_panic hg).mp h⟩
      · obtain ⟨hg1, hs1⟩ := step_good ha hg h1
        obtain ⟨pre, l', post, e, ht⟩ := (steps_panic ha hg1).1 h2
        refine ⟨l :: pre, l', post, by rw [e]; rfl, ?_⟩
        rw [List.foldl_cons, ← hs1]
        exact ht
    · rintro s' ⟨s1, h1, h2⟩
      obtain ⟨hg1, hs1⟩ := step_good ha hg h1
      have := (steps_panic ha hg1).2 s' h2
      rw [List.foldl_cons, ← hs1]
      exact this

theorem masses_panic {b : Block F} (hb : ∀ it ∈ b.data, ∃ x, it.value.v = some (.flt x)) (ps : List (Particle F)) :
    masses b ps ≠ .panic := by
  have hget : ∀ (l : List (Item F)) (x : Index) (v : Value F), (∀ it ∈ l, ∃ x, it.value.v = some (.flt x)) →
      dataGet l x = some v → ∃ y, v.v = some (.flt y) := by
    intro l x v
    induction l with
    | nil => intro _ h; cases h
    | cons it r ih =>
      intro hl h
      simp only [dataGet] at h
      split at h
      · cases h; exact hl it (by simp)
      · exact ih (fun i hi => hl i (by simp [hi])) h
  induction ps with
  | nil => simp [masses]
  | cons p r ih =>
    simp only [masses]
    cases hg : b.get [p.pdgid] with
    | none => simp [bind_panic, ih]
    | some v =>
      obtain ⟨y, hy⟩ := hget _ _ _ hb hg
      simp [bind_panic, ih, Value.float, hy]

theorem blocksGet_mem {bs : List (Block F)} {n : List Char} {b : Block F} (h : blocksGet bs n = some b) :
    b ∈ bs ∧ b.name = n := by
  induction bs with
  | nil => cases h
  | cons a r ih =>
    simp only [blocksGet] at h
    split at h
    · cases h; exact ⟨by simp, by assumption⟩
    · exact ⟨by simp [(ih h).1], (ih h).2⟩

theorem good_init : Good fl ⟨.none, ⟨[], []⟩⟩ := ⟨fun h => (by cases h), fun h => (by cases h), fun b hb => (by cases hb)⟩

/-- **C119.** `Decode` panics only at a data line that is too short: blank in a block; blank, without
a number of particles, with a negative one or with fewer particles than it says in a decay.  For every
other text it gives a document or an error. -/
theorem C119_panic_partial (ha : AcceptsInts fl) {text : List Char} (h : decode fl text = .panic) :
    ∃ pre l post, lines text = pre ++ l :: post ∧ TooShort fl (sectionOf pre) l := by
  simp only [decode, bind_panic] at h
  rcases h with h | ⟨s, h1, h2⟩
  · exact (steps_panic ha good_init).1 h
  · have hg := ((steps_panic ha good_init).2 s h1).1
    split at h2
    · cases h2
    · rename_i b hb
      obtain ⟨hm, hn⟩ := blocksGet_mem hb
      rw [bind_panic] at h2
      rcases h2 with h2 | ⟨a, _, h2⟩
      · exact absurd h2 (masses_panic (hg.floats b hm hn) _)
      · cases h2

/-- **C119, counterexample.** Such a line is a panic, if the lines before it are read. -/
theorem C119_panics_counterexample (ha : AcceptsInts fl) {text : List Char} {pre post : List (List Char)} {l : List Char}
    (ht : lines text = pre ++ l :: post) (hl : TooShort fl (sectionOf pre) l)
    (hok : ∃ s, steps fl ⟨.none, ⟨[], []⟩⟩ pre = .ok s) : decode fl text = .panic := by
  obtain ⟨s, hs⟩ := hok
  obtain ⟨hg, hsec⟩ := (steps_panic ha good_init).2 s hs
  have hp : step fl s l = .panic := by
    rw [step_panic hg, hsec]
    exact hl
  rw [decode, ht, steps_append, hs, Res.bind_ok, steps, hp]
  rfl

theorem toy_accepts : AcceptsInts toy := by
  intro s i h
  have key : ∀ {neg : Bool} {t : List Char}, signed 64 neg t = some i → (digitsVal t).isSome := by
    intro neg t ht
    simp only [signed] at ht
    cases hd : digitsVal t with
    | none => rw [hd] at ht; cases ht
    | some n => rfl
  simp only [parseInt] at h
  simp only [toy, toyParse]
  split at h <;> (have := key h; rw [Option.isSome_iff_exists] at this; obtain ⟨n, hn⟩ := this; simp [hn])

/-- A blank line in a block. -/
example : decode toy (tBLOCK ++ [' ', 'M', 'A', 'S', 'S', '\n', ' ', '\n']) = .panic := by decide

/-- A decay that says it has two particles and names one. -/
example : decode toy (tDECAY ++ [' ', '6', ' ', '1', '\n', ' ', '1', ' ', '2', ' ', '5', '\n']) = .panic := by decide

/-- Neither: an error. -/
example : decode toy (tDECAY ++ [' ', '6', ' ', '1', '\n', ' ', '1', ' ', '2', ' ', 'x', '\n']) = .err := by decide

end Verif.Slha
