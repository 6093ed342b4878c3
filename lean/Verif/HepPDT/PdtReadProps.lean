import Verif.HepPDT.PdtRead
import Mathlib.Data.List.Forall2
import Mathlib.Data.List.Nodup

/-!
# Tables of particles are read (C179)
-/

namespace Verif.HepPDT.Read

open Verif.Text Verif.Strconv

/-! ## Specification -/

/-- White space is spaces. -/
def Plain (s : List Char) : Prop := ∀ c ∈ s, isSpace c = true → c = ' '

/-- What a line means, by its words: nothing, if it is empty or a comment; or a particle. -/
inductive Means {K : Type} (x : Num K) (line : List Char) : Option (Particle K) → Prop
  | empty : words line = [] → Means x line none
  | hash (w : List Char) (ws : List (List Char)) : words line = ('#' :: w) :: ws → Means x line none
  | slashes (w : List Char) (ws : List (List Char)) : words line = ('/' :: '/' :: w) :: ws → Means x line none
  | particle (id chg : Int) (name m w l : List Char) (mass width life : K) :
      words line = [formatInt id, name, formatInt chg, m, w, l] →
      -(2 ^ 63) ≤ id → id < 2 ^ 63 → -(2 ^ 63) ≤ chg → chg < 2 ^ 63 →
      x.parse m = some mass → x.parse w = some width → x.parse l = some life →
      isQBall id = false →
      Means x line (some ⟨id, name, (chg, 3), mass,
        if x.pos width ∨ x.unset width then width else if x.pos life then x.ofLifetime life else x.zero⟩)

/-- A line that means nothing at all: neither empty nor a comment, and not of six words. -/
def Malformed (line : List Char) : Prop :=
  ∃ w ws, words line = w :: ws ∧ ws.length ≠ 5 ∧ w.head? ≠ some '#' ∧ w.take 2 ≠ ['/', '/']

/-- The last of the particles for which `P` holds. -/
def lastWith {K : Type} (P : Particle K → Bool) (ps : List (Particle K)) : Option (Particle K) := ps.reverse.find? P

/-! ## Proofs -/

theorem dropWhile_congr {p q : Char → Bool} {s : List Char} (h : ∀ c ∈ s, p c = q c) : s.dropWhile p = s.dropWhile q := by
  induction s with
  | nil => rfl
  | cons c s ih =>
    rw [List.dropWhile_cons, List.dropWhile_cons, h c List.mem_cons_self, ih fun d hd => h d (List.mem_cons_of_mem _ hd)]

theorem blank_isSpace {c : Char} (h : blank c = true) : isSpace c = true := by
  unfold blank at h
  unfold isSpace
  simp only [Bool.or_eq_true] at h ⊢
  rcases h with ((h | h) | h) | h <;> simp [h]

theorem plain_blank {s : List Char} (h : Plain s) : ∀ c ∈ s, blank c = isSpace c := by
  intro c hc
  cases hs : isSpace c
  · cases hb : blank c
    · rfl
    · rw [blank_isSpace hb] at hs
      exact hs
  · rw [h c hc hs]
    rfl

theorem trimB_eq {s : List Char} (h : Plain s) : trimB s = trimSpace s := by
  unfold trimB trimSpace
  rw [dropWhile_congr (plain_blank h)]
  congr 1
  refine dropWhile_congr fun c hc => plain_blank h c ?_
  rw [List.mem_reverse] at hc
  exact (List.dropWhile_sublist _).subset hc

theorem trim_subset {s : List Char} : ∀ c ∈ trimSpace s, c ∈ s := by
  intro c hc
  unfold trimSpace at hc
  rw [List.mem_reverse] at hc
  have := (List.dropWhile_sublist _).subset hc
  rw [List.mem_reverse] at this
  exact (List.dropWhile_sublist _).subset this

theorem splitC_mem {s t : List Char} (ht : t ∈ splitC ' ' s) : ∀ c ∈ t, c ∈ s ∧ c ≠ ' ' := by
  induction s generalizing t with
  | nil =>
    rw [splitC, List.mem_singleton] at ht
    rw [ht]
    intro c hc
    cases hc
  | cons d r ih =>
    rw [splitC] at ht
    split at ht
    · rcases List.mem_cons.mp ht with rfl | ht
      · intro c hc
        cases hc
      · intro c hc
        exact ⟨List.mem_cons_of_mem _ (ih ht c hc).1, (ih ht c hc).2⟩
    · rename_i hd
      split at ht
      · rename_i h
        exact absurd h (splitC_ne_nil _ _)
      · rename_i u us h
        rcases List.mem_cons.mp ht with rfl | ht
        · intro c hc
          rcases List.mem_cons.mp hc with rfl | hc
          · exact ⟨List.mem_cons_self, hd⟩
          · have := ih (t := u) (by rw [h]; exact List.mem_cons_self) c hc
            exact ⟨List.mem_cons_of_mem _ this.1, this.2⟩
        · intro c hc
          have := ih (t := t) (by rw [h]; exact List.mem_cons_of_mem _ ht) c hc
          exact ⟨List.mem_cons_of_mem _ this.1, this.2⟩

theorem tokens_eq {s : List Char} (h : Plain s) : tokens s = words s := by
  unfold tokens words
  congr 1
  rw [List.map_congr_left (g := id), List.map_id]
  intro t ht
  have hno : ∀ c ∈ t, isSpace c = false := by
    intro c hc
    obtain ⟨h1, h2⟩ := splitC_mem ht c hc
    cases hs : isSpace c
    · rfl
    · exact absurd (h c h1 hs) h2
  have hp : Plain t := fun c hc hs => by rw [hno c hc] at hs; cases hs
  rw [trimB_eq hp]
  exact trimSpace_trimmed ⟨fun c hc => hno c (List.mem_of_mem_head? hc), fun c hc => hno c (List.mem_of_getLast? hc)⟩

theorem plain_trim {s : List Char} (h : Plain s) : Plain (trimSpace s) := fun c hc hs => h c (trim_subset c hc) hs

theorem words_head {c : Char} (hc : c ≠ ' ') (r : List Char) :
    ∃ ws, words (c :: r) = (c :: r.takeWhile (· != ' ')) :: ws := by
  have key : ∀ r : List Char, ∃ ts, splitC ' ' r = r.takeWhile (· != ' ') :: ts := by
    intro r
    induction r with
    | nil => exact ⟨[], rfl⟩
    | cons d r ih =>
      rw [splitC]
      by_cases hd : d = ' '
      · rw [if_pos hd]
        refine ⟨splitC ' ' r, ?_⟩
        rw [List.takeWhile_cons]
        simp [hd]
      · rw [if_neg hd]
        obtain ⟨ts, hts⟩ := ih
        rw [hts]
        refine ⟨ts, ?_⟩
        rw [List.takeWhile_cons]
        simp [hd]
  obtain ⟨ts, hts⟩ := key r
  refine ⟨ts.filter fun t => !t.isEmpty, ?_⟩
  unfold words
  rw [splitC, if_neg hc, hts]
  simp

theorem head_not_blank {s : List Char} {c : Char} {r : List Char} (h : trimB s = c :: r) : c ≠ ' ' := by
  have key : ∀ u : List Char, (u.dropWhile blank).head? ≠ some ' ' := by
    intro u
    induction u with
    | nil => simp
    | cons d u ih =>
      rw [List.dropWhile_cons]
      split
      · exact ih
      · rename_i hb
        intro hd
        simp only [List.head?_cons, Option.some.injEq] at hd
        rw [hd] at hb
        exact hb rfl
  have hsub : ∃ z, s.dropWhile blank = trimB s ++ z := by
    unfold trimB
    obtain ⟨z, hz⟩ := List.dropWhile_suffix (l := (s.dropWhile blank).reverse) blank
    refine ⟨z.reverse, ?_⟩
    rw [← List.reverse_append, hz, List.reverse_reverse]
  obtain ⟨z, hz⟩ := hsub
  rintro rfl
  apply key s
  rw [hz, h]
  rfl

theorem isComment_eq (s : List Char) : isComment s = decide (s.head? = some '#' ∨ s.take 2 = ['/', '/']) := by
  unfold isComment
  split
  · simp
  · simp
  · rename_i h1 h2
    symm
    rw [decide_eq_false_iff_not]
    rintro (h | h)
    · cases s with
      | nil => cases h
      | cons c r =>
        simp only [List.head?_cons, Option.some.injEq] at h
        exact h1 r (by rw [h])
    · match s, h with
      | c :: d :: r, h =>
        simp only [List.take_succ_cons, List.take_zero, List.cons.injEq, and_true] at h
        exact h2 r (by rw [h.1, h.2])

theorem comment_head (c : Char) (r : List Char) : isComment (c :: r) = isComment (c :: r.takeWhile (· != ' ')) := by
  rw [isComment_eq, isComment_eq]
  cases r with
  | nil => rfl
  | cons d r =>
    rw [List.takeWhile_cons]
    by_cases hd : d = ' '
    · subst hd
      simp
    · rw [if_pos (by simpa using hd)]
      simp

/-- What a line is, by its words. -/
theorem parseLine_words {K : Type} (x : Num K) {line : List Char} (h : Plain line) :
    (words line = [] → parseLine x line = .skip) ∧
      (∀ w ws, words line = w :: ws → parseLine x line =
        if isComment w then .skip else match entry x (w :: ws) with | none => .bad | some p => .part p) := by
  have ht := trimB_eq h
  have hw : words (trimB line) = words line := by rw [ht]; exact words_trimSpace h
  have hp : Plain (trimB line) := by rw [ht]; exact plain_trim h
  have htok : tokens (trimB line) = words line := by rw [tokens_eq hp, hw]
  cases hl : trimB line with
  | nil =>
    rw [hl] at hw
    refine ⟨fun _ => by unfold parseLine; rw [if_pos hl], fun w ws hww => ?_⟩
    rw [hww, words_nil] at hw
    cases hw
  | cons c r =>
    have hc := head_not_blank hl
    obtain ⟨us, hus⟩ := words_head hc r
    rw [hl, hus] at hw
    refine ⟨fun he => (by rw [he] at hw; cases hw), fun w ws hww => ?_⟩
    rw [hww] at hw
    injection hw with h1 h2
    have hcom : isComment (trimB line) = isComment w := by
      rw [hl, ← h1]
      exact comment_head c r
    unfold parseLine
    rw [if_neg (by rw [hl]; simp), hcom, htok, hww]
    cases entry x (w :: ws) <;> rfl

theorem parse_means {K : Type} (x : Num K) {line : List Char} (h : Plain line) {o : Option (Particle K)} (hm : Means x line o) :
    parseLine x line = match o with | none => .skip | some p => .part p := by
  obtain ⟨h0, h1⟩ := parseLine_words x h
  cases hm with
  | empty hw => exact h0 hw
  | hash w ws hw => rw [h1 _ _ hw]; rfl
  | slashes w ws hw => rw [h1 _ _ hw]; rfl
  | particle id chg name m w l mass width life hw a1 a2 b1 b2 hm hwi hl hq =>
    rw [h1 _ _ hw]
    have hnc : isComment (formatInt id) = false := by
      cases hf : formatInt id with
      | nil => rfl
      | cons c r =>
        have hc := formatInt_chars (i := id) (c := c) (by rw [hf]; exact List.mem_cons_self)
        unfold isComment
        split
        · rename_i e
          injection e with e1 e2
          subst e1
          rcases hc with hc | hc <;> exact absurd hc (by decide)
        · rename_i e
          injection e with e1 e2
          subst e1
          rcases hc with hc | hc <;> exact absurd hc (by decide)
        · rfl
    rw [hnc]
    simp only [entry, parseInt_format (bits := 64) (i := id) (by simpa using a1) (by simpa using a2),
      parseInt_format (bits := 64) (i := chg) (by simpa using b1) (by simpa using b2), hm, hwi, hl, Option.bind_some, chargeOf, hq, widthOf]
    cases x.pos width <;> cases x.unset width <;> rfl

theorem put_byID {K : Type} (t : Table K) (p : Particle K) (i : Int) :
    (put t p).pdt i = if i = p.id then some p else t.pdt i := rfl

/-- The table after the particles. -/
theorem parse_puts {K : Type} (x : Num K) (t : Table K) (ls : List (List Char)) (os : List (Option (Particle K))) (rest : List (List Char))
    (failed : Bool) (hp : ∀ l ∈ ls, Plain l) (hm : List.Forall₂ (Means x) ls os) :
    parse x t (ls ++ rest) failed = parse x ((os.filterMap id).foldl put t) rest failed := by
  induction hm generalizing t with
  | nil => rfl
  | @cons l o ls os h _ ih =>
    rw [List.cons_append, parse, parse_means x (hp l List.mem_cons_self) h]
    cases o with
    | none => exact ih t fun l' hl' => hp l' (List.mem_cons_of_mem _ hl')
    | some p => exact ih (put t p) fun l' hl' => hp l' (List.mem_cons_of_mem _ hl')

theorem puts_pdt {K : Type} (ps : List (Particle K)) (t : Table K) (i : Int) :
    (ps.foldl put t).pdt i = ((lastWith (fun p => decide (p.id = i)) ps).or (t.pdt i)) := by
  induction ps generalizing t with
  | nil => rfl
  | cons p ps ih =>
    rw [List.foldl_cons, ih, lastWith, lastWith, List.reverse_cons, List.find?_append, put_byID]
    by_cases hi : i = p.id
    · rw [if_pos hi]
      cases List.find? (fun p => decide (p.id = i)) ps.reverse <;> simp [hi]
    · rw [if_neg hi]
      have : ¬ p.id = i := fun h => hi h.symm
      cases List.find? (fun p => decide (p.id = i)) ps.reverse <;> simp [this]

theorem puts_pid {K : Type} (ps : List (Particle K)) (t : Table K) (n : List Char) :
    (ps.foldl put t).pid n = ((lastWith (fun p => decide (p.name = n)) ps).map (·.id)).or (t.pid n) := by
  induction ps generalizing t with
  | nil => rfl
  | cons p ps ih =>
    rw [List.foldl_cons, ih, lastWith, lastWith, List.reverse_cons, List.find?_append]
    show _ = _
    by_cases hi : n = p.name
    · have e : (put t p).pid n = some p.id := by unfold put; simp [hi]
      rw [e]
      cases List.find? (fun p => decide (p.name = n)) ps.reverse <;> simp [hi]
    · have e : (put t p).pid n = t.pid n := by unfold put; simp [hi]
      have : ¬ p.name = n := fun h => hi h.symm
      rw [e]
      cases List.find? (fun p => decide (p.name = n)) ps.reverse <;> simp [this]

theorem puts_keys {K : Type} (ps : List (Particle K)) (t : Table K) (hn : (t.keys ++ ps.map (·.id)).Nodup) :
    (ps.foldl put t).keys = t.keys ++ ps.map (·.id) := by
  induction ps generalizing t with
  | nil => simp
  | cons p ps ih =>
    have hk : (put t p).keys = t.keys ++ [p.id] := by
      unfold put
      simp only
      rw [if_neg]
      intro hm
      rw [List.map_cons] at hn
      exact (List.nodup_append.mp hn).2.2 _ hm _ List.mem_cons_self rfl
    rw [List.foldl_cons, ih]
    · rw [hk]; simp
    · rw [hk]; simpa using hn

/-- **C179** (read): a table whose lines are particles, comments or empty is read without error; a code finds the last particle
of that code, a name the last particle of the code of the last particle of that name. -/
theorem C179_read {K : Type} (x : Num K) (ls : List (List Char)) (os : List (Option (Particle K))) (hp : ∀ l ∈ ls, Plain l)
    (hm : List.Forall₂ (Means x) ls os) :
    (new x ls false).2 = false ∧
      (∀ i, (new x ls false).1.byID i = lastWith (fun p => decide (p.id = i)) (os.filterMap id)) ∧
      ∀ n, (new x ls false).1.byName n = (lastWith (fun p => decide (p.name = n)) (os.filterMap id)).bind fun p =>
        lastWith (fun q => decide (q.id = p.id)) (os.filterMap id) := by
  have h := parse_puts x empty ls os [] false hp hm
  rw [List.append_nil] at h
  unfold new
  rw [h, parse]
  refine ⟨rfl, fun i => ?_, fun n => ?_⟩
  · show (List.foldl put empty _).pdt i = _
    rw [puts_pdt]
    exact Option.or_none
  · unfold Table.byName
    simp only
    rw [puts_pid]
    rw [show (empty : Table K).pid n = none from rfl, Option.or_none]
    cases lastWith (fun p => decide (p.name = n)) (os.filterMap id) with
    | none => rfl
    | some p =>
      show (List.foldl put empty _).pdt p.id = _
      rw [puts_pdt]
      exact Option.or_none

theorem lastWith_unique {K : Type} {β : Type} [DecidableEq β] (f : Particle K → β) (ps : List (Particle K)) (h : (ps.map f).Nodup)
    {p : Particle K} (hp : p ∈ ps) : lastWith (fun q => decide (f q = f p)) ps = some p := by
  unfold lastWith
  cases hf : ps.reverse.find? fun q => decide (f q = f p) with
  | none =>
    have := List.find?_eq_none.mp hf p (List.mem_reverse.mpr hp)
    simp at this
  | some q =>
    have h1 := List.find?_some hf
    have h2 := List.mem_reverse.mp (List.mem_of_find?_eq_some hf)
    rw [List.inj_on_of_nodup_map h h2 hp (of_decide_eq_true h1)]

/-- **C179** (lookup): if codes and names are not repeated, each particle is found by its code and by its name, nothing else is,
and the length is their number. -/
theorem C179_lookup {K : Type} (x : Num K) (ls : List (List Char)) (os : List (Option (Particle K))) (hp : ∀ l ∈ ls, Plain l)
    (hm : List.Forall₂ (Means x) ls os) (hi : ((os.filterMap id).map (·.id)).Nodup) (hn : ((os.filterMap id).map (·.name)).Nodup) :
    (∀ p ∈ os.filterMap id, (new x ls false).1.byID p.id = some p ∧ (new x ls false).1.byName p.name = some p) ∧
      (∀ i, i ∉ (os.filterMap id).map (·.id) → (new x ls false).1.byID i = none) ∧
      (∀ n, n ∉ (os.filterMap id).map (·.name) → (new x ls false).1.byName n = none) ∧
      (new x ls false).1.len = (os.filterMap id).length := by
  obtain ⟨-, h2, h3⟩ := C179_read x ls os hp hm
  refine ⟨fun p hpm => ?_, fun i hni => ?_, fun n hnn => ?_, ?_⟩
  · rw [h2, h3, lastWith_unique (·.id) _ hi hpm, lastWith_unique (·.name) _ hn hpm]
    exact ⟨rfl, lastWith_unique (·.id) _ hi hpm⟩
  · rw [h2, lastWith, List.find?_eq_none]
    intro q hq hd
    exact hni (List.mem_map.mpr ⟨q, List.mem_reverse.mp hq, of_decide_eq_true hd⟩)
  · rw [h3, lastWith, List.find?_eq_none.mpr]
    · rfl
    · intro q hq hd
      exact hnn (List.mem_map.mpr ⟨q, List.mem_reverse.mp hq, of_decide_eq_true hd⟩)
  · have h := parse_puts x empty ls os [] false hp hm
    rw [List.append_nil] at h
    unfold new Table.len
    rw [h, parse]
    show (List.foldl put empty _).keys.length = _
    rw [puts_keys _ _ (by simpa [empty] using hi)]
    simp [empty]

/-- **C179** (error): a line that is neither a particle nor a comment is an error, whatever comes after it. -/
theorem C179_malformed {K : Type} (x : Num K) (ls : List (List Char)) (os : List (Option (Particle K))) (bad : List Char)
    (rest : List (List Char)) (failed : Bool) (hp : ∀ l ∈ ls, Plain l) (hm : List.Forall₂ (Means x) ls os) (hb : Plain bad)
    (hbad : Malformed bad) : (new x (ls ++ bad :: rest) failed).2 = true := by
  obtain ⟨w, ws, hw, hlen, h1, h2⟩ := hbad
  unfold new
  rw [parse_puts x empty ls os _ failed hp hm, parse, (parseLine_words x hb).2 w ws hw]
  have hc : isComment w = false := by
    unfold isComment
    split
    · exact absurd rfl h1
    · exact absurd rfl h2
    · rfl
  have he : entry x (w :: ws) = none := by
    unfold entry
    split
    · rename_i e
      injection e with _ e
      rw [e] at hlen
      exact absurd rfl hlen
    · rfl
  rw [hc, he]
  rfl

/-! ## Counterexamples and examples -/

/-- Numbers are one digit. -/
def exN : Num Nat := ⟨fun s => match s with | [c] => some (c.toNat - 48) | _ => none, fun n => decide (0 < n), fun _ => false, fun n => 9 - n, 0⟩

/-- The reader fails: what was read before is given, without error. -/
theorem C179_reader_counterexample : ∃ t, new exN ["11 e^- -3 1 0 0".toList] true = (t, false) ∧ t.len = 1 := ⟨_, rfl, rfl⟩

/-- A tab between two elements: the line is refused. -/
theorem C179_tab_counterexample : (new exN ["11\te^- -3 1 0 0".toList] false).2 = true := by decide +kernel

/-- A Q-ball as documented, 100xxxx0 with the charge in tenths: its charge is taken to be in thirds. -/
theorem C179_qball_counterexample : chargeOf 10000150 15 = (15, 3) := by decide +kernel

/-- A code is repeated: the first name finds a particle of another name. -/
theorem C179_repeated_counterexample : ∃ p,
    (new exN ["11 a -3 1 0 0".toList, "11 b -3 1 0 0".toList] false).1.byName ['a'] = some p ∧ p.name = ['b'] := by
  refine ⟨_, rfl, by decide +kernel⟩

example : ((new exN ["# comment".toList, "".toList, "  11  e^-  -3 1 0 2 ".toList, "22 gamma 0 0 0 0".toList] false).1.byName
    "e^-".toList).map (fun p => (p.id, p.charge, p.mass, p.width)) = some (11, (-3, 3), 1, 7) := by decide +kernel

example : Means exN "  11  e^-  -3 1 0 2 ".toList (some ⟨11, "e^-".toList, (-3, 3), 1, 7⟩) :=
  .particle 11 (-3) "e^-".toList ['1'] ['0'] ['2'] 1 0 2 (by decide +kernel) (by decide) (by decide) (by decide) (by decide) rfl rfl rfl
    (by decide +kernel)

example : Malformed "11 e^- -3 1 0".toList := ⟨"11".toList, _, rfl, by decide, by decide, by decide⟩

end Verif.HepPDT.Read
