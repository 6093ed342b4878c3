import Verif.Hbook.Yoda
import Mathlib.Tactic.Ring
import Mathlib.Data.List.Nodup

/-!
# Lines and annotations of YODA texts
-/

namespace Verif.Hbook.Yoda
open Verif.Text Verif.Fscanf Verif.Strconv Verif.Hbook Verif.Hbook.Brio

/-! ### Numbers -/

theorem sign_chars {sg : List Char} (h : sg = [] ∨ sg = ['-'] ∨ sg = ['+']) : ∀ c ∈ sg, c = '-' ∨ c = '+' := by
  rcases h with rfl | rfl | rfl <;> simp

/-- The characters of a number. -/
theorem decimal_chars {s : List Char} (h : Decimal s) :
    ∀ c ∈ s, c.isDigit = true ∨ c = '-' ∨ c = '+' ∨ c = '.' ∨ c = 'e' ∨ c = 'E' := by
  obtain ⟨sg, ds, fr, ex, rfl, hsg, ⟨-, hd⟩, hf, hx⟩ := h
  intro c hc
  simp only [List.mem_append] at hc
  rcases hc with ((hc | hc) | hc) | hc
  · rcases sign_chars hsg c hc with e | e <;> simp [e]
  · exact .inl (hd c hc)
  · rcases hf with rfl | ⟨f, rfl, hf⟩
    · simp at hc
    · rcases List.mem_cons.mp hc with e | e
      · simp [e]
      · exact .inl (hf c e)
  · rcases hx with rfl | ⟨x, sg', e, rfl, hx, hsg', -, he⟩
    · simp at hc
    · simp only [List.cons_append, List.mem_cons, List.mem_append] at hc
      rcases hc with h | h | h
      · rcases hx with hx | hx <;> simp [h, hx]
      · rcases sign_chars hsg' c h with e | e <;> simp [e]
      · exact .inl (he c h)

theorem floatWord_noSpace {s : List Char} (h : FloatWord s) : ∀ c ∈ s, isSpace c = false := by
  intro c hc
  rcases h with h | h
  · rcases decimal_chars h c hc with e | e | e | e | e | e
    · exact digit_not_space e
    all_goals subst e; decide
  · have : ∀ t ∈ [['N', 'a', 'N'], ['+', 'I', 'n', 'f'], ['-', 'I', 'n', 'f']], ∀ c ∈ t, isSpace c = false := by decide
    rcases h with rfl | rfl | rfl
    · exact this _ (by simp) c hc
    · exact this _ (by simp) c hc
    · exact this _ (by simp) c hc

theorem floatWord_head {s : List Char} (h : FloatWord s) :
    ∃ c t, s = c :: t ∧ (c.isDigit = true ∨ c = '-' ∨ c = '+' ∨ c = 'N') := by
  rcases h with ⟨sg, ds, fr, ex, rfl, hsg, ⟨hn, hd⟩, -, -⟩ | rfl | rfl | rfl
  · rcases hsg with rfl | rfl | rfl
    · cases ds with
      | nil => exact absurd rfl hn
      | cons c ds => exact ⟨c, ds ++ fr ++ ex, by simp, .inl (hd c (by simp))⟩
    · exact ⟨'-', ds ++ fr ++ ex, by simp, by simp⟩
    · exact ⟨'+', ds ++ fr ++ ex, by simp, by simp⟩
  · exact ⟨_, _, rfl, by simp⟩
  · exact ⟨_, _, rfl, by simp⟩
  · exact ⟨_, _, rfl, by simp⟩

/-- What is assumed of the numbers: they are written in a usual notation, and the text of a number is read as the
number rounded to the digits written. -/
structure Numbers {F V : Type} (env : Env F V) (rnd : F → F) : Prop where
  word : ∀ x, FloatWord (env.fmtE x)
  parse : ∀ x, env.parse (env.fmtE x) = some (rnd x)

/-- Numbers separated by tabs are read by a format with tabs. -/
theorem scanf_tabbed {F : Type} {parse : List Char → Option F} : ∀ (l : List (List Char × F)), l ≠ [] →
    (∀ x ∈ l, Reads parse .flt x.1 (.flt x.2)) →
    scanf parse (lineFmt (List.replicate l.length .flt)) (tabbed (l.map fun x => x.1)) =
      some (l.map fun x => .flt x.2, []) := by
  intro l
  induction l with
  | nil => intro h; exact absurd rfl h
  | cons x l ih =>
    intro _ hr
    obtain ⟨t, v⟩ := x
    have hx := (hr (t, v) (by simp)).2 0
    cases l with
    | nil =>
      have := hx [] (by intro c hc; simp at hc)
      simp only [List.replicate_zero, List.nil_append, List.append_nil] at this
      simp [lineFmt, scanf, tabbed, this, matchNL]
    | cons y l =>
      obtain ⟨u, w⟩ := y
      have h2 := ih (by simp) (fun z hz => hr z (by simp at hz ⊢; tauto))
      have := hx ('\t' :: tabbed ((u :: l.map fun x => x.1))) (by intro c hc; simp at hc; subst hc; decide)
      simp only [List.replicate_zero, List.nil_append] at this
      obtain ⟨c, t', e, hc⟩ := (hr (u, w) (by simp)).1
      have htab : ∃ r, tabbed (u :: l.map fun x => x.1) = c :: r := by
        simp only at e
        subst e
        cases l with
        | nil => exact ⟨_, rfl⟩
        | cons z l => exact ⟨_, rfl⟩
      obtain ⟨r, hr'⟩ := htab
      have h3 : matchSP ('\t' :: tabbed (u :: l.map fun x => x.1)) = some (tabbed (u :: l.map fun x => x.1)) := by
        have hb : blank '\t' = true := by decide
        simp only [matchSP, hb, if_true]
        rw [hr', dropWhile_of_head (stops_cons (by simp [blank, hc]) _)]
      simp only [List.map_cons, List.length_cons, List.replicate_succ, lineFmt, tabbed, scanf] at h2 ⊢
      rw [this]
      simp only [Option.bind_some, h3, h2, Option.map_some]

theorem advance_chars (s r : List Char) (l : List Lit) (hs : ∀ c ∈ s, blank c = false) :
    advance (s.map .chr ++ l) (s ++ r) = advance l r := by
  induction s with
  | nil => rfl
  | cons c s ih =>
    simp only [List.map_cons, List.cons_append, advance, if_true]
    exact ih fun d hd => hs d (by simp [hd])

section
variable {F V : Type} {env : Env F V} {rnd : F → F}

theorem reads_fmtE (hn : Numbers env rnd) (x : F) : Reads env.parse .flt (env.fmtE x) (.flt (rnd x)) :=
  reads_flt (hn.word x) (hn.parse x)

/-- A line of numbers is read. -/
theorem scanRow_row (hn : Numbers env rnd) {l : List F} (hl : l ≠ []) :
    scanRow env [] l.length (rowText env l) = some (l.map fun x => .flt (rnd x)) := by
  have h := scanf_tabbed (l.map fun x => (env.fmtE x, rnd x)) (by simpa using hl) (by
    intro x hx
    obtain ⟨y, -, rfl⟩ := List.mem_map.mp hx
    exact reads_fmtE hn y)
  simp only [List.map_map, List.length_map, Function.comp_def] at h
  have e : (l.map fun x => env.fmtE x) = l.map env.fmtE := rfl
  simp only [scanRow, litsOf, advance, Option.bind_some, rowText]
  rw [e] at h
  rw [h]
  rfl

theorem rowText_cons (hn : Numbers env rnd) {l : List F} (hl : l ≠ []) :
    ∃ c t, rowText env l = c :: t ∧ (c.isDigit = true ∨ c = '-' ∨ c = '+' ∨ c = 'N') := by
  cases l with
  | nil => exact absurd rfl hl
  | cons x l =>
    obtain ⟨c, t, e, hc⟩ := floatWord_head (hn.word x)
    cases l with
    | nil => exact ⟨c, t, by simp [rowText, tabbed, e], hc⟩
    | cons y l => exact ⟨c, t ++ '\t' :: tabbed ((y :: l).map env.fmtE), by simp [rowText, tabbed, e], hc⟩

theorem dropWhile_row (hn : Numbers env rnd) {l : List F} (hl : l ≠ []) :
    (rowText env l).dropWhile blank = rowText env l := by
  obtain ⟨c, t, e, hc⟩ := rowText_cons hn hl
  rw [e]
  refine dropWhile_of_head (stops_cons ?_ _)
  rcases hc with h | h | h | h
  · simp [blank, digit_not_space h]
  all_goals subst h; decide

theorem mem_tabbed {l : List (List Char)} {c : Char} (h : c ∈ tabbed l) : c = '\t' ∨ ∃ t ∈ l, c ∈ t := by
  induction l with
  | nil => simp [tabbed] at h
  | cons t l ih =>
    cases l with
    | nil => exact .inr ⟨t, by simp, h⟩
    | cons u l =>
      simp only [tabbed, List.mem_append, List.mem_cons] at h
      rcases h with h | h | h
      · exact .inr ⟨t, by simp, h⟩
      · exact .inl h
      · rcases ih h with h | ⟨v, hv, h⟩
        · exact .inl h
        · exact .inr ⟨v, by simp at hv ⊢; tauto, h⟩

/-- The characters of a line of numbers: no newline, no carriage return. -/
theorem rowText_mem (hn : Numbers env rnd) {l : List F} {c : Char} (h : c ∈ rowText env l) : c ≠ '\n' ∧ c ≠ '\r' := by
  rcases mem_tabbed h with h | ⟨t, ht, h⟩
  · subst h; decide
  · obtain ⟨x, -, rfl⟩ := List.mem_map.mp ht
    have := floatWord_noSpace (hn.word x) c h
    constructor <;> (rintro rfl; exact absurd this (by decide))

/-- The names of the lines before the bins. -/
theorem headText_head (h : List Char) (l : List F) : (h ++ ['\t']).isPrefixOf (headText env h l) = true := by
  rw [List.isPrefixOf_iff_prefix]
  exact ⟨h ++ '\t' :: rowText env l, by simp [headText]⟩

/-- A line before the bins is read. -/
theorem scanRow_head (hn : Numbers env rnd) {h : List Char} {p : List Char} {n : Nat} (hp : ∀ c ∈ p, blank c = false)
    (he : h = p ++ List.replicate n ' ') (hne : p ≠ []) {l : List F} (hl : l ≠ []) :
    scanRow env (h ++ '\t' :: (h ++ ['\t'])) l.length (headText env h l) = some (l.map fun x => .flt (rnd x)) := by
  have hb : blank '\t' = true := by decide
  have hrun : ∀ (b : Bool) (n : Nat) (t : List Char),
      litsOf b (List.replicate n ' ' ++ '\t' :: t) = (if b then [] else [.sp]) ++ litsOf true t := by
    intro b n t
    cases n with
    | zero => cases b <;> simp [litsOf, hb]
    | succ n =>
      have : ∀ n, litsOf true (List.replicate n ' ' ++ '\t' :: t) = litsOf true t := by
        intro n
        induction n with
        | zero => simp [litsOf, hb]
        | succ n ih => simp [List.replicate_succ, litsOf, blank_space, ih]
      cases b <;> simp [List.replicate_succ, litsOf, blank_space, this]
  have hchr : ∀ (p t : List Char) (b : Bool), p ≠ [] → (∀ c ∈ p, blank c = false) →
      litsOf b (p ++ t) = p.map .chr ++ litsOf false t := by
    intro p
    induction p with
    | nil => intro t b h; exact absurd rfl h
    | cons c p ih =>
      intro t b _ h
      have hc := h c (by simp)
      simp only [List.cons_append, litsOf, hc, Bool.false_eq_true, if_false, List.map_cons]
      cases p with
      | nil => simp
      | cons d p => rw [ih t false (by simp) fun x hx => h x (by simp at hx ⊢; tauto)]
  have hl1 : litsOf false (h ++ '\t' :: (h ++ ['\t'])) = p.map .chr ++ (.sp :: (p.map .chr ++ [.sp])) := by
    subst he
    rw [List.append_assoc, hchr p _ _ hne hp, hrun, List.append_assoc, hchr p _ _ hne hp]
    rw [show List.replicate n ' ' ++ ['\t'] = List.replicate n ' ' ++ '\t' :: [] from rfl, hrun]
    simp [litsOf]
  have hsp : ∀ (t : List Char), t.dropWhile blank = t → matchSP (List.replicate n ' ' ++ '\t' :: t) = some t := by
    intro t ht
    cases n with
    | zero => simp [matchSP, hb, ht]
    | succ n =>
      simp only [List.replicate_succ, List.cons_append, matchSP, blank_space, if_true]
      rw [dropWhile_blank_spaces]
      simp [hb, ht]
  have hpd : ∀ t, (p ++ t).dropWhile blank = p ++ t := by
    intro t
    cases p with
    | nil => exact absurd rfl hne
    | cons c p => exact dropWhile_of_head (stops_cons (hp c (by simp)) _)
  have hadv : advance (litsOf false (h ++ '\t' :: (h ++ ['\t']))) (headText env h l) = some (rowText env l) := by
    rw [hl1]
    have e : headText env h l = p ++ (List.replicate n ' ' ++ '\t' :: (p ++ (List.replicate n ' ' ++ '\t' :: rowText env l))) := by
      simp [headText, he]
    rw [e, advance_chars p _ _ hp]
    simp only [advance]
    rw [hsp _ (hpd _)]
    simp only [Option.bind_some]
    rw [advance_chars p _ _ hp]
    simp only [advance]
    rw [hsp _ (dropWhile_row hn hl)]
    rfl
  have h2 := scanRow_row hn hl
  simp only [scanRow, litsOf, advance, Option.bind_some] at h2
  simp only [scanRow, hadv, Option.bind_some, h2]

/-! ### Annotations -/

omit env rnd in
theorem get_nil (k : List Char) : get ([] : Ann V) k = none := rfl

theorem get_cons (x : List Char × V) (a : Ann V) (k : List Char) :
    get (x :: a) k = if x.1 = k then some x.2 else get a k := by
  by_cases h : x.1 = k <;> simp [get, h]

theorem get_filter (a : Ann V) (k k' : List Char) :
    get (a.filter fun x => decide (x.1 ≠ k)) k' = if k' = k then none else get a k' := by
  induction a with
  | nil => simp [get]
  | cons x a ih =>
    by_cases h : x.1 = k
    · rw [List.filter_cons_of_neg (by simp [h]), ih, get_cons]
      by_cases h' : k' = k
      · simp [h']
      · have : x.1 ≠ k' := by rw [h]; exact fun e => h' e.symm
        simp [h', this]
    · rw [List.filter_cons_of_pos (by simp [h]), get_cons, ih, get_cons]
      by_cases h' : k' = k
      · subst h'
        simp [h]
      · simp [h']

theorem get_append (a b : Ann V) (k : List Char) : get (a ++ b) k = (get a k).or (get b k) := by
  induction a with
  | nil => simp [get]
  | cons x a ih =>
    rw [List.cons_append, get_cons, get_cons, ih]
    split <;> simp

theorem get_set (a : Ann V) (k : List Char) (v : V) (k' : List Char) :
    get (set a k v) k' = if k' = k then some v else get a k' := by
  rw [set, get_append, get_filter, get_cons, get_nil]
  by_cases h : k' = k
  · simp [h]
  · have : k ≠ k' := fun e => h e.symm
    simp [h, this]

theorem get_mem {a : Ann V} {k : List Char} {v : V} (h : get a k = some v) : (k, v) ∈ a := by
  induction a with
  | nil => simp [get] at h
  | cons x a ih =>
    rw [get_cons] at h
    split at h
    · rename_i e
      simp only [Option.some.injEq] at h
      have : x = (k, v) := by rw [← e, ← h]
      simp [this]
    · exact List.mem_cons_of_mem _ (ih h)

theorem get_none {a : Ann V} {k : List Char} (h : ∀ x ∈ a, x.1 ≠ k) : get a k = none := by
  induction a with
  | nil => rfl
  | cons x a ih =>
    rw [get_cons, if_neg (h x (by simp))]
    exact ih fun y hy => h y (by simp [hy])

/-- The loop over the annotations to be written. -/
theorem get_annFold {a : Ann V} (hd : (a.map fun x => x.1).Nodup) (hT : ∀ x ∈ a, x.1 ≠ kTitleY) (out : Ann V) (k : List Char) :
    get (a.foldl annStep out) k =
      if k = kTitleY then (get a kTitle).or (get out k)
      else if k = kName ∨ k = kTitle then get out k
      else (get a k).or (get out k) := by
  induction a generalizing out with
  | nil => simp [get_nil]
  | cons x a ih =>
    simp only [List.map_cons, List.nodup_cons] at hd
    rw [List.foldl_cons, ih hd.2 fun y hy => hT y (by simp [hy])]
    have hx := hT x (by simp)
    have hno : ∀ k, x.1 = k → get a k = none := by
      rintro k rfl
      refine get_none fun y hy e => hd.1 ?_
      rw [← e]
      exact List.mem_map_of_mem hy
    simp only [annStep]
    by_cases h1 : x.1 = kName
    · rw [if_pos h1]
      have e1 : kName ≠ kTitle := by decide
      by_cases hk : k = kTitleY
      · rw [if_pos hk, if_pos hk, get_cons, h1, if_neg e1]
      · rw [if_neg hk, if_neg hk]
        by_cases hk2 : k = kName ∨ k = kTitle
        · rw [if_pos hk2, if_pos hk2]
        · rw [if_neg hk2, if_neg hk2, get_cons, h1, if_neg (by rintro rfl; exact hk2 (.inl rfl))]
    · rw [if_neg h1]
      by_cases h2 : x.1 = kTitle
      · rw [if_pos h2]
        by_cases hk : k = kTitleY
        · rw [if_pos hk, if_pos hk, get_cons, if_pos h2, hno _ h2, get_set, if_pos hk]
          simp
        · rw [if_neg hk, if_neg hk, get_set, if_neg hk]
          by_cases hk2 : k = kName ∨ k = kTitle
          · rw [if_pos hk2, if_pos hk2]
          · rw [if_neg hk2, if_neg hk2, get_cons, h2, if_neg (by rintro rfl; exact hk2 (.inr rfl))]
      · rw [if_neg h2]
        by_cases hk : k = kTitleY
        · rw [if_pos hk, if_pos hk, get_cons, if_neg h2, get_set, if_neg (by rw [hk]; exact fun e => hx e.symm)]
        · rw [if_neg hk, if_neg hk]
          by_cases hk2 : k = kName ∨ k = kTitle
          · rw [if_pos hk2, if_pos hk2, get_set, if_neg]
            rintro rfl
            rcases hk2 with e | e
            · exact h1 e
            · exact h2 e
          · rw [if_neg hk2, if_neg hk2, get_cons, get_set]
            by_cases e : k = x.1
            · rw [if_pos e, if_pos e.symm, hno _ e.symm]
              simp
            · rw [if_neg e, if_neg fun h => e h.symm]

/-- The loop over the annotations read. -/
theorem annFrom_get (hstr : ∀ s, env.isStr (env.str s) = some s) {b : Ann V} (hd : (b.map fun x => x.1).Nodup)
    (hp : ∀ x ∈ b, x.1 = kPathY → ∃ s, x.2 = env.str s)
    (hn : ∀ x ∈ b, x.1 ≠ kName ∧ x.1 ≠ kTitle) (out : Ann V) :
    ∃ o, annFromYODA env out b = some o ∧ ∀ k, get o k =
      if k = kName then ((get b kPathY).bind env.isStr |>.map fun s => env.str (trimSlash s)).or (get out k)
      else if k = kTitle then (get b kTitleY).or (get out k)
      else if k = kTypeY ∨ k = kPathY ∨ k = kTitleY then get out k
      else (get b k).or (get out k) := by
  induction b generalizing out with
  | nil => exact ⟨out, rfl, by simp [get_nil]⟩
  | cons x b ih =>
    simp only [List.map_cons, List.nodup_cons] at hd
    have hno : ∀ k, x.1 = k → get b k = none := by
      rintro k rfl
      refine get_none fun y hy e => hd.1 ?_
      rw [← e]
      exact List.mem_map_of_mem hy
    have hx := hn x (by simp)
    have ih' := ih hd.2 (fun y hy => hp y (by simp [hy])) (fun y hy => hn y (by simp [hy]))
    have n1 : kName ≠ kTitle := by decide
    have n2 : kName ≠ kTypeY := by decide
    have n3 : kName ≠ kPathY := by decide
    have n4 : kName ≠ kTitleY := by decide
    have n5 : kTitle ≠ kTypeY := by decide
    have n6 : kTitle ≠ kPathY := by decide
    have n7 : kTitle ≠ kTitleY := by decide
    have n8 : kTypeY ≠ kPathY := by decide
    have n9 : kTypeY ≠ kTitleY := by decide
    have n10 : kPathY ≠ kTitleY := by decide
    simp only [annFromYODA, unannStep]
    by_cases h1 : x.1 = kTypeY
    · rw [if_pos h1]
      obtain ⟨o, ho, hg⟩ := ih' out
      refine ⟨o, ho, fun k => ?_⟩
      rw [hg, get_cons x b kPathY, get_cons x b kTitleY, get_cons x b k, h1, if_neg n8, if_neg n9]
      by_cases hk : kTypeY = k
      · subst hk; simp [n2.symm, n5.symm]
      · simp [hk]
    · rw [if_neg h1]
      by_cases h2 : x.1 = kPathY
      · rw [if_pos h2]
        obtain ⟨s, hs⟩ := hp x (by simp) h2
        rw [hs, hstr]
        simp only [Option.map_some]
        obtain ⟨o, ho, hg⟩ := ih' (set out kName (env.str (trimSlash s)))
        refine ⟨o, ho, fun k => ?_⟩
        rw [hg, get_cons x b kPathY, get_cons x b kTitleY, get_cons x b k, h2, if_pos rfl, if_neg n10, hno _ h2, get_set, hs]
        by_cases hk : k = kName
        · subst hk; simp [hstr]
        · by_cases hk' : kPathY = k
          · subst hk'; simp [n3.symm, n6.symm]
          · simp [hk, hk']
      · rw [if_neg h2]
        by_cases h3 : x.1 = kTitleY
        · rw [if_pos h3]
          obtain ⟨o, ho, hg⟩ := ih' (set out kTitle x.2)
          refine ⟨o, ho, fun k => ?_⟩
          rw [hg, get_cons x b kPathY, get_cons x b kTitleY, get_cons x b k, h3, if_neg n10.symm, if_pos rfl, hno _ h3, get_set]
          by_cases hk : k = kTitle
          · subst hk; simp [n1.symm]
          · by_cases hk' : kTitleY = k
            · subst hk'; simp [n4.symm, n7.symm]
            · simp [hk, hk']
        · rw [if_neg h3]
          obtain ⟨o, ho, hg⟩ := ih' (set out x.1 x.2)
          refine ⟨o, ho, fun k => ?_⟩
          rw [hg, get_cons x b kPathY, get_cons x b kTitleY, get_cons x b k, if_neg h2, if_neg h3, get_set]
          by_cases hk : k = x.1
          · subst hk
            simp [hx.1, hx.2, h1, h2, h3, hno _ rfl]
          · have hk' : ¬ x.1 = k := fun e => hk e.symm
            simp [hk, hk']

end

end Verif.Hbook.Yoda
