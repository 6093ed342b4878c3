/-
C124: whole LHEF files; C125: events in any LHEF file.
-/
import Verif.Lhef.Props

namespace Verif.Lhef

open Verif.Text Verif.Strconv Verif.Fscanf

/-! ### XML -/

/-- Characters without meaning for the reader of XML. -/
def PlainC (c : Char) : Prop := c ≠ '<' ∧ c ≠ '&' ∧ c ≠ '>'

instance (c : Char) : Decidable (PlainC c) := by unfold PlainC; infer_instance

theorem tokens_plain (st : List Str) : ∀ (t acc s : Str), (∀ c ∈ t, PlainC c) →
    tokens st false acc (t ++ s) = tokens st false (t.reverse ++ acc) s := by
  intro t
  induction t with
  | nil => intro acc s _; rfl
  | cons c t ih =>
    intro acc s h
    obtain ⟨h1, h2, h3⟩ := h c (by simp)
    rw [List.cons_append]
    conv_lhs => rw [tokens]
    simp only [Bool.false_eq_true, if_false, h1, h2, h3, false_and]
    rw [ih _ _ fun d hd => h d (by simp [hd])]
    simp

theorem tokens_intag (st : List Str) : ∀ (t acc s : Str), '>' ∉ t →
    tokens st true acc (t ++ s) = tokens st true (t.reverse ++ acc) s := by
  intro t
  induction t with
  | nil => intro acc s _; rfl
  | cons c t ih =>
    intro acc s h
    have h1 : c ≠ '>' := fun e => h (by simp [e])
    rw [List.cons_append]
    conv_lhs => rw [tokens]
    simp only [if_true, h1, if_false]
    rw [ih _ _ fun hd => h (by simp [hd])]
    simp

/-- A tag. -/
theorem tokens_tag {st st' : List Str} {t : Str} {ts : List Tok} (ht : '>' ∉ t) (h : tag st t = some (ts, st'))
    (acc s : Str) : tokens st false acc ('<' :: (t ++ '>' :: s)) =
      (charTok acc ++ (ts ++ (tokens st' false [] s).1), (tokens st' false [] s).2) := by
  have e : tokens st true [] (t ++ '>' :: s) = (ts ++ (tokens st' false [] s).1, (tokens st' false [] s).2) := by
    rw [tokens_intag st t [] _ ht]
    conv_lhs => rw [tokens]
    simp [h]
  rw [tokens]
  simp [e]

theorem takeWhile_all {p : Char → Bool} {n : Str} (h : ∀ c ∈ n, p c = true) : n.takeWhile p = n := by
  induction n with
  | nil => rfl
  | cons c n ih => simp [h c (by simp), ih fun d hd => h d (by simp [hd])]

theorem tag_start (st : List Str) {n : Str} (hn : n ≠ []) (h : ∀ c ∈ n, nameChar c = true) :
    tag st n = some ([.start n []], n :: st) := by
  have e1 : n.takeWhile nameChar = n := takeWhile_all h
  have e2 : n.dropWhile nameChar = [] := by
    have := List.takeWhile_append_dropWhile (p := nameChar) (l := n)
    rw [e1] at this
    simpa using this
  cases n with
  | nil => exact absurd rfl hn
  | cons c n =>
    have hc : c ≠ '/' := by
      intro e
      have := h c (by simp)
      rw [e] at this
      exact absurd this (by decide)
    have : tag st (c :: n) = some ([.start ((c :: n).takeWhile nameChar) []], (c :: n).takeWhile nameChar :: st) := by
      rw [tag.eq_3 _ _ (by intro r e; cases e; exact hc rfl)]
      simp only [e1, e2, attrs]
      simp
    rw [this, e1]

theorem tag_stop (st : List Str) {n : Str} (h : ∀ c ∈ n, nameChar c = true) :
    tag (n :: st) ('/' :: n) = some ([.stop n], st) := by
  have e1 : n.takeWhile nameChar = n := takeWhile_all h
  have e2 : n.dropWhile nameChar = [] := by
    have := List.takeWhile_append_dropWhile (p := nameChar) (l := n)
    rw [e1] at this
    simpa using this
  simp [tag, e1, e2]

theorem name_no_gt {n : Str} (h : ∀ c ∈ n, nameChar c = true) : '>' ∉ n := by
  intro e
  exact absurd (h _ e) (by decide)

/-- No start tag with a name. -/
def NoStart (name : Str) (ts : List Tok) : Prop := ∀ t ∈ ts, ∀ n as, t = .start n as → n ≠ name

/-- No end tag with a name. -/
def NoStop (name : Str) (ts : List Tok) : Prop := ∀ t ∈ ts, t ≠ .stop name

theorem find_append {name : Str} : ∀ {ts : List Tok}, NoStart name ts → ∀ l, find name (ts ++ l) = find name l := by
  intro ts
  induction ts with
  | nil => intro _ l; rfl
  | cons t ts ih =>
    intro h l
    have hts := ih (fun t' ht' => h t' (by simp [ht'])) l
    cases t with
    | start n as =>
      have := h (.start n as) (by simp) n as rfl
      simp [find, this, hts]
    | stop n => simp [find, hts]
    | char s => simp [find, hts]
    | comment => simp [find, hts]

theorem seek_append {name : Str} : ∀ {ts : List Tok}, NoStop name ts → ∀ l, seek name (ts ++ l) = seek name l := by
  intro ts
  induction ts with
  | nil => intro _ l; rfl
  | cons t ts ih =>
    intro h l
    have hts := ih (fun t' ht' => h t' (by simp [ht'])) l
    cases t with
    | start n as => simp [seek, hts]
    | stop n =>
      have : n ≠ name := fun e => h (.stop n) (by simp) (by rw [e])
      simp [seek, this, hts]
    | char s => simp [seek, hts]
    | comment => simp [seek, hts]

theorem noStart_charTok (name acc : Str) : NoStart name (charTok acc) := by
  intro t ht n as e
  simp only [charTok] at ht
  split at ht
  · simp at ht
  · simp at ht; rw [ht] at e; cases e

/-- A header adds tokens, none of them the start of `init`. -/
theorem tokens_markup {h : Str} (hh : Markup h) : ∀ (st : List Str) (acc s : Str),
    ∃ ts acc', tokens st false acc (h ++ s) = (ts ++ (tokens st false acc' s).1, (tokens st false acc' s).2) ∧
      NoStart nInit ts := by
  induction hh with
  | nil => intro st acc s; exact ⟨[], acc, rfl, fun t ht => by simp at ht⟩
  | @char c s' hc _ ih =>
    intro st acc s
    obtain ⟨ts, acc', e, hn⟩ := ih st (c :: acc) s
    refine ⟨ts, acc', ?_, hn⟩
    rw [← e]
    have := tokens_plain st [c] acc (s' ++ s) (by intro d hd; simp at hd; rw [hd]; exact hc)
    simpa using this
  | @elem n a b hn _ _ iha ihb =>
    intro st acc s
    obtain ⟨h0, h1, h2⟩ := hn
    obtain ⟨ta, acca, ea, hna⟩ := iha (n :: st) [] ('<' :: ('/' :: n ++ '>' :: (b ++ s)))
    obtain ⟨tb, accb, eb, hnb⟩ := ihb st [] s
    have eq : '<' :: n ++ '>' :: (a ++ '<' :: '/' :: n ++ '>' :: b) ++ s =
        '<' :: (n ++ '>' :: (a ++ '<' :: ('/' :: n ++ '>' :: (b ++ s)))) := by simp
    have hg : '>' ∉ '/' :: n := by
      intro e
      rcases List.mem_cons.mp e with e | e
      · exact absurd e (by decide)
      · exact name_no_gt h2 e
    refine ⟨charTok acc ++ [.start n []] ++ ta ++ charTok acca ++ [.stop n] ++ tb, accb, ?_, ?_⟩
    · rw [eq, tokens_tag (name_no_gt h2) (tag_start st h0 h2), ea, tokens_tag hg (tag_stop st h2), eb]
      simp
    · intro t ht m as e
      simp only [List.mem_append, List.mem_singleton] at ht
      rcases ht with ((((ht | ht) | ht) | ht) | ht) | ht
      · exact noStart_charTok _ _ t ht m as e
      · rw [ht] at e; cases e; exact h1
      · exact hna t ht m as e
      · exact noStart_charTok _ _ t ht m as e
      · rw [ht] at e; cases e
      · exact hnb t ht m as e

/-! ### Plain lines -/

theorem plain_digit {c : Char} (h : c.isDigit = true) : PlainC c :=
  ⟨by intro e; rw [e] at h; exact absurd h (by decide), by intro e; rw [e] at h; exact absurd h (by decide),
    by intro e; rw [e] at h; exact absurd h (by decide)⟩

theorem plain_fields : ∀ {l : List (Nat × Str)}, (∀ x ∈ l, ∀ c ∈ x.2, PlainC c) → ∀ c ∈ fieldsText l, PlainC c := by
  have hsp : PlainC ' ' := by decide
  intro l
  induction l with
  | nil => intro _ c hc; simp [fieldsText] at hc
  | cons x l ih =>
    intro h c hc
    obtain ⟨w, t⟩ := x
    simp only [fieldsText, padL, List.cons_append, List.mem_cons, List.mem_append, List.mem_replicate] at hc
    rcases hc with e | (⟨-, e⟩ | e) | e
    · rw [e]; exact hsp
    · rw [e]; exact hsp
    · exact h (w, t) (by simp) c e
    · exact ih (fun y hy => h y (by simp [hy])) c e

theorem plain_int {n : Nat} (x : BitVec n) : ∀ c ∈ fmtI x, PlainC c := by
  intro c hc
  rcases formatInt_chars hc with h | h
  · exact plain_digit h
  · rw [h]; decide

theorem plain_word {s : Str} (h : FloatWord s) : ∀ c ∈ s, PlainC c := by
  have sg : ∀ {sg : Str}, (sg = [] ∨ sg = ['-'] ∨ sg = ['+']) → ∀ c ∈ sg, PlainC c := by
    intro sg h c hc
    rcases h with rfl | rfl | rfl
    · simp at hc
    · simp at hc; rw [hc]; decide
    · simp at hc; rw [hc]; decide
  rcases h with ⟨g, ds, fr, ex, rfl, hg, ⟨-, hd⟩, hf, hx⟩ | rfl | rfl | rfl
  · intro c hc
    simp only [List.mem_append] at hc
    rcases hc with ((hc | hc) | hc) | hc
    · exact sg hg c hc
    · exact plain_digit (hd c hc)
    · rcases hf with rfl | ⟨f, rfl, hf⟩
      · simp at hc
      · rcases List.mem_cons.mp hc with e | e
        · rw [e]; decide
        · exact plain_digit (hf c e)
    · rcases hx with rfl | ⟨x, g', e', rfl, hx, hg', -, he⟩
      · simp at hc
      · simp only [List.cons_append, List.mem_cons, List.mem_append] at hc
        rcases hc with hc | hc | hc
        · rcases hx with e | e <;> rw [hc, e] <;> decide
        · exact sg hg' c hc
        · exact plain_digit (he c hc)
  all_goals (intro c hc; simp at hc; rcases hc with rfl | rfl | rfl | rfl <;> decide)

section
variable {F : Type} {no : Notation F} {r6 r10 r0 : F → F} {fin : F → Prop}

theorem plain_snoc {s : Str} (h : ∀ c ∈ s, PlainC c) {d : Char} (hd : PlainC d) : ∀ c ∈ s ++ [d], PlainC c := by
  intro c hc
  rcases List.mem_append.mp hc with e | e
  · exact h c e
  · simp at e; rw [e]; exact hd

theorem plain_runLine (g : Good no r6 r10 r0 fin) (r : Run F) : ∀ c ∈ runLine no r, PlainC c := by
  refine plain_snoc (plain_fields ?_) (by decide)
  intro x hx
  simp only [List.mem_cons, List.not_mem_nil, or_false] at hx
  rcases hx with rfl | rfl | rfl | rfl | rfl | rfl | rfl | rfl | rfl | rfl
  all_goals first | exact plain_int _ | exact plain_word (g.word6 _)

theorem plain_processLine (g : Good no r6 r10 r0 fin) (p : Process F) : ∀ c ∈ processLine no p, PlainC c := by
  refine plain_snoc (plain_fields ?_) (by decide)
  intro x hx
  simp only [List.mem_cons, List.not_mem_nil, or_false] at hx
  rcases hx with rfl | rfl | rfl | rfl
  all_goals first | exact plain_int _ | exact plain_word (g.word6 _)

theorem plain_eventLine (g : Good no r6 r10 r0 fin) (e : Event F) : ∀ c ∈ eventLine no e, PlainC c := by
  refine plain_snoc (plain_fields ?_) (by decide)
  intro x hx
  simp only [List.mem_cons, List.not_mem_nil, or_false] at hx
  rcases hx with rfl | rfl | rfl | rfl | rfl | rfl
  all_goals first | exact plain_int _ | exact plain_word (g.word6 _)

theorem plain_particleLine (g : Good no r6 r10 r0 fin) (p : Particle F) (h1 : fin p.vtim) (h2 : fin p.spin) :
    ∀ c ∈ particleLine no p, PlainC c := by
  refine plain_snoc (plain_fields ?_) (by decide)
  intro x hx
  simp only [List.mem_cons, List.not_mem_nil, or_false] at hx
  rcases hx with rfl | rfl | rfl | rfl | rfl | rfl | rfl | rfl | rfl | rfl | rfl | rfl | rfl
  all_goals first
    | exact plain_int _
    | exact plain_word (g.word10 _)
    | (simp only [(word0 g h1).1]; exact plain_word (word0 g h1).2)
    | (simp only [(word0 g h2).1]; exact plain_word (word0 g h2).2)

/-- The tokens of one element with text in it, followed by a newline. -/
theorem tokens_element (st : List Str) {n t : Str} (hn : n ≠ []) (hc : ∀ c ∈ n, nameChar c = true)
    (ht : ∀ c ∈ t, PlainC c) (hne : t ≠ []) (acc s : Str) :
    tokens st false acc ('<' :: (n ++ '>' :: (t ++ '<' :: ('/' :: n ++ '>' :: '\n' :: s)))) =
      (charTok acc ++ (.start n [] :: .char t :: .stop n :: (tokens st false ['\n'] s).1),
        (tokens st false ['\n'] s).2) := by
  have hg : '>' ∉ '/' :: n := by
    intro e
    rcases List.mem_cons.mp e with e | e
    · exact absurd e (by decide)
    · exact name_no_gt hc e
  have hnl := tokens_plain st ['\n'] [] s (by intro c hc; simp at hc; rw [hc]; decide)
  simp only [List.cons_append, List.nil_append, List.reverse_cons, List.reverse_nil] at hnl
  rw [tokens_tag (name_no_gt hc) (tag_start st hn hc), tokens_plain _ t [] _ ht, tokens_tag hg (tag_stop st hc), hnl]
  have : charTok (t.reverse ++ []) = [.char t] := by
    simp [charTok, hne]
  rw [this]
  simp

theorem eventText_eq (g : Good no r6 r10 r0 fin) {e : Event F} (he : e.Fits fin) :
    ∃ t p, eventText no e = some t ∧ (∀ r, readEvent no (p ++ r) = .ok (e.shown r6 r10 r0)) ∧
      ∀ st acc s, tokens st false acc (t ++ s) =
        (charTok acc ++ (.start nEvent [] :: .char (p ++ ['#', '\n']) :: .stop nEvent :: (tokens st false ['\n'] s).1),
          (tokens st false ['\n'] s).2) := by
  obtain ⟨ps, h1, h2, h3⟩ := readEvent_text g he
  refine ⟨sEvent ++ eventLine no e ++ ps.flatMap (particleLine no) ++ sEventEnd,
    '\n' :: eventLine no e ++ ps.flatMap (particleLine no), ?_, ?_, ?_⟩
  · simp [eventText, h1, groupText, he.1]
  · intro r
    rw [List.append_assoc]
    exact h3 r
  · intro st acc s
    have hpl : ∀ c ∈ '\n' :: eventLine no e ++ ps.flatMap (particleLine no) ++ ['#', '\n'], PlainC c := by
      intro c hc
      simp only [List.cons_append, List.mem_cons, List.mem_append, List.mem_flatMap, List.not_mem_nil, or_false] at hc
      rcases hc with hc | (hc | ⟨p, hp, hc⟩) | hc | hc
      · rw [hc]; decide
      · exact plain_eventLine g e c hc
      · exact plain_particleLine g p (h2 p hp).1 (h2 p hp).2 c hc
      · rw [hc]; decide
      · rw [hc]; decide
    rw [← tokens_element st (n := nEvent) (by decide) (by decide) hpl (by simp) acc s]
    congr 1
    simp [sEvent, sEventEnd, nEvent]

/-- All the events of a file. -/
theorem encodeAll_eq (g : Good no r6 r10 r0 fin) : ∀ (es : List (Event F)), (∀ e ∈ es, e.Fits fin) →
    ∀ (w : Encoder F), w.started = true → w.run.neve ≤ 0 →
    ∃ t w', w.encodeAll no es = some w' ∧ w'.out = w.out ++ t ∧
      ∀ (d : Decoder F) (k : Nat), d.toks = (tokens [nRoot] false ['\n'] (t ++ sClose)).1 →
        d.fin = (tokens [nRoot] false ['\n'] (t ++ sClose)).2 →
        (d.decodeAll no (es.length + k)).1 = es.map (fun e => .ok (e.shown r6 r10 r0)) ++ List.replicate k .eof := by
  intro es
  induction es with
  | nil =>
    intro _ w _ _
    refine ⟨[], w, rfl, by simp, ?_⟩
    intro d k h1 h2
    have e1 : (tokens [nRoot] false ['\n'] sClose).1 = [.char ['\n'], .stop nRoot, .char ['\n']] := by decide +kernel
    have e2 : (tokens [nRoot] false ['\n'] sClose).2 = .eof := by decide +kernel
    rw [List.nil_append] at h1 h2
    rw [e1] at h1
    rw [e2] at h2
    have key : ∀ (k : Nat) (d : Decoder F), find nEvent d.toks = none → d.fin = .eof →
        (d.decodeAll no k).1 = List.replicate k .eof := by
      intro k
      induction k with
      | zero => intro d _ _; rfl
      | succ k ih =>
        intro d hd hf
        have hdec : d.decode no = (.eof, { d with toks := [] }) := by simp [Decoder.decode, hd, hf, atEnd]
        simp only [Decoder.decodeAll, hdec, List.replicate_succ]
        rw [ih { d with toks := [] } rfl hf]
    have := key k d (by rw [h1]; rfl) h2
    simpa using this
  | cons e es ih =>
    intro he w hw hn
    obtain ⟨t, p, h1, h2, h3⟩ := eventText_eq g (he e (by simp))
    have henc : w.encode no e = some { w with started := true, out := w.out ++ [] ++ t } := by
      simp only [Encoder.encode, hw, if_true, h1]
      rw [if_neg (by omega)]
    obtain ⟨t', w', e1, e2, e3⟩ := ih (fun x hx => he x (by simp [hx])) { w with started := true, out := w.out ++ [] ++ t }
      rfl hn
    refine ⟨t ++ t', w', ?_, ?_, ?_⟩
    · simp only [Encoder.encodeAll, henc, Option.bind_some, e1]
    · rw [e2]; simp
    · intro d k hd hf
      rw [List.append_assoc, h3] at hd hf
      have hfind : find nEvent d.toks = some (.char (p ++ ['#', '\n']) :: .stop nEvent ::
          (tokens [nRoot] false ['\n'] (t' ++ sClose)).1) := by
        rw [hd, find_append (noStart_charTok _ _)]
        simp [find]
      have hdec : d.decode no = (.ok (e.shown r6 r10 r0), { d with toks := (tokens [nRoot] false ['\n'] (t' ++ sClose)).1 }) := by
        simp [Decoder.decode, hfind, h2, seek]
      have := e3 { d with toks := (tokens [nRoot] false ['\n'] (t' ++ sClose)).1 } k rfl hf
      have hl : (e :: es).length + k = (es.length + k) + 1 := by simp; omega
      rw [hl]
      simp only [Decoder.decodeAll, hdec, this]
      simp

/-- The beginning of the file. -/
theorem init_eq (g : Good no r6 r10 r0 fin) {r : Run F} (hr : r.Fits) {h : Str} (hh : Markup h) :
    ∃ t, initText no h r = some t ∧ ∀ s, ∃ d : Decoder F, newDecoder no (xml (t ++ s)) = .ok d ∧ d.version = 1 ∧
      d.run = r.shown r6 ∧ d.toks = (tokens [nRoot] false ['\n'] s).1 ∧ d.fin = (tokens [nRoot] false ['\n'] s).2 := by
  obtain ⟨ps, h1, h2⟩ := readRun_text g hr
  have hneve : ¬ r.neve > 0 := by have := hr.1; omega
  refine ⟨_, by simp only [initText, if_neg hneve, h1, Option.map_some]; rfl, fun s => ?_⟩
  -- the element init
  have hpl : ∀ c ∈ '\n' :: runLine no r ++ ps.flatMap (processLine no) ++ ['#', '\n'], PlainC c := by
    intro c hc
    simp only [List.cons_append, List.mem_cons, List.mem_append, List.mem_flatMap, List.not_mem_nil, or_false] at hc
    rcases hc with hc | (hc | ⟨p, hp, hc⟩) | hc | hc
    · rw [hc]; decide
    · exact plain_runLine g r c hc
    · exact plain_processLine g p c hc
    · rw [hc]; decide
    · rw [hc]; decide
  have hel : ∀ acc, tokens [nRoot] false acc (sInit ++ runLine no r ++ ps.flatMap (processLine no) ++ sInitEnd ++ s) =
      (charTok acc ++ (.start nInit [] :: .char ('\n' :: runLine no r ++ ps.flatMap (processLine no) ++ ['#', '\n']) ::
        .stop nInit :: (tokens [nRoot] false ['\n'] s).1), (tokens [nRoot] false ['\n'] s).2) := by
    intro acc
    rw [← tokens_element [nRoot] (n := nInit) (by decide) (by decide) hpl (by simp) acc s]
    congr 1
    simp [sInit, sInitEnd, nInit]
  -- the header
  have hhd : ∀ s', ∃ ts acc', tokens [nRoot] false ['\n'] (headerText h ++ s') =
      (ts ++ (tokens [nRoot] false acc' s').1, (tokens [nRoot] false acc' s').2) ∧ NoStart nInit ts := by
    intro s'
    by_cases h0 : h = []
    · exact ⟨[], ['\n'], by simp [headerText, h0], fun t ht => by simp at ht⟩
    · have hm : ∃ h', Markup h' ∧ headerText h = h' ++ ['\n'] := by
        have hnl : ∀ {a : Str}, Markup a → Markup (a ++ ['\n']) := by
          intro a ha
          induction ha with
          | nil => exact .char (by decide) .nil
          | char hc _ ih => exact .char hc ih
          | @elem n a b hn ha _ _ ihb =>
            have := Markup.elem hn ha ihb
            simpa using this
        have hbody : ∃ b, Markup b ∧ headerText h = sHeader.dropLast ++ (b ++ ['<', '/', 'h', 'e', 'a', 'd', 'e', 'r', '>', '\n']) := by
          by_cases hl : h.getLast? = some '\n'
          · refine ⟨'\n' :: h, .char (by decide) hh, ?_⟩
            have : h.dropLast ++ ['\n'] = h := by
              have := List.dropLast_append_getLast? '\n' hl
              simpa using this
            simp only [headerText, if_neg h0, if_pos hl, sHeader, sHeaderEnd]
            conv_rhs => rw [← this]
            simp
          · refine ⟨'\n' :: (h ++ ['\n']), .char (by decide) (hnl hh), ?_⟩
            simp only [headerText, if_neg h0, if_neg hl, sHeader, sHeaderEnd]
            simp
        obtain ⟨b, hb, e⟩ := hbody
        refine ⟨_, Markup.elem (n := ['h', 'e', 'a', 'd', 'e', 'r']) (by decide) hb .nil, ?_⟩
        rw [e]
        simp [sHeader]
      obtain ⟨h', hh', e⟩ := hm
      obtain ⟨ts, acc', e1, e2⟩ := tokens_markup hh' [nRoot] ['\n'] ('\n' :: s')
      have := tokens_plain [nRoot] ['\n'] acc' s' (by intro c hc; simp at hc; rw [hc]; decide)
      simp only [List.cons_append, List.nil_append, List.reverse_cons, List.reverse_nil] at this
      refine ⟨ts, '\n' :: acc', ?_, e2⟩
      rw [e, List.append_assoc]
      simp only [List.cons_append, List.nil_append]
      rw [e1, this]
  obtain ⟨ts, acc', e1, e2⟩ := hhd (sInit ++ runLine no r ++ ps.flatMap (processLine no) ++ sInitEnd ++ s)
  -- the root
  have hroot : ∀ s', xml (sOpen ++ s') =
      (.start nRoot [(['v', 'e', 'r', 's', 'i', 'o', 'n'], v1)] :: (tokens [nRoot] false ['\n'] s').1,
        (tokens [nRoot] false ['\n'] s').2) := by
    intro s'
    have ht : tag [] (sOpen.drop 1).dropLast.dropLast =
        some ([.start nRoot [(['v', 'e', 'r', 's', 'i', 'o', 'n'], v1)]], [nRoot]) := by decide +kernel
    have h := tokens_tag (by decide) ht [] ('\n' :: s')
    have hnl := tokens_plain [nRoot] ['\n'] [] s' (by intro c hc; simp at hc; rw [hc]; decide)
    simp only [List.cons_append, List.nil_append, List.reverse_cons, List.reverse_nil] at hnl
    have eq : sOpen ++ s' = '<' :: ((sOpen.drop 1).dropLast.dropLast ++ '>' :: '\n' :: s') := by simp [sOpen]
    rw [xml, eq, h, hnl]
    simp [charTok]
  have hx : xml (sOpen ++ headerText h ++ sInit ++ runLine no r ++ ps.flatMap (processLine no) ++ sInitEnd ++ s) =
      (.start nRoot [(['v', 'e', 'r', 's', 'i', 'o', 'n'], v1)] :: (ts ++ (charTok acc' ++ (.start nInit [] ::
        .char ('\n' :: runLine no r ++ ps.flatMap (processLine no) ++ ['#', '\n']) ::
        .stop nInit :: (tokens [nRoot] false ['\n'] s).1))), (tokens [nRoot] false ['\n'] s).2) := by
    have eq : sOpen ++ headerText h ++ sInit ++ runLine no r ++ ps.flatMap (processLine no) ++ sInitEnd ++ s =
        sOpen ++ (headerText h ++ (sInit ++ runLine no r ++ ps.flatMap (processLine no) ++ sInitEnd ++ s)) := by simp
    rw [eq, hroot, e1, hel]
  refine ⟨⟨1, r.shown r6, (tokens [nRoot] false ['\n'] s).1, (tokens [nRoot] false ['\n'] s).2⟩, ?_, rfl, rfl, rfl, rfl⟩
  have hread : readRun no ('\n' :: runLine no r ++ ps.flatMap (processLine no) ++ ['#', '\n']) = some (r.shown r6) := by
    rw [List.append_assoc]
    exact h2 _
  have hfind : find nInit (ts ++ (charTok acc' ++ (.start nInit [] ::
        .char ('\n' :: runLine no r ++ ps.flatMap (processLine no) ++ ['#', '\n']) ::
        .stop nInit :: (tokens [nRoot] false ['\n'] s).1))) = some (.char ('\n' :: runLine no r ++
        ps.flatMap (processLine no) ++ ['#', '\n']) :: .stop nInit :: (tokens [nRoot] false ['\n'] s).1) := by
    rw [find_append e2, find_append (noStart_charTok _ _)]
    simp [find]
  rw [hx]
  simp only [newDecoder, hfind, hread, seek]
  simp [versionOf]

/-- **C124.** A file written by an Encoder and closed is read: `NewDecoder` succeeds and gives the run,
`Decode` gives the events in the order they were written, then `io.EOF` at every call.  The numbers are those with
the digits printed; lifetimes and spins are rounded to integers.  Partial: see the counterexamples. -/
theorem C124_round_trip_partial (g : Good no r6 r10 r0 fin) {r : Run F} (hr : r.Fits) {h : Str} (hh : Markup h)
    {es : List (Event F)} (hne : es ≠ []) (he : ∀ e ∈ es, e.Fits fin) :
    ∃ w d, (newEncoder r h).encodeAll no es = some w ∧ newDecoder no (xml w.close) = .ok d ∧
      d.version = 1 ∧ d.run = r.shown r6 ∧
      ∀ k, (d.decodeAll no (es.length + k)).1 = es.map (fun e => .ok (e.shown r6 r10 r0)) ++ List.replicate k .eof := by
  obtain ⟨ti, hi1, hi2⟩ := init_eq g hr hh
  cases es with
  | nil => exact absurd rfl hne
  | cons e es =>
    -- the first event opens the file: compare with an Encoder that is already open
    have hn : r.neve ≤ 0 := hr.1
    obtain ⟨t, w', h1, h2, h3⟩ := encodeAll_eq g (e :: es) he { newEncoder r h with started := true, out := ti } rfl hn
    obtain ⟨te, p, q1, q2, q3⟩ := eventText_eq g (he e (by simp))
    have hfirst : (newEncoder r h).encode no e =
        ({ newEncoder r h with started := true, out := ti } : Encoder F).encode no e := by
      simp [Encoder.encode, newEncoder, hi1, q1]
    have hall : (newEncoder r h).encodeAll no (e :: es) = some w' := by
      rw [← h1]
      simp only [Encoder.encodeAll, hfirst]
    obtain ⟨d, d1, d2, d3, d4, d5⟩ := hi2 (t ++ sClose)
    refine ⟨w', d, hall, ?_, d2, d3, fun k => h3 d k d4 d5⟩
    rw [← d1]
    simp only [Encoder.close, h2]
    congr 2
    simp

/-! ### Any file -/

/-- An element `event` of a file with what comes before it: other tokens, attributes, the text, and what follows
the text inside the element. -/
structure Item where
  before : List Tok
  attrs : List (Str × Str)
  text : Str
  after : List Tok

/-- The tokens of an element. -/
def Item.toks (x : Item) : List Tok :=
  x.before ++ .start nEvent x.attrs :: .char x.text :: (x.after ++ [.stop nEvent])

/-- No other event starts or ends there. -/
def Item.Flat (x : Item) : Prop :=
  NoStart nEvent x.before ∧ NoStart nEvent x.after ∧ NoStop nEvent x.after

/-- **C125.** In any file, `Decode` gives the outcome of every element `event`, one after the other, whatever
is between them; an element that is refused does not disturb those after it; at the end it gives
`io.EOF`, or an error when the file is cut. -/
theorem C125_events (d : Decoder F) (l : List Item) (post : List Tok) (hl : ∀ x ∈ l, x.Flat)
    (hp : NoStart nEvent post) (hd : d.toks = l.flatMap Item.toks ++ post) (k : Nat) :
    (d.decodeAll no (l.length + k)).1 =
      l.map (fun x => readEvent no x.text) ++ List.replicate k (match d.fin with | .eof => .eof | .bad => .err) := by
  have main : ∀ (l : List Item), (∀ x ∈ l, x.Flat) → ∀ (d : Decoder F) (pre : List Tok), NoStart nEvent pre →
      d.toks = pre ++ (l.flatMap Item.toks ++ post) →
      (d.decodeAll no (l.length + k)).1 =
        l.map (fun x => readEvent no x.text) ++ List.replicate k (match d.fin with | .eof => .eof | .bad => .err) := by
    intro l
    induction l with
    | nil =>
      intro _ d pre hpre hd
      have key : ∀ (k : Nat) (d : Decoder F), find nEvent d.toks = none →
          (d.decodeAll no k).1 = List.replicate k (match d.fin with | .eof => .eof | .bad => .err) := by
        intro k
        induction k with
        | zero => intro d _; rfl
        | succ k ih =>
          intro d hd
          have hdec : d.decode no = (atEnd d.fin, { d with toks := [] }) := by simp [Decoder.decode, hd]
          simp only [Decoder.decodeAll, hdec, List.replicate_succ]
          rw [ih { d with toks := [] } rfl]
          cases d.fin <;> rfl
      have hf : find nEvent d.toks = none := by
        rw [hd, find_append hpre, List.flatMap_nil, List.nil_append]
        have := find_append hp []
        simpa [find] using this
      simpa using key k d hf
    | cons x l ih =>
      intro hl d pre hpre hd
      obtain ⟨h1, h2, h3⟩ := hl x (by simp)
      have hl' : ∀ y ∈ l, y.Flat := fun y hy => hl y (by simp [hy])
      have hfind : find nEvent d.toks = some (.char x.text :: (x.after ++ [.stop nEvent]) ++ (l.flatMap Item.toks ++ post)) := by
        rw [hd, find_append hpre]
        simp only [List.flatMap_cons, Item.toks, List.append_assoc]
        rw [find_append h1]
        simp [find]
      have hlen : (x :: l).length + k = (l.length + k) + 1 := by simp; omega
      rw [hlen]
      have hseek : seek nEvent ((x.after ++ [.stop nEvent]) ++ (l.flatMap Item.toks ++ post)) =
          some (l.flatMap Item.toks ++ post) := by
        rw [List.append_assoc, seek_append h3]
        simp [seek]
      have hno : NoStart nEvent (x.after ++ [.stop nEvent]) := by
        intro t ht n as e
        rcases List.mem_append.mp ht with ht | ht
        · exact h2 t ht n as e
        · simp at ht; rw [ht] at e; cases e
      have hdec : ∃ pre', NoStart nEvent pre' ∧
          d.decode no = (readEvent no x.text, { d with toks := pre' ++ (l.flatMap Item.toks ++ post) }) := by
        cases hr : readEvent no x.text with
        | ok e =>
          refine ⟨[], fun t ht => by simp at ht, ?_⟩
          simp only [Decoder.decode, hfind, List.cons_append, hr, hseek]
          rfl
        | eof => exact ⟨_, hno, by simp only [Decoder.decode, hfind, List.cons_append, hr]⟩
        | err => exact ⟨_, hno, by simp only [Decoder.decode, hfind, List.cons_append, hr]⟩
        | panic => exact ⟨_, hno, by simp only [Decoder.decode, hfind, List.cons_append, hr]⟩
      obtain ⟨pre', hpre', hdec⟩ := hdec
      have := ih hl' { d with toks := pre' ++ (l.flatMap Item.toks ++ post) } pre' hpre' rfl
      simp only [Decoder.decodeAll, hdec, this]
      simp
  exact main l hl d [] (fun t ht => by simp at ht) (by simpa using hd)

theorem scanMany_length {α : Type} {scan : Str → Option (α × Str)} : ∀ {n : Nat} {s : Str} {l : List α} {r : Str},
    scanMany scan n s = some (l, r) → l.length = n := by
  intro n
  induction n with
  | zero => intro s l r h; simp [scanMany] at h; simp [h.1]
  | succ n ih =>
    intro s l r h
    simp only [scanMany] at h
    cases hx : scan s with
    | none => rw [hx] at h; simp at h
    | some x =>
      rw [hx] at h
      simp only [Option.bind_some] at h
      cases hy : scanMany scan n x.2 with
      | none => rw [hy] at h; simp at h
      | some y =>
        rw [hy] at h
        simp only [Option.map_some, Option.some.injEq, Prod.mk.injEq] at h
        rw [← h.1]
        simp [ih hy]

/-- **C125.** Every event `Decode` gives has slices of exactly `NUP` elements. -/
theorem C125_lengths {d d' : Decoder F} {e : Event F} (h : d.decode no = (.ok e, d')) :
    0 ≤ e.nup.toInt ∧ (e.idup.length : Int) = e.nup.toInt ∧ (e.istup.length : Int) = e.nup.toInt ∧
      (e.mothup.length : Int) = e.nup.toInt ∧ (e.icolup.length : Int) = e.nup.toInt ∧
      (e.pup.length : Int) = e.nup.toInt ∧ (e.vtimup.length : Int) = e.nup.toInt ∧
      (e.spinup.length : Int) = e.nup.toInt := by
  have hr : ∃ s, readEvent no s = .ok e := by
    simp only [Decoder.decode] at h
    split at h
    · cases hf : d.fin <;> simp [hf, atEnd] at h
    · cases hf : d.fin <;> simp [hf, atEnd] at h
    · rename_i s l _
      split at h
      · rename_i e' he
        split at h
        · simp at h
        · simp only [Prod.mk.injEq, Out.ok.injEq] at h
          exact ⟨s, by rw [he, h.1]⟩
      · rename_i o ho
        simp only [Prod.mk.injEq] at h
        exact absurd h.1 (ho e)
    · simp at h
  obtain ⟨s, hr⟩ := hr
  simp only [readEvent] at hr
  split at hr
  · cases hr
  · rename_i e0 s0 _
    split at hr
    · cases hr
    · rename_i hn
      split at hr
      · cases hr
      · rename_i l _ hs
        have hl := scanMany_length hs
        cases hr
        have ht : (turns e0.nup : Int) = e0.nup.toInt := by
          simp only [turns]
          omega
        simp only [List.length_map, hl]
        exact ⟨by omega, ht, ht, ht, ht, ht, ht, ht⟩

/-- **C125.** `Decode` panics exactly on events with a negative number of particles. -/
theorem C125_panic (s : Str) : readEvent no s = .panic ↔
    ∃ e r, scanInto no.parse eventFmt toEvent s = some (e, r) ∧ e.nup.toInt < 0 := by
  cases h : scanInto no.parse eventFmt toEvent s with
  | none => simp [readEvent, h]
  | some x =>
    obtain ⟨e0, s0⟩ := x
    by_cases hn : e0.nup.toInt < 0
    · refine ⟨fun _ => ⟨e0, s0, rfl, hn⟩, fun _ => by simp [readEvent, h, hn]⟩
    · constructor
      · intro hp
        simp only [readEvent, h, if_neg hn] at hp
        split at hp <;> cases hp
      · rintro ⟨e, r, he, hlt⟩
        cases he
        exact absurd hlt hn

/-- **C125.** What follows the particles inside an event (comments, reweighting lines) does not matter. -/
theorem C125_trailing (g : Good no r6 r10 r0 fin) {e : Event F} (he : e.Fits fin) :
    ∃ ps : List (Particle F), loop e.at (particleLine no) 0 (turns e.nup) = some (ps.flatMap (particleLine no)) ∧
      ∀ s, readEvent no ('\n' :: eventLine no e ++ (ps.flatMap (particleLine no) ++ s)) = .ok (e.shown r6 r10 r0) := by
  obtain ⟨ps, h1, -, h3⟩ := readEvent_text g he
  exact ⟨ps, h1, h3⟩

end

/-! ### A notation, examples and counterexamples -/

/-- Numbers that are halves, and NaN. -/
def halves : Notation (Option Nat) where
  fmt6
    | none => ['N', 'a', 'N']
    | some h => formatUint (h / 2) ++ (if h % 2 = 0 then ['.', '0'] else ['.', '5'])
  fmt10
    | none => ['N', 'a', 'N']
    | some h => formatUint (h / 2) ++ (if h % 2 = 0 then ['.', '0'] else ['.', '5'])
  fmt0
    | none => ['N', 'a', 'N']
    | some h => formatUint (h / 2 + (if h % 2 = 1 ∧ h / 2 % 2 = 1 then 1 else 0))
  parse s :=
    if s = ['N', 'a', 'N'] then some none
    else (digitsVal (s.takeWhile Char.isDigit)).map fun n =>
      some (2 * n + (if s.dropWhile Char.isDigit = ['.', '5'] then 1 else 0))

/-- Rounding to the nearest integer, halfway cases to the even one. -/
def halves0 : Option Nat → Option Nat
  | none => none
  | some h => some (2 * (h / 2 + (if h % 2 = 1 ∧ h / 2 % 2 = 1 then 1 else 0)))

theorem halves_parse (n : Nat) (t : Str) (ht : ∀ c ∈ t.head?, c.isDigit = false) :
    halves.parse (formatUint n ++ t) = some (some (2 * n + (if t = ['.', '5'] then 1 else 0))) := by
  have h1 : ∀ c ∈ formatUint n, c.isDigit = true := fun c hc => format_digits hc
  have h2 := many_append (p := Char.isDigit) [] h1 ht
  simp only [many, Prod.mk.injEq, List.nil_append] at h2
  have hne : formatUint n ++ t ≠ ['N', 'a', 'N'] := by
    intro e
    cases hf : formatUint n with
    | nil => exact absurd hf (format_ne_nil n)
    | cons c l =>
      rw [hf] at e h1
      simp at e
      have := h1 c (by simp)
      rw [e.1] at this
      exact absurd this (by decide)
  simp only [halves, if_neg hne, h2.1, h2.2, digitsVal_format, Option.map_some]

theorem halves_good : Good halves id id halves0 (fun x => x ≠ none) where
  word6 := by
    intro x
    cases x with
    | none => exact .inr (.inl rfl)
    | some h =>
      refine .inl ⟨[], formatUint (h / 2), (if h % 2 = 0 then ['.', '0'] else ['.', '5']), [], by simp [halves],
        .inl rfl, ⟨format_ne_nil _, fun c hc => format_digits hc⟩, .inr ?_, .inl rfl⟩
      split
      · exact ⟨['0'], rfl, by decide⟩
      · exact ⟨['5'], rfl, by decide⟩
  word10 := by
    intro x
    cases x with
    | none => exact .inr (.inl rfl)
    | some h =>
      refine .inl ⟨[], formatUint (h / 2), (if h % 2 = 0 then ['.', '0'] else ['.', '5']), [], by simp [halves],
        .inl rfl, ⟨format_ne_nil _, fun c hc => format_digits hc⟩, .inr ?_, .inl rfl⟩
      split
      · exact ⟨['0'], rfl, by decide⟩
      · exact ⟨['5'], rfl, by decide⟩
  parse6 := by
    intro x
    cases x with
    | none => decide
    | some h =>
      have e : halves.fmt6 (some h) = formatUint (h / 2) ++ (if h % 2 = 0 then ['.', '0'] else ['.', '5']) := rfl
      rw [e, halves_parse _ _ (by split <;> decide)]
      split
      · simp; omega
      · simp; omega
  parse10 := by
    intro x
    cases x with
    | none => decide
    | some h =>
      have e : halves.fmt10 (some h) = formatUint (h / 2) ++ (if h % 2 = 0 then ['.', '0'] else ['.', '5']) := rfl
      rw [e, halves_parse _ _ (by split <;> decide)]
      split
      · simp; omega
      · simp; omega
  int0 := by
    intro x hx
    cases x with
    | none => exact absurd rfl hx
    | some h => exact ⟨[], _, rfl, .inl rfl, format_ne_nil _, fun c hc => format_digits hc⟩
  parse0 := by
    intro x hx
    cases x with
    | none => exact absurd rfl hx
    | some h =>
      have e : halves.fmt0 (some h) = formatUint (h / 2 + (if h % 2 = 1 ∧ h / 2 % 2 = 1 then 1 else 0)) := rfl
      rw [e, halves_parse _ _ (by decide)]
      simp [halves0]

/-- A run with two subprocesses. -/
def aRun : Run (Option Nat) :=
  ⟨(2212#64, BitVec.ofInt 64 (-2212)), (some 1960, some 1960), (0#32, 0#32), (7#32, 7#32), 3#32, 2#32,
    [some 10, some 1], [some 1, some 0], [some 2, some 2], [81#32, 82#32], 0⟩

/-- An event with two particles. -/
def anEvent : Event (Option Nat) :=
  ⟨2#32, 81#32, some 2, some 345, none, some 1, [2#64, BitVec.ofInt 64 (-2)], [BitVec.ofInt 32 (-1), 1#32],
    [(0#32, 0#32), (1#32, 2#32)], [(101#32, 0#32), (0#32, 102#32)],
    [(some 0, some 0, some 217, some 217, some 0), (some 3, none, some 5, some 7, some 9)],
    [some 0, some 0], [some 18, some 18], 0, 0, 0⟩

/-- A header with an element. -/
def aHeader : Str := ['a', '\n', '<', 'b', '>', 'c', '<', '/', 'b', '>', '\n']

theorem aRun_fits : aRun.Fits := by
  refine ⟨?_, ?_, ?_, ?_, ?_, ?_⟩ <;> decide

theorem anEvent_fits : anEvent.Fits (fun x => x ≠ none) := by
  refine ⟨?_, ?_, ?_, ?_, ?_, ?_, ?_, ?_, ?_, ?_, ?_⟩ <;> decide

theorem aHeader_markup : Markup aHeader :=
  .char (by decide) (.char (by decide) (.elem (n := ['b']) (by decide) (.char (by decide) .nil) (.char (by decide) .nil)))

example : ∃ w d, (newEncoder aRun aHeader).encodeAll halves [anEvent, anEvent] = some w ∧
    newDecoder halves (xml w.close) = .ok d ∧ d.version = 1 ∧ d.run = aRun.shown id ∧
    ∀ k, (d.decodeAll halves (2 + k)).1 =
      [.ok (anEvent.shown id id halves0), .ok (anEvent.shown id id halves0)] ++ List.replicate k .eof :=
  C124_round_trip_partial halves_good aRun_fits aHeader_markup (by simp)
    (by intro e he; simp at he; rw [he]; exact anEvent_fits)

/-- Outcomes without their values. -/
def Out.kind {α : Type} : Out α → Nat
  | .ok _ => 0 | .eof => 1 | .err => 2 | .panic => 3

/-- The outcomes of reading a text: `NewDecoder`, then `n` times `Decode`. -/
def outcomes {F : Type} (no : Notation F) (s : Str) (n : Nat) : List Nat :=
  match newDecoder no (xml s) with
  | .ok d => 0 :: (d.decodeAll no n).1.map Out.kind
  | o => [o.kind]

/-- What is written for some events, closed. -/
def written {F : Type} (no : Notation F) (r : Run F) (h : Str) (es : List (Event F)) : Option Str :=
  ((newEncoder r h).encodeAll no es).map Encoder.close

/-- A lifetime of one half is written as zero, although momenta keep it. -/
theorem C124_fraction_counterexample :
    ({ anEvent with vtimup := [some 1, some 0] } : Event (Option Nat)).Fits (fun x => x ≠ none) ∧
    (({ anEvent with vtimup := [some 1, some 0] } : Event (Option Nat)).shown id id halves0).vtimup = [some 0, some 0] := by
  refine ⟨⟨?_, ?_, ?_, ?_, ?_, ?_, ?_, ?_, ?_, ?_, ?_⟩, ?_⟩ <;> decide

/-- An event with a spin that is not a number is written, and not read. -/
theorem C124_nan_counterexample :
    (written halves aRun [] [{ anEvent with spinup := [none, some 18] }]).map (fun s => outcomes halves s 2) =
      some [0, 2, 1] := by
  decide +kernel

/-- A negative number of particles is written, and reading it panics. -/
theorem C124_negative_counterexample :
    (written halves aRun [] [{ anEvent with nup := BitVec.ofInt 32 (-1) }]).map (fun s => outcomes halves s 1) =
      some [0, 3] := by
  decide +kernel

/-- A file without events is closed without having been opened: it is refused. -/
theorem C124_empty_counterexample :
    (written halves aRun [] []).map (fun s => outcomes halves s 1) = some [2] := by
  decide +kernel

/-- After an event group nothing can be read. -/
theorem C124_group_counterexample :
    (written halves aRun [] [anEvent, { anEvent with sub := 1 }, anEvent]).map (fun s => outcomes halves s 2) =
      some [0, 0, 2] := by
  decide +kernel

/-- A header with an element `init` takes the place of the run. -/
theorem C124_header_counterexample :
    (written halves aRun ['<', 'i', 'n', 'i', 't', '>', '<', '/', 'i', 'n', 'i', 't', '>'] [anEvent]).map
      (fun s => outcomes halves s 1) = some [2] := by
  decide +kernel

/-- A file that was not closed ends with an error, not with `io.EOF`. -/
theorem C124_not_closed_counterexample :
    ((newEncoder aRun []).encodeAll halves [anEvent]).map (fun w => outcomes halves w.out 2) = some [0, 0, 2] := by
  decide +kernel

/-- A root without attributes makes `NewDecoder` panic. -/
theorem C125_no_version_counterexample (F : Type) (no : Notation F) (l : List Tok) (fi : Fin) :
    newDecoder no (.start nRoot [] :: l, fi) = .panic := by
  simp [newDecoder]

/-- A file with an element that is refused between a comment and an event with an attribute. -/
def items : List Item :=
  [⟨[.comment, .start ['x'] []], [], ['?'], []⟩,
   ⟨[], [(['a'], ['b'])], ['\n', '0', ' ', '1', ' ', '2', ' ', '3', ' ', '4', ' ', '5', '\n'], [.comment]⟩]

example : (((⟨1, aRun, items.flatMap Item.toks ++ [.stop ['x']], .eof⟩ : Decoder (Option Nat)).decodeAll halves 4).1).map
    Out.kind = [2, 0, 1, 1] := by
  rw [show 4 = items.length + 2 from rfl, C125_events _ items [.stop ['x']] _ _ rfl]
  · decide +kernel
  · intro x hx
    simp only [items, List.mem_cons, List.not_mem_nil, or_false] at hx
    rcases hx with rfl | rfl
    · refine ⟨?_, ?_, ?_⟩
      · intro t ht n as e
        simp at ht
        rcases ht with rfl | rfl
        · cases e
        · cases e; decide
      · intro t ht; simp at ht
      · intro t ht; simp at ht
    · refine ⟨?_, ?_, ?_⟩
      · intro t ht; simp at ht
      · intro t ht n as e
        simp at ht
        rw [ht] at e
        cases e
      · intro t ht
        simp at ht
        rw [ht]
        decide
  · intro t ht n as e
    simp at ht
    rw [ht] at e
    cases e

end Verif.Lhef
