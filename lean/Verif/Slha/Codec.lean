import Verif.Slha.Block
import Mathlib.Data.List.Forall2
import Mathlib.Tactic.IntervalCases
import Mathlib.Tactic.Tauto

/-!
# C118: SLHA documents survive writing and reading

A document written by `Encode` is read by `Decode` as the same document, with its numbers rounded to
the digits of the notation; writing it again gives the same text.
-/

namespace Verif.Slha
open Verif.Strconv Verif.Text

/-! ### Specification -/

/-- A text without white space and `#`. -/
def Word (w : List Char) : Prop := w ≠ [] ∧ ∀ c ∈ w, c ≠ '#' ∧ isSpace c = false

/-- What is assumed of the notations of numbers: `rnd` rounds to the digits of `%.8E`, `ofInt` is the
number nearest to an integer; all NaNs are one value.  (Infinite numbers are written `+Inf`, `-Inf`.) -/
structure Notation {F : Type} (fl : Floats F) (rnd : F → F) (ofInt : Int → F) (isInf : F → Bool) : Prop where
  wordE : ∀ x, Word (fl.fmtE x)
  parseE : ∀ x, fl.parse (fl.fmtE x) = some (rnd x)
  parseUp : ∀ x, fl.parse (upper (fl.fmtE x)) = some (rnd x)
  charsE : ∀ x, isInf x = false →
    (∀ c ∈ upper (fl.fmtE x), reNum c = true) ∨ upper (fl.fmtE x) = ['N', 'A', 'N']
  wordV : ∀ x, Word (fl.fmtV x)
  parseV : ∀ x, fl.parse (fl.fmtV x) = some x
  parseI : ∀ i, IsInt i → fl.parse (formatInt i) = some (ofInt i)

/-- A comment: one line, without white space at its ends. -/
def Comment (c : List Char) : Prop := Trimmed c ∧ '\n' ∉ c

/-- Values and indices of the block `name` in the accord. -/
def Fits {F : Type} (name : List Char) (args : List Int) (v : Val F) : Prop :=
  match blockFormat name, v with
  | .one _, .flt _ => args.length = 1
  | .two, .flt _ => args.length = 2
  | .zero, .flt _ => args = []
  | .info, .str s => args.length = 1 ∧ Word s
  | .sel, .int i => args.length = 1 ∧ IsInt i
  | .all, .flt _ => args ≠ []
  | .all, .int i => args ≠ [] ∧ IsInt i
  | _, _ => False

/-- An item that fits its block. -/
def ItemOK {F : Type} (name : List Char) (it : Item F) : Prop :=
  ∃ args v, it.index = newIndex args ∧ it.value.v = some v ∧ (∀ i ∈ args, IsInt i) ∧ Fits name args v ∧
    Comment it.value.c

/-- A name of a block: letters (upper-case), digits, underscores. -/
def NameOK (n : List Char) : Prop := n ≠ [] ∧ ∀ c ∈ n, reWord c = true ∧ c.toUpper = c

def BlockOK {F : Type} (b : Block F) : Prop :=
  NameOK b.name ∧ Comment b.comment ∧ ∀ it ∈ b.data, ItemOK b.name it

def DecayOK {F : Type} (d : Decay F) : Prop :=
  (∀ i ∈ d.ids, IsInt i) ∧ d.ids.length < 2 ^ 63 ∧ Comment d.comment

def ParticleOK {F : Type} (isInf : F → Bool) (p : Particle F) : Prop :=
  IsInt p.pdgid ∧ isInf p.width = false ∧ Comment p.comment ∧ ∀ d ∈ p.decays, DecayOK d

def DataOK {F : Type} (isInf : F → Bool) (d : Data F) : Prop :=
  (∀ b ∈ d.blocks, BlockOK b) ∧ ∀ p ∈ d.particles, ParticleOK isInf p

/-- The value read for a value written: rounded, except in blocks the accord does not define, where
it is exact and integers become numbers. -/
def readBack {F : Type} (rnd : F → F) (ofInt : Int → F) (name : List Char) : Val F → Val F
  | .flt x => if blockFormat name = .all then .flt x else .flt (rnd x)
  | .int i => if blockFormat name = .all then .flt (ofInt i) else .int i
  | .str s => .str s

def itemBack {F : Type} (rnd : F → F) (ofInt : Int → F) (name : List Char) (it : Item F) : Item F :=
  ⟨it.index, ⟨it.value.v.map (readBack rnd ofInt name), it.value.c⟩⟩

def blockBack {F : Type} (fl : Floats F) (rnd : F → F) (ofInt : Int → F) (b : Block F) : Block F :=
  ⟨b.name, b.comment, if fl.isNaN b.q then fl.nan else rnd b.q, b.data.map (itemBack rnd ofInt b.name)⟩

def decayBack {F : Type} (rnd : F → F) (d : Decay F) : Decay F := ⟨rnd d.br, d.ids, d.comment⟩

/-- The mass of a particle: the value with its number in the first block `MASS`. -/
def massOf {F : Type} (blocks : List (Block F)) (id : Int) : Option F :=
  match blocks.find? (fun b => b.name == nMASS) with
  | none => none
  | some b => match b.data.find? (fun it => it.index == newIndex [id]) with
    | some ⟨_, ⟨some (.flt x), _⟩⟩ => some x
    | _ => none

def particleBack {F : Type} (fl : Floats F) (rnd : F → F) (blocks : List (Block F)) (p : Particle F) : Particle F :=
  ⟨p.pdgid, rnd p.width, ((massOf blocks p.pdgid).map rnd).getD fl.nan, p.comment, p.decays.map (decayBack rnd)⟩

/-- The document read for a document written. -/
def back {F : Type} (fl : Floats F) (rnd : F → F) (ofInt : Int → F) (d : Data F) : Data F :=
  ⟨d.blocks.map (blockBack fl rnd ofInt), d.particles.map (particleBack fl rnd d.blocks)⟩

/-! ### Texts -/

theorem takeWhile_span {p : Char → Bool} {a b : List Char} (ha : ∀ c ∈ a, p c = true)
    (hb : ∀ c ∈ b.head?, p c = false) : (a ++ b).takeWhile p = a ∧ (a ++ b).dropWhile p = b := by
  induction a with
  | nil =>
    cases b with
    | nil => simp
    | cons c r => simp [hb c (by simp)]
  | cons c a ih =>
    have h := ih fun d hd => ha d (by simp [hd])
    simp [ha c (by simp), h.1, h.2]

theorem splitC_append' (x : Char) (a b : List Char) : splitC x (a ++ x :: b) = splitC x a ++ splitC x b := by
  induction a with
  | nil => simp [splitC]
  | cons c a ih =>
    simp only [List.cons_append, splitC, ih]
    split
    · rfl
    · cases h : splitC x a with
      | nil => exact absurd h (splitC_ne_nil x a)
      | cons t ts => rfl

theorem words_append (a b : List Char) : words (a ++ ' ' :: b) = words a ++ words b := by
  simp [words, splitC_append']

theorem words_sp (a b : List Char) (n : Nat) : words (a ++ (sp (n + 1) ++ b)) = words a ++ words b := by
  rw [sp, List.replicate_succ, List.cons_append, words_append, words_spaces]

theorem Word.noSpace {w : List Char} (h : Word w) : ' ' ∉ w := fun hc => by
  have := (h.2 _ hc).2
  simp [isSpace] at this

theorem Word.words {w : List Char} (h : Word w) : words w = [w] := words_one h.noSpace h.1

theorem Word.padL {w : List Char} (h : Word w) (n : Nat) : Verif.Text.words (padL n w) = [w] :=
  words_padL n h.noSpace h.1

theorem Word.padR {w : List Char} (h : Word w) (n : Nat) : Verif.Text.words (padR n w) = [w] := by
  rw [Verif.Text.padR, words_append_spaces, h.words]

theorem isDigit_notSpace {c : Char} (h : c.isDigit = true) : c ≠ '#' ∧ isSpace c = false := by
  simp only [Char.isDigit, Bool.and_eq_true, decide_eq_true_eq] at h
  have h1 : 48 ≤ c.toNat := h.1
  constructor
  · rintro rfl; revert h1; decide
  · simp only [isSpace, Bool.or_eq_false_iff, beq_eq_false_iff_ne, ne_eq]
    refine ⟨⟨⟨⟨⟨?_, ?_⟩, ?_⟩, ?_⟩, ?_⟩, ?_⟩
    any_goals (rintro rfl; revert h1; decide)
    all_goals omega

theorem formatInt_word (i : Int) : Word (formatInt i) := by
  refine ⟨formatInt_ne_nil i, fun c hc => ?_⟩
  rcases formatInt_chars hc with h | rfl
  · exact isDigit_notSpace h
  · decide

/-- A text whose only white space is spaces, without `#`. -/
def Plain (s : List Char) : Prop := ∀ c ∈ s, c ≠ '#' ∧ (isSpace c = true → c = ' ')

theorem Plain.append {a b : List Char} (ha : Plain a) (hb : Plain b) : Plain (a ++ b) := fun c hc =>
  (List.mem_append.mp hc).elim (ha c) (hb c)

theorem Plain.cons {a : List Char} (ha : Plain a) : Plain (' ' :: a) := fun c hc =>
  (List.mem_cons.mp hc).elim (fun h => by subst h; exact ⟨by decide, fun _ => rfl⟩) (ha c)

theorem plain_sp (n : Nat) : Plain (sp n) := fun c hc => by
  rw [sp, List.mem_replicate] at hc
  rw [hc.2]
  exact ⟨by decide, fun _ => rfl⟩

theorem Word.plain {w : List Char} (h : Word w) : Plain w := fun c hc =>
  ⟨(h.2 c hc).1, fun hs => by rw [(h.2 c hc).2] at hs; cases hs⟩

theorem Word.plainL {w : List Char} (h : Word w) (n : Nat) : Plain (Verif.Text.padL n w) :=
  (plain_sp _).append h.plain

theorem Word.plainR {w : List Char} (h : Word w) (n : Nat) : Plain (Verif.Text.padR n w) :=
  h.plain.append (plain_sp _)

theorem Plain.noHash {s : List Char} (h : Plain s) : '#' ∉ s := fun hc => (h _ hc).1 rfl

theorem Plain.noNL {s : List Char} (h : Plain s) : '\n' ∉ s := fun hc => by
  have := (h _ hc).2 rfl
  revert this; decide

theorem uncomment_tail {a c : List Char} (ha : Plain a) (hc : Comment c) (n : Nat) :
    uncomment (a ++ tail n c) = (a ++ sp n, c) := by
  have h : cut ['#'] (a ++ tail n c) = some (a ++ sp n, ' ' :: c) := by
    rw [tail, ← List.append_assoc]
    exact cut_one '#' (ha.append (plain_sp n)).noHash _
  simp only [uncomment, h]
  rw [trimSpace_space, trimSpace_trimmed hc.1]

theorem words_line {a : List Char} (ha : Plain a) (n : Nat) : words (trimSpace (a ++ sp n)) = words a := by
  rw [words_trimSpace (fun c hc => ((ha.append (plain_sp n)) c hc).2), sp, words_append_spaces]

/-- Lines that survive being separated by ends of line. -/
def LineOK (l : List Char) : Prop := '\n' ∉ l ∧ l.getLast? ≠ some '\r'

theorem lineOK_tail {a c : List Char} (ha : Plain a) (hc : Comment c) (n : Nat) : LineOK (a ++ tail n c) := by
  refine ⟨?_, ?_⟩
  · have h1 := ha.noNL
    have h2 := (plain_sp n).noNL
    simp [tail, h1, h2, hc.2]
  · rw [tail, List.getLast?_append, List.getLast?_append, List.getLast?_cons, List.getLast?_cons]
    cases h : c.getLast? with
    | none => simp
    | some d =>
      have := hc.1.2 d (by rw [h]; rfl)
      simp only [Option.getD_some, Option.some_or, ne_eq, Option.some.injEq]
      rintro rfl
      cases this

/-! ### Data lines -/

theorem atois_ints : ∀ {a : List Int}, (∀ i ∈ a, IsInt i) → atois (a.map formatInt) = .ok a
  | [], _ => rfl
  | i :: a, h => by
    have h2 : parseInt 64 (formatInt i) = some i := parseInt_format (h i (by simp)).1 (h i (by simp)).2
    have h3 := atois_ints (a := a) fun j hj => h j (by simp [hj])
    simp only [List.map_cons, atois, h2, h3]
    rfl

theorem readItem_of {F : Type} (fl : Floats F) {name a c s : List Char} {args : List Int} {v : Val F} {n : Nat}
    (ha : Plain a) (hc : Comment c) (hi : ∀ i ∈ args, IsInt i) (hw : words a = args.map formatInt ++ [s])
    (hv : readVal fl name s = .ok v) :
    readItem fl name (a ++ tail n c) = .ok ⟨newIndex args, ⟨some v, c⟩⟩ := by
  have h : (words (trimSpace (uncomment (a ++ tail n c)).1)).reverse = s :: (args.map formatInt).reverse := by
    rw [uncomment_tail ha hc, words_line ha, hw]
    simp
  have h' : (uncomment (a ++ tail n c)).2 = c := by rw [uncomment_tail ha hc]
  simp only [readItem, h, List.reverse_reverse, atois_ints hi, hv, h', Res.bind]

theorem readVal_num {F : Type} {fl : Floats F} {name s : List Char} {x : F} (hp : fl.parse s = some x)
    (h1 : name ≠ nMODSEL) (h2 : name ≠ nSPINFO) (h3 : name ≠ nDCINFO) : readVal fl name s = .ok (.flt x) := by
  simp [readVal, h1, h2, h3, anyvalue, hp]

theorem format_names {name : List Char} :
    (blockFormat name = .info → name = nSPINFO ∨ name = nDCINFO) ∧
    (blockFormat name = .sel → name = nMODSEL) ∧
    (blockFormat name = .zero ↔ name = nALPHA) ∧
    (blockFormat name ≠ .info → name ≠ nSPINFO ∧ name ≠ nDCINFO) ∧
    (blockFormat name ≠ .sel → name ≠ nMODSEL) := by
  refine ⟨fun h => ?_, fun h => ?_, ⟨fun h => ?_, fun h => by subst h; decide⟩, fun h => ⟨?_, ?_⟩, fun h => ?_⟩
  · by_contra hn
    simp only [blockFormat] at h
    split_ifs at h
  · by_contra hn
    simp only [blockFormat] at h
    split_ifs at h
  · by_contra hn
    simp only [blockFormat] at h
    split_ifs at h
  · rintro rfl; exact h (by decide)
  · rintro rfl; exact h (by decide)
  · rintro rfl; exact h (by decide)

theorem words_ints (args : List Int) : words (args.flatMap fun i => ' ' :: formatInt i) = args.map formatInt := by
  induction args with
  | nil => rfl
  | cons i r ih =>
    rw [List.flatMap_cons, List.cons_append, words_space, List.map_cons]
    cases r with
    | nil => simp [(formatInt_word i).words]
    | cons j r =>
      rw [List.flatMap_cons, List.cons_append, words_append, (formatInt_word i).words]
      rw [List.flatMap_cons, List.cons_append, words_space] at ih
      rw [ih]
      rfl

theorem plain_ints (args : List Int) : Plain (args.flatMap fun i => ' ' :: formatInt i) := by
  intro c hc
  obtain ⟨i, _, hc⟩ := List.mem_flatMap.mp hc
  exact (formatInt_word i).plain.cons c hc

variable {F : Type} {fl : Floats F} {rnd : F → F} {ofInt : Int → F} {isInf : F → Bool}

/-- The data line of an item: plain text and a comment, and what it is read as. -/
theorem item_line (N : Notation fl rnd ofInt isInf) {name : List Char} {args : List Int} {v : Val F} {c : List Char}
    (hi : ∀ i ∈ args, IsInt i) (hf : Fits name args v) (hc : Comment c) :
    ∃ a n, itemLine fl name args ⟨some v, c⟩ = ' ' :: a ++ tail n c ∧ Plain a ∧
      readItem fl name (' ' :: a ++ tail n c) = .ok ⟨newIndex args, ⟨some (readBack rnd ofInt name v), c⟩⟩ := by
  have hE := N.wordE
  have hV := N.wordV
  have hI := formatInt_word
  obtain ⟨_, _, _, hni, hns⟩ := format_names (name := name)
  have num : ∀ {s : List Char} {x : F}, fl.parse s = some x → blockFormat name ≠ .info → blockFormat name ≠ .sel →
      readVal fl name s = .ok (.flt x) := fun hp h1 h2 => readVal_num hp (hns h2) (hni h1).1 (hni h1).2
  match hb : blockFormat name, v with
  | .one w, .flt x =>
    simp only [Fits, hb] at hf
    obtain ⟨i, rfl⟩ := List.length_eq_one_iff.mp hf
    have hp : Plain (padL w (formatInt i) ++ sp 3 ++ padL 16 (fl.fmtE x)) :=
      (((hI i).plainL w).append (plain_sp 3)).append ((hE x).plainL 16)
    refine ⟨padL w (formatInt i) ++ (sp 3 ++ padL 16 (fl.fmtE x)), 3, by simp only [itemLine, hb, List.cons_append, List.append_assoc], by simpa only [List.append_assoc] using hp, ?_⟩
    refine readItem_of fl (s := fl.fmtE x) (by simpa only [List.append_assoc] using hp.cons) hc hi ?_ ?_
    · rw [words_space, words_sp, (hI i).padL, (hE x).padL]; rfl
    · simp only [readBack, hb, reduceCtorEq, if_false]
      exact num (N.parseE x) (by simp [hb]) (by simp [hb])
  | .two, .flt x =>
    simp only [Fits, hb] at hf
    obtain ⟨i, j, rfl⟩ := List.length_eq_two.mp hf
    have hp : Plain (padL 2 (formatInt i) ++ ' ' :: padL 2 (formatInt j) ++ sp 3 ++ padL 16 (fl.fmtE x)) :=
      ((((hI i).plainL 2).append ((hI j).plainL 2).cons).append (plain_sp 3)).append ((hE x).plainL 16)
    refine ⟨padL 2 (formatInt i) ++ ' ' :: (padL 2 (formatInt j) ++ (sp 3 ++ padL 16 (fl.fmtE x))), 3, by simp only [itemLine, hb, List.cons_append, List.append_assoc],
      by simpa only [List.append_assoc, List.cons_append] using hp, ?_⟩
    refine readItem_of fl (s := fl.fmtE x) (by simpa only [List.append_assoc, List.cons_append] using hp.cons) hc hi ?_ ?_
    · rw [words_space, words_append, words_sp, (hI i).padL, (hI j).padL, (hE x).padL]; rfl
    · simp only [readBack, hb, reduceCtorEq, if_false]
      exact num (N.parseE x) (by simp [hb]) (by simp [hb])
  | .zero, .flt x =>
    simp only [Fits, hb] at hf
    subst hf
    have hp : Plain (sp 8 ++ padL 16 (fl.fmtE x)) := (plain_sp 8).append ((hE x).plainL 16)
    refine ⟨sp 8 ++ padL 16 (fl.fmtE x), 3, by simp only [itemLine, hb, sp, List.replicate, List.cons_append, List.append_assoc], hp, ?_⟩
    refine readItem_of fl (s := fl.fmtE x) hp.cons hc hi ?_ ?_
    · rw [words_space, sp, words_spaces, (hE x).padL]; rfl
    · simp only [readBack, hb, reduceCtorEq, if_false]
      exact num (N.parseE x) (by simp [hb]) (by simp [hb])
  | .info, .str s =>
    simp only [Fits, hb] at hf
    obtain ⟨i, rfl⟩ := List.length_eq_one_iff.mp hf.1
    have hp : Plain (padL 5 (formatInt i) ++ sp 3 ++ padR 8 s) :=
      (((hI i).plainL 5).append (plain_sp 3)).append (hf.2.plainR 8)
    refine ⟨padL 5 (formatInt i) ++ (sp 3 ++ padR 8 s), 4, by simp only [itemLine, hb, List.cons_append, List.append_assoc], by simpa only [List.append_assoc] using hp, ?_⟩
    refine readItem_of fl (s := s) (by simpa only [List.append_assoc] using hp.cons) hc hi ?_ ?_
    · rw [words_space, words_sp, (hI i).padL, hf.2.padR]; rfl
    · have h1 := format_names.1 hb
      have h2 := hns (by simp [hb])
      simp [readBack, readVal, h1, h2]
  | .sel, .int k =>
    simp only [Fits, hb] at hf
    obtain ⟨i, rfl⟩ := List.length_eq_one_iff.mp hf.1
    have hp : Plain (padL 5 (formatInt i) ++ ' ' :: padL 5 (formatInt k)) :=
      ((hI i).plainL 5).append ((hI k).plainL 5).cons
    refine ⟨padL 5 (formatInt i) ++ ' ' :: padL 5 (formatInt k), 2, by simp only [itemLine, hb, List.cons_append, List.append_assoc], hp, ?_⟩
    refine readItem_of fl (s := formatInt k) hp.cons hc hi ?_ ?_
    · rw [words_space, words_append, (hI i).padL, (hI k).padL]; rfl
    · have h1 := format_names.2.1 hb
      have h2 : parseInt 64 (formatInt k) = some k := parseInt_format hf.2.1 hf.2.2
      simp [readBack, readVal, h1, h2, show blockFormat nMODSEL = .sel from by decide]
  | .all, .flt x =>
    simp only [Fits, hb] at hf
    match args, hf with
    | i :: is, _ =>
      have hp : Plain (formatInt i ++ (is.flatMap (fun i => ' ' :: formatInt i) ++ ' ' :: fl.fmtV x)) :=
        (hI i).plain.append ((plain_ints is).append (hV x).plain.cons)
      refine ⟨formatInt i ++ (is.flatMap (fun i => ' ' :: formatInt i) ++ ' ' :: fl.fmtV x), 1, by simp only [itemLine, hb, List.flatMap_cons, List.cons_append, List.append_assoc, fmtVal], hp, ?_⟩
      refine readItem_of fl (s := fl.fmtV x) hp.cons hc hi ?_ ?_
      · have := words_append ((i :: is).flatMap fun i => ' ' :: formatInt i) (fl.fmtV x)
        simp only [List.flatMap_cons, List.cons_append, List.append_assoc] at this
        rw [this, (hV x).words]
        have h2 := words_ints (i :: is)
        simp only [List.flatMap_cons, List.cons_append] at h2
        rw [h2]
      · simp only [readBack, hb, if_true]
        exact num (N.parseV x) (by simp [hb]) (by simp [hb])
  | .all, .int k =>
    simp only [Fits, hb] at hf
    match args, hf with
    | i :: is, hf =>
      have hp : Plain (formatInt i ++ (is.flatMap (fun i => ' ' :: formatInt i) ++ ' ' :: formatInt k)) :=
        (hI i).plain.append ((plain_ints is).append (hI k).plain.cons)
      refine ⟨formatInt i ++ (is.flatMap (fun i => ' ' :: formatInt i) ++ ' ' :: formatInt k), 1, by simp only [itemLine, hb, List.flatMap_cons, List.cons_append, List.append_assoc, fmtVal], hp, ?_⟩
      refine readItem_of fl (s := formatInt k) hp.cons hc hi ?_ ?_
      · have := words_append ((i :: is).flatMap fun i => ' ' :: formatInt i) (formatInt k)
        simp only [List.flatMap_cons, List.cons_append, List.append_assoc] at this
        rw [this, (hI k).words]
        have h2 := words_ints (i :: is)
        simp only [List.flatMap_cons, List.cons_append] at h2
        rw [h2]
      · simp only [readBack, hb, if_true]
        exact num (N.parseI k hf.2) (by simp [hb]) (by simp [hb])
  | .one _, .int _ | .one _, .str _ | .two, .int _ | .two, .str _ | .zero, .int _ | .zero, .str _
  | .info, .int _ | .info, .flt _ | .sel, .str _ | .sel, .flt _ | .all, .str _ => simp [Fits, hb] at hf

/-! ### Lines that begin blocks and particles -/

theorem toUpper_notSpace {c : Char} (h : isSpace c = false) : isSpace c.toUpper = false := by
  have hcase : c.toUpper = c ∨ 65 ≤ c.toUpper.toNat := by
    by_cases hl : 'a' ≤ c ∧ c ≤ 'z'
    · right
      have h1 : 97 ≤ c.toNat := hl.1
      have h2 : c.toNat ≤ 122 := hl.2
      have key : ∀ n : Nat, 97 ≤ n → n ≤ 122 → 65 ≤ (Char.ofNat n).toUpper.toNat := by
        intro n hn1 hn2
        interval_cases n <;> decide
      have := key c.toNat h1 h2
      rwa [Char.ofNat_toNat] at this
    · left
      rw [Char.toUpper, dif_neg]
      intro hh
      exact hl ⟨hh.1, hh.2⟩
  rcases hcase with hc | hc
  · rw [hc]; exact h
  · simp only [isSpace, Bool.or_eq_false_iff, beq_eq_false_iff_ne, ne_eq]
    refine ⟨⟨⟨⟨⟨?_, ?_⟩, ?_⟩, ?_⟩, ?_⟩, ?_⟩
    any_goals (intro he; rw [he] at hc; revert hc; decide)

theorem upper_append (a b : List Char) : upper (a ++ b) = upper a ++ upper b := List.map_append

theorem upper_sp (n : Nat) : upper (sp n) = sp n := by simp [upper, sp]

theorem upper_padL (n : Nat) (w : List Char) : upper (padL n w) = padL n (upper w) := by
  have := upper_sp (n - w.length)
  rw [sp] at this
  rw [padL, upper_append, this, padL, upper, List.length_map]

theorem upper_fixed {w : List Char} (h : ∀ c ∈ w, c.toUpper = c) : upper w = w := by
  rw [upper]
  conv_rhs => rw [← List.map_id w]
  exact List.map_congr_left h

theorem upper_formatInt (i : Int) : upper (formatInt i) = formatInt i := by
  refine upper_fixed fun c hc => ?_
  rcases formatInt_chars hc with h | rfl
  · simp only [Char.isDigit, Bool.and_eq_true, decide_eq_true_eq] at h
    have h2 : c.toNat ≤ 57 := h.2
    rw [Char.toUpper, dif_neg]
    intro hh
    have h1 : 97 ≤ c.toNat := hh.1
    omega
  · decide

theorem find_head {α : Type} {f : List Char → Option α} {s : List Char} {a : α} (h : f s = some a) :
    find f s = some a := by
  cases s <;> simp [find, h]

theorem reWord_notSpace {c : Char} (h : reWord c = true) : c ≠ '#' ∧ isSpace c = false ∧ reSpace c = false := by
  have h48 : 48 ≤ c.toNat := by
    simp only [reWord, Char.isAlphanum, Char.isAlpha, Char.isUpper, Char.isLower, Char.isDigit, Bool.or_eq_true,
      Bool.and_eq_true, decide_eq_true_eq, beq_iff_eq] at h
    rcases h with ((⟨h, _⟩ | ⟨h, _⟩) | ⟨h, _⟩) | rfl
    · have : 65 ≤ c.toNat := h
      omega
    · have : 97 ≤ c.toNat := h
      omega
    · exact h
    · decide
  refine ⟨?_, ?_, ?_⟩
  · rintro rfl; revert h48; decide
  · simp only [isSpace, Bool.or_eq_false_iff, beq_eq_false_iff_ne, ne_eq]
    refine ⟨⟨⟨⟨⟨?_, ?_⟩, ?_⟩, ?_⟩, ?_⟩, ?_⟩
    any_goals (rintro rfl; revert h48; decide)
    all_goals omega
  · simp only [reSpace, Bool.or_eq_false_iff, beq_eq_false_iff_ne, ne_eq]
    refine ⟨⟨⟨⟨?_, ?_⟩, ?_⟩, ?_⟩, ?_⟩
    any_goals (rintro rfl; revert h48; decide)
    all_goals omega

theorem reSpace_of_not {c : Char} (h : isSpace c = false) : reSpace c = false := by
  simp only [isSpace, Bool.or_eq_false_iff] at h
  simp only [reSpace, Bool.or_eq_false_iff]
  tauto

theorem all_sp {p : Char → Bool} (hp : p ' ' = true) (n : Nat) : ∀ c ∈ sp n, p c = true := by
  intro c hc
  rw [sp, List.mem_replicate] at hc
  rw [hc.2, hp]

theorem head_append {a b : List Char} (h : a ≠ []) : (a ++ b).head? = a.head? := by
  cases a with
  | nil => exact absurd rfl h
  | cons c r => rfl

theorem mem_of_head? {a : List Char} {c : Char} (h : c ∈ a.head?) : c ∈ a := List.mem_of_mem_head? h

theorem trimmed_of_noSpace {w : List Char} (h : ∀ c ∈ w, isSpace c = false) : Trimmed w :=
  ⟨fun c hc => h c (mem_of_head? hc), fun c hc => h c (List.mem_of_mem_getLast? hc)⟩

theorem trimSpace_padL {w : List Char} (n : Nat) (h : ∀ c ∈ w, isSpace c = false) : trimSpace (padL n w) = w := by
  rw [padL, trimSpace_spaces, trimSpace_trimmed (trimmed_of_noSpace h)]

/-- What precedes the comment in the line of a block. -/
def blockBody (fl : Floats F) (b : Block F) : List Char :=
  tBLOCK ++ ' ' :: b.name ++ (if fl.isNaN b.q then [] else ' ' :: 'Q' :: '=' :: padL 16 (fl.fmtE b.q))

theorem upperWord_notSpace {w : List Char} (h : Word w) : ∀ c ∈ upper w, isSpace c = false := by
  intro c hc
  obtain ⟨d, hd, rfl⟩ := List.mem_map.mp hc
  exact toUpper_notSpace (h.2 d hd).2

theorem last_append {a b : List Char} (h : b ≠ []) : (a ++ b).getLast? = b.getLast? := by
  rw [List.getLast?_append]
  cases hb : b.getLast? with
  | none => exact absurd (List.getLast?_eq_none_iff.mp hb) h
  | some d => rfl

theorem blockBody_upper (N : Notation fl rnd ofInt isInf) {b : Block F} (hb : NameOK b.name) :
    upper (blockBody fl b) = tBLOCK ++ (sp 1 ++ (b.name
      ++ (if fl.isNaN b.q then [] else ' ' :: 'Q' :: '=' :: padL 16 (upper (fl.fmtE b.q))))) ∧
    Trimmed (upper (blockBody fl b)) := by
  have h1 : upper (blockBody fl b) = tBLOCK ++ (sp 1 ++ (b.name
      ++ (if fl.isNaN b.q then [] else ' ' :: 'Q' :: '=' :: padL 16 (upper (fl.fmtE b.q))))) := by
    rw [blockBody, upper_append]
    have hn : upper (tBLOCK ++ ' ' :: b.name) = tBLOCK ++ ' ' :: b.name := by
      have : upper (' ' :: b.name) = ' ' :: upper b.name := rfl
      rw [upper_append, this, upper_fixed fun c hc => (hb.2 c hc).2]
      rfl
    rw [hn]
    split
    · simp [upper, sp]
    · have : ∀ s, upper (' ' :: 'Q' :: '=' :: s) = ' ' :: 'Q' :: '=' :: upper s := fun s => rfl
      rw [this, upper_padL]
      simp [sp]
  refine ⟨h1, ?_⟩
  rw [h1]
  refine ⟨fun c hc => ?_, fun c hc => ?_⟩
  · have : c = 'B' := by simpa [tBLOCK] using hc.symm
    subst this; rfl
  · rw [last_append (by simp [sp]), last_append (by simp [hb.1])] at hc
    split at hc
    · rw [List.append_nil] at hc
      exact (reWord_notSpace (hb.2 c (List.mem_of_mem_getLast? hc)).1).2.1
    · rename_i hq
      have hne : upper (fl.fmtE b.q) ≠ [] := by simp [upper, (N.wordE b.q).1]
      rw [last_append (by simp)] at hc
      have hs : ∀ s : List Char, ' ' :: 'Q' :: '=' :: s = [' ', 'Q', '='] ++ s := fun s => rfl
      rw [hs, padL, last_append (by simp [hne]), last_append hne] at hc
      exact upperWord_notSpace (N.wordE b.q) c (List.mem_of_mem_getLast? hc)

theorem blockBody_plain (N : Notation fl rnd ofInt isInf) {b : Block F} (hb : NameOK b.name) :
    Plain (blockBody fl b) := by
  have hname : Plain b.name := fun c hc => by
    have := reWord_notSpace (hb.2 c hc).1
    exact ⟨this.1, fun h => by rw [this.2.1] at h; cases h⟩
  have ht : Plain tBLOCK := by unfold Plain; decide
  have hq : Plain (' ' :: 'Q' :: '=' :: padL 16 (fl.fmtE b.q)) := by
    have h1 : Plain [' ', 'Q', '='] := by unfold Plain; decide
    exact h1.append ((N.wordE b.q).plainL 16)
  rw [blockBody]
  split
  · rw [List.append_nil]
    exact ht.append hname.cons
  · exact (ht.append hname.cons).append hq

theorem blockLine_eq (b : Block F) :
    blockLine fl b = if b.comment = [] then blockBody fl b else blockBody fl b ++ tail 2 b.comment := by
  rw [blockLine, ← blockBody]
  split
  · simp
  · rfl

theorem qGroup_eq (N : Notation fl rnd ofInt isInf) (q : F) :
    qGroup (' ' :: 'Q' :: '=' :: padL 16 (upper (fl.fmtE q))) = ' ' :: 'Q' :: '=' :: padL 16 (upper (fl.fmtE q)) := by
  have h1 : upper (fl.fmtE q) ≠ [] := by simp [upper, (N.wordE q).1]
  have h2 : padL 16 (upper (fl.fmtE q)) ≠ [] := by simp [padL, h1]
  simp [qGroup, List.takeWhile, List.dropWhile, show reSpace ' ' = true from rfl, show reSpace 'Q' = false from rfl,
    show reSpace '=' = false from rfl, h2]

/-- The line of a block is read as the block without its data. -/
theorem readBlock_line (N : Notation fl rnd ofInt isInf) {b : Block F} (hb : NameOK b.name) (hc : Comment b.comment) :
    readBlock fl (blockLine fl b) = .ok ⟨b.name, b.comment, if fl.isNaN b.q then fl.nan else rnd b.q, []⟩ := by
  obtain ⟨hu, ht⟩ := blockBody_upper N hb
  have hp := blockBody_plain N hb
  have hcom : (uncomment (blockLine fl b)).2 = b.comment := by
    rw [blockLine_eq]
    split
    · rename_i h
      rw [uncomment, (cut_one_none '#').mpr hp.noHash, h]
    · rw [uncomment_tail hp hc]
  have hhead : header (blockLine fl b) = upper (blockBody fl b) := by
    rw [blockLine_eq]
    split
    · rw [header, (cut_one_none '#').mpr hp.noHash]
    · have h : cut ['#'] (blockBody fl b ++ tail 2 b.comment) = some (blockBody fl b ++ sp 2, ' ' :: b.comment) := by
        rw [tail, ← List.append_assoc]
        exact cut_one '#' (hp.append (plain_sp 2)).noHash _
      rw [header, h]
      simp only
      rw [upper_append, upper_sp, sp, trimSpace_append_spaces, trimSpace_trimmed ht]
  have hre : reBlockAt (upper (blockBody fl b)) = some (b.name,
      if fl.isNaN b.q then [] else ' ' :: 'Q' :: '=' :: padL 16 (upper (fl.fmtE b.q))) := by
    rw [hu]
    generalize hr : (if fl.isNaN b.q then [] else ' ' :: 'Q' :: '=' :: padL 16 (upper (fl.fmtE b.q))) = r
    have hrh : ∀ c ∈ r.head?, reWord c = false := by
      rw [← hr]
      split
      · simp
      · intro c hc
        have : c = ' ' := by simpa using hc.symm
        subst this; rfl
    have hq : qGroup r = r := by
      rw [← hr]
      split
      · rfl
      · exact qGroup_eq N b.q
    have s1 := takeWhile_span (p := reSpace) (a := sp 1) (b := b.name ++ r) (all_sp rfl 1) (by
      intro c hc
      rw [head_append hb.1] at hc
      exact (reWord_notSpace (hb.2 c (mem_of_head? hc)).1).2.2)
    have s2 := takeWhile_span (p := reWord) (a := b.name) (b := r) (fun c hc => (hb.2 c hc).1) hrh
    have hpre : tBLOCK.isPrefixOf (tBLOCK ++ (sp 1 ++ (b.name ++ r))) = true := by
      rw [List.isPrefixOf_iff_prefix]; exact List.prefix_append _ _
    have hd : (tBLOCK ++ (sp 1 ++ (b.name ++ r))).drop 5 = sp 1 ++ (b.name ++ r) := rfl
    have hne : b.name.isEmpty = false := by simp [hb.1]
    simp only [reBlockAt, hpre, hd, s1.1, s1.2, s2.1, s2.2, hq, hne, if_true]
    simp [sp]
  simp only [readBlock, hhead, find_head hre, hcom]
  by_cases hn : fl.isNaN b.q = true
  · simp [hn]
  · have hcut : cut ['='] (' ' :: 'Q' :: '=' :: padL 16 (upper (fl.fmtE b.q)))
        = some ([' ', 'Q'], padL 16 (upper (fl.fmtE b.q))) := cut_one '=' (a := [' ', 'Q']) (by decide) _
    simp only [hn, Bool.false_eq_true, if_false, hcut, trimSpace_padL 16 (upperWord_notSpace (N.wordE b.q)), N.parseUp]
    simp

/-- What precedes the comment in the line of a particle. -/
def particleBody (fl : Floats F) (p : Particle F) : List Char :=
  tDECAY ++ (' ' :: padL 9 (formatInt p.pdgid) ++ (sp 3 ++ padL 16 (fl.fmtE p.width)))

theorem particleLine_eq (p : Particle F) : particleLine fl p = particleBody fl p ++ tail 3 p.comment := by
  simp [particleLine, particleBody]

theorem particleBody_plain (N : Notation fl rnd ofInt isInf) (p : Particle F) : Plain (particleBody fl p) := by
  have ht : Plain tDECAY := by unfold Plain; decide
  exact ht.append (((formatInt_word p.pdgid).plainL 9).cons.append ((plain_sp 3).append ((N.wordE p.width).plainL 16)))

theorem reSign_format (i : Int) (r : List Char) : ∃ ds, (reSign (formatInt i ++ r)).2 = ds ++ r ∧
    (reSign (formatInt i ++ r)).1 ++ ds = formatInt i ∧ ds ≠ [] ∧ ∀ c ∈ ds, c.isDigit = true := by
  match i with
  | .ofNat n =>
    refine ⟨formatUint n, ?_⟩
    have hne := format_ne_nil n
    simp only [formatInt]
    cases hf : formatUint n with
    | nil => exact absurd hf hne
    | cons c t =>
      have hc : c.isDigit = true := format_digits (n := n) (by rw [hf]; simp)
      have hm : c ≠ '-' := by rintro rfl; exact absurd hc (by decide)
      have : reSign (c :: t ++ r) = ([], c :: t ++ r) := by
        rw [reSign]
        intro u hu
        simp only [List.cons_append, List.cons.injEq] at hu
        exact hm hu.1
      rw [this]
      exact ⟨rfl, rfl, by simp, fun d hd => format_digits (n := n) (by rw [hf]; exact hd)⟩
  | .negSucc n => exact ⟨formatUint (n + 1), rfl, rfl, format_ne_nil _, fun d hd => format_digits hd⟩

theorem reWidth_eq {u : List Char} (hne : u ≠ []) (h : (∀ c ∈ u, reNum c = true) ∨ u = ['N', 'A', 'N']) :
    reWidth u = some u := by
  rcases h with h | rfl
  · have := (takeWhile_span (p := reNum) (a := u) (b := []) h (by simp)).1
    rw [List.append_nil] at this
    simp [reWidth, this, hne]
  · decide

/-- The line of a particle is read as the particle without its mass and its decays. -/
theorem readParticle_line (N : Notation fl rnd ofInt isInf) {p : Particle F} (hid : IsInt p.pdgid)
    (hw : isInf p.width = false) (hc : Comment p.comment) :
    readParticle fl (particleLine fl p) = .ok ⟨p.pdgid, rnd p.width, fl.nan, p.comment, []⟩ := by
  have hp := particleBody_plain N p
  have hune : upper (fl.fmtE p.width) ≠ [] := by simp [upper, (N.wordE p.width).1]
  have hu : upper (particleBody fl p) = tDECAY ++ (sp (1 + (9 - (formatInt p.pdgid).length)) ++ (formatInt p.pdgid
      ++ (sp (3 + (16 - (upper (fl.fmtE p.width)).length)) ++ upper (fl.fmtE p.width)))) := by
    have e1 : upper (' ' :: padL 9 (formatInt p.pdgid)) = sp 1 ++ padL 9 (formatInt p.pdgid) := by
      have : upper (' ' :: padL 9 (formatInt p.pdgid)) = ' ' :: upper (padL 9 (formatInt p.pdgid)) := rfl
      rw [this, upper_padL, upper_formatInt]
      rfl
    rw [particleBody, upper_append, upper_append, upper_append, upper_sp, upper_padL, e1]
    have e2 : ∀ n m, sp (n + m) = sp n ++ sp m := fun n m => List.replicate_add n m ' '
    rw [e2, e2]
    simp only [padL, sp, List.append_assoc]
    rfl
  have ht : Trimmed (upper (particleBody fl p)) := by
    rw [hu]
    refine ⟨fun c hc => ?_, fun c hc => ?_⟩
    · have : c = 'D' := by simpa [tDECAY] using hc.symm
      subst this; rfl
    · rw [last_append (by simp [hune]), last_append (by simp [hune]), last_append (by simp [hune]), last_append hune] at hc
      exact upperWord_notSpace (N.wordE p.width) c (List.mem_of_mem_getLast? hc)
  have hcom : (uncomment (particleLine fl p)).2 = p.comment := by rw [particleLine_eq, uncomment_tail hp hc]
  have hhead : header (particleLine fl p) = upper (particleBody fl p) := by
    rw [particleLine_eq]
    have h : cut ['#'] (particleBody fl p ++ tail 3 p.comment) = some (particleBody fl p ++ sp 3, ' ' :: p.comment) := by
      rw [tail, ← List.append_assoc]
      exact cut_one '#' (hp.append (plain_sp 3)).noHash _
    rw [header, h]
    simp only
    rw [upper_append, upper_sp, sp, trimSpace_append_spaces, trimSpace_trimmed ht]
  have hre : reDecayAt (upper (particleBody fl p)) = some (formatInt p.pdgid, upper (fl.fmtE p.width)) := by
    rw [hu]
    generalize hU : upper (fl.fmtE p.width) = u at hune
    have hus : ∀ c ∈ u, isSpace c = false := by rw [← hU]; exact upperWord_notSpace (N.wordE p.width)
    have hnum := N.charsE p.width hw
    rw [hU] at hnum
    generalize 9 - (formatInt p.pdgid).length = k1
    generalize 16 - u.length = k2
    obtain ⟨ds, d1, d2, d3, d4⟩ := reSign_format p.pdgid (sp (3 + k2) ++ u)
    have s1 := takeWhile_span (p := reSpace) (a := sp (1 + k1)) (b := formatInt p.pdgid ++ (sp (3 + k2) ++ u))
      (all_sp rfl _) (by
        intro c hc
        rw [head_append (formatInt_ne_nil _)] at hc
        exact reSpace_of_not ((formatInt_word p.pdgid).2 c (mem_of_head? hc)).2)
    have s2 := takeWhile_span (p := Char.isDigit) (a := ds) (b := sp (3 + k2) ++ u) d4 (by
        intro c hc
        rw [head_append (by simp [sp])] at hc
        have := all_sp (p := fun c => !c.isDigit) rfl _ c (mem_of_head? hc)
        simpa using this)
    have s3 := takeWhile_span (p := reSpace) (a := sp (3 + k2)) (b := u) (all_sp rfl _) (by
        intro c hc
        exact reSpace_of_not (hus c (mem_of_head? hc)))
    have hpre : tDECAY.isPrefixOf (tDECAY ++ (sp (1 + k1) ++ (formatInt p.pdgid ++ (sp (3 + k2) ++ u)))) = true := by
      rw [List.isPrefixOf_iff_prefix]; exact List.prefix_append _ _
    have hd : (tDECAY ++ (sp (1 + k1) ++ (formatInt p.pdgid ++ (sp (3 + k2) ++ u)))).drop 5
        = sp (1 + k1) ++ (formatInt p.pdgid ++ (sp (3 + k2) ++ u)) := rfl
    have e1 : (sp (1 + k1)).isEmpty = false := by simp [sp]
    have e2 : ds.isEmpty = false := by simp [d3]
    have e3 : (sp (3 + k2)).isEmpty = false := by simp [sp]
    simp only [reDecayAt, hpre, hd, s1.1, s1.2, d1, s2.1, s2.2, s3.1, s3.2, e1, e2, e3, reWidth_eq hune hnum, if_true, d2]
    simp
  have hpi : parseInt 64 (formatInt p.pdgid) = some p.pdgid := parseInt_format hid.1 hid.2
  simp only [readParticle, hhead, find_head hre, hcom, hpi, N.parseUp]

/-! ### Lines of decays -/

theorem words_padded (args : List Int) (n : Nat) :
    words (args.flatMap fun i => ' ' :: padL n (formatInt i)) = args.map formatInt := by
  induction args with
  | nil => rfl
  | cons i r ih =>
    rw [List.flatMap_cons, List.cons_append, words_space, List.map_cons]
    cases r with
    | nil => simp [(formatInt_word i).padL]
    | cons j r =>
      rw [List.flatMap_cons, List.cons_append, words_append, (formatInt_word i).padL]
      rw [List.flatMap_cons, List.cons_append, words_space] at ih
      rw [ih]
      rfl

theorem readIds_ints : ∀ {a : List Int}, (∀ i ∈ a, IsInt i) → readIds a.length (a.map formatInt) = .ok a
  | [], _ => rfl
  | i :: a, h => by
    have h2 : parseInt 64 (formatInt i) = some i := parseInt_format (h i (by simp)).1 (h i (by simp)).2
    have h3 := readIds_ints (a := a) fun j hj => h j (by simp [hj])
    simp only [List.length_cons, List.map_cons, readIds, h2, h3]
    rfl

/-- The line of a decay: plain text and a comment, and what it is read as. -/
theorem decay_line (N : Notation fl rnd ofInt isInf) {d : Decay F} (hd : DecayOK d) :
    ∃ a, decayLine fl d = ' ' :: a ++ tail 3 d.comment ∧ Plain a ∧
      readDecay fl (decayLine fl d) = .ok (decayBack rnd d) := by
  have hE := N.wordE d.br
  have hn := formatInt_word d.ids.length
  have hpl : Plain (d.ids.flatMap fun i => ' ' :: padL 9 (formatInt i)) := by
    intro c hc
    obtain ⟨i, _, hc⟩ := List.mem_flatMap.mp hc
    exact ((formatInt_word i).plainL 9).cons c hc
  have hp : Plain (sp 2 ++ (padL 16 (fl.fmtE d.br) ++ (sp 3 ++ (padL 2 (formatInt d.ids.length)
      ++ (sp 2 ++ d.ids.flatMap fun i => ' ' :: padL 9 (formatInt i)))))) :=
    (plain_sp 2).append ((hE.plainL 16).append ((plain_sp 3).append ((hn.plainL 2).append ((plain_sp 2).append hpl))))
  have heq : decayLine fl d = ' ' :: (sp 2 ++ (padL 16 (fl.fmtE d.br) ++ (sp 3 ++ (padL 2 (formatInt d.ids.length)
      ++ (sp 2 ++ d.ids.flatMap fun i => ' ' :: padL 9 (formatInt i)))))) ++ tail 3 d.comment := by
    simp [decayLine, sp, List.replicate]
  refine ⟨_, heq, hp, ?_⟩
  have hw : words (' ' :: (sp 2 ++ (padL 16 (fl.fmtE d.br) ++ (sp 3 ++ (padL 2 (formatInt d.ids.length)
      ++ (sp 2 ++ d.ids.flatMap fun i => ' ' :: padL 9 (formatInt i)))))))
      = fl.fmtE d.br :: formatInt d.ids.length :: d.ids.map formatInt := by
    rw [words_space]
    have h2 := words_spaces 2 (padL 16 (fl.fmtE d.br) ++ (sp 3 ++ (padL 2 (formatInt d.ids.length)
      ++ (sp 2 ++ d.ids.flatMap fun i => ' ' :: padL 9 (formatInt i)))))
    rw [← sp] at h2
    rw [h2, words_sp, words_sp, hE.padL, hn.padL, words_padded]
    rfl
  have hlen : parseInt 64 (formatInt d.ids.length) = some (d.ids.length : Int) := by
    refine parseInt_format ?_ ?_
    · omega
    · have := hd.2.1
      simp only [show (64 : Nat) - 1 = 63 from rfl]
      exact_mod_cast this
  have h1 : words (trimSpace (uncomment (decayLine fl d)).1) = fl.fmtE d.br :: formatInt d.ids.length :: d.ids.map formatInt := by
    rw [heq, uncomment_tail hp.cons hd.2.2, words_line hp.cons, hw]
  have h2 : (uncomment (decayLine fl d)).2 = d.comment := by
    rw [heq, uncomment_tail hp.cons hd.2.2]
  have h3 : ¬ ((d.ids.length : Int) < 0) := by omega
  simp only [readDecay, h1, N.parseE, hlen, h3, if_false, Int.toNat_natCast, readIds_ints hd.1, h2, Res.bind]
  rfl

/-! ### Documents -/

theorem Res.bind_ok {α β : Type} (a : α) (f : α → Res β) : (Res.ok a).bind f = f a := rfl

theorem steps_append (s : St F) (a b : List (List Char)) :
    steps fl s (a ++ b) = (steps fl s a).bind fun s' => steps fl s' b := by
  induction a generalizing s with
  | nil => rfl
  | cons l r ih =>
    simp only [List.cons_append, steps]
    cases step fl s l with
    | ok s' => simp only [Res.bind_ok, ih]
    | err => rfl
    | panic => rfl

theorem onLast_append {α : Type} (f : α → Res α) (l : List α) (x : α) :
    onLast f (l ++ [x]) = (f x).bind fun y => .ok (l ++ [y]) := by
  induction l with
  | nil => rfl
  | cons a r ih =>
    cases r with
    | nil =>
      simp only [List.cons_append, List.nil_append, onLast]
      cases f x <;> rfl
    | cons b r =>
      simp only [List.cons_append, onLast] at ih ⊢
      rw [ih]
      cases f x <;> rfl

theorem step_hash (s : St F) (r : List Char) : step fl s ('#' :: r) = .ok s := by simp [step]

theorem step_blank (s : St F) (r : List Char) (B : List (Block F)) (P : List (Particle F)) (b b' : Block F)
    (h : (readItem fl b.name (' ' :: r)).bind (fun it => .ok { b with data := b.data ++ [it] }) = .ok b')
    (hs : s = ⟨.block, ⟨B ++ [b], P⟩⟩) : step fl s (' ' :: r) = .ok ⟨.block, ⟨B ++ [b'], P⟩⟩ := by
  subst hs
  simp only [step, show ¬ (' ' = '#') by decide, show ¬ (Char.toUpper ' ' = 'B') by decide,
    show ¬ (Char.toUpper ' ' = 'D') by decide, if_false, or_true, if_true, onLast_append, h, Res.bind_ok]

theorem step_decay (s : St F) (r : List Char) (B : List (Block F)) (P : List (Particle F)) (p p' : Particle F)
    (h : (readDecay fl (' ' :: r)).bind (fun d => .ok { p with decays := p.decays ++ [d] }) = .ok p')
    (hs : s = ⟨.decay, ⟨B, P ++ [p]⟩⟩) : step fl s (' ' :: r) = .ok ⟨.decay, ⟨B, P ++ [p']⟩⟩ := by
  subst hs
  simp only [step, show ¬ (' ' = '#') by decide, show ¬ (Char.toUpper ' ' = 'B') by decide,
    show ¬ (Char.toUpper ' ' = 'D') by decide, if_false, or_true, if_true, onLast_append, h, Res.bind_ok]

theorem item_args {name : List Char} {args : List Int} {v : Val F} (hi : ∀ i ∈ args, IsInt i) (hf : Fits name args v) :
    ∃ idx, (newIndex args).index = .ok idx ∧ (if name = nALPHA then [] else idx) = args := by
  by_cases hz : name = nALPHA
  · subst hz
    have hb : blockFormat nALPHA = .zero := by decide
    cases v with
    | flt x =>
      simp only [Fits, hb] at hf
      subst hf
      exact ⟨[0], by decide, by simp⟩
    | int i => simp [Fits, hb] at hf
    | str s => simp [Fits, hb] at hf
  · have hne : args ≠ [] := by
      rintro rfl
      have hnz : blockFormat name ≠ .zero := fun h => hz (format_names.2.2.1.mp h)
      simp only [Fits] at hf
      split at hf <;> simp_all
    exact ⟨args, C117_coords hne hi, by simp [hz]⟩

/-- The data lines of a block. -/
theorem items_lines (N : Notation fl rnd ofInt isInf) (b : Block F) : ∀ {items : List (Item F)},
    (∀ it ∈ items, ItemOK b.name it) → ∃ ls, itemLines fl b.name items = .ok ls ∧ (∀ l ∈ ls, LineOK l) ∧
      ∀ (B : List (Block F)) (P : List (Particle F)) (b' : Block F), b'.name = b.name →
        steps fl ⟨.block, ⟨B ++ [b'], P⟩⟩ ls
          = .ok ⟨.block, ⟨B ++ [{ b' with data := b'.data ++ items.map (itemBack rnd ofInt b.name) }], P⟩⟩
  | [], _ => ⟨[], rfl, by simp, fun B P b' _ => by simp [steps]⟩
  | it :: items, h => by
    obtain ⟨ls, h1, h2, h3⟩ := items_lines N b (items := items) fun i hi => h i (by simp [hi])
    obtain ⟨args, v, e1, e2, hi, hf, hc⟩ := h it (by simp)
    obtain ⟨idx, hx, ha⟩ := item_args hi hf
    obtain ⟨a, n, l1, l2, l3⟩ := item_line N hi hf hc
    obtain ⟨ix, w, c⟩ := it
    simp only at e1 e2 hc l1 l3
    subst e1 e2
    refine ⟨(' ' :: a ++ tail n c) :: ls, ?_, ?_, ?_⟩
    · simp only [itemLines, hx, Res.bind_ok, h1, ha, l1]
      simp
    · intro l hl
      simp only [List.mem_cons] at hl
      rcases hl with rfl | hl
      · exact lineOK_tail (a := ' ' :: a) l2.cons hc n
      · exact h2 l hl
    · intro B P b' hb'
      have := step_blank (fl := fl) ⟨.block, ⟨B ++ [b'], P⟩⟩ (a ++ tail n c) B P b'
        { b' with data := b'.data ++ [⟨newIndex args, ⟨some (readBack rnd ofInt b.name v), c⟩⟩] }
        (by rw [hb']; rw [List.cons_append] at l3; rw [l3]; rfl) rfl
      rw [steps, List.cons_append, this, Res.bind_ok, h3 B P _ (by exact hb')]
      simp [itemBack]

theorem blockLine_ok (N : Notation fl rnd ofInt isInf) {b : Block F} (hb : NameOK b.name) (hc : Comment b.comment) :
    LineOK (blockLine fl b) ∧ ∃ r, blockLine fl b = 'B' :: r := by
  have hp := blockBody_plain N hb
  refine ⟨?_, ?_⟩
  · rw [blockLine_eq]
    split
    · refine ⟨hp.noNL, fun h => ?_⟩
      have := (hp _ (List.mem_of_mem_getLast? h)).2 rfl
      revert this; decide
    · exact lineOK_tail hp hc 2
  · exact ⟨_, rfl⟩

/-- The lines of the blocks. -/
theorem blocks_lines (N : Notation fl rnd ofInt isInf) : ∀ {bs : List (Block F)}, (∀ b ∈ bs, BlockOK b) →
    ∃ ls, blocksLines fl bs = .ok ls ∧ (∀ l ∈ ls, LineOK l) ∧
      ∀ (sec : Sec) (B : List (Block F)) (P : List (Particle F)), ∃ sec',
        steps fl ⟨sec, ⟨B, P⟩⟩ ls = .ok ⟨sec', ⟨B ++ bs.map (blockBack fl rnd ofInt), P⟩⟩
  | [], _ => ⟨[], rfl, by simp, fun sec B P => ⟨sec, by simp [steps]⟩⟩
  | b :: bs, h => by
    obtain ⟨rs, h1, h2, h3⟩ := blocks_lines N (bs := bs) fun i hi => h i (by simp [hi])
    obtain ⟨hn, hc, hit⟩ := h b (by simp)
    obtain ⟨ls, i1, i2, i3⟩ := items_lines N b hit
    obtain ⟨k1, r, k2⟩ := blockLine_ok N hn hc
    refine ⟨blockLine fl b :: ls ++ ['#'] :: rs, by simp only [blocksLines, i1, h1, Res.bind_ok], ?_, ?_⟩
    · intro l hl
      simp only [List.cons_append, List.mem_cons, List.mem_append] at hl
      rcases hl with rfl | hl | rfl | hl
      · exact k1
      · exact i2 l hl
      · exact ⟨by decide, by decide⟩
      · exact h2 l hl
    · intro sec B P
      obtain ⟨sec', hs⟩ := h3 .block (B ++ [blockBack fl rnd ofInt b]) P
      refine ⟨sec', ?_⟩
      have hr := readBlock_line N hn hc
      have hstep : step fl ⟨sec, ⟨B, P⟩⟩ (blockLine fl b)
          = .ok ⟨.block, ⟨B ++ [⟨b.name, b.comment, if fl.isNaN b.q then fl.nan else rnd b.q, []⟩], P⟩⟩ := by
        rw [k2] at hr ⊢
        simp only [step, show ¬ ('B' = '#') by decide, if_false, show Char.toUpper 'B' = 'B' by decide, if_true, hr,
          Res.bind_ok]
      rw [List.cons_append, steps, hstep, Res.bind_ok, steps_append, i3 B P ⟨b.name, b.comment, if fl.isNaN b.q then fl.nan else rnd b.q, []⟩ rfl, Res.bind_ok, steps, step_hash,
        Res.bind_ok]
      simp only [List.nil_append]
      rw [← blockBack, hs]
      simp

/-- A particle as it is before the masses are known. -/
def bare (fl : Floats F) (rnd : F → F) (p : Particle F) : Particle F :=
  ⟨p.pdgid, rnd p.width, fl.nan, p.comment, p.decays.map (decayBack rnd)⟩

theorem decays_lines (N : Notation fl rnd ofInt isInf) : ∀ {ds : List (Decay F)}, (∀ d ∈ ds, DecayOK d) →
    (∀ l ∈ ds.map (decayLine fl), LineOK l) ∧
    ∀ (B : List (Block F)) (P : List (Particle F)) (p : Particle F),
      steps fl ⟨.decay, ⟨B, P ++ [p]⟩⟩ (ds.map (decayLine fl))
        = .ok ⟨.decay, ⟨B, P ++ [{ p with decays := p.decays ++ ds.map (decayBack rnd) }]⟩⟩
  | [], _ => ⟨by simp, fun B P p => by simp [steps]⟩
  | d :: ds, h => by
    obtain ⟨h1, h2⟩ := decays_lines N (ds := ds) fun i hi => h i (by simp [hi])
    obtain ⟨a, l1, l2, l3⟩ := decay_line N (h d (by simp))
    refine ⟨?_, ?_⟩
    · intro l hl
      simp only [List.map_cons, List.mem_cons] at hl
      rcases hl with rfl | hl
      · rw [l1]
        exact lineOK_tail l2.cons (h d (by simp)).2.2 3
      · exact h1 l hl
    · intro B P p
      rw [l1] at l3
      have := step_decay (fl := fl) ⟨.decay, ⟨B, P ++ [p]⟩⟩ (a ++ tail 3 d.comment) B P p
        { p with decays := p.decays ++ [decayBack rnd d] } (by rw [List.cons_append] at l3; rw [l3]; rfl) rfl
      rw [List.map_cons, steps, l1, List.cons_append, this, Res.bind_ok, h2]
      simp

theorem header_lines : LineOK particleHeader ∧ LineOK decayHeader ∧ LineOK ['#'] := by
  refine ⟨⟨by decide, by decide⟩, ⟨by decide, by decide⟩, ⟨by decide, by decide⟩⟩

/-- The lines of the particles. -/
theorem particles_lines (N : Notation fl rnd ofInt isInf) : ∀ {ps : List (Particle F)}, (∀ p ∈ ps, ParticleOK isInf p) →
    (∀ l ∈ ps.flatMap (particleLines fl), LineOK l) ∧
    ∀ (sec : Sec) (B : List (Block F)) (P : List (Particle F)), ∃ sec',
      steps fl ⟨sec, ⟨B, P⟩⟩ (ps.flatMap (particleLines fl)) = .ok ⟨sec', ⟨B, P ++ ps.map (bare fl rnd)⟩⟩
  | [], _ => ⟨by simp, fun sec B P => ⟨sec, by simp [steps]⟩⟩
  | p :: ps, h => by
    obtain ⟨h1, h2⟩ := particles_lines N (ps := ps) fun i hi => h i (by simp [hi])
    obtain ⟨hid, hw, hc, hd⟩ := h p (by simp)
    obtain ⟨d1, d2⟩ := decays_lines N hd
    have hl : LineOK (particleLine fl p) := by
      rw [particleLine_eq]; exact lineOK_tail (particleBody_plain N p) hc 3
    refine ⟨?_, ?_⟩
    · intro l hl'
      simp only [List.flatMap_cons, List.mem_append] at hl'
      rcases hl' with hl' | hl'
      · simp only [particleLines, List.mem_cons] at hl'
        rcases hl' with rfl | rfl | hl'
        · exact header_lines.1
        · exact hl
        · split at hl'
          · simp only [List.mem_singleton] at hl'
            subst hl'; exact header_lines.2.2
          · simp only [List.cons_append, List.mem_cons, List.mem_append, List.not_mem_nil, or_false] at hl'
            rcases hl' with rfl | hl' | rfl
            · exact header_lines.2.1
            · exact d1 l hl'
            · exact header_lines.2.2
      · exact h1 l hl'
    · intro sec B P
      obtain ⟨sec', hs⟩ := h2 .decay B (P ++ [bare fl rnd p])
      refine ⟨sec', ?_⟩
      have hr := readParticle_line N hid hw hc
      have hstep : step fl ⟨sec, ⟨B, P⟩⟩ (particleLine fl p)
          = .ok ⟨.decay, ⟨B, P ++ [⟨p.pdgid, rnd p.width, fl.nan, p.comment, []⟩]⟩⟩ := by
        obtain ⟨r, hr'⟩ : ∃ r, particleLine fl p = 'D' :: r := ⟨_, rfl⟩
        rw [hr'] at hr ⊢
        simp only [step, show ¬ ('D' = '#') by decide, if_false, show ¬ ('D' = 'B') by decide,
          show Char.toUpper 'D' = 'D' by decide, if_true, hr, Res.bind_ok]
      have hph : ∀ s : St F, step fl s particleHeader = .ok s := fun s => step_hash s _
      have hdh : ∀ s : St F, step fl s decayHeader = .ok s := fun s => step_hash s _
      rw [List.flatMap_cons, steps_append, particleLines, steps, hph, Res.bind_ok, steps, hstep, Res.bind_ok]
      split
      · rename_i he
        rw [steps, step_hash, Res.bind_ok, steps, Res.bind_ok]
        have : bare fl rnd p = ⟨p.pdgid, rnd p.width, fl.nan, p.comment, []⟩ := by simp [bare, he]
        rw [← this, hs]
        simp
      · rw [List.cons_append, steps, hdh, Res.bind_ok, steps_append, d2, Res.bind_ok, steps, step_hash, Res.bind_ok,
          steps, Res.bind_ok]
        simp only [List.nil_append]
        rw [← bare, hs]
        simp

theorem blocksGet_back (bs : List (Block F)) (n : List Char) :
    blocksGet (bs.map (blockBack fl rnd ofInt)) n = (bs.find? fun b => b.name == n).map (blockBack fl rnd ofInt) := by
  induction bs with
  | nil => rfl
  | cons b r ih =>
    simp only [List.map_cons, blocksGet, List.find?_cons, ih]
    by_cases h : b.name = n
    · have : (b.name == n) = true := by simp [h]
      simp only [this]
      simp [blockBack, h]
    · have : (b.name == n) = false := by simp [h]
      simp only [this]
      simp [blockBack, h]

theorem dataGet_back (items : List (Item F)) (name : List Char) (x : Index) :
    dataGet (items.map (itemBack rnd ofInt name)) x
      = (items.find? fun it => it.index == x).map fun it => (itemBack rnd ofInt name it).value := by
  induction items with
  | nil => rfl
  | cons b r ih =>
    simp only [List.map_cons, dataGet, List.find?_cons, ih]
    by_cases h : b.index = x
    · have : (b.index == x) = true := by simp [h]
      simp only [this]
      simp [itemBack, h]
    · have : (b.index == x) = false := by simp [h]
      simp only [this]
      simp [itemBack, h]

theorem mass_float {b : Block F} (hb : BlockOK b) (hn : b.name = nMASS) {it : Item F} (hit : it ∈ b.data) :
    ∃ x, it.value.v = some (.flt x) := by
  obtain ⟨args, v, _, e, _, hf, _⟩ := hb.2.2 it hit
  rw [hn] at hf
  have hfm : blockFormat nMASS = .one 9 := by decide
  cases v with
  | flt x => exact ⟨x, e⟩
  | int i => simp [Fits, hfm] at hf
  | str s => simp [Fits, hfm] at hf

theorem masses_back {b : Block F} (hb : BlockOK b) (hn : b.name = nMASS) {bs : List (Block F)}
    (hf : bs.find? (fun b => b.name == nMASS) = some b) (ps : List (Particle F)) :
    masses (blockBack fl rnd ofInt b) (ps.map (bare fl rnd)) = .ok (ps.map (particleBack fl rnd bs)) := by
  induction ps with
  | nil => rfl
  | cons p r ih =>
    have hget : (blockBack fl rnd ofInt b).get [(bare fl rnd p).pdgid]
        = (b.data.find? fun it => it.index == newIndex [p.pdgid]).map fun it => (itemBack rnd ofInt b.name it).value := by
      simp only [Block.get, blockBack, dataGet_back, bare]
    simp only [List.map_cons, masses, hget, ih]
    cases hx : b.data.find? fun it => it.index == newIndex [p.pdgid] with
    | none =>
      have : massOf bs p.pdgid = none := by simp only [massOf, hf, hx]
      simp only [Option.map_none, Res.bind_ok, particleBack, this, bare]
      rfl
    | some it =>
      obtain ⟨x, hv⟩ := mass_float hb hn (List.mem_of_find?_eq_some hx)
      have : massOf bs p.pdgid = some x := by
        obtain ⟨ix, v, c⟩ := it
        simp only at hv
        subst hv
        simp only [massOf, hf, hx]
      have hfm : blockFormat nMASS ≠ .all := by decide
      simp only [Option.map_some, itemBack, hv, Value.float, readBack, hn, hfm, if_false, Res.bind_ok, particleBack,
        this, bare]
      rfl

/-- **C118.** A document written is read as the same document: the same blocks in the same order, with
their names, comments, scales, indices and values, the same particles with their decays; numbers are
rounded to the digits written, integers of blocks the accord does not define become numbers, and the
masses of the particles are those of the block `MASS`. -/
theorem C118_round_trip_partial (N : Notation fl rnd ofInt isInf) {d : Data F} (h : DataOK isInf d) :
    ∃ text, encode fl d = .ok text ∧ decode fl text = .ok (back fl rnd ofInt d) := by
  obtain ⟨ls, b1, b2, b3⟩ := blocks_lines N h.1
  obtain ⟨p1, p2⟩ := particles_lines N h.2
  refine ⟨_, by rw [encode, b1, Res.bind_ok], ?_⟩
  have hl : lines ((ls ++ d.particles.flatMap (particleLines fl)).flatMap (· ++ ['\n']))
      = ls ++ d.particles.flatMap (particleLines fl) := by
    apply lines_unlines
    intro t ht
    rcases List.mem_append.mp ht with ht | ht
    · exact b2 t ht
    · exact p1 t ht
  obtain ⟨s1, e1⟩ := b3 .none [] []
  obtain ⟨s2, e2⟩ := p2 s1 ([] ++ d.blocks.map (blockBack fl rnd ofInt)) []
  rw [decode, hl, steps_append, e1, Res.bind_ok, e2, Res.bind_ok]
  simp only [List.nil_append, blocksGet_back]
  cases hf : d.blocks.find? fun b => b.name == nMASS with
  | none =>
    simp only [Option.map_none, back]
    congr 2
    apply List.map_congr_left
    intro p _
    have : massOf d.blocks p.pdgid = none := by simp only [massOf, hf]
    simp [bare, particleBack, this]
  | some b =>
    have hn : b.name = nMASS := by simpa using List.find?_some hf
    simp only [Option.map_some, masses_back (h.1 b (List.mem_of_find?_eq_some hf)) hn hf, Res.bind_ok, back]

/-! ### Writing again -/

/-- No integers in blocks the accord does not define. -/
def NoInts (d : Data F) : Prop :=
  ∀ b ∈ d.blocks, blockFormat b.name = .all → ∀ it ∈ b.data, ∀ i, it.value.v ≠ some (.int i)

theorem itemLines_back {name : List Char} {items : List (Item F)} (hr : ∀ x, fl.fmtE (rnd x) = fl.fmtE x)
    (h : ∀ it ∈ items, ItemOK name it) (hn : blockFormat name = .all → ∀ it ∈ items, ∀ i, it.value.v ≠ some (.int i)) :
    itemLines fl name (items.map (itemBack rnd ofInt name)) = itemLines fl name items := by
  induction items with
  | nil => rfl
  | cons it r ih =>
    have ih' := ih (fun i hi => h i (by simp [hi])) (fun hb i hi => hn hb i (by simp [hi]))
    obtain ⟨args, v, e1, e2, hi, hf, hc⟩ := h it (by simp)
    have hline : ∀ idx, (if name = nALPHA then [] else idx) = args →
        itemLine fl name args ⟨some (readBack rnd ofInt name v), it.value.c⟩ = itemLine fl name args ⟨some v, it.value.c⟩ := by
      intro idx _
      have hno := fun hb => hn hb it (by simp)
      rw [e2] at hno
      simp only [Fits] at hf
      match hb : blockFormat name, v with
      | .one w, .flt x =>
        rw [hb] at hf
        obtain ⟨i, rfl⟩ := List.length_eq_one_iff.mp hf
        simp [itemLine, hb, readBack, hr]
      | .two, .flt x =>
        rw [hb] at hf
        obtain ⟨i, j, rfl⟩ := List.length_eq_two.mp hf
        simp [itemLine, hb, readBack, hr]
      | .zero, .flt x =>
        rw [hb] at hf
        simp only at hf
        subst hf
        simp [itemLine, hb, readBack, hr]
      | .all, .flt x => simp [readBack, hb]
      | .all, .int i => exact absurd rfl (hno hb i)
      | .sel, .int i | .info, .str s => simp [readBack, hb]
      | .one _, .int _ | .one _, .str _ | .two, .int _ | .two, .str _ | .zero, .int _ | .zero, .str _
      | .info, .int _ | .info, .flt _ | .sel, .str _ | .sel, .flt _ | .all, .str _ => simp [hb] at hf
    obtain ⟨idx, hx, ha⟩ := item_args hi hf
    obtain ⟨ix, w, c⟩ := it
    simp only at e1 e2 hline
    subst e1 e2
    simp only [List.map_cons, itemLines, ih']
    simp only [itemBack, hx, Res.bind_ok, Option.map_some, Option.isNone_some]
    rw [ha, hline idx ha]
    simp

/-- **C118.** A document read back and written again gives the same text. -/
theorem C118_stable_partial (hr : ∀ x, fl.fmtE (rnd x) = fl.fmtE x)
    (hq : ∀ x, fl.isNaN (rnd x) = fl.isNaN x) (hnan : fl.isNaN fl.nan = true) {d : Data F} (h : DataOK isInf d)
    (hn : NoInts d) : encode fl (back fl rnd ofInt d) = encode fl d := by
  have hblocks : ∀ bs : List (Block F), (∀ b ∈ bs, BlockOK b) →
      (∀ b ∈ bs, blockFormat b.name = .all → ∀ it ∈ b.data, ∀ i, it.value.v ≠ some (.int i)) →
      blocksLines fl (bs.map (blockBack fl rnd ofInt)) = blocksLines fl bs := by
    intro bs
    induction bs with
    | nil => intros; rfl
    | cons b r ih =>
      intro h1 h2
      have hl : blockLine fl (blockBack fl rnd ofInt b) = blockLine fl b := by
        by_cases hb : fl.isNaN b.q = true
        · simp [blockLine, blockBack, hb, hnan]
        · simp [blockLine, blockBack, hb, hq, hr]
      have hi : itemLines fl (blockBack fl rnd ofInt b).name (blockBack fl rnd ofInt b).data = itemLines fl b.name b.data :=
        itemLines_back hr (h1 b (by simp)).2.2 (h2 b (by simp))
      simp only [List.map_cons, blocksLines, hl, hi, ih (fun b hb => h1 b (by simp [hb])) (fun b hb => h2 b (by simp [hb]))]
  have hpart : ∀ p : Particle F, particleLines fl (particleBack fl rnd d.blocks p) = particleLines fl p := by
    intro p
    have h1 : (particleBack fl rnd d.blocks p).decays.map (decayLine fl) = p.decays.map (decayLine fl) := by
      simp only [particleBack, List.map_map]
      apply List.map_congr_left
      intro x _
      simp [decayLine, decayBack, hr]
    have h2 : (particleBack fl rnd d.blocks p).decays = [] ↔ p.decays = [] := by simp [particleBack]
    have h3 : particleLine fl (particleBack fl rnd d.blocks p) = particleLine fl p := by
      simp [particleLine, particleBack, hr]
    simp only [particleLines, h1, h2, h3]
  have hps : (back fl rnd ofInt d).particles.flatMap (particleLines fl) = d.particles.flatMap (particleLines fl) := by
    simp only [back, List.flatMap_map, hpart]
  rw [encode, encode, hps]
  simp only [back, hblocks d.blocks h.1 hn]

/-! ### Examples -/

/-- Integers as numbers, written in tens; -7 stands for the NaN. -/
def tens (x : Int) : Int := if x = -7 then -7 else x / 10 * 10

def toyParse : List Char → Option Int
  | '-' :: t => (digitsVal t).map fun n => -(n : Int)
  | '+' :: t => (digitsVal t).map fun n => (n : Int)
  | t => (digitsVal t).map fun n => (n : Int)

def toy : Floats Int where
  fmtE x := formatInt (tens x)
  fmtV x := formatInt x
  parse := toyParse
  isNaN x := x == -7
  nan := -7
  bad _ _ _ := []

theorem toyParse_format (i : Int) : toyParse (formatInt i) = some i := by
  match i with
  | .ofNat n =>
    have hd : ∀ c ∈ formatUint n, c.isDigit = true := fun c hc => format_digits hc
    have hp : toyParse (formatUint n) = (digitsVal (formatUint n)).map fun n => (n : Int) := by
      cases hf : formatUint n with
      | nil => exact absurd hf (format_ne_nil n)
      | cons c t =>
        have hc : c ≠ '-' := by rintro rfl; exact absurd (hd '-' (by rw [hf]; simp)) (by decide)
        have hc' : c ≠ '+' := by rintro rfl; exact absurd (hd '+' (by rw [hf]; simp)) (by decide)
        simp only [toyParse]
        split
        · rename_i h; simp only [List.cons.injEq] at h; exact absurd h.1 hc
        · rename_i h; simp only [List.cons.injEq] at h; exact absurd h.1 hc'
        · rfl
    rw [formatInt, hp, digitsVal_format]
    rfl
  | .negSucc n =>
    simp only [formatInt, toyParse, digitsVal_format]
    rfl

theorem toy_notation : Notation toy tens id (fun _ => false) where
  wordE x := formatInt_word _
  parseE x := toyParse_format _
  parseUp x := by simp only [toy, upper_formatInt, toyParse_format]
  charsE x _ := by
    left
    simp only [toy, upper_formatInt]
    intro c hc
    rcases formatInt_chars hc with h | rfl
    · simp [reNum, h]
    · decide
  wordV x := formatInt_word _
  parseV x := toyParse_format _
  parseI i _ := toyParse_format i

/-- A document with a block of the accord, one it does not define, and a particle. -/
def toyData : Data Int :=
  ⟨[⟨nMASS, ['p', 'o', 'l', 'e'], 91, [⟨newIndex [25], ⟨some (.flt 125), ['h', '#', '0']⟩⟩]⟩,
    ⟨['N', 'E', 'W'], [], -7, [⟨newIndex [1, -2], ⟨some (.flt 17), []⟩⟩]⟩],
   [⟨25, 43, 0, [], [⟨57, [5, -5], ['b', ' ', 'b']⟩, ⟨1, [], []⟩]⟩]⟩

theorem toyData_ok : DataOK (fun _ => false) toyData := by
  have hc : ∀ c ∈ [['p', 'o', 'l', 'e'], ['h', '#', '0'], [], ['b', ' ', 'b']], Comment c := by
    intro c hc
    simp only [List.mem_cons, List.not_mem_nil, or_false] at hc
    rcases hc with rfl | rfl | rfl | rfl <;> exact ⟨⟨by decide, by decide⟩, by decide⟩
  refine ⟨?_, ?_⟩
  · intro b hb
    simp only [toyData, List.mem_cons, List.not_mem_nil, or_false] at hb
    rcases hb with rfl | rfl
    · refine ⟨by unfold NameOK; decide, hc _ (by simp), ?_⟩
      intro it hit
      simp only [List.mem_singleton] at hit
      subst hit
      exact ⟨[25], .flt 125, rfl, rfl, by simp [IsInt], by simp [Fits, show blockFormat nMASS = .one 9 by decide], hc _ (by simp)⟩
    · refine ⟨by unfold NameOK; decide, hc _ (by simp), ?_⟩
      intro it hit
      simp only [List.mem_singleton] at hit
      subst hit
      exact ⟨[1, -2], .flt 17, rfl, rfl, by simp [IsInt], by simp [Fits, show blockFormat ['N', 'E', 'W'] = .all by decide], hc _ (by simp)⟩
  · intro p hp
    simp only [toyData, List.mem_singleton] at hp
    subst hp
    refine ⟨by simp [IsInt], rfl, hc _ (by simp), ?_⟩
    intro d hd
    simp only [List.mem_cons, List.not_mem_nil, or_false] at hd
    rcases hd with rfl | rfl
    · exact ⟨by simp [IsInt], by decide, hc _ (by simp)⟩
    · exact ⟨by simp, by decide, hc _ (by simp)⟩

example : ∃ text, encode toy toyData = .ok text ∧ decode toy text = .ok
    ⟨[⟨nMASS, ['p', 'o', 'l', 'e'], 90, [⟨newIndex [25], ⟨some (.flt 120), ['h', '#', '0']⟩⟩]⟩,
      ⟨['N', 'E', 'W'], [], -7, [⟨newIndex [1, -2], ⟨some (.flt 17), []⟩⟩]⟩],
     [⟨25, 40, 120, [], [⟨50, [5, -5], ['b', ' ', 'b']⟩, ⟨0, [], []⟩]⟩]⟩ := by
  obtain ⟨t, h1, h2⟩ := C118_round_trip_partial toy_notation toyData_ok
  exact ⟨t, h1, h2.trans (by decide)⟩

example : ∃ text, encode toy toyData = .ok text ∧
    (decode toy text).bind (encode toy) = .ok text := by
  obtain ⟨t, h1, h2⟩ := C118_round_trip_partial toy_notation toyData_ok
  refine ⟨t, h1, ?_⟩
  rw [h2, Res.bind_ok, C118_stable_partial (isInf := fun _ => false) ?_ ?_ rfl toyData_ok ?_, h1]
  · intro x
    simp only [toy]
    congr 1
    simp only [tens]
    split
    · rfl
    · split <;> omega
  · intro x
    simp only [toy]
    rw [Bool.eq_iff_iff, beq_iff_eq, beq_iff_eq, tens]
    split
    · simp_all
    · constructor
      · omega
      · omega
  · intro b hb hf it hit i
    simp only [toyData, List.mem_cons, List.not_mem_nil, or_false] at hb
    rcases hb with rfl | rfl <;> simp only [List.mem_singleton] at hit <;> subst hit <;> simp

/-! ### Documents that do not survive -/

/-- What reading gives for a document written. -/
def rewrite (fl : Floats F) (d : Data F) : Res (Data F) := (encode fl d).bind (decode fl)

/-- **C118, counterexample.** A text in a block the accord does not define is written, but reading it
fails. -/
theorem C118_text_counterexample :
    rewrite toy ⟨[⟨['N', 'E', 'W'], [], -7, [⟨newIndex [1], ⟨some (.str ['y', 'e', 's']), []⟩⟩]⟩], []⟩ = .err := by
  decide

/-- **C118, counterexample.** A text with a space, usual in the block `SPINFO`, is written, but reading
it fails. -/
theorem C118_space_counterexample :
    rewrite toy ⟨[⟨nSPINFO, [], -7, [⟨newIndex [1], ⟨some (.str ['S', 'o', 'f', 't', ' ', 'S', 'u', 's', 'y']), []⟩⟩]⟩], []⟩
      = .err := by
  decide

/-- **C118, counterexample.** A value without indices is read with the index 0, unless its block is
`ALPHA`. -/
theorem C118_rank_counterexample :
    rewrite toy ⟨[⟨['N', 'E', 'W'], [], -7, [⟨newIndex [], ⟨some (.flt 3), []⟩⟩]⟩], []⟩
      = .ok ⟨[⟨['N', 'E', 'W'], [], -7, [⟨newIndex [0], ⟨some (.flt 3), []⟩⟩]⟩], []⟩ := by
  decide

/-- **C118, counterexample.** The name of a block is read in capitals. -/
theorem C118_name_counterexample :
    rewrite toy ⟨[⟨['n', 'e', 'w'], [], -7, []⟩], []⟩ = .ok ⟨[⟨['N', 'E', 'W'], [], -7, []⟩], []⟩ := by
  decide

/-- **C118, counterexample.** An infinite width is written, but reading it fails. -/
theorem C118_width_counterexample :
    rewrite { toy with fmtE := fun _ => ['+', 'I', 'n', 'f'] } ⟨[], [⟨6, 0, 0, [], []⟩]⟩ = .err := by
  decide

/-- **C118, counterexample.** An integer of a block the accord does not define is read as a number. -/
theorem C118_int_counterexample :
    rewrite toy ⟨[⟨['N', 'E', 'W'], [], -7, [⟨newIndex [1], ⟨some (.int 3), []⟩⟩]⟩], []⟩
      = .ok ⟨[⟨['N', 'E', 'W'], [], -7, [⟨newIndex [1], ⟨some (.flt 3), []⟩⟩]⟩], []⟩ := by
  decide

end Verif.Slha
