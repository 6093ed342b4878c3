/-
`fmt.Fscanf` of the standard library, on the formats the repository uses: newlines, single
spaces, `%d` and `%f` (used by lhef/reader.go and hbook's YODA readers).

The standard library is not part of /repo: this file is the assumption about it.  What is
left of the input after an error is not modelled, nor are carriage returns before newlines.
-/
import Verif.Common.Strconv
import Verif.Common.Words

namespace Verif.Fscanf

open Verif.Text Verif.Strconv

/-- The pieces of a format. -/
inductive Item
  /-- a newline -/
  | nl
  /-- a space between two verbs -/
  | sp
  /-- `%d` into a signed integer of that many bits -/
  | int (bits : Nat)
  /-- `%f` into a `float64` -/
  | flt

/-- A value read. -/
inductive Val (F : Type)
  | int (i : Int)
  | flt (x : F)

/-- A space other than a newline. -/
def blank (c : Char) : Bool := isSpace c && (c != '\n')

/-- A newline of the format matches spaces and then a newline or the end of the input. -/
def matchNL (s : List Char) : Option (List Char) :=
  match s.dropWhile blank with
  | [] => some []
  | c :: r => if c = '\n' then some r else none

/-- A space of the format matches spaces, at least one, or the end of the input. -/
def matchSP : List Char → Option (List Char)
  | [] => some []
  | c :: r => if blank c then some (r.dropWhile blank) else none

/-- Verbs skip spaces; a newline or the end of the input is an error. -/
def skip (s : List Char) : Option (List Char) :=
  match s.dropWhile blank with
  | [] => none
  | c :: r => if c = '\n' then none else some (c :: r)

/-- `ss.accept`: take the next character when it is one of a set: the text taken until now and the rest. -/
def accept (p : Char → Bool) (x : List Char × List Char) : Bool × (List Char × List Char) :=
  match x.2 with
  | [] => (false, x)
  | c :: r => if p c then (true, (x.1 ++ [c], r)) else (false, x)

/-- `for s.accept(set) {}` -/
def many (p : Char → Bool) (x : List Char × List Char) : List Char × List Char :=
  (x.1 ++ x.2.takeWhile p, x.2.dropWhile p)

/-- `s.accept(a) && s.accept(b) && ...`: what was taken before the failure stays taken. -/
def acceptSeq : List (Char → Bool) → List Char × List Char → Bool × (List Char × List Char)
  | [], x => (true, x)
  | p :: l, x => if (accept p x).1 then acceptSeq l (accept p x).2 else (accept p x)

def isSign (c : Char) : Bool := c == '+' || c == '-'
def isDig (c : Char) : Bool := c.isDigit
def isDigU (c : Char) : Bool := c.isDigit || c == '_'
def isHexU (c : Char) : Bool :=
  c.isDigit || (decide ('a' ≤ c) && decide (c ≤ 'f')) || (decide ('A' ≤ c) && decide (c ≤ 'F')) || c == '_'

/-- The token of an integer in `ss.scanInt`: a sign, then digits, at least one. -/
def intToken (s : List Char) : Option (List Char × List Char) :=
  let x := (accept isSign ([], s)).2
  if (accept isDig x).1 then some (many isDig (accept isDig x).2) else none

/-- Digits, fraction and exponent of `ss.floatToken`. -/
def mantissa (digits ex : Char → Bool) (x : List Char × List Char) : List Char × List Char :=
  let x := many digits x
  let x := if (accept (· == '.') x).1 then many digits (accept (· == '.') x).2 else x
  if (accept ex x).1 then many isDigU (accept isSign (accept ex x).2).2 else x

/-- `ss.floatToken` after the sign and the test for an infinity. -/
def floatNumber (x : List Char × List Char) : List Char × List Char :=
  let y := acceptSeq [(· == '0'), fun c => c == 'x' || c == 'X'] x
  if y.1 then mantissa isHexU (fun c => c == 'p' || c == 'P') y.2
  else mantissa isDigU (fun c => c == 'e' || c == 'E' || c == 'p' || c == 'P') y.2

/-- `ss.floatToken` after the test for "nan". -/
def floatSigned (x : List Char × List Char) : List Char × List Char :=
  let y := acceptSeq [fun c => c == 'i' || c == 'I', fun c => c == 'n' || c == 'N', fun c => c == 'f' || c == 'F']
    (accept isSign x).2
  if y.1 then y.2 else floatNumber y.2

/-- `ss.floatToken` -/
def floatToken (s : List Char) : List Char × List Char :=
  let y := acceptSeq [fun c => c == 'n' || c == 'N', fun c => c == 'a' || c == 'A', fun c => c == 'n' || c == 'N']
    ([], s)
  if y.1 then y.2 else floatSigned y.2

section
variable {F : Type} (parse : List Char → Option F)

/-- One verb; `parse` is the conversion of a token into a floating-point number (`ss.convertFloat`). -/
def verb : Item → List Char → Option (Val F × List Char)
  | .int bits, s =>
    match skip s with
    | none => none
    | some s =>
      match intToken s with
      | none => none
      | some (t, r) => (parseInt bits t).map fun i => (.int i, r)
  | .flt, s =>
    match skip s with
    | none => none
    | some s => (parse (floatToken s).1).map fun x => (.flt x, (floatToken s).2)
  | _, _ => none

/-- `fmt.Fscanf`: the values and the rest of the input; none is an error. -/
def scanf : List Item → List Char → Option (List (Val F) × List Char)
  | [], s => some ([], s)
  | .nl :: l, s => (matchNL s).bind (scanf l)
  | .sp :: l, s => (matchSP s).bind (scanf l)
  | .int b :: l, s => (verb parse (.int b) s).bind fun (v, r) => (scanf l r).map fun (vs, r) => (v :: vs, r)
  | .flt :: l, s => (verb parse .flt s).bind fun (v, r) => (scanf l r).map fun (vs, r) => (v :: vs, r)

end

/-! ### What the readers accept -/

/-- The input goes on with a space or a newline, or ends. -/
def Ends (r : List Char) : Prop := ∀ c ∈ r.head?, isSpace c = true

/-- A text read by a verb as a value, whatever follows after a space. -/
def Reads {F : Type} (parse : List Char → Option F) (it : Item) (t : List Char) (v : Val F) : Prop :=
  (∃ c t', t = c :: t' ∧ isSpace c = false) ∧
    ∀ n r, Ends r → verb parse it (List.replicate n ' ' ++ (t ++ r)) = some (v, r)

/-- Texts each preceded by a space and padded, as `fmt.Fprintf` writes `" %7d %13.6E"`. -/
def fieldsText : List (Nat × List Char) → List Char
  | [] => []
  | (w, t) :: l => ' ' :: padL w t ++ fieldsText l

/-- The format `"%d %f %d\n"` -/
def lineFmt : List Item → List Item
  | [] => [.nl]
  | [a] => [a, .nl]
  | a :: b :: l => a :: .sp :: lineFmt (b :: l)

theorem blank_space : blank ' ' = true := by decide

theorem dropWhile_blank_spaces (n : Nat) (s : List Char) :
    (List.replicate n ' ' ++ s).dropWhile blank = s.dropWhile blank := by
  induction n with
  | zero => simp
  | succ n ih => simp [List.replicate_succ, blank_space, ih]

theorem isSpace_cases {c : Char} (h : isSpace c = true) :
    c = ' ' ∨ c = '\t' ∨ c = '\n' ∨ c = '\r' ∨ c = '\x0b' ∨ c = '\x0c' := by
  have key : ∀ d : Char, c.toNat = d.toNat → c = d := by
    intro d hd
    exact Char.ext (UInt32.toNat_inj.mp hd)
  simp only [isSpace, Bool.or_eq_true, beq_iff_eq] at h
  rcases h with ((((h | h) | h) | h) | h) | h
  · exact .inl h
  · exact .inr (.inl h)
  · exact .inr (.inr (.inl h))
  · exact .inr (.inr (.inr (.inl h)))
  · exact .inr (.inr (.inr (.inr (.inl (key _ h)))))
  · exact .inr (.inr (.inr (.inr (.inr (key _ h)))))

/-- The next character is not in a set. -/
def Stops (p : Char → Bool) (r : List Char) : Prop := ∀ c ∈ r.head?, p c = false

theorem stops_nil (p : Char → Bool) : Stops p [] := by intro c hc; simp at hc

theorem stops_cons {p : Char → Bool} {c : Char} (h : p c = false) (r : List Char) : Stops p (c :: r) := by
  intro d hd
  simp at hd
  subst hd
  exact h

theorem stops_append {p : Char → Bool} {a b : List Char} (ha : ∀ c ∈ a, p c = false) (hb : Stops p b) :
    Stops p (a ++ b) := by
  cases a with
  | nil => exact hb
  | cons c a => exact stops_cons (ha c (by simp)) _

/-- Sets without spaces. -/
def NoSpace (p : Char → Bool) : Prop :=
  p ' ' = false ∧ p '\t' = false ∧ p '\n' = false ∧ p '\r' = false ∧ p '\x0b' = false ∧ p '\x0c' = false

instance (p : Char → Bool) : Decidable (NoSpace p) := by unfold NoSpace; infer_instance

theorem stops_ends {p : Char → Bool} (hp : NoSpace p) {r : List Char} (hr : Ends r) : Stops p r := by
  intro c hc
  obtain ⟨h1, h2, h3, h4, h5, h6⟩ := hp
  rcases isSpace_cases (hr c hc) with h | h | h | h | h | h <;> subst h <;> assumption

theorem accept_no {p : Char → Bool} {t r : List Char} (h : Stops p r) : accept p (t, r) = (false, (t, r)) := by
  cases r with
  | nil => rfl
  | cons c r =>
    have := h c (by simp)
    simp [accept, this]

theorem accept_yes {p : Char → Bool} {c : Char} (t r : List Char) (h : p c = true) :
    accept p (t, c :: r) = (true, (t ++ [c], r)) := by
  simp [accept, h]

theorem many_append {p : Char → Bool} {a b : List Char} (t : List Char) (ha : ∀ c ∈ a, p c = true) (hb : Stops p b) :
    many p (t, a ++ b) = (t ++ a, b) := by
  have h1 : ∀ (a : List Char), (∀ c ∈ a, p c = true) → (a ++ b).takeWhile p = a ∧ (a ++ b).dropWhile p = b := by
    intro a
    induction a with
    | nil =>
      intro _
      cases b with
      | nil => simp
      | cons c b =>
        have := hb c (by simp)
        simp [this]
    | cons c a ih =>
      intro h
      have hc := h c (by simp)
      have := ih fun d hd => h d (by simp [hd])
      simp [hc, this.1, this.2]
  simp [many, h1 a ha]

/-- The notation of a finite number: a sign, digits, a fraction, an exponent. -/
def Decimal (s : List Char) : Prop :=
  ∃ sg ds fr ex, s = sg ++ ds ++ fr ++ ex ∧ (sg = [] ∨ sg = ['-'] ∨ sg = ['+']) ∧
    (ds ≠ [] ∧ ∀ c ∈ ds, c.isDigit = true) ∧
    (fr = [] ∨ ∃ f, fr = '.' :: f ∧ ∀ c ∈ f, c.isDigit = true) ∧
    (ex = [] ∨ ∃ c sg e, ex = c :: sg ++ e ∧ (c = 'e' ∨ c = 'E') ∧ (sg = [] ∨ sg = ['-'] ∨ sg = ['+']) ∧
      e ≠ [] ∧ ∀ c ∈ e, c.isDigit = true)

/-- The notation of any number. -/
def FloatWord (s : List Char) : Prop :=
  Decimal s ∨ s = ['N', 'a', 'N'] ∨ s = ['+', 'I', 'n', 'f'] ∨ s = ['-', 'I', 'n', 'f']

theorem digit_ne {c d : Char} (h : c.isDigit = true) (hd : d.isDigit = false) : (c == d) = false := by
  rw [beq_eq_false_iff_ne]
  intro e
  rw [e] at h
  rw [h] at hd
  exact Bool.noConfusion hd

theorem sign_stops {sg : List Char} (h : sg = [] ∨ sg = ['-'] ∨ sg = ['+']) {p : Char → Bool} {r : List Char}
    (h1 : p '-' = false) (h2 : p '+' = false) (hr : Stops p r) : Stops p (sg ++ r) := by
  rcases h with h | h | h <;> subst h
  · exact hr
  · exact stops_cons h1 _
  · exact stops_cons h2 _

theorem accept_sign {sg : List Char} (h : sg = [] ∨ sg = ['-'] ∨ sg = ['+']) (t : List Char) {r : List Char}
    (hr : Stops isSign r) : (accept isSign (t, sg ++ r)).2 = (t ++ sg, r) := by
  rcases h with h | h | h <;> subst h
  · simp [accept_no hr]
  · simp [accept_yes t r (show isSign '-' = true by decide)]
  · simp [accept_yes t r (show isSign '+' = true by decide)]

theorem digits_stop {p : Char → Bool} {ds r : List Char} (hn : ds ≠ []) (h : ∀ c ∈ ds, c.isDigit = true)
    (hp : ∀ c, c.isDigit = true → p c = false) : Stops p (ds ++ r) := by
  cases ds with
  | nil => exact absurd rfl hn
  | cons c ds => exact stops_cons (hp c (h c (by simp))) _

theorem mantissa_decimal {t ds fr ex r : List Char} (hd : ∀ c ∈ ds, c.isDigit = true)
    (hf : fr = [] ∨ ∃ f, fr = '.' :: f ∧ ∀ c ∈ f, c.isDigit = true)
    (hx : ex = [] ∨ ∃ c sg e, ex = c :: sg ++ e ∧ (c = 'e' ∨ c = 'E') ∧ (sg = [] ∨ sg = ['-'] ∨ sg = ['+']) ∧
      e ≠ [] ∧ ∀ c ∈ e, c.isDigit = true)
    (hr : Ends r) :
    mantissa isDigU (fun c => c == 'e' || c == 'E' || c == 'p' || c == 'P') (t, ds ++ (fr ++ (ex ++ r))) =
      (t ++ ds ++ fr ++ ex, r) := by
  have du : ∀ l : List Char, (∀ c ∈ l, c.isDigit = true) → ∀ c ∈ l, isDigU c = true := by
    intro l h c hc
    simp [isDigU, h c hc]
  have nu : NoSpace isDigU := by decide
  have sx : Stops isDigU (ex ++ r) := by
    rcases hx with hx | ⟨c, sg, e, hx, hc, -⟩
    · subst hx; exact stops_ends nu hr
    · subst hx
      rcases hc with hc | hc <;> subst hc <;> exact stops_cons (by decide) _
  have sf : Stops isDigU (fr ++ (ex ++ r)) := by
    rcases hf with hf | ⟨f, hf, -⟩
    · subst hf; exact sx
    · subst hf; exact stops_cons (by decide) _
  have s1 : Stops (· == '.') (ex ++ r) := by
    rcases hx with hx | ⟨c, sg, e, hx, hc, -⟩
    · subst hx; exact stops_ends (by decide) hr
    · subst hx
      rcases hc with hc | hc <;> subst hc <;> exact stops_cons (by decide) _
  have step1 : (if (accept (· == '.') (t ++ ds, fr ++ (ex ++ r))).1
      then many isDigU (accept (· == '.') (t ++ ds, fr ++ (ex ++ r))).2 else (t ++ ds, fr ++ (ex ++ r))) =
      (t ++ ds ++ fr, ex ++ r) := by
    rcases hf with hf | ⟨f, hf, hf'⟩
    · subst hf
      simp [accept_no s1]
    · subst hf
      rw [List.cons_append, accept_yes _ _ (by decide)]
      simp only [if_true]
      rw [many_append _ (du f hf') sx]
      simp
  have step2 : (if (accept (fun c => c == 'e' || c == 'E' || c == 'p' || c == 'P') (t ++ ds ++ fr, ex ++ r)).1
      then many isDigU (accept isSign (accept (fun c => c == 'e' || c == 'E' || c == 'p' || c == 'P')
        (t ++ ds ++ fr, ex ++ r)).2).2 else (t ++ ds ++ fr, ex ++ r)) = (t ++ ds ++ fr ++ ex, r) := by
    rcases hx with hx | ⟨c, sg, e, hx, hc, hsg, hen, he⟩
    · subst hx
      rw [List.nil_append, accept_no (stops_ends (by decide) hr)]
      simp
    · subst hx
      rw [List.cons_append, List.cons_append, accept_yes _ _ (by rcases hc with hc | hc <;> subst hc <;> decide)]
      simp only [if_true]
      rw [List.append_assoc sg, accept_sign hsg _ (digits_stop hen he (by
        intro c hc
        simp [isSign, digit_ne hc (show ('+').isDigit = false by decide),
          digit_ne hc (show ('-').isDigit = false by decide)]))]
      rw [many_append _ (du e he) (stops_ends nu hr)]
      simp
  simp only [mantissa]
  rw [many_append t (du ds hd) sf, step1, step2]

theorem floatNumber_decimal {t ds fr ex r : List Char} (hd : ∀ c ∈ ds, c.isDigit = true)
    (hf : fr = [] ∨ ∃ f, fr = '.' :: f ∧ ∀ c ∈ f, c.isDigit = true)
    (hx : ex = [] ∨ ∃ c sg e, ex = c :: sg ++ e ∧ (c = 'e' ∨ c = 'E') ∧ (sg = [] ∨ sg = ['-'] ∨ sg = ['+']) ∧
      e ≠ [] ∧ ∀ c ∈ e, c.isDigit = true)
    (hr : Ends r) :
    floatNumber (t, ds ++ (fr ++ (ex ++ r))) = (t ++ ds ++ fr ++ ex, r) := by
  have gen : ∀ (p : Char → Bool), NoSpace p → p '.' = false → p 'e' = false → p 'E' = false →
      (∀ c, c.isDigit = true → p c = false) → ∀ l : List Char, (∀ c ∈ l, c.isDigit = true) →
      Stops p (l ++ (fr ++ (ex ++ r))) := by
    intro p hp h1 h2 h3 h4 l hl
    refine stops_append (fun c hc => h4 c (hl c hc)) ?_
    rcases hf with hf | ⟨f, hf, -⟩
    · subst hf
      rcases hx with hx | ⟨c, sg, e, hx, hc, -⟩
      · subst hx; exact stops_ends hp hr
      · subst hx
        rcases hc with hc | hc <;> subst hc
        · exact stops_cons h2 _
        · exact stops_cons h3 _
    · subst hf; exact stops_cons h1 _
  by_cases h0 : ds.head? = some '0'
  · obtain ⟨ds', rfl⟩ : ∃ ds', ds = '0' :: ds' := by
      cases ds with
      | nil => simp at h0
      | cons c ds => simp at h0; exact ⟨ds, by rw [h0]⟩
    have hd' : ∀ c ∈ ds', c.isDigit = true := fun c hc => hd c (by simp [hc])
    have e : acceptSeq [(· == '0'), fun c => c == 'x' || c == 'X'] (t, '0' :: ds' ++ (fr ++ (ex ++ r))) =
        (false, (t ++ ['0'], ds' ++ (fr ++ (ex ++ r)))) := by
      rw [List.cons_append]
      simp only [acceptSeq]
      rw [accept_yes _ _ (by decide)]
      simp only [if_true]
      rw [accept_no (gen _ (by decide) (by decide) (by decide) (by decide) (by
        intro c hc
        simp [digit_ne hc (show ('x').isDigit = false by decide), digit_ne hc (show ('X').isDigit = false by decide)])
        ds' hd')]
      simp
    simp only [floatNumber]
    rw [e]
    simp only [Bool.false_eq_true, if_false]
    rw [mantissa_decimal hd' hf hx hr]
    simp
  · have e : acceptSeq [(· == '0'), fun c => c == 'x' || c == 'X'] (t, ds ++ (fr ++ (ex ++ r))) =
        (false, (t, ds ++ (fr ++ (ex ++ r)))) := by
      have hs : Stops (· == '0') (ds ++ (fr ++ (ex ++ r))) := by
        cases ds with
        | nil =>
          refine stops_append (by simp) ?_
          rcases hf with hf | ⟨f, hf, -⟩
          · subst hf
            rcases hx with hx | ⟨c, sg, e, hx, hc, -⟩
            · subst hx; exact stops_ends (by decide) hr
            · subst hx
              rcases hc with hc | hc <;> subst hc <;> exact stops_cons (by decide) _
          · subst hf; exact stops_cons (by decide) _
        | cons c ds =>
          refine stops_cons ?_ _
          simp at h0
          simp [h0]
      simp only [acceptSeq]
      rw [accept_no hs]
      simp
    simp only [floatNumber]
    rw [e]
    simp only [Bool.false_eq_true, if_false]
    exact mantissa_decimal hd hf hx hr

theorem floatToken_word {s r : List Char} (hs : FloatWord s) (hr : Ends r) : floatToken (s ++ r) = (s, r) := by
  rcases hs with ⟨sg, ds, fr, ex, rfl, hsg, ⟨hn, hd⟩, hf, hx⟩ | rfl | rfl | rfl
  · have nodig : ∀ x y : Char, x.isDigit = false → y.isDigit = false → ∀ c, c.isDigit = true →
        (c == x || c == y) = false := by
      intro x y hx hy c hc
      simp [digit_ne hc hx, digit_ne hc hy]
    have e1 : sg ++ ds ++ fr ++ ex ++ r = sg ++ (ds ++ (fr ++ (ex ++ r))) := by simp
    rw [e1]
    have hnan : Stops (fun c => c == 'n' || c == 'N') (sg ++ (ds ++ (fr ++ (ex ++ r)))) :=
      sign_stops hsg (by decide) (by decide) (digits_stop hn hd (nodig _ _ (by decide) (by decide)))
    have hinf : Stops (fun c => c == 'i' || c == 'I') (ds ++ (fr ++ (ex ++ r))) :=
      digits_stop hn hd (nodig _ _ (by decide) (by decide))
    have hsig : Stops isSign (ds ++ (fr ++ (ex ++ r))) :=
      digits_stop hn hd (nodig _ _ (by decide) (by decide))
    have a1 : ∀ l, acceptSeq ((fun c => c == 'n' || c == 'N') :: l) ([], sg ++ (ds ++ (fr ++ (ex ++ r)))) =
        (false, ([], sg ++ (ds ++ (fr ++ (ex ++ r))))) := by
      intro l
      simp only [acceptSeq, accept_no hnan, Bool.false_eq_true, if_false]
    have a2 : ∀ l, acceptSeq ((fun c => c == 'i' || c == 'I') :: l) ([] ++ sg, ds ++ (fr ++ (ex ++ r))) =
        (false, ([] ++ sg, ds ++ (fr ++ (ex ++ r)))) := by
      intro l
      simp only [acceptSeq, accept_no hinf, Bool.false_eq_true, if_false]
    simp only [floatToken]
    rw [a1]
    simp only [Bool.false_eq_true, if_false]
    simp only [floatSigned]
    rw [accept_sign hsg _ hsig, a2]
    simp only [Bool.false_eq_true, if_false]
    rw [floatNumber_decimal hd hf hx hr]
    simp
  · simp [floatToken, acceptSeq, accept]
  · simp [floatToken, acceptSeq, accept, floatSigned, isSign]
  · simp [floatToken, acceptSeq, accept, floatSigned, isSign]

theorem dropWhile_of_head {s : List Char} (h : Stops blank s) : s.dropWhile blank = s := by
  cases s with
  | nil => rfl
  | cons c s =>
    have := h c (by simp)
    simp [this]

theorem skip_spaces {n : Nat} {c : Char} {s : List Char} (hc : isSpace c = false) :
    skip (List.replicate n ' ' ++ c :: s) = some (c :: s) := by
  have h1 : blank c = false := by simp [blank, hc]
  have h2 : c ≠ '\n' := by intro e; rw [e] at hc; exact absurd hc (by decide)
  simp only [skip]
  rw [dropWhile_blank_spaces, dropWhile_of_head (stops_cons h1 _)]
  simp [h2]

theorem digit_not_space {c : Char} (h : c.isDigit = true) : isSpace c = false := by
  cases hs : isSpace c with
  | false => rfl
  | true =>
    rcases isSpace_cases hs with e | e | e | e | e | e <;> subst e <;> exact absurd h (by decide)

theorem floatWord_cons {s : List Char} (h : FloatWord s) : ∃ c t, s = c :: t ∧ isSpace c = false := by
  rcases h with ⟨sg, ds, fr, ex, rfl, hsg, ⟨hn, hd⟩, -, -⟩ | rfl | rfl | rfl
  · rcases hsg with rfl | rfl | rfl
    · cases ds with
      | nil => exact absurd rfl hn
      | cons c ds => exact ⟨c, ds ++ fr ++ ex, by simp, digit_not_space (hd c (by simp))⟩
    · exact ⟨'-', ds ++ fr ++ ex, by simp, by decide⟩
    · exact ⟨'+', ds ++ fr ++ ex, by simp, by decide⟩
  · exact ⟨_, _, rfl, by decide⟩
  · exact ⟨_, _, rfl, by decide⟩
  · exact ⟨_, _, rfl, by decide⟩

/-- A number in a known notation is read. -/
theorem reads_flt {F : Type} {parse : List Char → Option F} {s : List Char} {x : F} (hs : FloatWord s)
    (hp : parse s = some x) : Reads parse .flt s (.flt x) := by
  refine ⟨floatWord_cons hs, fun n r hr => ?_⟩
  obtain ⟨c, t, e, hc⟩ := floatWord_cons hs
  have hk : skip (List.replicate n ' ' ++ (s ++ r)) = some (s ++ r) := by
    rw [e, List.cons_append, skip_spaces hc]
  simp only [verb, hk]
  rw [floatToken_word hs hr]
  simp [hp]

theorem intToken_format (i : Int) {r : List Char} (hr : Ends r) : intToken (formatInt i ++ r) = some (formatInt i, r) := by
  have hdig : ∀ (t : List Char) (n : Nat),
      (accept isDig (t, formatUint n ++ r)).1 = true ∧
      many isDig (accept isDig (t, formatUint n ++ r)).2 = (t ++ formatUint n, r) := by
    intro t n
    have h1 := format_ne_nil n
    have h2 : ∀ c ∈ formatUint n, c.isDigit = true := fun c hc => format_digits hc
    cases hf : formatUint n with
    | nil => exact absurd hf h1
    | cons c l =>
      rw [hf] at h2
      rw [List.cons_append, accept_yes _ _ (show isDig c = true from h2 c (by simp))]
      refine ⟨rfl, ?_⟩
      rw [many_append (p := isDig) (a := l) (t ++ [c]) (fun d hd => h2 d (List.mem_cons_of_mem _ hd)) (stops_ends (by decide) hr)]
      simp
  have nosign : ∀ n : Nat, Stops isSign (formatUint n ++ r) := fun n =>
    digits_stop (format_ne_nil n) (fun c hc => format_digits hc) (by
      intro c hc
      simp [isSign, digit_ne hc (show ('+').isDigit = false by decide),
        digit_ne hc (show ('-').isDigit = false by decide)])
  cases i with
  | ofNat n =>
    simp only [intToken, formatInt]
    have e := accept_no (t := []) (nosign n)
    simp only [e, (hdig [] n).1, (hdig [] n).2, if_true, List.nil_append]
  | negSucc n =>
    simp only [intToken, formatInt, List.cons_append]
    have e := accept_yes [] (formatUint (n + 1) ++ r) (show isSign '-' = true by decide)
    simp only [e, (hdig ([] ++ ['-']) (n + 1)).1, (hdig ([] ++ ['-']) (n + 1)).2, if_true]
    simp

theorem formatInt_cons (i : Int) : ∃ c t, formatInt i = c :: t ∧ isSpace c = false := by
  cases h : formatInt i with
  | nil => exact absurd h (formatInt_ne_nil i)
  | cons c t =>
    refine ⟨c, t, rfl, ?_⟩
    have : c ∈ formatInt i := by rw [h]; simp
    rcases formatInt_chars this with e | e
    · exact digit_not_space e
    · subst e; decide

/-- An integer written with `%d` is read. -/
theorem reads_int {F : Type} {parse : List Char → Option F} {bits : Nat} (x : BitVec bits) :
    Reads parse (.int bits) (formatInt x.toInt) (.int x.toInt) := by
  refine ⟨formatInt_cons _, fun n r hr => ?_⟩
  obtain ⟨c, t, e, hc⟩ := formatInt_cons x.toInt
  have hk : skip (List.replicate n ' ' ++ (formatInt x.toInt ++ r)) = some (formatInt x.toInt ++ r) := by
    rw [e, List.cons_append, skip_spaces hc]
  have h1 : -(2 ^ (bits - 1) : Nat) ≤ x.toInt := by
    have := BitVec.le_toInt x
    push_cast
    exact this
  have h2 : x.toInt < (2 ^ (bits - 1) : Nat) := by
    have := BitVec.toInt_lt (x := x)
    push_cast
    exact this
  simp only [verb, hk]
  rw [intToken_format _ hr]
  simp only [parseInt_format h1 h2, Option.map_some]

/-- One line: fields separated by spaces, each read by its verb, up to the newline. -/
theorem scanf_line {F : Type} {parse : List Char → Option F} :
    ∀ {l : List ((Nat × List Char) × Item × Val F)}, l ≠ [] → (∀ x ∈ l, Reads parse x.2.1 x.1.2 x.2.2) →
    (∀ x ∈ l, x.2.1 ≠ .nl ∧ x.2.1 ≠ .sp) → ∀ r : List Char,
    scanf parse (lineFmt (l.map fun x => x.2.1)) (fieldsText (l.map fun x => x.1) ++ '\n' :: r) =
      some (l.map fun x => x.2.2, r) := by
  have hverb : ∀ (it : Item) (l : List Item) (s : List Char), it ≠ .nl ∧ it ≠ .sp →
      scanf parse (it :: l) s = (verb parse it s).bind fun (v, r) => (scanf parse l r).map fun (vs, r) => (v :: vs, r) := by
    intro it l s h
    cases it with
    | nl => exact absurd rfl h.1
    | sp => exact absurd rfl h.2
    | int b => rfl
    | flt => rfl
  have main : ∀ (l : List ((Nat × List Char) × Item × Val F)) (x : (Nat × List Char) × Item × Val F),
      (∀ y ∈ x :: l, Reads parse y.2.1 y.1.2 y.2.2) → (∀ y ∈ x :: l, y.2.1 ≠ .nl ∧ y.2.1 ≠ .sp) →
      ∀ (r : List Char) (n : Nat), scanf parse (lineFmt ((x :: l).map fun x => x.2.1))
        (List.replicate n ' ' ++ (x.1.2 ++ (fieldsText (l.map fun x => x.1) ++ '\n' :: r))) =
        some ((x :: l).map fun x => x.2.2, r) := by
    intro l
    induction l with
    | nil =>
      intro x hr hv r n
      have h1 := (hr x (by simp)).2 n ('\n' :: r) (by intro c hc; simp at hc; subst hc; decide)
      simp only [List.map_cons, List.map_nil, lineFmt, fieldsText, List.nil_append]
      rw [hverb _ _ _ (hv x (by simp)), h1]
      have : blank '\n' = false := by decide
      simp [scanf, matchNL, this]
    | cons y l ih =>
      intro x hr hv r n
      obtain ⟨⟨wy, ty⟩, iy, vy⟩ := y
      have hy := hr ((wy, ty), iy, vy) (by simp)
      have h1 := (hr x (by simp)).2 n (fieldsText (((wy, ty), iy, vy) :: l |>.map fun x => x.1) ++ '\n' :: r)
        (by intro c hc; simp [fieldsText] at hc; subst hc; decide)
      simp only [List.map_cons, lineFmt]
      simp only [List.map_cons] at h1
      rw [hverb _ _ _ (hv x (by simp)), h1]
      obtain ⟨c, t', e, hc⟩ := hy.1
      have hb : Stops blank (ty ++ (fieldsText (l.map fun x => x.1) ++ '\n' :: r)) := by
        simp only at e
        rw [e]
        exact stops_cons (by simp [blank, hc]) _
      have h2 : matchSP (fieldsText ((wy, ty) :: l.map fun x => x.1) ++ '\n' :: r) =
          some (ty ++ (fieldsText (l.map fun x => x.1) ++ '\n' :: r)) := by
        simp only [fieldsText, matchSP, padL, List.cons_append, blank_space, if_true, List.append_assoc]
        rw [dropWhile_blank_spaces, dropWhile_of_head hb]
      have h3 := ih ((wy, ty), iy, vy) (fun z hz => hr z (by simp at hz ⊢; tauto))
        (fun z hz => hv z (by simp at hz ⊢; tauto)) r 0
      simp only [List.replicate_zero, List.nil_append, List.map_cons] at h3
      simp only [Option.bind_some, scanf, h2, h3, Option.map_some]
  intro l hl hr hv r
  cases l with
  | nil => exact absurd rfl hl
  | cons x l =>
    obtain ⟨⟨w, t⟩, i, v⟩ := x
    have := main l ((w, t), i, v) hr hv r (1 + (w - t.length))
    rw [← this]
    simp [fieldsText, padL, List.replicate_add]

end Verif.Fscanf
