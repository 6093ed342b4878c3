import Verif.Rdict.Range
import Verif.RBytes.PackProps
import Mathlib.Data.Rat.Floor

/-!
# C147: the range in the title of a member
-/

namespace Verif.Rdict.Range

open Verif.Text Verif.Strconv
open Verif.RBytes.Pack (writeRange readRange)

theorem cutLast_eq (x : Char) (a b : List Char) (hb : x ∉ b) :
    cutLast x (a ++ x :: b) = some (a, b) := by
  have hn : ∀ b, x ∉ b → cutLast x b = none := by
    intro b hb
    induction b with
    | nil => rfl
    | cons c b ih =>
      simp only [List.mem_cons, not_or] at hb
      simp only [cutLast, ih hb.2, if_neg (Ne.symm hb.1)]
  induction a with
  | nil => simp only [List.nil_append, cutLast, hn b hb, if_true]
  | cons c a ih => simp only [List.cons_append, cutLast, ih]

theorem cutLast_none (x : Char) (b : List Char) (hb : x ∉ b) : cutLast x b = none := by
  induction b with
  | nil => rfl
  | cons c b ih =>
    simp only [List.mem_cons, not_or] at hb
    simp only [cutLast, ih hb.2, if_neg (Ne.symm hb.1)]

/-- What may stand before the bracket: nothing, or a comment which starts with a slash and one
more character, right before the bracket. -/
def Lead (p : List Char) : Prop := p = [] ∨ ∃ q c, p = q ++ ['/', c] ∧ c ≠ '/'

theorem bracketOK_lead {p : List Char} (h : Lead p) : bracketOK p = true := by
  rcases h with rfl | ⟨q, c, rfl, hc⟩
  · rfl
  · have : cutLast '/' (q ++ ['/', c]) = some (q, [c]) :=
      cutLast_eq '/' q [c] (by simp [Ne.symm hc])
    unfold bracketOK
    rw [this]
    cases q <;> rfl

section

variable {K : Type} [Field K] [LinearOrder K] [IsStrictOrderedRing K] [FloorRing K]

/-- A token: what is between the commas. -/
def Tok (t : List Char) : Prop := ',' ∉ t ∧ '[' ∉ t ∧ ']' ∉ t

/-- The text of a specification with three parts. -/
def spec3 (p a b n c : List Char) : List Char :=
  p ++ '[' :: (a ++ ',' :: (b ++ ',' :: (n ++ ']' :: c)))

/-- The text of a specification with two parts. -/
def spec2 (p a b c : List Char) : List Char := p ++ '[' :: (a ++ ',' :: (b ++ ']' :: c))

/-- A token is the number `x`, with or without space around it. -/
def IsNum (pf : List Char → Option K) (t : List Char) (x : K) : Prop :=
  has ['p', 'i'] (lower (trimSpace t)) = false ∧ pf (lower (trimSpace t)) = some x

omit [LinearOrder K] [IsStrictOrderedRing K] [FloorRing K] in
theorem endOf_num {pf : List Char → Option K} {t : List Char} {x : K} (h : IsNum pf t x) (pi : K) :
    endOf pf pi (lower (trimSpace t)) = some x := by
  unfold endOf
  rw [h.1]
  exact h.2

omit [IsStrictOrderedRing K] [FloorRing K] in
theorem getRange_spec3 (pf : List Char → Option K) (pi : K) {p a b n c : List Char} (hp : Lead p)
    (ha : Tok a) (hb : Tok b) (hn : Tok n) (hc : '[' ∉ c ∧ ']' ∉ c) :
    getRange pf pi (spec3 p a b n c) = (do
      let m ← bitsOf (lower (trimSpace n))
      rangeOf (← endOf pf pi (lower (trimSpace a))) (← endOf pf pi (lower (trimSpace b))) m) := by
  have h1 : cutLast '[' (spec3 p a b n c) =
      some (p, a ++ ',' :: (b ++ ',' :: (n ++ ']' :: c))) := by
    apply cutLast_eq
    simp [ha.2.1, hb.2.1, hn.2.1, hc.1]
  have h2 : cutLast ']' (a ++ ',' :: (b ++ ',' :: (n ++ ']' :: c))) =
      some (a ++ ',' :: (b ++ ',' :: n), c) := by
    have := cutLast_eq ']' (a ++ ',' :: (b ++ ',' :: n)) c hc.2
    simpa using this
  have h3 : splitC ',' (a ++ ',' :: (b ++ ',' :: n)) = [a, b, n] := by
    rw [splitC_append ha.1, splitC_append hb.1, splitC_free hn.1]
  unfold getRange
  rw [h1]
  simp only [bracketOK_lead hp, if_true, h2]
  unfold specOf
  rw [if_pos (by simp), h3]
  rfl

omit [IsStrictOrderedRing K] [FloorRing K] in
theorem getRange_spec2 (pf : List Char → Option K) (pi : K) {p a b c : List Char} (hp : Lead p)
    (ha : Tok a) (hb : Tok b) (hc : '[' ∉ c ∧ ']' ∉ c) :
    getRange pf pi (spec2 p a b c) = (do
      rangeOf (← endOf pf pi (lower (trimSpace a))) (← endOf pf pi (lower (trimSpace b))) 32) := by
  have h1 : cutLast '[' (spec2 p a b c) = some (p, a ++ ',' :: (b ++ ']' :: c)) := by
    apply cutLast_eq
    simp [ha.2.1, hb.2.1, hc.1]
  have h2 : cutLast ']' (a ++ ',' :: (b ++ ']' :: c)) = some (a ++ ',' :: b, c) := by
    have := cutLast_eq ']' (a ++ ',' :: b) c hc.2
    simpa using this
  have h3 : splitC ',' (a ++ ',' :: b) = [a, b] := by
    rw [splitC_append ha.1, splitC_free hb.1]
  unfold getRange
  rw [h1]
  simp only [bracketOK_lead hp, if_true, h2]
  unfold specOf
  rw [if_pos (by simp), h3]
  rfl

/-- A token is a number of bits. -/
def IsBits (t : List Char) (n : Nat) : Prop := lower (trimSpace t) = formatUint n ∧ 2 ≤ n ∧ n ≤ 32

theorem bitsOf_eq {t : List Char} {n : Nat} (h : IsBits t n) :
    bitsOf (lower (trimSpace t)) = some n := by
  unfold bitsOf
  rw [h.1, parseUint_format (by have := h.2.2; omega)]
  simp only
  rw [if_neg (by have := h.2; omega)]

/-- The number of steps of a range. -/
def steps (n : Nat) : Nat := if n = 32 then 2 ^ 32 - 1 else 2 ^ n

omit [IsStrictOrderedRing K] [FloorRing K] in
/-- **C147.**  A title `[a,b,n]`, followed by any text without brackets and preceded by nothing or
by a comment mark, gives the range from `a` to `b` in `2 ^ n` steps (`2 ^ 32 - 1` for 32 bits). -/
theorem C147_range (pf : List Char → Option K) (pi : K) {p a b t c : List Char} {x y : K} {n : Nat}
    (hp : Lead p) (ha : Tok a) (hb : Tok b) (ht : Tok t) (hc : '[' ∉ c ∧ ']' ∉ c)
    (hx : IsNum pf a x) (hy : IsNum pf b y) (hn : IsBits t n) (hxy : x < y) :
    getRange pf pi (spec3 p a b t c) = some ⟨x, y, (steps n : K) / (y - x)⟩ := by
  rw [getRange_spec3 pf pi hp ha hb ht hc, bitsOf_eq hn, endOf_num hx, endOf_num hy]
  simp only [Option.bind_eq_bind, Option.bind_some, rangeOf, if_pos hxy, steps,
    if_neg (fun h : y ≤ x ∧ n < 15 => absurd hxy (not_lt.mpr h.1))]
  by_cases h : n = 32
  · subst h; rfl
  · have := hn.2.2
    rw [if_pos (by omega), if_neg h]

omit [IsStrictOrderedRing K] [FloorRing K] in
/-- Two parts mean 32 bits. -/
theorem C147_range32 (pf : List Char → Option K) (pi : K) {p a b c : List Char} {x y : K}
    (hp : Lead p) (ha : Tok a) (hb : Tok b) (hc : '[' ∉ c ∧ ']' ∉ c)
    (hx : IsNum pf a x) (hy : IsNum pf b y) (hxy : x < y) :
    getRange pf pi (spec2 p a b c) = some ⟨x, y, ((2 ^ 32 - 1 : Nat) : K) / (y - x)⟩ := by
  rw [getRange_spec2 pf pi hp ha hb hc, endOf_num hx, endOf_num hy]
  simp only [Option.bind_eq_bind, Option.bind_some, rangeOf, if_pos hxy,
    if_neg (fun h : y ≤ x ∧ (32 : Nat) < 15 => absurd hxy (not_lt.mpr h.1))]
  rfl

/-- **C147, precision.**  A member with such a title takes any value of the range, and it is
read back within half a step: `(b - a) / 2 ^ (n + 1)`. -/
theorem C147_precision (pf : List Char → Option K) (pi : K) {p a b t c : List Char} {x y : K}
    {n : Nat} (hp : Lead p) (ha : Tok a) (hb : Tok b) (ht : Tok t) (hc : '[' ∉ c ∧ ']' ∉ c)
    (hx : IsNum pf a x) (hy : IsNum pf b y) (hn : IsBits t n) (hxy : x < y) :
    ∃ r, getRange pf pi (spec3 p a b t c) = some r ∧ r.OK ∧
      ∀ v, x ≤ v → v ≤ y → ∃ u, writeRange r v = some u ∧ u < 2 ^ 32 ∧
        |readRange r u - v| ≤ (y - x) / (2 * steps n) := by
  have hs : (0 : K) < steps n := by
    have : 0 < steps n := by
      unfold steps; split
      · decide
      · exact Nat.two_pow_pos n
    exact_mod_cast this
  have hd : 0 < y - x := sub_pos.mpr hxy
  have hok : (⟨x, y, (steps n : K) / (y - x)⟩ : Verif.RBytes.Pack.Range K).OK := by
    refine ⟨hxy.le, div_pos hs hd, ?_⟩
    simp only
    rw [div_mul_cancel₀ _ hd.ne']
    have : steps n ≤ 2 ^ 32 - 1 := by
      unfold steps
      split
      · exact Nat.le_refl _
      · next h =>
        have := hn.2.2
        have := Nat.pow_le_pow_right (n := 2) (by omega) (show n ≤ 31 by omega)
        omega
    have : (steps n : K) ≤ 4294967295 := by exact_mod_cast this
    norm_num
    linarith
  refine ⟨_, C147_range pf pi hp ha hb ht hc hx hy hn hxy, hok, ?_⟩
  intro v hv1 hv2
  obtain ⟨u, u1, u2, u3⟩ := Verif.RBytes.Pack.C146_range _ hok v
  refine ⟨u, u1, u2, ?_⟩
  rw [min_eq_right hv2, max_eq_right hv1] at u3
  refine u3.trans (le_of_eq ?_)
  field_simp

omit [IsStrictOrderedRing K] [FloorRing K] in
/-- **C147, none.**  A title without an opening bracket gives no range. -/
theorem C147_none (pf : List Char → Option K) (pi : K) (s : List Char) (h : '[' ∉ s) :
    getRange pf pi s = some ⟨0, 0, 0⟩ := by
  unfold getRange
  rw [cutLast_none '[' s h]

theorem cutLast_some {x : Char} {s a b : List Char} (h : cutLast x s = some (a, b)) :
    s = a ++ x :: b ∧ x ∉ b := by
  induction s generalizing a b with
  | nil => cases h
  | cons c s ih =>
    simp only [cutLast] at h
    cases hs : cutLast x s with
    | some r =>
      rw [hs] at h
      cases h
      obtain ⟨h1, h2⟩ := ih hs
      exact ⟨by rw [h1]; rfl, h2⟩
    | none =>
      rw [hs] at h
      simp only at h
      split at h
      · cases h
        next hc =>
        refine ⟨by rw [hc]; rfl, fun hm => ?_⟩
        obtain ⟨u, v, hv⟩ := List.append_of_mem hm
        have : ∀ (l : List Char), x ∈ l → cutLast x l ≠ none := by
          intro l hl
          induction l with
          | nil => cases hl
          | cons d l ihl =>
            simp only [cutLast]
            cases hd : cutLast x l with
            | some _ => simp
            | none =>
              rcases List.mem_cons.mp hl with e | e
              · simp [e]
              · exact absurd hd (ihl e)
        exact this _ hm hs
      · cases h

omit [IsStrictOrderedRing K] [FloorRing K] in
/-- **C147, text.**  A bracket within a text, which does not follow a comment mark, gives no
range, whatever is in it. -/
theorem C147_text (pf : List Char → Option K) (pi : K) (p r : List Char) (h : ¬ Lead p)
    (hr : '[' ∉ r) : getRange pf pi (p ++ '[' :: r) = some ⟨0, 0, 0⟩ := by
  unfold getRange
  rw [cutLast_eq '[' p r hr]
  have hb : bracketOK p = false := by
    unfold bracketOK
    cases p with
    | nil => exact absurd (Or.inl rfl) h
    | cons d p =>
      simp only
      split
      · next b c hc =>
        obtain ⟨h1, h2⟩ := cutLast_some hc
        exact absurd (Or.inr ⟨b, c, h1, fun e => h2 (by rw [e]; exact List.mem_singleton.mpr rfl)⟩) h
      · rfl
  simp only [hb]
  rfl

/-- `hits [x,y]` is such a text. -/
example : ¬ Lead ['h', 'i', 't', 's', ' '] := by
  rintro (h | ⟨q, c, h, _⟩)
  · cases h
  · have := congrArg (fun l => l.reverse) h
    simp at this

/-- **C147, bits.**  With an empty range the third part is the number of bits of the mantissa:
there is no factor, and the minimum is that number when cut to an integer. -/
theorem C147_bits (pf : List Char → Option K) (pi : K) {p a b t c : List Char} {x y : K} {n : Nat}
    (hp : Lead p) (ha : Tok a) (hb : Tok b) (ht : Tok t) (hc : '[' ∉ c ∧ ']' ∉ c)
    (hx : IsNum pf a x) (hy : IsNum pf b y) (hn : IsBits t n) (hxy : y ≤ x) (h15 : n < 15) :
    ∃ r, getRange pf pi (spec3 p a b t c) = some r ∧ r.factor = 0 ∧ ⌊r.xmin⌋₊ = n := by
  refine ⟨⟨(n : K) + 1 / 10, y, 0⟩, ?_, rfl, ?_⟩
  · rw [getRange_spec3 pf pi hp ha hb ht hc, bitsOf_eq hn, endOf_num hx, endOf_num hy]
    simp only [Option.bind_eq_bind, Option.bind_some, rangeOf, if_neg (not_lt.mpr hxy),
      if_pos (And.intro hxy h15)]
  · rw [Nat.floor_eq_iff (by positivity)]
    constructor <;> linarith

omit [LinearOrder K] [IsStrictOrderedRing K] [FloorRing K] in
/-- **C147, pi.**  The ends of a range may be given in terms of pi. -/
theorem C147_pi (pf : List Char → Option K) (pi : K) :
    endOf pf pi ['p', 'i'] = some pi ∧ endOf pf pi ['-', 'p', 'i'] = some (-pi) ∧
      endOf pf pi ['2', 'p', 'i'] = some (2 * pi) ∧ endOf pf pi ['2', '*', 'p', 'i'] = some (2 * pi) ∧
      endOf pf pi ['t', 'w', 'o', 'p', 'i'] = some (2 * pi) ∧
      endOf pf pi ['p', 'i', '/', '2'] = some (pi / 2) ∧
      endOf pf pi ['-', 'p', 'i', '/', '2'] = some (-(pi / 2)) ∧
      endOf pf pi ['p', 'i', '/', '4'] = some (pi / 4) := by
  refine ⟨?_, ?_, ?_, ?_, ?_, ?_, ?_, ?_⟩ <;> simp [endOf, has, List.isPrefixOf]

omit [IsStrictOrderedRing K] [FloorRing K] in
/-- **C147, capitals.**  Capital letters and small ones mean the same in a range. -/
theorem C147_case (pf : List Char → Option K) (pi : K) :
    getRange pf pi ['[', '-', 'P', 'I', ',', ' ', 'T', 'w', 'o', 'P', 'i', ']']
      = getRange pf pi ['[', '-', 'p', 'i', ',', ' ', 't', 'w', 'o', 'p', 'i', ']'] ∧
    getRange pf pi ['[', '-', 'P', 'I', ',', ' ', 'T', 'w', 'o', 'P', 'i', ']']
      = some (rangeOf (-pi) (2 * pi) 32) := ⟨rfl, rfl⟩

omit [LinearOrder K] [IsStrictOrderedRing K] [FloorRing K] in
/-- **Not every multiple of pi.**  `3*pi` and `pi/3` are taken for pi. -/
theorem C147_pi_counterexample (pf : List Char → Option K) (pi : K) :
    endOf pf pi ['3', '*', 'p', 'i'] = some pi ∧ endOf pf pi ['p', 'i', '/', '3'] = some pi := by
  constructor <;> simp [endOf, has, List.isPrefixOf]

omit [IsStrictOrderedRing K] [FloorRing K] in
/-- **Not every title.**  A title which starts with a bracket, such as `[x,y] position`, makes
reading the streamer of any member panic, when what is in the brackets are not numbers. -/
theorem C147_title_counterexample (pf : List Char → Option K) (pi : K) {a b c : List Char}
    (ha : Tok a) (hb : Tok b) (hc : '[' ∉ c ∧ ']' ∉ c)
    (hpi : has ['p', 'i'] (lower (trimSpace a)) = false) (hx : pf (lower (trimSpace a)) = none) :
    getRange pf pi (spec2 [] a b c) = none := by
  rw [getRange_spec2 pf pi (Or.inl rfl) ha hb hc]
  have : endOf pf pi (lower (trimSpace a)) = none := by
    unfold endOf; rw [hpi]; exact hx
  rw [this]
  rfl

omit [IsStrictOrderedRing K] [FloorRing K] in
/-- **Nor this one.**  A closing bracket before the opening one panics. -/
theorem C147_bracket_counterexample (pf : List Char → Option K) (pi : K) (a : List Char)
    (ha : '[' ∉ a ∧ ']' ∉ a) :
    getRange pf pi (']' :: '/' :: '*' :: '[' :: a) = none := by
  have h1 : cutLast '[' (']' :: '/' :: '*' :: '[' :: a) = some ([']', '/', '*'], a) :=
    cutLast_eq '[' [']', '/', '*'] a ha.1
  unfold getRange
  rw [h1]
  have h2 : bracketOK [']', '/', '*'] = true := by decide
  simp only [h2, if_true, cutLast_none ']' a ha.2]
  simp

end

/-- A parser of some numbers. -/
def exParse (s : List Char) : Option Rat :=
  if s = ['0'] then some 0 else if s = ['1', '0'] then some 10 else none

/-- The hypotheses of `C147_precision` are met by `/*[0, 10,8]*/`. -/
example : Lead ['/', '*'] ∧ Tok ['0'] ∧ Tok [' ', '1', '0'] ∧ Tok ['8'] ∧ IsNum exParse ['0'] 0 ∧
    IsNum exParse [' ', '1', '0'] 10 ∧ IsBits ['8'] 8 := by
  refine ⟨Or.inr ⟨[], '*', rfl, by decide⟩, ?_, ?_, ?_, ⟨by decide, by decide⟩,
    ⟨by decide, by decide⟩, ⟨by decide, by decide, by decide⟩⟩ <;> (unfold Tok; decide)

/-- Three is written as 77, and read as 3.0078125. -/
example : (getRange exParse 0 (spec3 ['/', '*'] ['0'] [' ', '1', '0'] ['8'] ['*', '/'])).bind
    (fun r => (writeRange r 3).map fun u => (u, readRange r u)) = some (77, 385 / 128) := by
  decide +kernel

end Verif.Rdict.Range
