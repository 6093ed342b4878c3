/-!
# Decimal notation of integers

The functions of Go's `strconv` the text formats of the repository call: `FormatInt`, `FormatUint`
and `ParseInt`, `ParseUint` in base ten.  They belong to the standard library, not to the
repository, and are modelled from their documentation.
-/

namespace Verif.Strconv

/-- `strconv.FormatUint(n, 10)`. -/
def formatUint (n : Nat) : List Char := Nat.toDigits 10 n

/-- `strconv.FormatInt(i, 10)`. -/
def formatInt : Int → List Char
  | .ofNat n => formatUint n
  | .negSucc n => '-' :: formatUint (n + 1)

/-- The digits of a number: at least one, nothing else. -/
def digitsVal (s : List Char) : Option Nat :=
  if s.isEmpty || !s.all Char.isDigit then none else some (Nat.ofDigitChars 10 s 0)

/-- `strconv.ParseUint(s, 10, bits)`. -/
def parseUint (bits : Nat) (s : List Char) : Option Nat :=
  match digitsVal s with
  | some n => if n < 2 ^ bits then some n else none
  | none => none

/-- The digits after a sign, `strconv.ParseInt(s, 10, bits)`. -/
def signed (bits : Nat) (neg : Bool) (s : List Char) : Option Int :=
  match digitsVal s with
  | some n =>
    if neg then (if n ≤ 2 ^ (bits - 1) then some (-(n : Int)) else none)
    else (if n < 2 ^ (bits - 1) then some (n : Int) else none)
  | none => none

/-- `strconv.ParseInt(s, 10, bits)`. -/
def parseInt (bits : Nat) : List Char → Option Int
  | '-' :: s => signed bits true s
  | '+' :: s => signed bits false s
  | s => signed bits false s

theorem digitsVal_format (n : Nat) : digitsVal (formatUint n) = some n := by
  have h1 : (formatUint n).isEmpty = false := by
    simp [formatUint, Nat.toDigits_ne_nil]
  have h2 : (formatUint n).all Char.isDigit = true := by
    rw [List.all_eq_true]
    intro c hc
    exact Nat.isDigit_of_mem_toDigits (by decide) (by decide) hc
  simp [digitsVal, h1, h2]
  exact Nat.ofDigitChars_ten_toDigits

theorem parseUint_format {bits n : Nat} (h : n < 2 ^ bits) : parseUint bits (formatUint n) = some n := by
  simp [parseUint, digitsVal_format, h]

theorem format_digits {n : Nat} {c : Char} (h : c ∈ formatUint n) : c.isDigit = true :=
  Nat.isDigit_of_mem_toDigits (by decide) (by decide) h

theorem format_ne_nil (n : Nat) : formatUint n ≠ [] := Nat.toDigits_ne_nil

theorem parseInt_digits {bits : Nat} {s : List Char} (h : ∀ c ∈ s, c.isDigit = true) :
    parseInt bits s = signed bits false s := by
  match s with
  | [] => rfl
  | c :: s =>
    have hc := h c (by simp)
    have h1 : c ≠ '-' := by rintro rfl; exact absurd hc (by decide)
    have h2 : c ≠ '+' := by rintro rfl; exact absurd hc (by decide)
    simp only [parseInt]
    split
    · rename_i h; simp only [List.cons.injEq] at h; exact absurd h.1 h1
    · rename_i h; simp only [List.cons.injEq] at h; exact absurd h.1 h2
    · rfl

/-- Integers of a width survive their decimal notation. -/
theorem parseInt_format {bits : Nat} {i : Int} (h1 : -(2 ^ (bits - 1) : Nat) ≤ i)
    (h2 : i < (2 ^ (bits - 1) : Nat)) : parseInt bits (formatInt i) = some i := by
  match i with
  | .ofNat n =>
    have hn : n < 2 ^ (bits - 1) := by simp only [Int.ofNat_eq_natCast] at h2; omega
    rw [formatInt, parseInt_digits (fun c hc => format_digits hc)]
    simp [signed, digitsVal_format, hn]
  | .negSucc n =>
    have hn : n + 1 ≤ 2 ^ (bits - 1) := by omega
    simp only [formatInt, parseInt, signed, digitsVal_format, if_true, hn]
    rfl

/-- The characters of the decimal notation. -/
theorem formatInt_chars {i : Int} {c : Char} (h : c ∈ formatInt i) : c.isDigit = true ∨ c = '-' := by
  match i with
  | .ofNat n => exact .inl (format_digits h)
  | .negSucc n =>
    simp only [formatInt, List.mem_cons] at h
    rcases h with h | h
    · exact .inr h
    · exact .inl (format_digits h)

theorem formatInt_ne_nil (i : Int) : formatInt i ≠ [] := by
  match i with
  | .ofNat n => exact format_ne_nil n
  | .negSucc n => simp [formatInt]

end Verif.Strconv
