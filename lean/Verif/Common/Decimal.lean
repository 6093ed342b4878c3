/-!
# Decimal text (Go's `%d` and `strconv.Atoi`) and `strings.Split`

Strings are byte lists.
-/

namespace Verif

/-- Decimal digits of a natural number, most significant first; `fuel` bounds the
number of digits. -/
def decAux : Nat → Nat → List UInt8
  | 0, _ => []
  | f + 1, n => if n < 10 then [UInt8.ofNat (48 + n)] else decAux f (n / 10) ++ [UInt8.ofNat (48 + n % 10)]

/-- `strconv.Itoa` / `%d` of a non-negative integer. -/
def decEnc (n : Nat) : List UInt8 := decAux (n + 1) n

/-- `%d` of an integer. -/
def intEnc (z : Int) : List UInt8 := if z < 0 then 45 :: decEnc z.natAbs else decEnc z.natAbs

/-- ASCII digit. -/
def isDigit (b : UInt8) : Bool := decide (48 ≤ b.toNat ∧ b.toNat ≤ 57)

/-- Value of a string of digits. -/
def digitsVal (bs : List UInt8) : Nat := bs.foldl (fun a b => a * 10 + (b.toNat - 48)) 0

/-- Unsigned part of a number: non-empty and digits only. -/
def parseNat (bs : List UInt8) : Option Nat :=
  if bs ≠ [] ∧ bs.all isDigit then some (digitsVal bs) else none

/-- `strconv.Atoi` (Go standard library) on 64-bit platforms: optional sign, digits,
error (`none`) when out of the range of `int64` or malformed. -/
def atoi (bs : List UInt8) : Option Int :=
  match bs with
  | 45 :: ds => (parseNat ds).bind fun n => if n ≤ 2 ^ 63 then some (-(n : Int)) else none
  | 43 :: ds => (parseNat ds).bind fun n => if n < 2 ^ 63 then some (n : Int) else none
  | ds => (parseNat ds).bind fun n => if n < 2 ^ 63 then some (n : Int) else none

/-- `strings.Split(s, sep)` (Go standard library) for a one-byte separator. -/
def splitOn (sep : UInt8) : List UInt8 → List (List UInt8)
  | [] => [[]]
  | b :: bs =>
    if b = sep then [] :: splitOn sep bs
    else match splitOn sep bs with
      | [] => [[b]]
      | h :: t => (b :: h) :: t

theorem toNat_digit (n : Nat) (h : n < 10) : (UInt8.ofNat (48 + n)).toNat = 48 + n := by
  rw [UInt8.toNat_ofNat']; omega

theorem decAux_digits (f n : Nat) : (decAux f n).all isDigit = true := by
  induction f generalizing n with
  | zero => rfl
  | succ f ih =>
    unfold decAux
    split
    · rename_i h
      simp only [List.all_cons, List.all_nil, Bool.and_true, isDigit, toNat_digit n h]
      exact decide_eq_true (by omega)
    · rw [List.all_append, ih]
      have h : n % 10 < 10 := by omega
      simp only [List.all_cons, List.all_nil, Bool.and_true, Bool.true_and, isDigit, toNat_digit _ h]
      exact decide_eq_true (by omega)

theorem digitsVal_append (a : List UInt8) (b : UInt8) : digitsVal (a ++ [b]) = digitsVal a * 10 + (b.toNat - 48) := by
  simp [digitsVal]

theorem digitsVal_decAux (f n : Nat) (h : n < f) : digitsVal (decAux f n) = n := by
  induction f generalizing n with
  | zero => omega
  | succ f ih =>
    unfold decAux
    split
    · rename_i h10
      simp only [digitsVal, List.foldl_cons, List.foldl_nil, toNat_digit n h10]
      omega
    · have h10 : n % 10 < 10 := by omega
      rw [digitsVal_append, ih (n / 10) (by omega), toNat_digit _ h10]
      omega

theorem decEnc_digits (n : Nat) : (decEnc n).all isDigit = true := decAux_digits _ _

theorem decEnc_ne_nil (n : Nat) : decEnc n ≠ [] := by
  unfold decEnc decAux
  split <;> simp

theorem digitsVal_decEnc (n : Nat) : digitsVal (decEnc n) = n := digitsVal_decAux _ _ (by omega)

theorem parseNat_decEnc (n : Nat) : parseNat (decEnc n) = some n := by
  unfold parseNat
  rw [if_pos ⟨decEnc_ne_nil n, decEnc_digits n⟩, digitsVal_decEnc]

theorem decEnc_injective {m n : Nat} (h : decEnc m = decEnc n) : m = n := by
  rw [← digitsVal_decEnc m, h, digitsVal_decEnc]

/-- Parsing a formatted integer. -/
theorem atoi_intEnc (z : Int) (h1 : -(2 ^ 63) ≤ z) (h2 : z < 2 ^ 63) : atoi (intEnc z) = some z := by
  unfold intEnc
  split
  · simp only [atoi, parseNat_decEnc, Option.bind_some]
    rw [if_pos (by omega)]
    congr 1; omega
  · have hd := decEnc_digits z.natAbs
    have hne := decEnc_ne_nil z.natAbs
    have hp := parseNat_decEnc z.natAbs
    revert hd hne hp
    generalize decEnc z.natAbs = ds
    intro hd hne hp
    unfold atoi
    split
    · simp [isDigit] at hd
    · simp [isDigit] at hd
    · rw [hp, Option.bind_some, if_pos (by omega)]
      congr 1; omega

theorem splitOn_ne_nil (sep : UInt8) (bs : List UInt8) : splitOn sep bs ≠ [] := by
  cases bs with
  | nil => simp [splitOn]
  | cons b bs =>
    simp only [splitOn]
    split
    · simp
    · split <;> simp

theorem splitOn_no_sep (sep : UInt8) (bs : List UInt8) (h : sep ∉ bs) : splitOn sep bs = [bs] := by
  induction bs with
  | nil => rfl
  | cons b bs ih =>
    simp only [List.mem_cons, not_or] at h
    simp only [splitOn, if_neg (Ne.symm h.1), ih h.2]

theorem splitOn_append (sep : UInt8) (a bs : List UInt8) (h : sep ∉ a) :
    splitOn sep (a ++ sep :: bs) = a :: splitOn sep bs := by
  induction a with
  | nil => simp [splitOn]
  | cons b a ih =>
    simp only [List.mem_cons, not_or] at h
    simp only [List.cons_append, splitOn, if_neg (Ne.symm h.1), ih h.2]

theorem not_mem_decEnc {b : UInt8} (hb : isDigit b = false) (n : Nat) : b ∉ decEnc n := by
  intro h
  have := List.all_eq_true.mp (decEnc_digits n) b h
  rw [hb] at this; cases this

theorem not_mem_intEnc {b : UInt8} (hb : isDigit b = false) (hm : b ≠ 45) (z : Int) : b ∉ intEnc z := by
  unfold intEnc
  split
  · simp only [List.mem_cons, not_or]
    exact ⟨hm, not_mem_decEnc hb _⟩
  · exact not_mem_decEnc hb _

end Verif
