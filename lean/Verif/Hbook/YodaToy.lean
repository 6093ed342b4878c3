import Verif.Hbook.YodaRead
import Mathlib.Tactic.SplitIfs
import Mathlib.Algebra.Order.Group.Unbundled.Int

/-!
# A small instance of the libraries, for the examples

Numbers are integers written with seven significant digits; annotations are strings, written one per line.
-/

namespace Verif.Hbook.Yoda
open Verif.Text Verif.Fscanf Verif.Strconv Verif.Hbook Verif.Hbook.Brio

/-- Seven significant digits of a number below `10^9`. -/
def seven (n : Int) : Int :=
  if n.natAbs < 10000000 then n
  else if n.natAbs < 100000000 then (n + 5) / 10 * 10
  else (n + 50) / 100 * 100

def parseI : List Char → Option Int
  | '-' :: r => (digitsVal r).map fun n => -(n : Int)
  | s => (digitsVal s).map fun n => (n : Int)

/-- One line of annotations. -/
def annLine (x : List Char × List Char) : List Char := x.1 ++ ':' :: ' ' :: x.2

/-- The annotations of lines, up to the end of the document. -/
def annLines : List (List Char) → Option (Ann (List Char))
  | [] => some []
  | l :: ls =>
    if l = kDash then some []
    else match cut [':', ' '] l with
      | none => none
      | some (k, v) => (annLines ls).map fun r => (k, v) :: r

def toy : Env Int (List Char) where
  fmtE n := formatInt (seven n)
  parse := parseI
  ofInt n := n
  toInt n := n
  inf := 1000000000
  ninf := -1000000000
  min := min
  max := max
  str s := s
  isStr s := some s
  fmtS s := s
  yenc a := some ((a.map annLine).flatMap (· ++ ['\n']))
  ydec s := annLines (lines s)

theorem formatUint_head {n : Nat} {c : Char} {r : List Char} (h : formatUint n = c :: r) : c ≠ '-' := by
  rintro rfl
  have := format_digits (n := n) (c := '-') (by rw [h]; simp)
  exact absurd this (by decide)

theorem parseI_format (i : Int) : parseI (formatInt i) = some i := by
  cases i with
  | ofNat n =>
    simp only [formatInt]
    cases h : formatUint n with
    | nil => exact absurd h (format_ne_nil n)
    | cons c r =>
      have hc := formatUint_head h
      rw [parseI.eq_2 _ (by rintro x e; cases e; exact hc rfl)]
      rw [← h, digitsVal_format]
      rfl
  | negSucc n =>
    simp only [formatInt, parseI, digitsVal_format]
    rfl

theorem floatWord_format (i : Int) : FloatWord (formatInt i) := by
  left
  cases i with
  | ofNat n =>
    exact ⟨[], formatUint n, [], [], by simp [formatInt], .inl rfl, ⟨format_ne_nil n, fun c hc => format_digits hc⟩, .inl rfl, .inl rfl⟩
  | negSucc n =>
    exact ⟨['-'], formatUint (n + 1), [], [], by simp [formatInt], .inr (.inl rfl),
      ⟨format_ne_nil _, fun c hc => format_digits hc⟩, .inl rfl, .inl rfl⟩

theorem toy_numbers : Numbers toy seven where
  word _ := floatWord_format _
  parse _ := parseI_format _

/-- Annotations of a histogram. -/
def toyAnn : Ann (List Char) := [(['t', 'i', 't', 'l', 'e'], ['M', 'a', 's', 's']), (['n', 'a', 'm', 'e'], ['h', '1']), (['u'], ['G', 'e', 'V'])]

theorem toy_free : Free toyAnn := by
  constructor
  · decide +kernel
  · intro x hx
    simp only [toyAnn, List.mem_cons, List.not_mem_nil, or_false] at hx
    rcases hx with rfl | rfl | rfl <;> decide +kernel

theorem get_of_perm {V : Type} {a b : Ann V} (h : a = b) (k : List Char) : get a k = get b k := by rw [h]

theorem infix_check {p s : List Char} (h : (cut p s) = none) (hp : p ≠ []) : ¬ p <:+: s := (cut_none_of hp).mp h

theorem toy_yaml (ty : List Char) (hty : ty = ['H', 'i', 's', 't', 'o', '1', 'D'] ∨ ty = ['H', 'i', 's', 't', 'o', '2', 'D'] ∨
    ty = ['P', 'r', 'o', 'f', 'i', 'l', 'e', '1', 'D'] ∨ ty = ['S', 'c', 'a', 't', 't', 'e', 'r', '2', 'D']) :
    Yaml toy (annToYODA toy ty toyAnn) where
  str _ := rfl
  fmtS _ := rfl
  codec := by
    refine ⟨_, annToYODA toy ty toyAnn, rfl, infix_check ?_ (by decide), ?_, ?_, fun _ => rfl⟩
    · rcases hty with rfl | rfl | rfl | rfl <;> decide +kernel
    · rcases hty with rfl | rfl | rfl | rfl <;> decide +kernel
    · rcases hty with rfl | rfl | rfl | rfl <;> decide +kernel

end Verif.Hbook.Yoda
