/-
C121: comparisons, arithmetic and conditions of SQL queries on trees.
-/
import Verif.Rsql.Model
import Mathlib.Tactic.Linarith
import Mathlib.Tactic.Ring
import Mathlib.Tactic.Positivity

namespace Verif.Rsql

/-! ### The specification: numbers with a type -/

/-- The integer types of columns and literals: integer literals and arguments
(`ii`), unsigned ones (`iu`), signed and unsigned columns. -/
inductive Ty
  | ii | iu | s (w : W) | u (w : W)
  deriving DecidableEq, Repr

/-- The smallest number of a type. -/
def Ty.lo : Ty → Int
  | .ii => -(2 ^ 63)
  | .iu => 0
  | .s w => -(2 ^ (w.bits - 1))
  | .u _ => 0

/-- The first number above a type. -/
def Ty.top : Ty → Int
  | .ii => 2 ^ 63
  | .iu => 2 ^ 64
  | .s w => 2 ^ (w.bits - 1)
  | .u w => 2 ^ w.bits

/-- The numbers of a type. -/
def Ty.has (t : Ty) (z : Int) : Prop := t.lo ≤ z ∧ z < t.top

instance (t : Ty) (z : Int) : Decidable (t.has z) := by unfold Ty.has; infer_instance

/-- The types of literals and arguments. -/
def Ty.lit : Ty → Bool
  | .ii => true
  | .iu => true
  | _ => false

/-- The value of a type which stands for a number (modulo the width of the type). -/
def Ty.val {F32 F64 : Type} : Ty → Int → Val F32 F64
  | .ii, z => .iint (BitVec.ofInt 64 z)
  | .iu, z => .iuint (BitVec.ofInt 64 z)
  | .s w, z => .int w (BitVec.ofInt w.bits z)
  | .u w, z => .uint w (BitVec.ofInt w.bits z)

/-- The number a value stands for. -/
def Val.num {F32 F64 : Type} : Val F32 F64 → Option Int
  | .iint x => some x.toInt
  | .iuint x => some x.toNat
  | .int _ x => some x.toInt
  | .uint _ x => some x.toNat
  | _ => none

/-- The common type of two numbers: the type of the column when the literal
fits there; of two literals, the type of the second one if the first one fits,
otherwise that of the first one; no common type otherwise. -/
def common (t₁ : Ty) (a : Int) (t₂ : Ty) (b : Int) : Option Ty :=
  if t₁ = t₂ then some t₁
  else if t₁.lit ∧ t₂.has a then some t₂
  else if t₂.lit ∧ t₁.has b then some t₁
  else none

/-- The meaning of a comparison operator. -/
def COp.holds (op : COp) (a b : Int) : Prop :=
  match op with
  | .lt => a < b
  | .gt => b < a
  | .le => a ≤ b
  | .ge => b ≤ a
  | .eq => a = b
  | .ne => a ≠ b

instance (op : COp) (a b : Int) : Decidable (op.holds a b) := by
  cases op <;> unfold COp.holds <;> infer_instance

/-- The meaning of an arithmetic operator: the quotient is truncated toward
zero, as in Go. -/
def AOp.result (op : AOp) (a b : Int) : Option Int :=
  match op with
  | .add => some (a + b)
  | .sub => some (a - b)
  | .mul => some (a * b)
  | .div => if b = 0 then none else some (a.tdiv b)

/-! ### Encoding of numbers -/

section
variable {F32 F64 : Type}

theorem toInt_ofInt_of {n : Nat} (hn : 0 < n) {z : Int} (h1 : -(2 ^ (n - 1)) ≤ z) (h2 : z < 2 ^ (n - 1)) :
    (BitVec.ofInt n z).toInt = z := by
  rw [BitVec.toInt_ofInt]
  obtain ⟨k, rfl⟩ : ∃ k, n = k + 1 := ⟨n - 1, by omega⟩
  simp only [Nat.add_sub_cancel] at h1 h2
  have e : ((2 ^ (k + 1) : Nat) : Int) = 2 * 2 ^ k := by push_cast; ring
  apply Int.bmod_eq_of_le
  · rw [e]; omega
  · rw [e]; omega

theorem toNat_ofInt_of {n : Nat} {z : Int} (h1 : 0 ≤ z) (h2 : z < 2 ^ n) :
    ((BitVec.ofInt n z).toNat : Int) = z := by
  rw [BitVec.toNat_ofInt]
  have e : ((2 ^ n : Nat) : Int) = 2 ^ n := by push_cast; rfl
  rw [e, Int.toNat_of_nonneg (Int.emod_nonneg _ (by positivity)), Int.emod_eq_of_lt h1 h2]

theorem setWidth_ofInt {n m : Nat} (h : m ≤ n) (z : Int) :
    (BitVec.ofInt n z).setWidth m = BitVec.ofInt m z := by
  apply BitVec.eq_of_toNat_eq
  rw [BitVec.toNat_setWidth, BitVec.toNat_ofInt, BitVec.toNat_ofInt]
  have hd : (2 ^ m : Int) ∣ 2 ^ n := pow_dvd_pow 2 h
  have en : ((2 ^ n : Nat) : Int) = 2 ^ n := by push_cast; rfl
  have em : ((2 ^ m : Nat) : Int) = 2 ^ m := by push_cast; rfl
  apply Int.ofNat_inj.mp
  rw [Int.natCast_mod, en, em, Int.toNat_of_nonneg (Int.emod_nonneg _ (by positivity)),
    Int.toNat_of_nonneg (Int.emod_nonneg _ (by positivity)), Int.emod_emod_of_dvd _ hd]

/-- **C121.** The value of a type stands for the number, when the type has it. -/
theorem C121_num_val {t : Ty} {z : Int} (h : t.has z) : (t.val z : Val F32 F64).num = some z := by
  obtain ⟨h1, h2⟩ := h
  cases t with
  | ii => simp only [Ty.val, Val.num, toInt_ofInt_of (n := 64) (by decide) h1 h2]
  | iu => simp only [Ty.val, Val.num, toNat_ofInt_of (n := 64) h1 h2]
  | s w => simp only [Ty.val, Val.num, toInt_ofInt_of (n := w.bits) (by cases w <;> decide) h1 h2]
  | u w => simp only [Ty.val, Val.num, toNat_ofInt_of (n := w.bits) h1 h2]

theorem toInt64 {z : Int} (h : Ty.ii.has z) : (BitVec.ofInt 64 z).toInt = z :=
  toInt_ofInt_of (by decide) h.1 h.2

theorem toNat64 {z : Int} (h : Ty.iu.has z) : ((BitVec.ofInt 64 z).toNat : Int) = z :=
  toNat_ofInt_of h.1 h.2

variable (fl : Floats F32 F64)

theorem coerce1_fits {t₁ t₂ : Ty} {a : Int} (b : Int) (hl : t₁.lit = true) (ha : t₁.has a) (h : t₂.has a) :
    coerce1 fl (t₁.val a) (t₂.val b) = t₂.val a := by
  obtain ⟨h1, h2⟩ := h
  cases t₁ with
  | s w => cases hl
  | u w => cases hl
  | ii =>
    have e := toInt64 ha
    cases t₂ with
    | ii => rfl
    | iu =>
      simp only [Ty.lo, Ty.top] at h1 h2
      simp only [Ty.val, coerce1, e]
      rw [if_pos h1]
    | s w =>
      cases w <;> simp only [Ty.lo, Ty.top, W.bits] at h1 h2 <;> norm_num at h1 h2 <;>
        simp only [Ty.val, coerce1, e, W.bits] <;>
        first
          | rfl
          | (rw [if_pos (by constructor <;> omega), setWidth_ofInt (by decide)])
    | u w =>
      cases w <;> simp only [Ty.lo, Ty.top, W.bits] at h1 h2 <;> norm_num at h1 h2 <;>
        simp only [Ty.val, coerce1, e, W.bits] <;>
        first
          | (rw [if_pos (by constructor <;> omega), setWidth_ofInt (by decide)])
          | (rw [if_pos h1])
  | iu =>
    have e := toNat64 ha
    cases t₂ with
    | ii =>
      simp only [Ty.lo, Ty.top] at h1 h2
      norm_num at h1 h2
      simp only [Ty.val, coerce1]
      rw [if_pos (by omega)]
    | iu => rfl
    | s w =>
      cases w <;> simp only [Ty.lo, Ty.top, W.bits] at h1 h2 <;> norm_num at h1 h2 <;>
        simp only [Ty.val, coerce1, W.bits] <;>
        first
          | (rw [if_pos (by omega), setWidth_ofInt (by decide)])
          | (rw [if_pos (by omega)])
    | u w =>
      cases w <;> simp only [Ty.lo, Ty.top, W.bits] at h1 h2 <;> norm_num at h1 h2 <;>
        simp only [Ty.val, coerce1, W.bits] <;>
        first
          | rfl
          | (rw [if_pos (by omega), setWidth_ofInt (by decide)])

theorem coerce1_unfit {t₁ t₂ : Ty} {a : Int} (b : Int) (hl : t₁.lit = true) (ha : t₁.has a) (h : ¬ t₂.has a) :
    coerce1 fl (t₁.val a) (t₂.val b) = t₁.val a := by
  cases t₁ with
  | s w => cases hl
  | u w => cases hl
  | ii =>
    have e := toInt64 ha
    obtain ⟨a1, a2⟩ := ha
    simp only [Ty.lo, Ty.top] at a1 a2
    norm_num at a1 a2
    cases t₂ with
    | ii => rfl
    | iu =>
      simp only [Ty.has, Ty.lo, Ty.top] at h
      norm_num at h
      simp only [Ty.val, coerce1, e]
      rw [if_neg (by omega)]
    | s w =>
      cases w <;> simp only [Ty.has, Ty.lo, Ty.top, W.bits] at h <;> norm_num at h <;>
        simp only [Ty.val, coerce1, e] <;>
        first
          | omega
          | (rw [if_neg (by omega)])
    | u w =>
      cases w <;> simp only [Ty.has, Ty.lo, Ty.top, W.bits] at h <;> norm_num at h <;>
        simp only [Ty.val, coerce1, e] <;>
          (rw [if_neg (by omega)])
  | iu =>
    have e := toNat64 ha
    obtain ⟨a1, a2⟩ := ha
    simp only [Ty.lo, Ty.top] at a1 a2
    norm_num at a1 a2
    cases t₂ with
    | ii =>
      simp only [Ty.has, Ty.lo, Ty.top] at h
      norm_num at h
      simp only [Ty.val, coerce1]
      rw [if_neg (by omega)]
    | iu => rfl
    | s w =>
      cases w <;> simp only [Ty.has, Ty.lo, Ty.top, W.bits] at h <;> norm_num at h <;>
        simp only [Ty.val, coerce1] <;>
        (rw [if_neg (by omega)])
    | u w =>
      cases w <;> simp only [Ty.has, Ty.lo, Ty.top, W.bits] at h <;> norm_num at h <;>
        simp only [Ty.val, coerce1] <;>
        first
          | omega
          | (rw [if_neg (by omega)])

theorem ideal_val (t : Ty) (z : Int) : (t.val z : Val F32 F64).ideal = t.lit := by
  cases t <;> rfl

theorem sameIdeal_val (t₁ t₂ : Ty) (a b : Int) :
    sameIdeal (t₁.val a : Val F32 F64) (t₂.val b) = (t₁.lit && decide (t₁ = t₂)) := by
  cases t₁ <;> cases t₂ <;> rfl

/-- The two operands get their common type. -/
theorem coerce_common {t₁ t₂ t : Ty} {a b : Int} (h1 : t₁.has a) (h2 : t₂.has b)
    (h : common t₁ a t₂ b = some t) :
    coerce fl (t₁.val a) (t₂.val b) = (t.val a, t.val b) ∧ t.has a ∧ t.has b := by
  unfold common at h
  simp only [coerce, sameIdeal_val, ideal_val]
  by_cases e : t₁ = t₂
  · subst e
    rw [if_pos rfl] at h
    cases h
    cases hl : t₁.lit <;> simp [h1, h2]
  · rw [if_neg e] at h
    by_cases f : t₁.lit ∧ t₂.has a
    · rw [if_pos f] at h
      cases h
      cases hb : t₂.lit <;>
        simp [e, f.1, f.2, h2, coerce1_fits fl b f.1 h1 f.2, sameIdeal_val, hb]
    · rw [if_neg f] at h
      by_cases g : t₂.lit ∧ t₁.has b
      · rw [if_pos g] at h
        cases h
        cases ha : t₁.lit with
        | false => simp [e, g.1, g.2, h1, coerce1_fits fl a g.1 h2 g.2]
        | true =>
          have nf : ¬ t₂.has a := fun x => f ⟨ha, x⟩
          simp [e, g.1, g.2, h1, coerce1_fits fl a g.1 h2 g.2, coerce1_unfit fl b ha h1 nf, sameIdeal_val]
      · rw [if_neg g] at h
        cases h

/-- Without a common type the operands keep their types, which differ. -/
theorem coerce_apart {t₁ t₂ : Ty} {a b : Int} (h1 : t₁.has a) (h2 : t₂.has b)
    (h : common t₁ a t₂ b = none) :
    coerce fl (t₁.val a) (t₂.val b) = (t₁.val a, t₂.val b) ∧ t₁ ≠ t₂ := by
  unfold common at h
  simp only [coerce, sameIdeal_val, ideal_val]
  by_cases e : t₁ = t₂
  · rw [if_pos e] at h; cases h
  rw [if_neg e] at h
  by_cases f : t₁.lit ∧ t₂.has a
  · rw [if_pos f] at h; cases h
  rw [if_neg f] at h
  by_cases g : t₂.lit ∧ t₁.has b
  · rw [if_pos g] at h; cases h
  refine ⟨?_, e⟩
  cases ha : t₁.lit with
  | false =>
    cases hb : t₂.lit with
    | false => simp
    | true =>
      have ng : ¬ t₁.has b := fun x => g ⟨hb, x⟩
      simp [coerce1_unfit fl a hb h2 ng]
  | true =>
    have nf : ¬ t₂.has a := fun x => f ⟨ha, x⟩
    cases hb : t₂.lit with
    | false => simp [e, coerce1_unfit fl b ha h1 nf]
    | true =>
      have ng : ¬ t₁.has b := fun x => g ⟨hb, x⟩
      simp [e, coerce1_unfit fl b ha h1 nf, coerce1_unfit fl a hb h2 ng, sameIdeal_val]

theorem compare_val (op : COp) {t : Ty} {a b : Int} (h1 : t.has a) (h2 : t.has b) :
    compare fl op (t.val a) (t.val b) = some (decide (op.holds a b)) := by
  have key : cmpInt op a b = decide (op.holds a b) := by
    cases op <;> rfl
  obtain ⟨p1, p2⟩ := h1
  obtain ⟨q1, q2⟩ := h2
  cases t with
  | ii => simp only [Ty.val, compare, toInt64 ⟨p1, p2⟩, toInt64 ⟨q1, q2⟩, key]
  | iu => simp only [Ty.val, compare, toNat64 ⟨p1, p2⟩, toNat64 ⟨q1, q2⟩, key]
  | s w =>
    have hw : 0 < w.bits := by cases w <;> decide
    simp only [Ty.val, compare, toInt_ofInt_of hw p1 p2, toInt_ofInt_of hw q1 q2, key, if_true]
  | u w =>
    simp only [Ty.val, compare, toNat_ofInt_of p1 p2, toNat_ofInt_of q1 q2, key, if_true]

theorem compare_apart (op : COp) {t₁ t₂ : Ty} (a b : Int) (h : t₁ ≠ t₂) :
    compare fl op (t₁.val a) (t₂.val b) = none := by
  cases t₁ <;> cases t₂ <;> simp only [ne_eq, not_true_eq_false, Ty.s.injEq, Ty.u.injEq] at h <;>
    simp [Ty.val, compare, h]

/-- **C121.** A comparison of two integers, columns or literals of whatever
widths, is the comparison of the numbers when the literal fits the type of the
column, and an error otherwise: it never gives a wrong answer. -/
theorem C121_compare (row : Row F32 F64) (op : COp) {l r : Expr F32 F64} {t₁ t₂ : Ty} {a b : Int}
    (hl : eval fl row l = some (t₁.val a)) (hr : eval fl row r = some (t₂.val b))
    (h1 : t₁.has a) (h2 : t₂.has b) :
    eval fl row (.cmp op l r) =
      if (common t₁ a t₂ b).isSome then some (.bool (decide (op.holds a b))) else none := by
  simp only [eval, hl, hr, coerced]
  cases hc : common t₁ a t₂ b with
  | none =>
    obtain ⟨e, ne⟩ := coerce_apart fl h1 h2 hc
    simp [e, compare_apart fl op a b ne]
  | some t =>
    obtain ⟨e, ha, hb⟩ := coerce_common fl h1 h2 hc
    simp [e, compare_val fl op ha hb]

/-- A 32-bit column holding -7 compared with the literal 3. -/
example (fl : Floats Unit Unit) :
    eval fl (fun _ => some (Ty.val (.s .w32) (-7))) (.cmp .lt (.ident ['x']) (.value (Ty.val .ii 3))) =
      some (.bool true) :=
  C121_compare fl (fun _ => some (Ty.val (.s .w32) (-7))) .lt (t₁ := .s .w32) (t₂ := .ii) (a := -7) (b := 3)
    (by simp [eval]) (by simp [eval]) (by decide) (by decide)

theorem ofInt_sdiv {n : Nat} (hn : 0 < n) {a b : Int} (a1 : -(2 ^ (n - 1)) ≤ a) (a2 : a < 2 ^ (n - 1))
    (b1 : -(2 ^ (n - 1)) ≤ b) (b2 : b < 2 ^ (n - 1)) :
    (BitVec.ofInt n a).sdiv (BitVec.ofInt n b) = BitVec.ofInt n (a.tdiv b) := by
  apply BitVec.eq_of_toInt_eq
  rw [BitVec.toInt_sdiv, toInt_ofInt_of hn a1 a2, toInt_ofInt_of hn b1 b2, BitVec.toInt_ofInt]

theorem ofInt_udiv {n : Nat} {a b : Int} (a1 : 0 ≤ a) (a2 : a < 2 ^ n) (b1 : 0 ≤ b) (b2 : b < 2 ^ n) :
    BitVec.ofInt n a / BitVec.ofInt n b = BitVec.ofInt n (a.tdiv b) := by
  apply BitVec.eq_of_toNat_eq
  have en : ((2 ^ n : Nat) : Int) = 2 ^ n := by push_cast; rfl
  have ha := toNat_ofInt_of a1 a2
  have hb := toNat_ofInt_of b1 b2
  apply Int.ofNat_inj.mp
  have q0 : 0 ≤ a / b := Int.ediv_nonneg a1 b1
  have q1 : a / b < 2 ^ n := lt_of_le_of_lt (Int.ediv_le_self _ a1) a2
  rw [BitVec.toNat_udiv, Int.natCast_ediv, ha, hb, Int.tdiv_eq_ediv_of_nonneg a1, toNat_ofInt_of q0 q1]

theorem ofInt_eq_zero {n : Nat} {b : Int} (h : (BitVec.ofInt n b).toInt = b ∨ ((BitVec.ofInt n b).toNat : Int) = b) :
    BitVec.ofInt n b = 0 ↔ b = 0 := by
  constructor
  · intro e
    rcases h with h | h
    · rw [e] at h; simpa using h.symm
    · rw [e] at h; simpa using h.symm
  · rintro rfl
    simp

theorem ofInt_sub' {n : Nat} (a b : Int) : BitVec.ofInt n a - BitVec.ofInt n b = BitVec.ofInt n (a - b) := by
  apply BitVec.eq_of_toInt_eq
  rw [BitVec.toInt_sub, BitVec.toInt_ofInt, BitVec.toInt_ofInt, BitVec.toInt_ofInt]
  simp

theorem arithS_val (op : AOp) {n : Nat} (hn : 0 < n) {a b : Int} (a1 : -(2 ^ (n - 1)) ≤ a) (a2 : a < 2 ^ (n - 1))
    (b1 : -(2 ^ (n - 1)) ≤ b) (b2 : b < 2 ^ (n - 1)) :
    arithS op (BitVec.ofInt n a) (BitVec.ofInt n b) = (op.result a b).map (BitVec.ofInt n) := by
  cases op with
  | add => simp [arithS, AOp.result, BitVec.ofInt_add]
  | sub => simp [arithS, AOp.result, ofInt_sub']
  | mul => simp [arithS, AOp.result, BitVec.ofInt_mul]
  | div =>
    have z := ofInt_eq_zero (n := n) (b := b) (.inl (toInt_ofInt_of hn b1 b2))
    by_cases hb : b = 0
    · subst hb; simp [arithS, AOp.result]
    · simp only [arithS, AOp.result, z, hb, if_false, Option.map_some, ofInt_sdiv hn a1 a2 b1 b2]

theorem arithU_val (op : AOp) {n : Nat} {a b : Int} (a1 : 0 ≤ a) (a2 : a < 2 ^ n) (b1 : 0 ≤ b) (b2 : b < 2 ^ n) :
    arithU op (BitVec.ofInt n a) (BitVec.ofInt n b) = (op.result a b).map (BitVec.ofInt n) := by
  cases op with
  | add => simp [arithU, AOp.result, BitVec.ofInt_add]
  | sub => simp [arithU, AOp.result, ofInt_sub']
  | mul => simp [arithU, AOp.result, BitVec.ofInt_mul]
  | div =>
    have z := ofInt_eq_zero (n := n) (b := b) (.inr (toNat_ofInt_of b1 b2))
    by_cases hb : b = 0
    · subst hb; simp [arithU, AOp.result]
    · simp only [arithU, AOp.result, z, hb, if_false, Option.map_some, ofInt_udiv a1 a2 b1 b2]

theorem arithmetic_val (op : AOp) {t : Ty} {a b : Int} (h1 : t.has a) (h2 : t.has b) :
    arithmetic fl op (t.val a) (t.val b) = (op.result a b).map t.val := by
  obtain ⟨p1, p2⟩ := h1
  obtain ⟨q1, q2⟩ := h2
  cases t with
  | ii =>
    simp only [Ty.val, arithmetic, arithS_val op (n := 64) (by decide) p1 p2 q1 q2, Option.map_map]; rfl
  | iu => simp only [Ty.val, arithmetic, arithU_val op (n := 64) p1 p2 q1 q2, Option.map_map]; rfl
  | s w =>
    have hw : 0 < w.bits := by cases w <;> decide
    simp only [Ty.val, arithmetic, dif_pos, arithS_val op hw p1 p2 q1 q2, Option.map_map]; rfl
  | u w =>
    simp only [Ty.val, arithmetic, dif_pos, arithU_val op p1 p2 q1 q2, Option.map_map]; rfl

theorem arithmetic_apart (op : AOp) {t₁ t₂ : Ty} (a b : Int) (h : t₁ ≠ t₂) :
    arithmetic fl op (t₁.val a) (t₂.val b) = none := by
  cases t₁ <;> cases t₂ <;> simp only [ne_eq, not_true_eq_false, Ty.s.injEq, Ty.u.injEq] at h <;>
    simp [Ty.val, arithmetic, Ne.symm h]

/-- **C121.** An operation on two integers, columns or literals: the value of
the common type which stands for the sum, the difference, the product or the
truncated quotient (modulo the width of that type); a division by zero and
operands without a common type are errors. -/
theorem C121_arith (row : Row F32 F64) (op : AOp) {l r : Expr F32 F64} {t₁ t₂ : Ty} {a b : Int}
    (hl : eval fl row l = some (t₁.val a)) (hr : eval fl row r = some (t₂.val b))
    (h1 : t₁.has a) (h2 : t₂.has b) :
    eval fl row (.arith op l r) =
      (common t₁ a t₂ b).bind fun t => (op.result a b).map t.val := by
  simp only [eval, hl, hr, coerced]
  cases hc : common t₁ a t₂ b with
  | none =>
    obtain ⟨e, ne⟩ := coerce_apart fl h1 h2 hc
    simp [e, arithmetic_apart fl op a b ne]
  | some t =>
    obtain ⟨e, ha, hb⟩ := coerce_common fl h1 h2 hc
    simp [e, arithmetic_val fl op ha hb]

/-- An 8-bit unsigned column holding 200, plus 100: the sum wraps around. -/
example (fl : Floats Unit Unit) :
    eval fl (fun _ => some (Ty.val (.u .w8) 200)) (.arith .add (.ident ['x']) (.value (Ty.val .ii 100))) =
      some (Ty.val (.u .w8) 300) :=
  C121_arith fl (fun _ => some (Ty.val (.u .w8) 200)) .add (t₁ := .u .w8) (t₂ := .ii) (a := 200) (b := 100)
    (by simp [eval]) (by simp [eval]) (by decide) (by decide)

/-! ### Conditions on integer columns, as one writes them -/

/-- The integer terms of a query. -/
inductive Num
  | col (name : List Char)
  | lit (z : Int)
  | op (o : AOp) (l r : Num)
  | paren (n : Num)

/-- The conditions of a query. -/
inductive Cond
  | cmp (op : COp) (l r : Num)
  | and (l r : Cond)
  | or (l r : Cond)
  | bool (b : Bool)
  | paren (c : Cond)

/-- The number of a term, the columns being given; none on a division by zero. -/
def Num.den (ρ : List Char → Int) : Num → Option Int
  | .col name => some (ρ name)
  | .lit z => some z
  | .op o l r => (l.den ρ).bind fun a => (r.den ρ).bind fun b => o.result a b
  | .paren n => n.den ρ

/-- The truth of a condition. -/
def Cond.den (ρ : List Char → Int) : Cond → Prop
  | .cmp op l r => ∃ a b, l.den ρ = some a ∧ r.den ρ = some b ∧ op.holds a b
  | .and l r => l.den ρ ∧ r.den ρ
  | .or l r => l.den ρ ∨ r.den ρ
  | .bool b => b = true
  | .paren c => c.den ρ

/-- The type of a term, when the numbers of all its subterms fit their types. -/
def Num.ty (Γ : List Char → Ty) (ρ : List Char → Int) : Num → Option (Ty × Int)
  | .col name => some (Γ name, ρ name)
  | .lit z => if Ty.ii.has z then some (.ii, z) else none
  | .op o l r =>
    (l.ty Γ ρ).bind fun a => (r.ty Γ ρ).bind fun b =>
      (common a.1 a.2 b.1 b.2).bind fun t => (o.result a.2 b.2).bind fun z =>
        if t.has z then some (t, z) else none
  | .paren n => n.ty Γ ρ

/-- All comparisons of a condition are between numbers which fit. -/
def Cond.Fits (Γ : List Char → Ty) (ρ : List Char → Int) : Cond → Prop
  | .cmp _ l r => ∃ a b, l.ty Γ ρ = some a ∧ r.ty Γ ρ = some b ∧ (common a.1 a.2 b.1 b.2).isSome
  | .and l r => l.Fits Γ ρ ∧ r.Fits Γ ρ
  | .or l r => l.Fits Γ ρ ∧ r.Fits Γ ρ
  | .bool _ => True
  | .paren c => c.Fits Γ ρ

/-- The syntax tree of a term. -/
def Num.sql : Num → Sql
  | .col name => .col name
  | .lit z => .intLit (Strconv.formatInt z)
  | .op o l r => .op (.a o) l.sql r.sql
  | .paren n => .paren n.sql

/-- The syntax tree of a condition. -/
def Cond.sql : Cond → Sql
  | .cmp op l r => .op (.c op) l.sql r.sql
  | .and l r => .and l.sql r.sql
  | .or l r => .or l.sql r.sql
  | .bool b => .bool b
  | .paren c => .paren c.sql

/-- An entry whose columns hold the given numbers. -/
def Holds (Γ : List Char → Ty) (ρ : List Char → Int) (row : Row F32 F64) : Prop :=
  ∀ name, row name = some ((Γ name).val (ρ name)) ∧ (Γ name).has (ρ name)

theorem parseInt_lit {z : Int} (h : Ty.ii.has z) : Strconv.parseInt 64 (Strconv.formatInt z) = some z := by
  obtain ⟨h1, h2⟩ := h
  simp only [Ty.lo, Ty.top] at h1 h2
  apply Strconv.parseInt_format
  · norm_num at h1 ⊢; exact h1
  · norm_num at h2 ⊢; exact h2

theorem num_eval (args : List (Arg F64)) {Γ : List Char → Ty} {ρ : List Char → Int} {row : Row F32 F64}
    (hrow : Holds Γ ρ row) (n : Num) : ∀ p, n.ty Γ ρ = some p →
      (∃ e, newExpr fl args n.sql = .ok e ∧ eval fl row e = some (p.1.val p.2)) ∧ p.1.has p.2 ∧
        n.den ρ = some p.2 := by
  induction n with
  | col name =>
    intro p h
    cases h
    exact ⟨⟨.ident name, by simp only [Num.sql, newExpr], by simp only [eval]; exact (hrow name).1⟩,
      (hrow name).2, rfl⟩
  | lit z =>
    intro p h
    simp only [Num.ty] at h
    split at h
    · rename_i hz
      cases h
      exact ⟨⟨.value (.iint (BitVec.ofInt 64 z)), by simp only [Num.sql, newExpr, parseInt_lit hz],
        by simp only [eval, Ty.val]⟩, hz, rfl⟩
    · cases h
  | paren n ih =>
    intro p h
    obtain ⟨⟨e, h1, h2⟩, h3, h4⟩ := ih p h
    exact ⟨⟨e, by simp only [Num.sql, newExpr]; exact h1, h2⟩, h3, h4⟩
  | op o l r ihl ihr =>
    intro p h
    simp only [Num.ty, Option.bind_eq_some_iff] at h
    obtain ⟨a, ha, b, hb, t, ht, z, hz, h⟩ := h
    split at h
    · rename_i hf
      cases h
      obtain ⟨⟨el, l1, l2⟩, l3, l4⟩ := ihl a ha
      obtain ⟨⟨er, r1, r2⟩, r3, r4⟩ := ihr b hb
      refine ⟨⟨.arith o el er, ?_, ?_⟩, hf, ?_⟩
      · simp only [Num.sql, newExpr, l1, r1, Out.bind, opExpr]
      · rw [C121_arith fl row o l2 r2 l3 r3, ht]
        simp [hz]
      · simp only [Num.den, l4, r4, Option.bind_some, hz]
    · cases h

/-- **C121.** A condition on integer columns, as written in a query: when the
numbers fit their types it is translated and its evaluation on an entry is its
truth. -/
theorem C121_condition (args : List (Arg F64)) {Γ : List Char → Ty} {ρ : List Char → Int}
    {row : Row F32 F64} (hrow : Holds Γ ρ row) (c : Cond) (h : c.Fits Γ ρ) :
    ∃ e, newExpr fl args c.sql = .ok e ∧
      ∃ b, eval fl row e = some (.bool b) ∧ (b = true ↔ c.den ρ) := by
  induction c with
  | cmp op l r =>
    obtain ⟨a, b, ha, hb, hc⟩ := h
    obtain ⟨⟨el, l1, l2⟩, l3, l4⟩ := num_eval fl args hrow l a ha
    obtain ⟨⟨er, r1, r2⟩, r3, r4⟩ := num_eval fl args hrow r b hb
    refine ⟨.cmp op el er, by simp only [Cond.sql, newExpr, l1, r1, Out.bind, opExpr],
      decide (op.holds a.2 b.2), by rw [C121_compare fl row op l2 r2 l3 r3, if_pos hc], ?_⟩
    simp only [decide_eq_true_eq, Cond.den, l4, r4, Option.some.injEq]
    constructor
    · intro h; exact ⟨_, _, rfl, rfl, h⟩
    · rintro ⟨_, _, rfl, rfl, h⟩; exact h
  | and l r ihl ihr =>
    obtain ⟨el, l1, bl, l2, l3⟩ := ihl h.1
    obtain ⟨er, r1, br, r2, r3⟩ := ihr h.2
    refine ⟨.and el er, by simp only [Cond.sql, newExpr, l1, r1, Out.bind], bl && br, ?_, ?_⟩
    · cases bl <;> simp [eval, l2, r2]
    · simp [Cond.den, ← l3, ← r3]
  | or l r ihl ihr =>
    obtain ⟨el, l1, bl, l2, l3⟩ := ihl h.1
    obtain ⟨er, r1, br, r2, r3⟩ := ihr h.2
    refine ⟨.or el er, by simp only [Cond.sql, newExpr, l1, r1, Out.bind], bl || br, ?_, ?_⟩
    · cases bl <;> simp [eval, l2, r2]
    · simp [Cond.den, ← l3, ← r3]
  | bool b =>
    exact ⟨.value (.bool b), by simp only [Cond.sql, newExpr], b, by simp only [eval], Iff.rfl⟩
  | paren c ih =>
    obtain ⟨e, h1, b, h2, h3⟩ := ih h
    exact ⟨e, by simp only [Cond.sql, newExpr]; exact h1, b, h2, h3⟩

/-- `(x + 1) * 2 > -5 AND y <> 3` on an entry with a 16-bit `x` and a 64-bit `y`: the
numbers fit. -/
def exCond : Cond :=
  .and (.cmp .gt (.op .mul (.paren (.op .add (.col ['x']) (.lit 1))) (.lit 2)) (.lit (-5)))
    (.cmp .ne (.col ['y']) (.lit 3))

example : exCond.Fits (fun n => if n = ['x'] then .s .w16 else .u .w64)
    (fun n => if n = ['x'] then 7 else 18446744073709551615) := by
  refine ⟨⟨(.s .w16, 16), (.ii, -5), by decide +kernel, by decide +kernel, by decide +kernel⟩,
    ⟨(.u .w64, 18446744073709551615), (.ii, 3), by decide +kernel, by decide +kernel, by decide +kernel⟩⟩

/-- A term without arithmetic. -/
def Num.atom : Num → Bool
  | .op _ _ _ => false
  | .paren n => n.atom
  | _ => true

/-- A condition without arithmetic. -/
def Cond.plain : Cond → Bool
  | .cmp _ l r => l.atom && r.atom
  | .and l r => l.plain && r.plain
  | .or l r => l.plain && r.plain
  | .bool _ => true
  | .paren c => c.plain

theorem atom_eval (args : List (Arg F64)) {Γ : List Char → Ty} {ρ : List Char → Int} (n : Num) (hn : n.atom = true) {e : Expr F32 F64}
    (he : newExpr fl args n.sql = .ok e) (hsmall : ∀ z : Int, ¬ Ty.ii.has z →
      Strconv.parseInt 64 (Strconv.formatInt z) = none) :
    ∃ p, n.ty Γ ρ = some p := by
  induction n with
  | col name => exact ⟨_, rfl⟩
  | lit z =>
    by_cases hz : Ty.ii.has z
    · exact ⟨(.ii, z), by simp only [Num.ty, hz, if_true]⟩
    · simp only [Num.sql, newExpr, hsmall z hz] at he
      cases he
  | paren n ih =>
    simp only [Num.sql, newExpr] at he
    exact ih hn he
  | op o l r _ _ => cases hn

theorem parseInt_big {z : Int} (h : ¬ Ty.ii.has z) : Strconv.parseInt 64 (Strconv.formatInt z) = none := by
  simp only [Ty.has, Ty.lo, Ty.top] at h
  norm_num at h
  cases z with
  | ofNat n =>
    have hd := Strconv.parseInt_digits (bits := 64) (s := Strconv.formatUint n)
      (fun c hc => Strconv.format_digits hc)
    simp only [Strconv.formatInt]
    rw [hd]
    simp only [Strconv.signed, Strconv.digitsVal_format]
    have : ¬ n < 2 ^ (64 - 1) := by
      have := h (by have := Int.natCast_nonneg n; simp only [Int.ofNat_eq_natCast]; omega)
      simp only [Int.ofNat_eq_natCast] at this
      norm_num; omega
    rw [if_neg (by decide), if_neg this]
  | negSucc n =>
    simp only [Strconv.formatInt, Strconv.parseInt, Strconv.signed, Strconv.digitsVal_format]
    have : ¬ n + 1 ≤ 2 ^ (64 - 1) := by
      intro hc
      norm_num at hc
      have := h (by rw [Int.negSucc_eq]; omega)
      rw [Int.negSucc_eq] at this
      omega
    rw [if_pos trivial, if_neg this]

/-- **C121.** A condition without arithmetic is never wrong: when it has a value on an
entry, that value is its truth, whatever the widths of the columns and the
sizes of the literals. -/
theorem C121_never_wrong (args : List (Arg F64)) {Γ : List Char → Ty} {ρ : List Char → Int}
    {row : Row F32 F64} (hrow : Holds Γ ρ row) (c : Cond) (hc : c.plain = true) {e : Expr F32 F64}
    (he : newExpr fl args c.sql = .ok e) {v : Val F32 F64} (hv : eval fl row e = some v) :
    ∃ b, v = .bool b ∧ (b = true ↔ c.den ρ) := by
  induction c generalizing e v with
  | cmp op l r =>
    simp only [Cond.plain, Bool.and_eq_true] at hc
    simp only [Cond.sql, newExpr] at he
    cases hl : newExpr fl args l.sql with
    | err => rw [hl] at he; cases he
    | panic => rw [hl] at he; cases he
    | ok el =>
      cases hr : newExpr fl args r.sql with
      | err => rw [hl, hr] at he; cases he
      | panic => rw [hl, hr] at he; cases he
      | ok er =>
        rw [hl, hr] at he
        cases he
        obtain ⟨a, ha⟩ := atom_eval (Γ := Γ) (ρ := ρ) fl args l hc.1 hl fun z => parseInt_big
        obtain ⟨b, hb⟩ := atom_eval (Γ := Γ) (ρ := ρ) fl args r hc.2 hr fun z => parseInt_big
        obtain ⟨⟨el', l1, l2⟩, l3, l4⟩ := num_eval fl args hrow l a ha
        obtain ⟨⟨er', r1, r2⟩, r3, r4⟩ := num_eval fl args hrow r b hb
        rw [hl] at l1
        rw [hr] at r1
        cases l1
        cases r1
        rw [C121_compare fl row op l2 r2 l3 r3] at hv
        split at hv
        · cases hv
          refine ⟨_, rfl, ?_⟩
          simp only [decide_eq_true_eq, Cond.den, l4, r4, Option.some.injEq]
          constructor
          · intro h; exact ⟨_, _, rfl, rfl, h⟩
          · rintro ⟨_, _, rfl, rfl, h⟩; exact h
        · cases hv
  | and l r ihl ihr =>
    simp only [Cond.plain, Bool.and_eq_true] at hc
    simp only [Cond.sql, newExpr] at he
    cases hl : newExpr fl args l.sql with
    | err => rw [hl] at he; cases he
    | panic => rw [hl] at he; cases he
    | ok el =>
      cases hr : newExpr fl args r.sql with
      | err => rw [hl, hr] at he; cases he
      | panic => rw [hl, hr] at he; cases he
      | ok er =>
        rw [hl, hr] at he
        cases he
        simp only [eval] at hv
        cases h1 : eval fl row el with
        | none => rw [h1] at hv; cases hv
        | some vl =>
          obtain ⟨bl, rfl, il⟩ := ihl hc.1 hl h1
          cases bl with
          | false => rw [h1] at hv; cases hv; exact ⟨false, rfl, by simp [Cond.den, ← il]⟩
          | true =>
            cases h2 : eval fl row er with
            | none => rw [h1, h2] at hv; cases hv
            | some vr =>
              obtain ⟨br, rfl, ir⟩ := ihr hc.2 hr h2
              rw [h1, h2] at hv
              cases hv
              exact ⟨br, rfl, by simp [Cond.den, ← il, ← ir]⟩
  | or l r ihl ihr =>
    simp only [Cond.plain, Bool.and_eq_true] at hc
    simp only [Cond.sql, newExpr] at he
    cases hl : newExpr fl args l.sql with
    | err => rw [hl] at he; cases he
    | panic => rw [hl] at he; cases he
    | ok el =>
      cases hr : newExpr fl args r.sql with
      | err => rw [hl, hr] at he; cases he
      | panic => rw [hl, hr] at he; cases he
      | ok er =>
        rw [hl, hr] at he
        cases he
        simp only [eval] at hv
        cases h1 : eval fl row el with
        | none => rw [h1] at hv; cases hv
        | some vl =>
          obtain ⟨bl, rfl, il⟩ := ihl hc.1 hl h1
          cases bl with
          | true => rw [h1] at hv; cases hv; exact ⟨true, rfl, by simp [Cond.den, ← il]⟩
          | false =>
            cases h2 : eval fl row er with
            | none => rw [h1, h2] at hv; cases hv
            | some vr =>
              obtain ⟨br, rfl, ir⟩ := ihr hc.2 hr h2
              rw [h1, h2] at hv
              cases hv
              exact ⟨br, rfl, by simp [Cond.den, ← il, ← ir]⟩
  | bool b =>
    simp only [Cond.sql, newExpr] at he
    cases he
    simp only [eval] at hv
    cases hv
    exact ⟨b, rfl, Iff.rfl⟩
  | paren c ih =>
    simp only [Cond.sql, newExpr] at he
    exact ih hc he hv

/-- An 8-bit column against a literal which does not fit it: still the right answer, since
the left side of the `OR` decides. -/
example (fl : Floats Unit Unit) :
    ∃ e, newExpr fl [] (Cond.or (.cmp .lt (.col ['x']) (.lit 9)) (.cmp .gt (.col ['x']) (.lit 300))).sql = .ok e ∧
      eval fl (fun _ => some (Ty.val (.u .w8) 7)) e = some (.bool true) :=
  ⟨.or (.cmp .lt (.ident ['x']) (.value (.iint 9))) (.cmp .gt (.ident ['x']) (.value (.iint 300))),
    by rfl, by rfl⟩

/-- **C121, what fails.** `x < 300` on an 8-bit column: true for every entry, yet the query fails
with an error, since 300 is not a value of the type of the column. -/
theorem C121_literal_counterexample (fl : Floats F32 F64) (z : Int) (row : Row F32 F64)
    (h : row ['x'] = some (Ty.val (.u .w8) z)) (hz : (Ty.u .w8).has z) :
    z < 300 ∧ eval fl row (.cmp .lt (.ident ['x']) (.value (Ty.val .ii 300))) = none := by
  refine ⟨?_, ?_⟩
  · have := hz.2
    simp only [Ty.top, W.bits] at this
    omega
  · rw [C121_compare fl row .lt (t₁ := .u .w8) (t₂ := .ii) (a := z) (b := 300) (by simp only [eval, h])
      (by simp only [eval]) hz (by decide)]
    rfl

/-- **C121, what fails.** `x > 1.5` on an integer column is an error, whatever the literal. -/
theorem C121_float_literal_counterexample (fl : Floats F32 F64) (op : COp) (t : Ty) (ht : t.lit = false) (z : Int)
    (y : F64) (row : Row F32 F64) (h : row ['x'] = some (t.val z)) :
    eval fl row (.cmp op (.ident ['x']) (.value (.ifloat y))) = none := by
  cases t with
  | ii => cases ht
  | iu => cases ht
  | s w => cases w <;> simp [eval, h, coerced, coerce, sameIdeal, Ty.val, Val.ideal, coerce1, compare]
  | u w => cases w <;> simp [eval, h, coerced, coerce, sameIdeal, Ty.val, Val.ideal, coerce1, compare]

/-- **C121.** Floating-point columns: a literal is first converted to the type of the column;
integer literals too. -/
theorem C121_floats (fl : Floats F32 F64) (op : COp) (x : F32) (d y : F64) (z : Int) (hz : Ty.ii.has z)
    (row : Row F32 F64) (h : row ['x'] = some (.f32 x)) (h' : row ['d'] = some (.f64 d)) :
    eval fl row (.cmp op (.ident ['x']) (.value (.ifloat y))) =
        some (.bool (cmpFlt fl.s op x (fl.to32 y))) ∧
      eval fl row (.cmp op (.ident ['d']) (.value (.ifloat y))) = some (.bool (cmpFlt fl.d op d y)) ∧
      eval fl row (.cmp op (.ident ['x']) (.value (Ty.val .ii z))) =
        some (.bool (cmpFlt fl.s op x (fl.s.ofInt z))) ∧
      eval fl row (.cmp op (.ident ['d']) (.value (Ty.val .ii z))) =
        some (.bool (cmpFlt fl.d op d (fl.d.ofInt z))) ∧
      eval fl row (.cmp op (.value (.ifloat y)) (.value (Ty.val .ii z))) =
        some (.bool (cmpFlt fl.d op y (fl.d.ofInt z))) ∧
      eval fl row (.cmp op (.ident ['x']) (.ident ['d'])) = none := by
  have e := toInt64 hz
  refine ⟨?_, ?_, ?_, ?_, ?_, ?_⟩ <;>
    simp [eval, h, h', coerced, coerce, sameIdeal, Ty.val, Val.ideal, coerce1, compare, e]

/-- The meaning of a comparison. -/
def COp.inOrder {α : Type} [LinearOrder α] : COp → α → α → Prop
  | .lt, a, b => a < b
  | .gt, a, b => b < a
  | .le, a, b => a ≤ b
  | .ge, a, b => b ≤ a
  | .eq, a, b => a = b
  | .ne, a, b => a ≠ b

/-- **C121.** The comparison of two floating-point columns of one type is the order of their values; with a
NaN only `!=` holds.  `val` gives the values of the numbers, in any linear order; NaN has none. -/
theorem C121_float_order {α : Type} [LinearOrder α] (fl : Floats F32 F64) (val : F64 → Option α)
    (hlt : ∀ a b, fl.d.lt a b = true ↔ ∃ x y, val a = some x ∧ val b = some y ∧ x < y)
    (hle : ∀ a b, fl.d.le a b = true ↔ ∃ x y, val a = some x ∧ val b = some y ∧ x ≤ y)
    (heq : ∀ a b, fl.d.eq a b = true ↔ ∃ x y, val a = some x ∧ val b = some y ∧ x = y)
    (op : COp) (n m : List Char) (a b : F64) (row : Row F32 F64) (ha : row n = some (.f64 a)) (hb : row m = some (.f64 b)) :
    ∃ r, eval fl row (.cmp op (.ident n) (.ident m)) = some (.bool r) ∧
      (∀ x y, val a = some x → val b = some y → (r = true ↔ op.inOrder x y)) ∧
      (val a = none ∨ val b = none → (r = true ↔ op = .ne)) := by
  refine ⟨cmpFlt fl.d op a b, by simp [eval, ha, hb, coerced, coerce, Val.ideal, compare], ?_, ?_⟩
  · intro x y hx hy
    have e1 : fl.d.lt a b = true ↔ x < y := by rw [hlt, hx, hy]; simp
    have e2 : fl.d.lt b a = true ↔ y < x := by rw [hlt, hx, hy]; simp
    have e3 : fl.d.le a b = true ↔ x ≤ y := by rw [hle, hx, hy]; simp
    have e4 : fl.d.le b a = true ↔ y ≤ x := by rw [hle, hx, hy]; simp
    have e5 : fl.d.eq a b = true ↔ x = y := by
      rw [heq, hx, hy]
      simp only [Option.some.injEq]
      exact ⟨fun ⟨_, _, h1, h2, h3⟩ => by rw [h1, h2, h3], fun h => ⟨x, y, rfl, rfl, h⟩⟩
    cases op with
    | lt => exact e1
    | gt => exact e2
    | le => exact e3
    | ge => exact e4
    | eq => exact e5
    | ne =>
      simp only [cmpFlt, COp.inOrder, ne_eq, ← e5]
      simp
  · intro h
    have e1 := hlt a b
    have e2 := hlt b a
    have e3 := hle a b
    have e4 := hle b a
    have e5 := heq a b
    rcases h with h | h <;>
      (simp only [h, reduceCtorEq, false_and, and_false, exists_false, iff_false, Bool.not_eq_true] at e1 e2 e3 e4 e5
       cases op <;> simp [cmpFlt, e1, e2, e3, e4, e5])

/-- Integers with a NaN. -/
def exFlt : Flt (Option Int) where
  lt a b := match a, b with | some x, some y => decide (x < y) | _, _ => false
  le a b := match a, b with | some x, some y => decide (x ≤ y) | _, _ => false
  eq a b := match a, b with | some x, some y => decide (x = y) | _, _ => false
  add a b := match a, b with | some x, some y => some (x + y) | _, _ => none
  sub a b := match a, b with | some x, some y => some (x - y) | _, _ => none
  mul a b := match a, b with | some x, some y => some (x * y) | _, _ => none
  div a b := match a, b with | some x, some y => some (x / y) | _, _ => none
  ofInt := some

example : ∃ r, eval (⟨exFlt, exFlt, id, fun _ => none⟩ : Floats (Option Int) (Option Int))
      (fun n => if n = ['a'] then some (.f64 (some 2)) else some (.f64 none)) (.cmp .ne (.ident ['a']) (.ident ['b'])) =
        some (.bool r) ∧ r = true := by
  obtain ⟨r, h, -, h2⟩ := C121_float_order (⟨exFlt, exFlt, id, fun _ => none⟩ : Floats (Option Int) (Option Int)) id
    (by intro a b; cases a <;> cases b <;> simp [exFlt]) (by intro a b; cases a <;> cases b <;> simp [exFlt])
    (by intro a b; cases a <;> cases b <;> simp [exFlt, eq_comm]) .ne ['a'] ['b'] (some 2) none
    (fun n => if n = ['a'] then some (.f64 (some 2)) else some (.f64 none)) rfl rfl
  exact ⟨r, h, (h2 (.inr rfl)).mpr rfl⟩

/-- **C121.** Strings are compared byte by byte, as Go does, and only with strings; two
strings are equal when they have the same bytes. -/
theorem C121_strings (fl : Floats F32 F64) (a b : List UInt8) (row : Row F32 F64)
    (h : row ['s'] = some (.str a)) :
    eval fl row (.cmp .eq (.ident ['s']) (.value (.str b))) = some (.bool (decide (a = b))) ∧
      eval fl row (.cmp .ne (.ident ['s']) (.value (.str b))) = some (.bool (decide (a ≠ b))) ∧
      ∀ op (x : Val F32 F64), (∀ c, x ≠ .str c) → eval fl row (.cmp op (.ident ['s']) (.value x)) = none := by
  refine ⟨?_, ?_, ?_⟩
  · simp [eval, h, coerced, coerce, sameIdeal, Val.ideal, compare, cmpStr]
  · simp [eval, h, coerced, coerce, sameIdeal, Val.ideal, compare, cmpStr]
  · intro op x hx
    cases x <;> first
      | exact absurd rfl (hx _)
      | simp [eval, h, coerced, coerce, sameIdeal, Val.ideal, coerce1, compare]

/-- The order of two byte strings. -/
inductive BLt : List UInt8 → List UInt8 → Prop
  | nil (b : UInt8) (t : List UInt8) : BLt [] (b :: t)
  | head {a b : UInt8} (s t : List UInt8) : a < b → BLt (a :: s) (b :: t)
  | tail (a : UInt8) {s t : List UInt8} : BLt s t → BLt (a :: s) (a :: t)

theorem bytesLt_iff (a b : List UInt8) : bytesLt a b = true ↔ BLt a b := by
  induction a generalizing b with
  | nil =>
    cases b with
    | nil => simp [bytesLt]; intro h; cases h
    | cons b t => simp [bytesLt]; exact .nil b t
  | cons a s ih =>
    cases b with
    | nil => simp [bytesLt]; intro h; cases h
    | cons b t =>
      simp only [bytesLt, Bool.or_eq_true, decide_eq_true_eq, Bool.and_eq_true, ih]
      constructor
      · rintro (h | ⟨rfl, h⟩)
        · exact .head _ _ h
        · exact .tail _ h
      · intro h
        cases h with
        | head _ _ h => exact .inl h
        | tail _ h => exact .inr ⟨rfl, h⟩

/-- **C121.** The order of strings. -/
theorem C121_string_order (fl : Floats F32 F64) (a b : List UInt8) (row : Row F32 F64)
    (h : row ['s'] = some (.str a)) (op : COp) (p : Bool)
    (he : eval fl row (.cmp op (.ident ['s']) (.value (.str b))) = some (.bool p)) :
    (op = .lt → (p = true ↔ BLt a b)) ∧ (op = .gt → (p = true ↔ BLt b a)) ∧
      (op = .le → (p = true ↔ ¬ BLt b a)) ∧ (op = .ge → (p = true ↔ ¬ BLt a b)) := by
  simp [eval, h, coerced, coerce, sameIdeal, Val.ideal, compare] at he
  subst he
  refine ⟨?_, ?_, ?_, ?_⟩ <;> rintro rfl <;> simp only [cmpStr, ← bytesLt_iff] <;> simp

/-! ### Arguments -/

/-- **C121.** The argument number `n` of a query stands for its value, as if it were written. -/
theorem C121_argument (fl : Floats F32 F64) (args : List (Arg F64)) (i : Nat)
    (hsmall : i + 1 < 2 ^ 63) (x : BitVec 64) (h : args[i]? = some (.int x)) :
    newExpr fl args (.arg (Strconv.formatInt (i + 1))) = .ok (.value (.iint x : Val F32 F64)) := by
  have e : Strconv.parseInt 64 (Strconv.formatInt ((i : Int) + 1)) = some ((i : Int) + 1) :=
    Strconv.parseInt_format (by norm_num; omega) (by norm_num at hsmall ⊢; omega)
  simp only [newExpr, argExpr, e]
  have e1 : ((i : Int) + 1 - 1) = i := by omega
  simp [h, idealArg, Out.bind]

example (fl : Floats Unit Unit) : newExpr fl [.other, .int 5] (.arg ['2']) = .ok (.value (.iint 5)) := rfl

/-- **C121, what fails.** A query with fewer arguments than places, or with a boolean argument,
panics in the caller instead of returning an error. -/
theorem C121_argument_counterexample (fl : Floats F32 F64) :
    newExpr (F32 := F32) fl [] (.op (.c .gt) (.col ['x']) (.arg ['1'])) = .panic ∧
      newExpr (F32 := F32) fl [.other] (.op (.c .eq) (.col ['b']) (.arg ['1'])) = .panic :=
  ⟨rfl, rfl⟩

end

end Verif.Rsql
