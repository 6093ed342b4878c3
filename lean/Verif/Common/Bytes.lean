/-!
# Byte encodings shared by all areas

`encoding/binary` from the Go standard library, modelled on natural numbers:
`beEnc k n` are the `k` big-endian bytes of `n` (the value is truncated to `k`
bytes, as a Go conversion to the fixed-width type would do), `beDec` reads them.
`leEnc`/`leDec` are the little-endian counterparts.
-/

namespace Verif

/-- `binary.BigEndian.PutUintN` with `N = 8*k` (Go standard library). -/
def beEnc : Nat → Nat → List UInt8
  | 0, _ => []
  | k + 1, n => UInt8.ofNat (n / 256 ^ k) :: beEnc k n

/-- `binary.BigEndian.UintN` with `N = 8*len` (Go standard library). -/
def beDec (bs : List UInt8) : Nat :=
  bs.foldl (fun a b => a * 256 + b.toNat) 0

/-- `binary.LittleEndian.PutUintN` with `N = 8*k` (Go standard library). -/
def leEnc : Nat → Nat → List UInt8
  | 0, _ => []
  | k + 1, n => UInt8.ofNat n :: leEnc k (n / 256)

/-- `binary.LittleEndian.UintN` with `N = 8*len` (Go standard library). -/
def leDec : List UInt8 → Nat
  | [] => 0
  | b :: bs => b.toNat + 256 * leDec bs

@[simp] theorem length_beEnc (k n : Nat) : (beEnc k n).length = k := by
  induction k with
  | zero => rfl
  | succ k ih => simp [beEnc, ih]

@[simp] theorem length_leEnc (k n : Nat) : (leEnc k n).length = k := by
  induction k generalizing n with
  | zero => rfl
  | succ k ih => simp [leEnc, ih]

theorem foldl_be (bs : List UInt8) (a : Nat) :
    bs.foldl (fun a b => a * 256 + b.toNat) a = a * 256 ^ bs.length + beDec bs := by
  induction bs generalizing a with
  | nil => simp [beDec]
  | cons b bs ih =>
    simp only [List.foldl_cons, beDec, List.length_cons]
    rw [ih, ih]
    rw [Nat.pow_succ, Nat.add_mul, Nat.mul_assoc, Nat.mul_comm 256, Nat.zero_mul, Nat.zero_add]
    omega

theorem beDec_cons (b : UInt8) (bs : List UInt8) :
    beDec (b :: bs) = b.toNat * 256 ^ bs.length + beDec bs := by
  have := foldl_be bs b.toNat
  simpa [beDec] using this

theorem beDec_beEnc (k n : Nat) : beDec (beEnc k n) = n % 256 ^ k := by
  induction k with
  | zero => simp [beEnc, beDec, Nat.mod_one]
  | succ k ih =>
    rw [beEnc, beDec_cons, ih, length_beEnc]
    have h : (UInt8.ofNat (n / 256 ^ k)).toNat = n / 256 ^ k % 256 := by
      simp [UInt8.toNat_ofNat']
    rw [h, Nat.pow_succ, Nat.mod_mul, Nat.mul_comm, Nat.add_comm]

theorem leDec_leEnc (k n : Nat) : leDec (leEnc k n) = n % 256 ^ k := by
  induction k generalizing n with
  | zero => simp [leEnc, leDec, Nat.mod_one]
  | succ k ih =>
    rw [leEnc, leDec, ih]
    have h : (UInt8.ofNat n).toNat = n % 256 := by
      simp [UInt8.toNat_ofNat']
    rw [h, Nat.pow_succ, Nat.mul_comm (256 ^ k), Nat.mod_mul]

theorem beDec_lt (bs : List UInt8) : beDec bs < 256 ^ bs.length := by
  induction bs with
  | nil => simp [beDec]
  | cons b bs ih =>
    rw [beDec_cons, List.length_cons, Nat.pow_succ]
    have := b.toNat_lt
    have h2 : b.toNat * 256 ^ bs.length ≤ 255 * 256 ^ bs.length :=
      Nat.mul_le_mul_right _ (by omega)
    omega

theorem leDec_lt (bs : List UInt8) : leDec bs < 256 ^ bs.length := by
  induction bs with
  | nil => simp [leDec]
  | cons b bs ih =>
    rw [leDec, List.length_cons, Nat.pow_succ]
    have := b.toNat_lt
    omega

theorem beDec_beEnc_of_lt {k n : Nat} (h : n < 256 ^ k) : beDec (beEnc k n) = n := by
  rw [beDec_beEnc, Nat.mod_eq_of_lt h]

theorem leDec_leEnc_of_lt {k n : Nat} (h : n < 256 ^ k) : leDec (leEnc k n) = n := by
  rw [leDec_leEnc, Nat.mod_eq_of_lt h]

end Verif
