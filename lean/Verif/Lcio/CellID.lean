import Verif.Common.Decimal
import Mathlib.Tactic.Positivity
import Mathlib.Tactic.Ring

/-!
# Model of the cell-ID decoder of `lcio`

Strings are lists of bytes.  Go's `int` and `int64` are 64 bits wide: integers kept as
`Int` are wrapped with `i64` after each arithmetic operation, bit patterns are
`BitVec 64`.  A Go panic is `none`.
-/

namespace Verif.Lcio

/-- Wrap-around of 64-bit signed arithmetic. -/
def i64 (x : Int) : Int := x.bmod (2 ^ 64)

/-- Conversion `uint64(n)` of an `int`, as a shift count. -/
def shiftCount (n : Int) : Nat := (n % 2 ^ 64).toNat

/-- `x << n` on `int64`: shifting by 64 or more gives 0. -/
def shl (x : BitVec 64) (n : Nat) : BitVec 64 := if 64 ≤ n then 0#64 else x <<< n

/-- `x >> n` on `int64`: an arithmetic shift. -/
def sar (x : BitVec 64) (n : Nat) : BitVec 64 := if 64 ≤ n then x.sshiftRight 63 else x.sshiftRight n

/-- lcio/cellid.go:158-163 (`iabs`). -/
def iabs (v : Int) : Int := if v < 0 then i64 (-v) else v

/-- lcio/cellid.go:137-144 (`bitFieldValue`); the pointer to the shared bits is an
argument of `value`. -/
structure Field where
  mask : BitVec 64
  name : List UInt8
  offset : Int
  width : Int
  signed : Bool
deriving DecidableEq, Repr

/-- The end of the body of the loop of lcio/cellid.go:63-107 (`newBitField64`). -/
def mkField (name : List UInt8) (offset width : Int) : Field :=
  let w := iabs width
  { name := name, offset := offset, width := w, signed := decide (width < 0)
    mask := shl (shl 1#64 (shiftCount w) - 1#64) (shiftCount offset) }

/-- One token of the loop of lcio/cellid.go:63-107 (`newBitField64`): the field and the next
value of `cur`. -/
def parseTok (cur : Int) (tok : List UInt8) : Option (Field × Int) :=
  match splitOn 58 tok with
  | [name, w] => match atoi w with
    | some width => some (mkField name cur width, i64 (cur + iabs width))
    | none => none
  | [name, o, w] => match atoi o, atoi w with
    | some offset, some width => some (mkField name offset width, i64 (offset + iabs width))
    | _, _ => none
  | _ => none

/-- The loop of lcio/cellid.go:63-107 (`newBitField64`). -/
def parseToks : Int → List (List UInt8) → Option (List Field)
  | _, [] => some []
  | cur, tok :: toks => match parseTok cur tok with
    | none => none
    | some (f, cur) => match parseToks cur toks with
      | none => none
      | some fs => some (f :: fs)

/-- lcio/cellid.go:63-107 (`newBitField64`), the body of lcio/cellid.go:23-28 (`NewCellIDDecoder`). -/
def newBitField64 (codec : List UInt8) : Option (List Field) := parseToks 0 (splitOn 44 codec)

/-- The index map filled at lcio/cellid.go:102-105: the last field of a given name wins and
a name that is missing has index 0. -/
def indexFrom : Nat → List Field → List UInt8 → Nat → Nat
  | _, [], _, acc => acc
  | i, f :: fs, name, acc => indexFrom (i + 1) fs name (if f.name = name then i else acc)

/-- lcio/cellid.go:146-156 (`bitFieldValue.value`); `&` and `>>` associate to the left. -/
def Field.value (f : Field) (bits : BitVec 64) : BitVec 64 :=
  let v := sar (bits &&& f.mask) (shiftCount f.offset)
  if f.signed then
    if v &&& shl 1#64 (shiftCount (i64 (f.width - 1))) ≠ 0#64 then v - shl 1#64 (shiftCount f.width) else v
  else v

/-- lcio/cellid.go:53-55 (`CellIDDecoder.value`): the two 32-bit words of a hit. -/
def hitValue (id0 id1 : BitVec 32) : BitVec 64 :=
  (id0.signExtend 64 &&& 0xffffffff#64) ||| shl (id1.signExtend 64) 32

/-- lcio/cellid.go:38-42 (`CellIDDecoder.Get`). -/
def get (fs : List Field) (id0 id1 : BitVec 32) (name : List UInt8) : Option Int :=
  match fs[indexFrom 0 fs name 0]? with
  | some f => some (f.value (hitValue id0 id1)).toInt
  | none => none

/-- lcio/cellid.go:109-123 (`bitField64.Description`). -/
def description : List Field → List UInt8
  | [] => []
  | [f] => f.name ++ 58 :: (intEnc f.offset ++ 58 :: intEnc (if f.signed then i64 (-f.width) else f.width))
  | f :: fs =>
    (f.name ++ 58 :: (intEnc f.offset ++ 58 :: intEnc (if f.signed then i64 (-f.width) else f.width))) ++
      44 :: description fs

/-- lcio/cellid.go:125-135 (`bitField64.valueString`). -/
def valueString (bits : BitVec 64) : List Field → List UInt8
  | [] => []
  | [f] => f.name ++ 58 :: intEnc (f.value bits).toInt
  | f :: fs => (f.name ++ 58 :: intEnc (f.value bits).toInt) ++ 44 :: valueString bits fs

/-! ## Specification -/

/-- The number formed by bits `off` to `off + w - 1` of `n`. -/
def bitsOf (n off w : Nat) : Nat := n / 2 ^ off % 2 ^ w

/-- The same bits as a two's complement number. -/
def bitsOfSigned (n off w : Nat) : Int :=
  if 2 * bitsOf n off w < 2 ^ w then (bitsOf n off w : Int) else (bitsOf n off w : Int) - 2 ^ w

/-- The value a field with signed width `width` at offset `off` stands for. -/
def fieldSpec (n off : Nat) (width : Int) : Int :=
  if width < 0 then bitsOfSigned n off width.natAbs else bitsOf n off width.natAbs

/-! ## Proofs -/

theorem shiftCount_nat (n : Nat) (h : n ≤ 64) : shiftCount (n : Int) = n := by
  unfold shiftCount; omega

theorem i64_small (x : Int) (h1 : -(2 ^ 63) ≤ x) (h2 : x < 2 ^ 63) : i64 x = x := by
  unfold i64
  exact Int.bmod_eq_of_le (by omega) (by omega)

theorem iabs_small (x : Int) (h1 : -(2 ^ 63) < x) : iabs x = x.natAbs := by
  unfold iabs
  split
  · by_cases h : -x < 2 ^ 63
    · rw [i64_small _ (by omega) h]; omega
    · omega
  · omega

/-- Selecting bits `off` to `off + w - 1`. -/
theorem and_mask_toNat (x : BitVec 64) (off w : Nat) (h : off + w ≤ 64) (h0 : off < 64) :
    (x &&& shl (shl 1#64 w - 1#64) off).toNat = bitsOf x.toNat off w * 2 ^ off := by
  apply Nat.eq_of_testBit_eq
  intro i
  rw [BitVec.toNat_and, Nat.testBit_and]
  have e : (shl (shl 1#64 w - 1#64) off).toNat = (2 ^ w - 1) * 2 ^ off := by
    have hm : (shl 1#64 w - 1#64).toNat = 2 ^ w - 1 := by
      unfold shl
      split
      · have : w = 64 := by omega
        subst this; rfl
      · have hw : 2 ^ w < 2 ^ 64 := Nat.pow_lt_pow_right (by omega) (by omega)
        have hp : 0 < 2 ^ w := Nat.two_pow_pos w
        rw [BitVec.toNat_sub, BitVec.toNat_shiftLeft]
        simp only [BitVec.toNat_ofNat, Nat.shiftLeft_eq]
        rw [Nat.mod_eq_of_lt (show 1 % 2 ^ 64 * 2 ^ w < 2 ^ 64 by simpa using hw)]
        omega
    rw [show ∀ y, shl y off = y <<< off from fun y => if_neg (by omega), BitVec.toNat_shiftLeft, hm, Nat.shiftLeft_eq]
    apply Nat.mod_eq_of_lt
    calc (2 ^ w - 1) * 2 ^ off < 2 ^ w * 2 ^ off :=
          Nat.mul_lt_mul_of_pos_right (by have := Nat.two_pow_pos w; omega) (Nat.two_pow_pos off)
      _ = 2 ^ (w + off) := (Nat.pow_add ..).symm
      _ ≤ 2 ^ 64 := Nat.pow_le_pow_right (by omega) (by omega)
  rw [e, bitsOf, Nat.testBit_mul_two_pow, Nat.testBit_mul_two_pow, Nat.testBit_two_pow_sub_one,
    Nat.testBit_mod_two_pow, Nat.testBit_div_two_pow]
  by_cases hi : off ≤ i
  · have : i - off + off = i := by omega
    by_cases hj : i - off < w <;> simp [hi, hj, this]
  · simp [hi]

theorem bitsOf_lt (n off w : Nat) : bitsOf n off w < 2 ^ w := Nat.mod_lt _ (Nat.two_pow_pos w)

theorem shl_one_eq (w : Nat) (h : w ≤ 64) : shl 1#64 w = BitVec.ofInt 64 (2 ^ w) := by
  rcases Nat.lt_or_ge w 64 with hw | hw
  · unfold shl
    rw [if_neg (by omega)]
    apply BitVec.eq_of_toNat_eq
    have : (2 : Nat) ^ w < 2 ^ 64 := Nat.pow_lt_pow_right (by omega) hw
    rw [BitVec.toNat_shiftLeft, Nat.shiftLeft_eq, BitVec.toNat_ofInt]
    simp only [BitVec.toNat_ofNat]
    rw [show ((2 : Int) ^ w) = ((2 ^ w : Nat) : Int) by norm_cast]
    omega
  · have : w = 64 := by omega
    subst this; rfl

theorem and_bit (v : BitVec 64) (k : Nat) (hk : k < 64) : v &&& shl 1#64 k ≠ 0#64 ↔ v.getLsbD k = true := by
  have e : shl 1#64 k = 1#64 <<< k := if_neg (by omega)
  rw [e]
  constructor
  · intro h
    cases hb : v.getLsbD k with
    | true => rfl
    | false =>
      exfalso; apply h
      apply BitVec.eq_of_getLsbD_eq
      intro i hi
      by_cases hik : i = k
      · subst hik; simp [hb]
      · have : (1#64 <<< k).getLsbD i = false := by
          rw [BitVec.getLsbD_shiftLeft, BitVec.getLsbD_one]
          simp only [hi, decide_true, Bool.true_and]
          by_cases h2 : i < k
          · simp [h2]
          · have : i - k ≠ 0 := by omega
            simp [this]
        simp [this]
  · intro h h0
    have : (v &&& 1#64 <<< k).getLsbD k = true := by
      rw [BitVec.getLsbD_and, h, BitVec.getLsbD_shiftLeft]
      simp [hk]
    rw [h0] at this
    simp at this

theorem sar_toInt (x : BitVec 64) (off m : Nat) (h0 : off < 64) (hx : x.toNat = m * 2 ^ off) :
    (sar x off).toInt = if 2 * (m * 2 ^ off) < 2 ^ 64 then (m : Int) else (m : Int) - 2 ^ (64 - off) := by
  unfold sar
  rw [if_neg (by omega), BitVec.toInt_sshiftRight, Int.shiftRight_eq_div_pow, BitVec.toInt_eq_toNat_cond, hx]
  have hp : (2 : Int) ^ off ≠ 0 := by positivity
  split
  · rw [Int.natCast_mul, Int.natCast_pow]
    exact Int.mul_ediv_cancel _ hp
  · have e : (((m * 2 ^ off : Nat) : Int) - ((2 ^ 64 : Nat) : Int)) = ((m : Int) - 2 ^ (64 - off)) * 2 ^ off := by
      rw [Int.sub_mul, ← Int.pow_add, show 64 - off + off = 64 by omega]
      norm_cast
    rw [e]
    exact Int.mul_ediv_cancel _ hp

theorem sar_bit (x : BitVec 64) (off w m : Nat) (h : off + w ≤ 64) (hw : 0 < w) (hm : m < 2 ^ w)
    (hx : x.toNat = m * 2 ^ off) : (sar x off).getLsbD (w - 1) = true ↔ 2 ^ w ≤ 2 * m := by
  unfold sar
  rw [if_neg (by omega), BitVec.getLsbD_sshiftRight, if_pos (by omega)]
  have : ¬ 64 ≤ w - 1 := by omega
  simp only [this, decide_false, Bool.not_false, Bool.true_and]
  rw [BitVec.getLsbD, hx, Nat.testBit_mul_two_pow]
  have e1 : off + (w - 1) - off = w - 1 := by omega
  simp only [e1, Nat.le_add_right, decide_true, Bool.true_and]
  obtain ⟨k, rfl⟩ : ∃ k, w = k + 1 := ⟨w - 1, by omega⟩
  simp only [Nat.add_sub_cancel]
  rw [Nat.testBit_eq_decide_div_mod_eq]
  have hk := Nat.two_pow_pos k
  rw [Nat.pow_succ] at hm ⊢
  have hd : m / 2 ^ k < 2 := by rw [Nat.div_lt_iff_lt_mul hk]; omega
  have : m / 2 ^ k = 1 ↔ 2 ^ k ≤ m := by
    constructor
    · intro h1
      have := Nat.div_mul_le_self m (2 ^ k)
      rw [h1] at this; omega
    · intro h1
      have : 1 ≤ m / 2 ^ k := by rw [Nat.le_div_iff_mul_le hk]; omega
      omega
  simp only [decide_eq_true_eq]
  rw [Nat.mod_eq_of_lt hd, this]
  omega

theorem ofInt_sub' (a b : Int) : BitVec.ofInt 64 a - BitVec.ofInt 64 b = BitVec.ofInt 64 (a - b) := by
  apply BitVec.eq_of_toInt_eq
  rw [BitVec.toInt_sub, BitVec.toInt_ofInt, BitVec.toInt_ofInt, BitVec.toInt_ofInt]
  simp

theorem natAbs_two_pow_dvd {w : Nat} (h : ((2 : Int) ^ 64) ∣ 2 ^ w) : 64 ≤ w := by
  have : (2 : Nat) ^ 64 ∣ 2 ^ w := by exact_mod_cast h
  exact (Nat.pow_dvd_pow_iff_le_right (by omega)).mp this

/-- The value of a field, by cases on its top bit being bit 63 and set. -/
theorem value_cases (name : List UInt8) (off : Nat) (width : Int) (n : BitVec 64)
    (h : off + width.natAbs ≤ 64) (h0 : width ≠ 0) :
    ((2 * bitsOf n.toNat off width.natAbs * 2 ^ off < 2 ^ 64 ∨ width = -64) →
      ((mkField name off width).value n).toInt = fieldSpec n.toNat off width) ∧
    (2 ^ 64 ≤ 2 * bitsOf n.toNat off width.natAbs * 2 ^ off → width ≠ -64 →
      ((mkField name off width).value n).toInt ≠ fieldSpec n.toNat off width) := by
  have hia : iabs width = width.natAbs := iabs_small _ (by omega)
  obtain ⟨w, hw⟩ : ∃ w, w = width.natAbs := ⟨_, rfl⟩
  have hw0 : 0 < w := by omega
  rw [← hw] at h ⊢
  have hm := bitsOf_lt n.toNat off w
  obtain ⟨m, hmd⟩ : ∃ m, m = bitsOf n.toNat off w := ⟨_, rfl⟩
  have hx := and_mask_toNat n off w h (by omega)
  rw [← hmd] at hx hm ⊢
  have hv : (mkField name off width).value n =
      if width < 0 then
        if sar (n &&& shl (shl 1#64 w - 1#64) off) off &&& shl 1#64 (w - 1) ≠ 0#64 then
          sar (n &&& shl (shl 1#64 w - 1#64) off) off - shl 1#64 w
        else sar (n &&& shl (shl 1#64 w - 1#64) off) off
      else sar (n &&& shl (shl 1#64 w - 1#64) off) off := by
    unfold Field.value mkField
    simp only [hia, ← hw]
    rw [shiftCount_nat w (by omega), shiftCount_nat off (by omega), i64_small _ (by omega) (by omega),
      show ((w : Int) - 1) = ((w - 1 : Nat) : Int) by omega, shiftCount_nat _ (by omega)]
    simp only [decide_eq_true_eq]
  have hs := sar_toInt _ off m (by omega) hx
  have hb := sar_bit _ off w m h hw0 hm hx
  rw [← and_bit _ _ (by omega)] at hb
  generalize sar (n &&& shl (shl 1#64 w - 1#64) off) off = v at hv hs hb
  rw [hv]
  have hpw : (2 : Int) ^ w = ((2 ^ w : Nat) : Int) := by norm_cast
  have hspec : fieldSpec n.toNat off width =
      if width < 0 then (if 2 * m < 2 ^ w then (m : Int) else (m : Int) - 2 ^ w) else (m : Int) := by
    unfold fieldSpec bitsOfSigned
    rw [← hw, ← hmd]
  rw [hspec]
  have hpow : (2 : Nat) ^ w * 2 ^ off ≤ 2 ^ 64 := by
    rw [← Nat.pow_add]; exact Nat.pow_le_pow_right (by omega) (by omega)
  have hwp : (2 : Nat) ^ w ≤ 2 ^ 64 := Nat.pow_le_pow_right (by omega) (by omega)
  have hpos : 0 < (2 : Nat) ^ off := Nat.two_pow_pos off
  rw [Nat.mul_assoc]
  by_cases htop : 2 * (m * 2 ^ off) < 2 ^ 64
  · rw [if_pos htop] at hs
    refine ⟨fun _ => ?_, fun hc => absurd hc (by omega)⟩
    by_cases hsg : width < 0
    · rw [if_pos hsg, if_pos hsg]
      by_cases h2 : 2 ^ w ≤ 2 * m
      · rw [if_pos (hb.mpr h2), if_neg (by omega)]
        have e : v = BitVec.ofInt 64 (m : Int) := by
          rw [← hs, BitVec.ofInt_toInt]
        rw [e, shl_one_eq w (by omega), ofInt_sub', BitVec.toInt_ofInt, hpw]
        apply Int.bmod_eq_of_le <;> omega
      · rw [if_neg (fun hc => h2 (hb.mp hc)), if_pos (by omega), hs]
    · rw [if_neg hsg, if_neg hsg, hs]
  · rw [if_neg htop] at hs
    -- the top bit of the field is bit 63
    have hoff : off + w = 64 := by
      rcases Nat.lt_or_ge (off + w) 64 with hlt | hge
      · exfalso
        apply htop
        have h1 : m * 2 ^ off < 2 ^ w * 2 ^ off := Nat.mul_lt_mul_of_pos_right hm hpos
        have h2 : (2 : Nat) ^ w * 2 ^ off ≤ 2 ^ 63 := by
          rw [← Nat.pow_add]; exact Nat.pow_le_pow_right (by omega) (by omega)
        omega
      · omega
    rw [show 64 - off = w by omega] at hs
    have h2 : 2 ^ w ≤ 2 * m := by
      have : (2 : Nat) ^ w * 2 ^ off = 2 ^ 64 := by rw [← Nat.pow_add, show w + off = 64 by omega]
      have h3 : 2 ^ w * 2 ^ off ≤ (2 * m) * 2 ^ off := by rw [this, Nat.mul_assoc]; omega
      exact Nat.le_of_mul_le_mul_right h3 hpos
    have e : v = BitVec.ofInt 64 ((m : Int) - 2 ^ w) := by rw [← hs, BitVec.ofInt_toInt]
    have hsub : (v - shl 1#64 w).toInt = ((m : Int) - 2 ^ w - 2 ^ w).bmod (2 ^ 64) := by
      rw [e, shl_one_eq w (by omega), ofInt_sub', BitVec.toInt_ofInt]
    by_cases hsg : width < 0
    · rw [if_pos hsg, if_pos hsg, if_pos (hb.mpr h2), if_neg (by omega), hsub]
      constructor
      · rintro (hc | hc)
        · omega
        · have hw64 : w = 64 := by omega
          subst hw64
          have := hs
          rw [BitVec.toInt_eq_toNat_cond] at this
          have hvl := v.isLt
          have : (m : Int) - 2 ^ 64 - 2 ^ 64 = ((m : Int) - 2 ^ 64) - ((2 ^ 64 : Nat) : Int) := by norm_num
          rw [this, Int.sub_bmod_right]
          apply Int.bmod_eq_of_le <;> omega
      · intro _ hw64 hc
        have h4 : ((2 : Int) ^ 64) ∣ ((m : Int) - 2 ^ w) - ((m : Int) - 2 ^ w - 2 ^ w) := by
          conv => rhs; lhs; rw [← hc]
          have := Int.dvd_bmod_sub_self (x := (m : Int) - 2 ^ w - 2 ^ w) (m := 2 ^ 64)
          exact_mod_cast this
        rw [show ((m : Int) - 2 ^ w) - ((m : Int) - 2 ^ w - 2 ^ w) = 2 ^ w by ring] at h4
        have := natAbs_two_pow_dvd h4
        omega
    · rw [if_neg hsg, if_neg hsg, hs]
      refine ⟨fun hc => by omega, fun _ _ => ?_⟩
      have : 0 < (2 : Nat) ^ w := Nat.two_pow_pos w
      omega

theorem hitValue_toNat (id0 id1 : BitVec 32) : (hitValue id0 id1).toNat = id0.toNat + 2 ^ 32 * id1.toNat := by
  have e : hitValue id0 id1 = id1 ++ id0 := by
    unfold hitValue shl
    rw [if_neg (by omega)]
    apply BitVec.eq_of_getLsbD_eq
    intro i hi
    have hm : (0xffffffff#64).getLsbD i = decide (i < 32) := by
      have : 0xffffffff#64 = BitVec.setWidth 64 (BitVec.allOnes 32) := by decide
      rw [this, BitVec.getLsbD_setWidth, BitVec.getLsbD_allOnes]
      simp [hi]
    rw [BitVec.getLsbD_or, BitVec.getLsbD_and, hm, BitVec.getLsbD_signExtend, BitVec.getLsbD_shiftLeft,
      BitVec.getLsbD_signExtend, BitVec.getLsbD_append]
    by_cases h : i < 32
    · simp [h, hi]
    · have h2 : i - 32 < 32 := by omega
      have h3 : i - 32 < 64 := by omega
      simp [h, hi, h2, h3]
  rw [e, BitVec.toNat_append, ← Nat.shiftLeft_add_eq_or_of_lt id0.isLt, Nat.shiftLeft_eq]
  omega

/-! ## Codecs -/

/-- A field of a codec string: `name:width`, or `name:offset:width`. -/
structure Desc where
  name : List UInt8
  offset : Option Int
  width : Int
deriving DecidableEq, Repr

/-- The text of a field. -/
def Desc.text (d : Desc) : List UInt8 :=
  match d.offset with
  | none => d.name ++ 58 :: intEnc d.width
  | some o => d.name ++ 58 :: (intEnc o ++ 58 :: intEnc d.width)

/-- The codec string: the fields separated by commas. -/
def codecText : List Desc → List UInt8
  | [] => []
  | [d] => d.text
  | d :: ds => d.text ++ 44 :: codecText ds

/-- Where the fields lie: at their offset if they have one, otherwise after the previous
field. -/
def layout : Int → List Desc → List (List UInt8 × Int × Int)
  | _, [] => []
  | cur, d :: ds =>
    let o := d.offset.getD cur
    (d.name, o, d.width) :: layout (o + d.width.natAbs) ds

/-- Names without separators, numbers of reasonable size. -/
def DescOk (d : Desc) : Prop :=
  44 ∉ d.name ∧ 58 ∉ d.name ∧ d.width.natAbs ≤ 2 ^ 31 ∧ ∀ o, d.offset = some o → o.natAbs ≤ 2 ^ 31

theorem sep_text {d : Desc} (h : DescOk d) : 44 ∉ d.text := by
  have h1 : ∀ z, (44 : UInt8) ∉ intEnc z := not_mem_intEnc (by decide) (by decide)
  unfold Desc.text
  cases d.offset <;> simp [h.1, h1]

theorem splitOn_codec {ds : List Desc} (hne : ds ≠ []) (h : ∀ d ∈ ds, DescOk d) :
    splitOn 44 (codecText ds) = ds.map Desc.text := by
  induction ds with
  | nil => exact absurd rfl hne
  | cons d ds ih =>
    cases ds with
    | nil => exact splitOn_no_sep _ _ (sep_text (h d (by simp)))
    | cons e ds =>
      rw [codecText, splitOn_append _ _ _ (sep_text (h d (by simp))), ih (by simp) (fun x hx => h x (by simp [hx]))]
      · rfl
      · simp

theorem parseTok_text {d : Desc} (h : DescOk d) (cur : Int) (hc : cur.natAbs ≤ 2 ^ 62) :
    parseTok cur d.text = some (mkField d.name (d.offset.getD cur) d.width, d.offset.getD cur + d.width.natAbs) := by
  obtain ⟨h1, h2, h3, h4⟩ := h
  have hs : ∀ z, (58 : UInt8) ∉ intEnc z := not_mem_intEnc (by decide) (by decide)
  unfold parseTok Desc.text
  cases ho : d.offset with
  | none =>
    simp only
    rw [splitOn_append _ _ _ h2, splitOn_no_sep _ _ (hs _)]
    simp only [atoi_intEnc d.width (by omega) (by omega)]
    rw [iabs_small _ (by omega), i64_small _ (by omega) (by omega)]
    rfl
  | some o =>
    have := h4 o ho
    simp only
    rw [splitOn_append _ _ _ h2, splitOn_append _ _ _ (hs _), splitOn_no_sep _ _ (hs _)]
    simp only [atoi_intEnc d.width (by omega) (by omega), atoi_intEnc o (by omega) (by omega)]
    rw [iabs_small _ (by omega), i64_small _ (by omega) (by omega)]
    rfl

/-- The fields of a layout. -/
def fieldsOf (l : List (List UInt8 × Int × Int)) : List Field := l.map fun x => mkField x.1 x.2.1 x.2.2

theorem parseToks_text (ds : List Desc) (h : ∀ d ∈ ds, DescOk d) (cur : Int)
    (hl : ds.length ≤ 2 ^ 30) (hc : cur.natAbs + ds.length * 2 ^ 31 ≤ 2 ^ 62) :
    parseToks cur (ds.map Desc.text) = some (fieldsOf (layout cur ds)) := by
  induction ds generalizing cur with
  | nil => rfl
  | cons d ds ih =>
    have hd := h d (by simp)
    simp only [List.length_cons] at hc hl
    simp only [List.map_cons, parseToks, parseTok_text hd cur (by omega)]
    rw [ih (fun x hx => h x (by simp [hx])) _ (by omega)]
    · rfl
    · obtain ⟨-, -, h3, h4⟩ := hd
      cases ho : d.offset with
      | none => simp only [Option.getD_none]; omega
      | some o => have := h4 o ho; simp only [Option.getD_some]; omega

theorem indexFrom_not {fs : List Field} {name : List UInt8} (h : ∀ f ∈ fs, f.name ≠ name) (k acc : Nat) :
    indexFrom k fs name acc = acc := by
  induction fs generalizing k acc with
  | nil => rfl
  | cons f fs ih =>
    rw [indexFrom, if_neg (h f (by simp)), ih (fun g hg => h g (by simp [hg]))]

theorem indexFrom_last {fs : List Field} {name : List UInt8} {i : Nat} {f : Field} (hi : fs[i]? = some f)
    (hn : f.name = name) (hl : ∀ g ∈ fs.drop (i + 1), g.name ≠ name) (k acc : Nat) :
    indexFrom k fs name acc = k + i := by
  induction fs generalizing k acc i with
  | nil => simp at hi
  | cons g fs ih =>
    cases i with
    | zero =>
      simp only [List.getElem?_cons_zero, Option.some.injEq] at hi
      subst hi
      rw [indexFrom, if_pos hn, indexFrom_not (by simpa using hl)]
      omega
    | succ i =>
      rw [indexFrom, ih (by simpa using hi) (by simpa using hl)]
      omega

end Verif.Lcio
