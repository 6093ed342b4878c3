import Verif.Rsrv.HexColor

/-!
# Colours in hexadecimal notation (C182)
-/

namespace Verif.Rsrv.HexColor

/-! ## Specification -/

/-- The four components are bytes. -/
def Bytes (c : RGBA) : Prop := c.r < 256 ∧ c.g < 256 ∧ c.b < 256 ∧ c.a < 256

/-- A colour in 16 bits of one of 8 bits. -/
def wide (c : RGBA) : RGBA := ⟨257 * c.r, 257 * c.g, 257 * c.b, 257 * c.a⟩

/-- The digits, small and large. -/
def isHex (c : Char) : Prop := c ∈ "0123456789abcdefABCDEF".toList

/-! ## Proofs -/

theorem hexVal_digit : ∀ d : Nat, d < 16 → hexVal (hexDigit d) = some d := by decide

theorem digit_not_hash : ∀ d : Nat, d < 16 → hexDigit d ≠ '#' := by decide

theorem hexVal_lt {c : Char} {d : Nat} (h : hexVal c = some d) : d < 16 := by
  unfold hexVal at h
  have key : ∀ a b : Char, a ≤ b → a.toNat ≤ b.toNat := fun a b hab => UInt32.le_iff_toNat_le.mp hab
  split at h
  · rename_i hc
    injection h with h
    have := key _ _ hc.2
    have e : '9'.toNat = 57 := rfl
    omega
  · split at h
    · rename_i hc
      injection h with h
      have := key _ _ hc.2
      have e : 'f'.toNat = 102 := rfl
      omega
    · split at h
      · rename_i hc
        injection h with h
        have := key _ _ hc.2
        have e : 'F'.toNat = 70 := rfl
        omega
      · cases h

theorem digits_cons {c : Char} {d : Nat} (h : hexVal c = some d) (acc : Nat) (s : List Char) :
    digits acc (c :: s) = digits (16 * acc + d) s := by rw [digits, h]; rfl

theorem strip_cons {c : Char} (h : c ≠ '#') (s : List Char) : strip (c :: s) = c :: s := by
  unfold strip
  split
  · rename_i e
    injection e with e _
    exact absurd e h
  · rfl

/-- **C182** (round trip): a colour written in hexadecimal notation is read as it was, whether or not it is opaque. -/
theorem C182_roundtrip (c : RGBA) (h : Bytes c) : ofHex (toHex c) = c := by
  obtain ⟨r, g, b, a⟩ := c
  obtain ⟨hr, hg, hb, ha⟩ := h
  simp only at hr hg hb ha
  have hd : ∀ v, v < 256 → hexVal (hexDigit (v / 16)) = some (v / 16) ∧ hexVal (hexDigit (v % 16)) = some (v % 16) := fun v hv =>
    ⟨hexVal_digit _ (by omega), hexVal_digit _ (by omega)⟩
  unfold ofHex toHex
  simp only
  by_cases h1 : a = 255
  · rw [if_pos h1]
    simp only [strip, hex2, List.cons_append, List.nil_append, parseHex]
    rw [if_neg (by simp), digits_cons (hd r hr).1, digits_cons (hd r hr).2, digits_cons (hd g hg).1, digits_cons (hd g hg).2,
      digits_cons (hd b hb).1, digits_cons (hd b hb).2, digits, Option.bind_some, if_pos (by omega)]
    simp only [List.length_cons, List.length_nil, split]
    simp only [Nat.reduceAdd, Nat.reduceEqDiff, if_false, if_true, RGBA.mk.injEq]
    refine ⟨by omega, by omega, by omega, h1.symm⟩
  · rw [if_neg h1]
    simp only [strip, hex2, List.cons_append, List.nil_append, parseHex]
    rw [if_neg (by simp), digits_cons (hd r hr).1, digits_cons (hd r hr).2, digits_cons (hd g hg).1, digits_cons (hd g hg).2,
      digits_cons (hd b hb).1, digits_cons (hd b hb).2, digits_cons (hd a ha).1, digits_cons (hd a ha).2, digits, Option.bind_some,
      if_pos (by omega)]
    simp only [List.length_cons, List.length_nil, split]
    simp only [Nat.reduceAdd, Nat.reduceEqDiff, if_false, if_true, RGBA.mk.injEq]
    refine ⟨by omega, by omega, by omega, by omega⟩

/-- **C182** (model): a colour of 8 bits per component stays the same colour when it is converted to this notation. -/
theorem C182_model (c : RGBA) (h : Bytes c) : rgba16 (model (wide c)) = wide c := by
  have e : (⟨(wide c).r / 256 % 256, (wide c).g / 256 % 256, (wide c).b / 256 % 256, (wide c).a / 256 % 256⟩ : RGBA) = c := by
    obtain ⟨r, g, b, a⟩ := c
    obtain ⟨hr, hg, hb, ha⟩ := h
    simp only at hr hg hb ha
    have hv : ∀ v, v < 256 → 257 * v / 256 % 256 = v := fun v hv => by
      have e : 257 * v / 256 = v := by
        rw [show 257 * v = v + 256 * v by omega, Nat.add_mul_div_left _ _ (by omega), Nat.div_eq_of_lt hv, Nat.zero_add]
      rw [e, Nat.mod_eq_of_lt hv]
    simp only [wide, RGBA.mk.injEq]
    exact ⟨hv r hr, hv g hg, hv b hb, hv a ha⟩
  unfold model rgba16
  rw [e, C182_roundtrip c h]
  unfold wide
  simp only [Nat.mul_comm]

theorem ne_hash {c : Char} {d : Nat} (h : hexVal c = some d) : c ≠ '#' := by
  rintro rfl
  have e : hexVal '#' = none := by decide
  rw [e] at h
  cases h

theorem short3 {a b c : Nat} (la : a < 16) (lb : b < 16) (lc : c < 16) :
    split 3 (16 * (16 * (16 * 0 + a) + b) + c) = split 6 (16 * (16 * (16 * (16 * (16 * (16 * 0 + a) + a) + b) + b) + c) + c) := by
  have e1 : (16 * (16 * (16 * 0 + a) + b) + c) / 256 = a := by omega
  have e2 : (16 * (16 * (16 * 0 + a) + b) + c) / 16 = 16 * a + b := by omega
  have e3 : (16 * (16 * (16 * (16 * (16 * (16 * 0 + a) + a) + b) + b) + c) + c) / 65536 = 17 * a := by omega
  have e4 : (16 * (16 * (16 * (16 * (16 * (16 * 0 + a) + a) + b) + b) + c) + c) / 256 = 256 * (17 * a) + 17 * b := by omega
  have e5 : (16 * (16 * (16 * (16 * (16 * (16 * 0 + a) + a) + b) + b) + c) + c) % 256 = 17 * c := by omega
  simp only [split]
  simp only [Nat.reduceEqDiff, if_false, if_true, RGBA.mk.injEq]
  rw [e1, e2, e3, e4, e5]
  clear e1 e2 e3 e4 e5
  have m : ∀ x y, x < 256 → (256 * y + x) % 256 = x := fun x y hx => by rw [Nat.mul_add_mod, Nat.mod_eq_of_lt hx]
  have m' : ∀ x y, x < 16 → (16 * y + x) % 16 = x := fun x y hx => by rw [Nat.mul_add_mod, Nat.mod_eq_of_lt hx]
  rw [m _ _ (by omega), m' _ _ lb, m' _ _ lc, Nat.mod_eq_of_lt la, Nat.mod_eq_of_lt (by omega : 17 * a < 256)]
  exact ⟨Nat.mul_comm _ _, Nat.mul_comm _ _, Nat.mul_comm _ _, trivial⟩

theorem short4 {a b c d : Nat} (la : a < 16) (lb : b < 16) (lc : c < 16) (ld : d < 16) :
    split 4 (16 * (16 * (16 * (16 * 0 + a) + b) + c) + d)
      = split 8 (16 * (16 * (16 * (16 * (16 * (16 * (16 * (16 * 0 + a) + a) + b) + b) + c) + c) + d) + d) := by
  have e0 : (16 * (16 * (16 * (16 * 0 + a) + b) + c) + d) / 4096 = a := by omega
  have e1 : (16 * (16 * (16 * (16 * 0 + a) + b) + c) + d) / 256 = 16 * a + b := by omega
  have e2 : (16 * (16 * (16 * (16 * 0 + a) + b) + c) + d) / 16 = 16 * (16 * a + b) + c := by omega
  generalize hn : 16 * (16 * (16 * (16 * (16 * (16 * (16 * (16 * 0 + a) + a) + b) + b) + c) + c) + d) + d = n
  have e3 : n / 16777216 = 17 * a := by omega
  have e4 : n / 65536 = 256 * (17 * a) + 17 * b := by omega
  have e5 : n / 256 = 256 * (256 * (17 * a) + 17 * b) + 17 * c := by omega
  have e6 : n % 256 = 17 * d := by omega
  simp only [split]
  simp only [Nat.reduceEqDiff, if_false, if_true, RGBA.mk.injEq]
  rw [e0, e1, e2, e3, e4, e5, e6]
  clear e0 e1 e2 e3 e4 e5 e6
  have m : ∀ x y, x < 256 → (256 * y + x) % 256 = x := fun x y hx => by rw [Nat.mul_add_mod, Nat.mod_eq_of_lt hx]
  have m' : ∀ x y, x < 16 → (16 * y + x) % 16 = x := fun x y hx => by rw [Nat.mul_add_mod, Nat.mod_eq_of_lt hx]
  rw [m _ _ (by omega), m _ _ (by omega), m' _ _ lb, m' _ _ lc, m' _ _ ld, Nat.mod_eq_of_lt la, Nat.mod_eq_of_lt (by omega : 17 * a < 256)]
  exact ⟨Nat.mul_comm _ _, Nat.mul_comm _ _, Nat.mul_comm _ _, Nat.mul_comm _ _⟩

/-- **C182** (short): three or four digits are those of six or eight with each digit twice. -/
theorem C182_short (x y z w : Char) (hx : (hexVal x).isSome) (hy : (hexVal y).isSome) (hz : (hexVal z).isSome) (hw : (hexVal w).isSome) :
    ofHex [x, y, z] = ofHex [x, x, y, y, z, z] ∧ ofHex [x, y, z, w] = ofHex [x, x, y, y, z, z, w, w] := by
  obtain ⟨a, ha⟩ := Option.isSome_iff_exists.mp hx
  obtain ⟨b, hb⟩ := Option.isSome_iff_exists.mp hy
  obtain ⟨c, hc⟩ := Option.isSome_iff_exists.mp hz
  obtain ⟨d, hd⟩ := Option.isSome_iff_exists.mp hw
  have la := hexVal_lt ha
  have lb := hexVal_lt hb
  have lc := hexVal_lt hc
  have ld := hexVal_lt hd
  unfold ofHex
  rw [strip_cons (ne_hash ha), strip_cons (ne_hash ha), strip_cons (ne_hash ha), strip_cons (ne_hash ha)]
  unfold parseHex
  constructor
  · rw [if_neg (by simp), if_neg (by simp), digits_cons ha, digits_cons hb, digits_cons hc, digits_cons ha, digits_cons ha, digits_cons hb,
      digits_cons hb, digits_cons hc, digits_cons hc, digits, digits, Option.bind_some, Option.bind_some, if_pos (by omega), if_pos (by omega)]
    exact short3 la lb lc
  · rw [if_neg (by simp), if_neg (by simp), digits_cons ha, digits_cons hb, digits_cons hc, digits_cons hd, digits_cons ha, digits_cons ha,
      digits_cons hb, digits_cons hb, digits_cons hc, digits_cons hc, digits_cons hd, digits_cons hd, digits, digits, Option.bind_some,
      Option.bind_some, if_pos (by omega), if_pos (by omega)]
    exact short4 la lb lc ld

theorem digits_none {s : List Char} (h : ∃ c ∈ s, hexVal c = none) (acc : Nat) : digits acc s = none := by
  induction s generalizing acc with
  | nil => obtain ⟨c, hc, _⟩ := h; cases hc
  | cons d s ih =>
    rw [digits]
    cases hd : hexVal d with
    | none => rfl
    | some v =>
      obtain ⟨c, hc, hn⟩ := h
      rcases List.mem_cons.mp hc with rfl | hc
      · rw [hd] at hn; cases hn
      · exact ih ⟨c, hc, hn⟩ _

theorem hexVal_none {c : Char} (h : ¬ isHex c) : hexVal c = none := by
  have key : ∀ a b : Char, a ≤ b → a.toNat ≤ b.toNat := fun a b hab => UInt32.le_iff_toNat_le.mp hab
  have hc : c = Char.ofNat c.toNat := (Char.ofNat_toNat c).symm
  unfold hexVal
  split
  · rename_i h'
    have h1 := key _ _ h'.1
    have h2 := key _ _ h'.2
    have e1 : '0'.toNat = 48 := rfl
    have e2 : '9'.toNat = 57 := rfl
    rw [e1] at h1
    rw [e2] at h2
    exact absurd (by
      rw [hc]
      generalize c.toNat = n at h1 h2
      have : ∀ n, n < 58 → 48 ≤ n → isHex (Char.ofNat n) := by unfold isHex; decide
      exact this n (by omega) h1) h
  · split
    · rename_i h'
      have h1 := key _ _ h'.1
      have h2 := key _ _ h'.2
      have e1 : 'a'.toNat = 97 := rfl
      have e2 : 'f'.toNat = 102 := rfl
      rw [e1] at h1
      rw [e2] at h2
      exact absurd (by
        rw [hc]
        generalize c.toNat = n at h1 h2
        have : ∀ n, n < 103 → 97 ≤ n → isHex (Char.ofNat n) := by unfold isHex; decide
        exact this n (by omega) h1) h
    · split
      · rename_i h'
        have h1 := key _ _ h'.1
        have h2 := key _ _ h'.2
        have e1 : 'A'.toNat = 65 := rfl
        have e2 : 'F'.toNat = 70 := rfl
        rw [e1] at h1
        rw [e2] at h2
        exact absurd (by
          rw [hc]
          generalize c.toNat = n at h1 h2
          have : ∀ n, n < 71 → 65 ≤ n → isHex (Char.ofNat n) := by unfold isHex; decide
          exact this n (by omega) h1) h
      · rfl

/-- **C182** (invalid): what is not of 3, 4, 6 or 8 digits, after at most one `#`, is the horrible yellow. -/
theorem C182_invalid (s : List Char) (hs : s.head? ≠ some '#')
    (h : (∃ c ∈ s, ¬ isHex c) ∨ (s.length ≠ 3 ∧ s.length ≠ 4 ∧ s.length ≠ 6 ∧ s.length ≠ 8)) :
    ofHex s = ⟨0xBC, 0xB6, 0x04, 0x88⟩ ∧ ofHex ('#' :: s) = ⟨0xBC, 0xB6, 0x04, 0x88⟩ := by
  have e1 : strip s = s := by
    cases s with
    | nil => rfl
    | cons c s => exact strip_cons (fun hc => hs (by rw [hc]; rfl)) s
  have key : (match parseHex s with | none => yellow | some n => split s.length n) = yellow := by
    rcases h with ⟨c, hc, hn⟩ | ⟨h3, h4, h6, h8⟩
    · have : parseHex s = none := by
        unfold parseHex
        split
        · rfl
        · rw [digits_none ⟨c, hc, hexVal_none hn⟩]; rfl
      rw [this]
    · cases parseHex s with
      | none => rfl
      | some n => simp only [split, if_neg h3, if_neg h4, if_neg h6, if_neg h8]
  have e2 : strip ('#' :: s) = s := rfl
  unfold ofHex
  rw [e1, e2]
  exact ⟨key, key⟩

/-! ## Counterexample and examples -/

/-- `RGBA` says that it gives premultiplied values, of which none is greater than the alpha; for a transparent white it does not. -/
theorem C182_premultiplied_counterexample : ∃ h, (rgba16 h).a < (rgba16 h).r := ⟨"#FFFFFF00".toList, by decide +kernel⟩

example : ofHex "#1F2".toList = ⟨0x11, 0xFF, 0x22, 255⟩ := by decide +kernel

example : toHex ⟨1, 160, 255, 128⟩ = "#01A0FF80".toList := by decide +kernel

example : ofHex "#12345".toList = yellow ∧ ofHex "#12345g".toList = yellow ∧ ofHex [] = yellow := by decide +kernel

end Verif.Rsrv.HexColor
