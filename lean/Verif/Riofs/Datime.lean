/-!
# Packed date/time of ROOT files (C08)

Model of `time2datime` and `datime2time`. A `time.Time` in UTC is represented by its
calendar fields (the value of `t.Year()`, `t.Month()`, ...); `time.Date` with fields
in range is the time carrying those fields (Go standard library, not modelled).
-/

namespace Verif.Riofs

/-- Calendar fields of a `time.Time` (UTC). -/
structure Civil where
  year : Int
  month : Nat
  day : Nat
  hour : Nat
  minute : Nat
  second : Nat
deriving DecidableEq, Repr

/-- groot/riofs/utils.go:56-71 (`time2datime`): `none` is the panic. -/
def time2datime (t : Civil) : Option (BitVec 32) :=
  let year := BitVec.ofInt 32 t.year
  let month := BitVec.ofNat 32 t.month
  let day := BitVec.ofNat 32 t.day
  let hour := BitVec.ofNat 32 t.hour
  let min := BitVec.ofNat 32 t.minute
  let sec := BitVec.ofNat 32 t.second
  if year < 1995#32 then none
  else some ((year - 1995#32) <<< 26 ||| month <<< 22 ||| day <<< 17 ||| hour <<< 12 ||| min <<< 6 ||| sec)

/-- groot/riofs/utils.go:41-53 (`datime2time`): the arguments handed to `time.Date`. -/
def datime2time (d : BitVec 32) : Civil :=
  { year := ((d >>> 26) + 1995#32).toNat
    month := ((d <<< 6) >>> 28).toNat
    day := ((d <<< 10) >>> 27).toNat
    hour := ((d <<< 15) >>> 27).toNat
    minute := ((d <<< 20) >>> 26).toNat
    second := ((d <<< 26) >>> 26).toNat }

/-- The fields of a time of day in some month. -/
structure Civil.Valid (t : Civil) : Prop where
  month : 1 ≤ t.month ∧ t.month ≤ 12
  day : 1 ≤ t.day ∧ t.day ≤ 31
  hour : t.hour ≤ 23
  minute : t.minute ≤ 59
  second : t.second ≤ 59

theorem or_add {a b k : Nat} (ha : 2 ^ k ∣ a) (hb : b < 2 ^ k) : a ||| b = a + b := by
  obtain ⟨c, rfl⟩ := ha
  exact (Nat.two_pow_add_eq_or_of_lt hb c).symm

theorem time2datime_toNat (t : Civil) (h : t.Valid) (hy : 1995 ≤ t.year) (hy2 : t.year < 2 ^ 32) :
    ∃ d, time2datime t = some d ∧
      d.toNat = ((t.year.toNat - 1995) % 64) * 2 ^ 26 + t.month * 2 ^ 22 + t.day * 2 ^ 17
        + t.hour * 2 ^ 12 + t.minute * 2 ^ 6 + t.second := by
  obtain ⟨n, hn⟩ := Int.eq_ofNat_of_zero_le (show 0 ≤ t.year by omega)
  obtain ⟨hm, hd, hh, hmi, hs⟩ := h
  have hyn : (BitVec.ofInt 32 t.year).toNat = n := by
    rw [hn]; simp; omega
  unfold time2datime
  simp only
  rw [if_neg (by rw [BitVec.lt_def, hyn]; simp; omega)]
  refine ⟨_, rfl, ?_⟩
  simp only [BitVec.toNat_or, BitVec.toNat_shiftLeft, BitVec.toNat_sub, hyn, BitVec.toNat_ofNat,
    Nat.shiftLeft_eq]
  obtain ⟨y, hyy⟩ : ∃ y, y = (n - 1995) % 64 := ⟨_, rfl⟩
  have e1 : t.month % 4294967296 * 4194304 % 4294967296 = t.month * 4194304 := by
    rw [Nat.mod_eq_of_lt (show t.month < 4294967296 by omega), Nat.mod_eq_of_lt (by omega)]
  have e2 : t.day % 4294967296 * 131072 % 4294967296 = t.day * 131072 := by
    rw [Nat.mod_eq_of_lt (show t.day < 4294967296 by omega), Nat.mod_eq_of_lt (by omega)]
  have e3 : t.hour % 4294967296 * 4096 % 4294967296 = t.hour * 4096 := by
    rw [Nat.mod_eq_of_lt (show t.hour < 4294967296 by omega), Nat.mod_eq_of_lt (by omega)]
  have e4 : t.minute % 4294967296 * 64 % 4294967296 = t.minute * 64 := by
    rw [Nat.mod_eq_of_lt (show t.minute < 4294967296 by omega), Nat.mod_eq_of_lt (by omega)]
  have e5 : t.second % 4294967296 = t.second := by omega
  have e6 : (4294967296 - 1995 + n) % 4294967296 * 67108864 % 4294967296 = y * 67108864 := by
    rw [show 4294967296 - 1995 + n = (n - 1995) + 4294967296 by omega, Nat.add_mod_right,
      Nat.mod_eq_of_lt (show n - 1995 < 4294967296 by omega),
      show 4294967296 = 64 * 67108864 by rfl, Nat.mul_mod_mul_right, hyy]
  have hy64 : y < 64 := by omega
  simp only [Nat.reducePow, Nat.reduceMod, e1, e2, e3, e4, e5, e6, hn, Int.toNat_natCast, ← hyy]
  have f1 : y * 67108864 ||| t.month * 4194304 = y * 67108864 + t.month * 4194304 :=
    or_add (k := 26) (by simp; omega) (by simp; omega)
  have f2 : y * 67108864 + t.month * 4194304 ||| t.day * 131072 =
      y * 67108864 + t.month * 4194304 + t.day * 131072 :=
    or_add (k := 22) (by simp; omega) (by simp; omega)
  have f3 : y * 67108864 + t.month * 4194304 + t.day * 131072 ||| t.hour * 4096 =
      y * 67108864 + t.month * 4194304 + t.day * 131072 + t.hour * 4096 :=
    or_add (k := 17) (by simp; omega) (by simp; omega)
  have f4 : y * 67108864 + t.month * 4194304 + t.day * 131072 + t.hour * 4096 ||| t.minute * 64 =
      y * 67108864 + t.month * 4194304 + t.day * 131072 + t.hour * 4096 + t.minute * 64 :=
    or_add (k := 12) (by simp; omega) (by simp; omega)
  have f5 : y * 67108864 + t.month * 4194304 + t.day * 131072 + t.hour * 4096 + t.minute * 64 ||| t.second =
      y * 67108864 + t.month * 4194304 + t.day * 131072 + t.hour * 4096 + t.minute * 64 + t.second :=
    or_add (k := 6) (by simp; omega) (by simp; omega)
  rw [f1, f2, f3, f4, f5]

/-- **C08**: every valid time from 1995 to 2058 survives packing and unpacking. -/
theorem C08_datime_roundtrip_partial (t : Civil) (h : t.Valid) (hy : 1995 ≤ t.year) (hy2 : t.year ≤ 2058) :
    ∃ d, time2datime t = some d ∧ datime2time d = t := by
  obtain ⟨d, h1, h2⟩ := time2datime_toNat t h hy (by omega)
  refine ⟨d, h1, ?_⟩
  obtain ⟨hm, hd, hh, hmi, hs⟩ := h
  obtain ⟨n, hn⟩ := Int.eq_ofNat_of_zero_le (show 0 ≤ t.year by omega)
  rw [hn, Int.toNat_natCast] at h2
  cases t with
  | mk y mo da ho mi se =>
  simp only at *
  simp only [datime2time, Civil.mk.injEq, BitVec.toNat_add, BitVec.toNat_ushiftRight,
    BitVec.toNat_shiftLeft, Nat.shiftLeft_eq, Nat.shiftRight_eq_div_pow, BitVec.toNat_ofNat]
  simp only [Nat.reducePow, Nat.reduceMod] at *
  refine ⟨?_, ?_, ?_, ?_, ?_, ?_⟩ <;> omega

/-- Years 0..1994 are rejected. -/
theorem C08_early_years_rejected (t : Civil) (hy : 0 ≤ t.year) (hy2 : t.year < 1995) :
    time2datime t = none := by
  obtain ⟨n, hn⟩ := Int.eq_ofNat_of_zero_le hy
  unfold time2datime
  rw [if_pos]
  rw [BitVec.lt_def, hn]
  simp; omega

/-- The last day ROOT can represent, and an ordinary one. -/
example : time2datime ⟨2058, 12, 31, 23, 59, 59⟩ = some 0xff3f7efb#32 ∧
    datime2time 0xff3f7efb#32 = ⟨2058, 12, 31, 23, 59, 59⟩ := by decide

example : Civil.Valid ⟨2058, 12, 31, 23, 59, 59⟩ := ⟨by decide, by decide, by decide, by decide, by decide⟩

/-- From 2059 on nothing is rejected and the year silently wraps by 64 years. -/
theorem C08_late_years_counterexample (t : Civil) (h : t.Valid) (hy : 2059 ≤ t.year) (hy2 : t.year < 2 ^ 32) :
    ∃ d, time2datime t = some d ∧ datime2time d ≠ t ∧
      (datime2time d).year = 1995 + (t.year - 1995) % 64 := by
  obtain ⟨d, h1, h2⟩ := time2datime_toNat t h (by omega) (by omega)
  obtain ⟨hm, hd, hh, hmi, hs⟩ := h
  obtain ⟨n, hn⟩ := Int.eq_ofNat_of_zero_le (show 0 ≤ t.year by omega)
  rw [hn, Int.toNat_natCast] at h2
  have hyear : (datime2time d).year = 1995 + (t.year - 1995) % 64 := by
    simp only [datime2time, BitVec.toNat_add, BitVec.toNat_ushiftRight, Nat.shiftRight_eq_div_pow,
      BitVec.toNat_ofNat, hn]
    omega
  refine ⟨d, h1, ?_, hyear⟩
  intro he
  rw [he] at hyear
  omega

/-- Years before year 0 pass the check as well: they wrap to large unsigned numbers. -/
theorem C08_negative_years_counterexample :
    time2datime ⟨-1, 1, 1, 0, 0, 0⟩ = some 0xd0420000#32 ∧
    datime2time 0xd0420000#32 = ⟨2047, 1, 1, 0, 0, 0⟩ := by decide

end Verif.Riofs
