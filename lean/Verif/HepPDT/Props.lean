import Verif.HepPDT.Model
import Mathlib.Tactic.Tauto
import Mathlib.Tactic.IntervalCases

/-!
# Charges (C55, C63), classification (C56) and quark content (C64) of particle ids
-/

namespace Verif.HepPDT

/-! ## Symmetry under charge conjugation -/

theorem digit_neg (pid : Int) (k : Nat) : digit (-pid) k = digit pid k := by simp [digit, absPID]
theorem absPID_neg (pid : Int) : absPID (-pid) = absPID pid := by simp [absPID]
theorem extraBits_neg (pid : Int) : extraBits (-pid) = extraBits pid := by simp [extraBits, absPID]
theorem fundamentalID_neg (pid : Int) : fundamentalID (-pid) = fundamentalID pid := by
  simp [fundamentalID, digit_neg, absPID_neg]
theorem isSUSY_neg (pid : Int) : isSUSY (-pid) = isSUSY pid := by
  simp [isSUSY, digit_neg, extraBits_neg, fundamentalID_neg]
theorem isRhadron_neg (pid : Int) : isRhadron (-pid) = isRhadron pid := by
  simp [isRhadron, digit_neg, extraBits_neg, isSUSY_neg]
theorem isDyon_neg (pid : Int) : isDyon (-pid) = isDyon pid := by
  simp [isDyon, digit_neg, extraBits_neg]
theorem isBaryon_neg (pid : Int) : isBaryon (-pid) = isBaryon pid := by
  simp [isBaryon, digit_neg, extraBits_neg, fundamentalID_neg, absPID_neg]
theorem isQBall_neg (pid : Int) : isQBall (-pid) = isQBall pid := by
  simp [isQBall, digit_neg, extraBits_neg, fundamentalID_neg]
theorem isNucleus_neg (pid : Int) : isNucleus (-pid) = isNucleus pid := by
  simp [isNucleus, digit_neg, absPID_neg, baryonNumber, protonNumber]
theorem protonNumber_neg (pid : Int) : protonNumber (-pid) = protonNumber pid := by
  simp [protonNumber, digit_neg, absPID_neg]

theorem signed_neg (pid c : Int) (h : pid ≠ 0) : signed (-pid) c = -signed pid c := by
  unfold signed
  by_cases hc : c = 0
  · simp [hc]
  · simp only [if_neg hc]
    by_cases hp : pid < 0
    · rw [if_neg (by omega), if_pos hp]; omega
    · rw [if_pos (by omega), if_neg hp]

theorem absPID_eq_zero {pid : Int} : absPID pid = 0 ↔ pid = 0 := by simp [absPID]

/-- **C55** (part): for ids that are not in the range of nuclei (at most seven digits), the
charge of the antiparticle is the opposite of the charge, and one fails if and only if
the other does. Missing: nuclei, for which the sign is not reversed, see
`C55_antinucleus_counterexample`. -/
theorem C55_conjugate_partial (pid : Int) (h : absPID pid < 10000000) :
    threeCharge (-pid) = (threeCharge pid).map (- ·) := by
  by_cases h0 : pid = 0
  · subst h0; rfl
  have hx : ¬ extraBits pid > 0 := by unfold extraBits; omega
  unfold threeCharge
  simp only [digit_neg, absPID_neg, extraBits_neg, fundamentalID_neg, isDyon_neg, isRhadron_neg, isBaryon_neg]
  rw [if_neg (mt absPID_eq_zero.mp h0), if_neg (mt absPID_eq_zero.mp h0), if_neg hx, if_neg hx]
  by_cases h1 : isDyon pid = true
  · rw [if_pos h1, if_pos h1, Option.map_some, signed_neg _ _ h0]
  rw [if_neg h1, if_neg h1]
  by_cases h2 : fundamentalID pid > 0 ∧ fundamentalID pid ≤ 100
  · rw [if_pos h2, if_pos h2, Option.map_map]
    congr 1
    funext c
    exact signed_neg pid c h0
  rw [if_neg h2, if_neg h2]
  by_cases h3 : digit pid 1 = 0
  · rw [if_pos h3, if_pos h3]; rfl
  rw [if_neg h3, if_neg h3]
  by_cases h4 : digit pid 4 = 0 ∨ (isRhadron pid = true ∧ digit pid 4 = 9)
  · rw [if_pos h4, if_pos h4]
    by_cases h5 : digit pid 3 = 3 ∨ digit pid 3 = 5
    · rw [if_pos h5, if_pos h5]
      cases charge3 (digit pid 2) <;> cases charge3 (digit pid 3) <;> simp [signed_neg _ _ h0]
    · rw [if_neg h5, if_neg h5]
      cases charge3 (digit pid 3) <;> cases charge3 (digit pid 2) <;> simp [signed_neg _ _ h0]
  rw [if_neg h4, if_neg h4]
  by_cases h6 : digit pid 2 = 0
  · rw [if_pos h6, if_pos h6]
    cases charge3 (digit pid 3) <;> cases charge3 (digit pid 4) <;> simp [signed_neg _ _ h0]
  rw [if_neg h6, if_neg h6]
  by_cases h7 : isBaryon pid = true ∨ (isRhadron pid = true ∧ digit pid 5 = 9)
  · rw [if_pos h7, if_pos h7]
    cases charge3 (digit pid 2) <;> cases charge3 (digit pid 3) <;> cases charge3 (digit pid 4) <;>
      simp [signed_neg _ _ h0]
  · rw [if_neg h7, if_neg h7]; rfl

/-- **C55** fails for nuclei: the charge of the anti-deuteron is that of the deuteron.  More
generally a nucleus with protons never has the opposite charge of its antinucleus. -/
theorem C55_antinucleus_counterexample :
    (∀ pid : Int, absPID pid ≥ 10000000 → isNucleus pid = true → threeCharge (-pid) = threeCharge pid) ∧
    isNucleus 1000010020 = true ∧ threeCharge 1000010020 = some 3 ∧ threeCharge (-1000010020) = some 3 := by
  refine ⟨?_, by decide, by decide, by decide⟩
  intro pid h hn
  have h0 : absPID pid ≠ 0 := by omega
  have hx : extraBits pid > 0 := by unfold extraBits; omega
  unfold threeCharge
  simp only [absPID_neg, extraBits_neg, isNucleus_neg, protonNumber_neg]
  rw [if_neg h0, if_neg h0, if_pos hx, if_pos hx, if_pos hn, if_pos hn]

/-- **C55** fails: asking for the charge of some ids, among them ids considered valid, panics. -/
theorem C55_panic_counterexample :
    threeCharge 103 = none ∧ threeCharge 201 = none ∧ isValid 201 = true ∧
    threeCharge 1000201 = none ∧ isSUSY 1000201 = true := by
  refine ⟨?_, ?_, ?_, ?_, ?_⟩ <;> decide

theorem charge3_isSome {q : Nat} (h : q ≠ 0) (h2 : q ≤ 100) : ∃ c, charge3 q = some c := by
  unfold charge3
  rw [if_neg h]
  have : q - 1 < ch100.length := by simp [ch100]; omega
  exact ⟨_, List.getElem?_eq_getElem this⟩

theorem digit_lt (pid : Int) (k : Nat) : digit pid k < 10 := Nat.mod_lt _ (by omega)

theorem digitCharge {pid : Int} {k : Nat} (h : digit pid k ≠ 0) : ∃ c, charge3 (digit pid k) = some c :=
  charge3_isSome h (by have := digit_lt pid k; omega)

/-- The classes of ids for which a charge is computed without failure. -/
def Classified (pid : Int) : Prop :=
  isHadron pid = true ∨ isDiQuark pid = true ∨ isLepton pid = true ∨ isNucleus pid = true ∨
  isRhadron pid = true ∨ isDyon pid = true ∨ (0 < fundamentalID pid ∧ fundamentalID pid ≤ 100)

theorem threeCharge_ok (pid : Int)
    (h : extraBits pid > 0 ∨ isDyon pid = true ∨ (0 < fundamentalID pid ∧ fundamentalID pid ≤ 100) ∨ digit pid 1 = 0 ∨
      (digit pid 4 = 0 ∧ digit pid 3 ≠ 0 ∧ digit pid 2 ≠ 0) ∨ (digit pid 4 ≠ 0 ∧ digit pid 3 ≠ 0)) 
    (hr : isRhadron pid = true → digit pid 2 ≠ 0) :
    threeCharge pid ≠ none := by
  unfold threeCharge
  by_cases h0 : absPID pid = 0
  · simp [h0]
  simp only [if_neg h0]
  by_cases hx : extraBits pid > 0
  · rw [if_pos hx]
    split
    · simp
    · split <;> simp
  rw [if_neg hx]
  by_cases h1 : isDyon pid = true
  · rw [if_pos h1]; simp
  rw [if_neg h1]
  by_cases h2 : fundamentalID pid > 0 ∧ fundamentalID pid ≤ 100
  · rw [if_pos h2]
    obtain ⟨c, hc⟩ := charge3_isSome (q := fundamentalID pid) (by omega) h2.2
    unfold tableCharge
    rw [hc]
    simp
  rw [if_neg h2]
  by_cases h3 : digit pid 1 = 0
  · rw [if_pos h3]; simp
  rw [if_neg h3]
  have h' : (digit pid 4 = 0 ∧ digit pid 3 ≠ 0 ∧ digit pid 2 ≠ 0) ∨ (digit pid 4 ≠ 0 ∧ digit pid 3 ≠ 0) := by tauto
  have hq2 : digit pid 3 ≠ 0 := by omega
  obtain ⟨c2, hc2⟩ := digitCharge hq2
  by_cases h4 : digit pid 4 = 0 ∨ (isRhadron pid = true ∧ digit pid 4 = 9)
  · rw [if_pos h4]
    have hq3 : digit pid 2 ≠ 0 := by
      rcases h4 with h4 | h4
      · omega
      · exact hr h4.1
    obtain ⟨c3, hc3⟩ := digitCharge hq3
    rw [hc2, hc3]
    split <;> simp
  rw [if_neg h4]
  have hq1 : digit pid 4 ≠ 0 := by tauto
  obtain ⟨c1, hc1⟩ := digitCharge hq1
  rw [hc1, hc2]
  by_cases h5 : digit pid 2 = 0
  · rw [if_pos h5]; simp
  rw [if_neg h5]
  obtain ⟨c3, hc3⟩ := digitCharge h5
  rw [hc3]
  split <;> simp

theorem rhadron_digits {pid : Int} (h : isRhadron pid = true) : digit pid 3 ≠ 0 ∧ digit pid 2 ≠ 0 ∧ digit pid 1 ≠ 0 := by
  unfold isRhadron at h
  split at h
  · cases h
  split at h
  · cases h
  split at h
  · cases h
  split at h
  · cases h
  split at h
  · cases h
  split at h
  · cases h
  split at h
  · cases h
  tauto

theorem dyon_spin {pid : Int} (h : isDyon pid = true) : digit pid 1 = 0 := by
  by_contra hs
  unfold isDyon at h
  rw [if_pos hs] at h
  simp at h

theorem baryon_digits {pid : Int} (h : isBaryon pid = true) :
    ¬ extraBits pid > 0 ∧ (absPID pid = 2110 ∨ absPID pid = 2210 ∨
      (digit pid 1 > 0 ∧ digit pid 2 > 0 ∧ digit pid 3 > 0 ∧ digit pid 4 > 0)) ∧
    ¬ (fundamentalID pid ≤ 100 ∧ fundamentalID pid > 0) ∧ 100 < absPID pid := by
  unfold isBaryon at h
  by_cases h1 : extraBits pid > 0
  · simp [h1] at h
  by_cases h2 : absPID pid ≤ 100
  · simp [h1, h2] at h
  by_cases h3 : fundamentalID pid ≤ 100 ∧ fundamentalID pid > 0
  · simp [h1, h2, h3] at h
  rw [if_neg h1, if_neg h2, if_neg h3] at h
  refine ⟨h1, ?_, h3, by omega⟩
  by_cases h4 : absPID pid = 2110 ∨ absPID pid = 2210
  · tauto
  rw [if_neg h4] at h
  by_cases h5 : digit pid 1 > 0 ∧ digit pid 2 > 0 ∧ digit pid 3 > 0 ∧ digit pid 4 > 0
  · tauto
  · rw [if_neg h5] at h; cases h

theorem diquark_digits {pid : Int} (h : isDiQuark pid = true) :
    ¬ extraBits pid > 0 ∧ (digit pid 1 > 0 ∧ digit pid 2 = 0 ∧ digit pid 3 > 0 ∧ digit pid 4 > 0) ∧
    ¬ (fundamentalID pid ≤ 100 ∧ fundamentalID pid > 0) ∧ 100 < absPID pid := by
  unfold isDiQuark at h
  by_cases h1 : extraBits pid > 0
  · simp [h1] at h
  by_cases h2 : absPID pid ≤ 100
  · simp [h1, h2] at h
  by_cases h3 : fundamentalID pid ≤ 100 ∧ fundamentalID pid > 0
  · simp [h1, h2, h3] at h
  rw [if_neg h1, if_neg h2, if_neg h3] at h
  refine ⟨h1, ?_, h3, by omega⟩
  by_cases h5 : digit pid 1 > 0 ∧ digit pid 2 = 0 ∧ digit pid 3 > 0 ∧ digit pid 4 > 0
  · exact h5
  · rw [if_neg h5] at h; cases h

theorem meson_digits {pid : Int} (h : isMeson pid = true) :
    ¬ extraBits pid > 0 ∧ ((absPID pid ∈ [130, 310, 210, 150, 350, 510, 530, 110, 990, 9990]) ∨
      (digit pid 1 > 0 ∧ digit pid 2 > 0 ∧ digit pid 3 > 0 ∧ digit pid 4 = 0 ∧
        ¬ (digit pid 2 = digit pid 3 ∧ pid < 0))) ∧
    ¬ (fundamentalID pid ≤ 100 ∧ fundamentalID pid > 0) ∧ 100 < absPID pid := by
  unfold isMeson at h
  by_cases h1 : extraBits pid > 0
  · simp [h1] at h
  by_cases h2 : absPID pid ≤ 100
  · simp [h1, h2] at h
  by_cases h3 : fundamentalID pid ≤ 100 ∧ fundamentalID pid > 0
  · simp [h1, h2, h3] at h
  simp only [if_neg h1, if_neg h2, if_neg h3] at h
  refine ⟨h1, ?_, h3, by omega⟩
  by_cases h4 : absPID pid = 130 ∨ absPID pid = 310 ∨ absPID pid = 210
  · left; simp; omega
  rw [if_neg h4] at h
  by_cases h5 : absPID pid = 150 ∨ absPID pid = 350 ∨ absPID pid = 510 ∨ absPID pid = 530
  · left; simp; omega
  rw [if_neg h5] at h
  by_cases h6 : pid = 110 ∨ pid = 990 ∨ pid = 9990
  · left; rcases h6 with rfl | rfl | rfl <;> decide
  rw [if_neg h6] at h
  right
  by_cases h7 : digit pid 1 > 0 ∧ digit pid 2 > 0 ∧ digit pid 3 > 0 ∧ digit pid 4 = 0
  · rw [if_pos h7] at h
    refine ⟨h7.1, h7.2.1, h7.2.2.1, h7.2.2.2, ?_⟩
    intro hc
    rw [if_pos hc] at h; cases h
  · rw [if_neg h7] at h; cases h

theorem penta_digits {pid : Int} (h : isPentaquark pid = true) :
    ¬ extraBits pid > 0 ∧ digit pid 7 = 9 ∧ digit pid 1 ≠ 0 ∧ digit pid 2 ≠ 0 ∧ digit pid 3 ≠ 0 ∧ digit pid 4 ≠ 0 := by
  unfold isPentaquark at h
  split at h
  · cases h
  split at h
  · cases h
  split at h
  · cases h
  split at h
  · cases h
  split at h
  · cases h
  split at h
  · cases h
  split at h
  · cases h
  split at h
  · cases h
  refine ⟨by assumption, by omega, by assumption, by assumption, by assumption, by assumption⟩

theorem lepton_fid {pid : Int} (h : isLepton pid = true) :
    ¬ extraBits pid > 0 ∧ 11 ≤ fundamentalID pid ∧ fundamentalID pid ≤ 18 := by
  unfold isLepton at h
  split at h
  · cases h
  split at h
  · rename_i h1 h2; exact ⟨h1, h2.1, h2.2⟩
  · cases h

theorem special_digit {pid : Int} (h : absPID pid ∈ [130, 310, 210, 150, 350, 510, 530, 110, 990, 9990]) :
    digit pid 1 = 0 := by
  unfold digit
  simp only [List.mem_cons, List.not_mem_nil, or_false] at h
  rcases h with h | h | h | h | h | h | h | h | h | h <;> rw [h]

/-- **C55** (part): computing the charge does not fail for hadrons, diquarks, leptons, nuclei,
R-hadrons, dyons and particles with a fundamental id up to 100.  Missing: other ids, see
`C55_panic_counterexample`. -/
theorem C55_no_panic_partial (pid : Int) (h : Classified pid) : threeCharge pid ≠ none := by
  have hr : isRhadron pid = true → digit pid 2 ≠ 0 := fun hr => (rhadron_digits hr).2.1
  apply threeCharge_ok pid _ hr
  rcases h with h | h | h | h | h | h | h
  · unfold isHadron at h
    by_cases hx : extraBits pid > 0
    · exact .inl hx
    rw [if_neg hx] at h
    by_cases hm : isMeson pid = true
    · obtain ⟨-, hd | hd, -⟩ := meson_digits hm
      · exact .inr (.inr (.inr (.inl (special_digit hd))))
      · omega
    rw [if_neg hm] at h
    by_cases hb : isBaryon pid = true
    · obtain ⟨-, hd | hd | hd, -⟩ := baryon_digits hb
      · right; right; right; left; unfold digit; rw [hd]
      · right; right; right; left; unfold digit; rw [hd]
      · omega
    rw [if_neg hb] at h
    by_cases hp : isPentaquark pid = true
    · have := penta_digits hp; omega
    rw [if_neg hp] at h; cases h
  · have := diquark_digits h; omega
  · have := lepton_fid h; omega
  · unfold isNucleus at h
    split at h
    · rename_i h1
      right; right; right; right; right
      unfold digit; rw [h1]; decide
    · split at h
      · rename_i h1 h2
        left
        unfold extraBits
        have h3 := h2.1
        unfold digit at h3
        simp only [Nat.add_one_sub_one, Nat.reducePow] at h3
        omega
      · cases h
  · have := rhadron_digits h
    omega
  · exact .inr (.inl h)
  · exact .inr (.inr (.inl h))

/-! ## Classification -/

/-- The fundamental id of an id with at most seven digits is its absolute value, or at least
200. -/
theorem fundamentalID_range (pid : Int) (h : fundamentalID pid ≠ 0) :
    fundamentalID pid = absPID pid ∧ absPID pid ≤ 102 ∨ 200 ≤ fundamentalID pid := by
  unfold fundamentalID at h ⊢
  split at h
  · exact absurd rfl h
  rename_i h1
  rw [if_neg h1]
  split at h
  · rename_i h2
    rw [if_pos h2]
    right
    obtain ⟨h3, h4⟩ := h2
    unfold digit at h3 h4
    simp only [Nat.add_one_sub_one, Nat.reducePow] at h3 h4
    omega
  · rename_i h2
    rw [if_neg h2]
    split at h
    · rename_i h3; rw [if_pos h3]; exact .inl ⟨rfl, h3⟩
    · exact absurd rfl h

/-- **C56**: no id is at once a meson and a baryon, a meson and a diquark, a baryon and a
diquark, or a lepton and a hadron. -/
theorem C56_exclusive (pid : Int) :
    ¬ (isMeson pid = true ∧ isBaryon pid = true) ∧ ¬ (isMeson pid = true ∧ isDiQuark pid = true) ∧
    ¬ (isBaryon pid = true ∧ isDiQuark pid = true) ∧ ¬ (isLepton pid = true ∧ isHadron pid = true) := by
  refine ⟨?_, ?_, ?_, ?_⟩
  · rintro ⟨hm, hb⟩
    obtain ⟨-, hm, -⟩ := meson_digits hm
    obtain ⟨-, hb, -⟩ := baryon_digits hb
    rcases hb with hb | hb | hb
    · have : digit pid 1 = 0 := by unfold digit; rw [hb]
      rcases hm with hm | hm
      · rw [hb] at hm; simp at hm
      · omega
    · have : digit pid 1 = 0 := by unfold digit; rw [hb]
      rcases hm with hm | hm
      · rw [hb] at hm; simp at hm
      · omega
    · rcases hm with hm | hm
      · have := special_digit hm; omega
      · omega
  · rintro ⟨hm, hd⟩
    obtain ⟨-, hm, -⟩ := meson_digits hm
    obtain ⟨-, hd, -⟩ := diquark_digits hd
    rcases hm with hm | hm
    · have := special_digit hm; omega
    · omega
  · rintro ⟨hb, hd⟩
    obtain ⟨-, hb, -⟩ := baryon_digits hb
    obtain ⟨-, hd, -⟩ := diquark_digits hd
    rcases hb with hb | hb | hb
    · have : digit pid 1 = 0 := by unfold digit; rw [hb]
      omega
    · have : digit pid 1 = 0 := by unfold digit; rw [hb]
      omega
    · omega
  · rintro ⟨hl, hh⟩
    obtain ⟨hx, h1, h2⟩ := lepton_fid hl
    have hr := fundamentalID_range pid (by omega)
    have ha : absPID pid ≤ 18 := by omega
    unfold isHadron at hh
    rw [if_neg hx] at hh
    by_cases hm : isMeson pid = true
    · have := (meson_digits hm).2.2.2; omega
    rw [if_neg hm] at hh
    by_cases hb : isBaryon pid = true
    · have := (baryon_digits hb).2.2.2; omega
    rw [if_neg hb] at hh
    by_cases hp : isPentaquark pid = true
    · have := (penta_digits hp).2.1
      unfold digit at this
      simp only [Nat.add_one_sub_one, Nat.reducePow] at this
      omega
    · rw [if_neg hp] at hh; cases hh

/-! ## Charges from quarks -/

/-- Three times the charge of the quarks d, u, s, c, b, t. -/
def quarkCharge (q : Nat) : Int := if q % 2 = 0 then 2 else -1

theorem charge3_quark {q : Nat} (h1 : 1 ≤ q) (h2 : q ≤ 6) : charge3 q = some (quarkCharge q) := by
  interval_cases q <;> rfl

/-- **C63** (mesons): a positive id with at most seven digits whose last digits are a quark, a
quark not heavier than it and a spin, describes a meson made of a quark and an antiquark:
the heavier one is the quark if it is of up type and the antiquark if it is of down type.
The charge is the sum of the charges of the two. -/
theorem C63_meson_charge (pid : Int) (hpos : 0 < pid) (hm : isMeson pid = true) (hs : digit pid 1 ≠ 0)
    (h1 : 1 ≤ digit pid 2) (h2 : digit pid 2 ≤ digit pid 3) (h3 : digit pid 3 ≤ 6) :
    threeCharge pid = some (if digit pid 3 % 2 = 0 then quarkCharge (digit pid 3) - quarkCharge (digit pid 2)
      else quarkCharge (digit pid 2) - quarkCharge (digit pid 3)) := by
  obtain ⟨hx, hd, hf, ha⟩ := meson_digits hm
  have hdy : isDyon pid = false := by
    cases hdy : isDyon pid with
    | false => rfl
    | true => exact absurd (dyon_spin hdy) hs
  have hd' : digit pid 4 = 0 := by
    rcases hd with hd | hd
    · exact absurd (special_digit hd) hs
    · exact hd.2.2.2.1
  have hsg : ∀ c, signed pid c = c := by
    intro c; unfold signed
    split
    · omega
    · rw [if_neg (by omega)]
  unfold threeCharge
  simp only [if_neg (show ¬ absPID pid = 0 by omega), if_neg hx, hdy, Bool.false_eq_true, if_false,
    if_neg (show ¬ (fundamentalID pid > 0 ∧ fundamentalID pid ≤ 100) by tauto), if_neg hs, hd', true_or, if_true,
    charge3_quark h1 (show digit pid 2 ≤ 6 by omega), charge3_quark (show 1 ≤ digit pid 3 by omega) h3, hsg]
  generalize digit pid 2 = a at h1 h2
  generalize digit pid 3 = b at h2 h3
  by_cases hb : b = 3 ∨ b = 5
  · rw [if_pos hb, if_neg (by omega)]
  · rw [if_neg hb]
    by_cases hb2 : b % 2 = 0
    · rw [if_pos hb2]
    · rw [if_neg hb2]
      have : b = 1 := by omega
      have : a = 1 := by omega
      simp [*]

/-- **C63** (baryons and diquarks): the charge of a positive id describing a baryon or a
diquark made of quarks is the sum of the charges of its quarks. -/
theorem C63_baryon_charge (pid : Int) (hpos : 0 < pid) (hs : digit pid 1 ≠ 0)
    (h1 : 1 ≤ digit pid 4) (h2 : digit pid 4 ≤ 6) (h3 : 1 ≤ digit pid 3) (h4 : digit pid 3 ≤ 6) (h5 : digit pid 2 ≤ 6) :
    (isBaryon pid = true → threeCharge pid =
      some (quarkCharge (digit pid 4) + quarkCharge (digit pid 3) + quarkCharge (digit pid 2))) ∧
    (isDiQuark pid = true → threeCharge pid = some (quarkCharge (digit pid 4) + quarkCharge (digit pid 3))) := by
  have hdy : isDyon pid = false := by
    cases hdy : isDyon pid with
    | false => rfl
    | true => exact absurd (dyon_spin hdy) hs
  have hsg : ∀ c, signed pid c = c := by
    intro c; unfold signed
    split
    · omega
    · rw [if_neg (by omega)]
  have h9 : ¬ (digit pid 4 = 0 ∨ (isRhadron pid = true ∧ digit pid 4 = 9)) := by omega
  constructor
  · intro hb
    obtain ⟨hx, hd, hf, ha⟩ := baryon_digits hb
    have hd' : 1 ≤ digit pid 2 := by
      rcases hd with hd | hd | hd
      · exfalso; apply hs; unfold digit; rw [hd]
      · exfalso; apply hs; unfold digit; rw [hd]
      · omega
    unfold threeCharge
    simp only [if_neg (show ¬ absPID pid = 0 by omega), if_neg hx, hdy, Bool.false_eq_true, if_false,
      if_neg (show ¬ (fundamentalID pid > 0 ∧ fundamentalID pid ≤ 100) by tauto), if_neg hs, if_neg h9,
      if_neg (show ¬ digit pid 2 = 0 by omega), hb, true_or, if_true,
      charge3_quark h1 h2, charge3_quark h3 h4, charge3_quark hd' h5, hsg]
    congr 1; omega
  · intro hb
    obtain ⟨hx, hd, hf, ha⟩ := diquark_digits hb
    unfold threeCharge
    simp only [if_neg (show ¬ absPID pid = 0 by omega), if_neg hx, hdy, Bool.false_eq_true, if_false,
      if_neg (show ¬ (fundamentalID pid > 0 ∧ fundamentalID pid ≤ 100) by tauto), if_neg hs, if_neg h9,
      if_pos hd.2.1, charge3_quark h1 h2, charge3_quark h3 h4, hsg]
    congr 1; omega

/-! ## Quark content -/

/-- **C64** (part): for a hadron that is neither an R-hadron nor of the form 0...02xy, the code
reports a quark exactly when one of the three quark digits (five for a pentaquark) is that
quark.  Missing: hadrons whose heaviest quark is an up quark, see the counterexample. -/
theorem C64_quarks_partial (pid : Int) (q : Nat) (hh : isHadron pid = true) (ha : 102 < absPID pid)
    (hup : ¬ (digit pid 3 = 2 ∧ digit pid 4 = 0)) (hr : isRhadron pid = false) (hd : isDyon pid = false) :
    hasQuark pid q = true ↔
      (digit pid 2 = q ∨ digit pid 3 = q ∨ digit pid 4 = q ∨
        (isPentaquark pid = true ∧ (digit pid 5 = q ∨ digit pid 6 = q))) := by
  have hx : ¬ extraBits pid > 0 := by
    intro hx
    unfold isHadron at hh
    rw [if_pos hx] at hh; cases hh
  have hf : fundamentalID pid = 0 := by
    unfold fundamentalID
    rw [if_neg hup, if_neg (show ¬ absPID pid ≤ 102 by omega)]
    split <;> rfl
  unfold hasQuark findQ
  simp only [hx, hf, hd, hr, if_false, Bool.false_eq_true, Nat.lt_irrefl, gt_iff_lt]
  by_cases h1 : digit pid 2 = q ∨ digit pid 3 = q ∨ digit pid 4 = q
  · rw [if_pos h1]; simp; tauto
  · rw [if_neg h1]
    by_cases h2 : isPentaquark pid = true ∧ (digit pid 5 = q ∨ digit pid 6 = q)
    · rw [if_pos h2]; simp; tauto
    · rw [if_neg h2]; simp; tauto

/-- **C64** fails: the positive pion (211), made of an up quark and a down antiquark, is said to
contain neither; the same holds of every hadron of the form 0...02xy. -/
theorem C64_pion_counterexample :
    isMeson 211 = true ∧ hasQuark 211 2 = false ∧ hasQuark 211 1 = false ∧
    (∀ (pid : Int) (q : Nat), absPID pid < 10000000 → digit pid 3 = 2 → digit pid 4 = 0 → hasQuark pid q = false) := by
  refine ⟨by decide, by decide, by decide, ?_⟩
  intro pid q ha h3 h4
  have hf : fundamentalID pid > 0 := by
    unfold fundamentalID
    rw [if_neg, if_pos ⟨h3, h4⟩]
    · unfold digit at h3 h4
      simp only [Nat.add_one_sub_one, Nat.reducePow] at h3 h4
      omega
    · intro hc
      have h10 := hc.1
      unfold digit at h10
      simp only [Nat.add_one_sub_one, Nat.reducePow] at h10
      omega
  unfold hasQuark
  rw [if_pos hf]
  split <;> rfl

/-! ## Examples -/

example : threeCharge (-321) = some (-3) := by
  rw [C55_conjugate_partial 321 (by decide)]; decide
example : Classified 2212 := by unfold Classified; decide
example : threeCharge 2212 ≠ none := C55_no_panic_partial 2212 (by unfold Classified; decide)
example : isMeson 211 = true ∧ isBaryon 2212 = true ∧ isDiQuark 2203 = true ∧ isLepton 11 = true := by decide
/-- K+ : u and anti-s. -/
example : threeCharge 321 = some 3 := by rw [C63_meson_charge 321] <;> decide
/-- Proton. -/
example : threeCharge 2212 = some 3 := by
  rw [(C63_baryon_charge 2212 (by decide) (by decide) (by decide) (by decide) (by decide) (by decide) (by decide)).1 (by decide)]
  decide
example : hasQuark 521 2 = true := (C64_quarks_partial 521 2 (by decide) (by decide) (by decide) (by decide) (by decide)).mpr (by decide)

end Verif.HepPDT
