import Verif.HepPDT.Spins

/-!
# Spins of particles (C184)
-/

namespace Verif.HepPDT

/-! ## Specification -/

/-- The coupling of an orbital momentum `L` and a spin `S` to `J`. -/
def Couples (L S J : Nat) : Prop := L ≤ J + S ∧ S ≤ J + L ∧ J ≤ L + S

/-- The numbering scheme of the Particle Data Group for mesons, which have integer spins `J`: `nL` tells how `J` was made. -/
def Scheme (nl J L S : Nat) : Prop :=
  match nl, J with
  | 0, 0 => L = 0 ∧ S = 0
  | 1, 0 => L = 1 ∧ S = 1
  | 0, J + 1 => L = J ∧ S = 1
  | 1, J + 1 => L = J + 1 ∧ S = 0
  | 2, J + 1 => L = J + 1 ∧ S = 1
  | 3, J + 1 => L = J + 2 ∧ S = 1
  | _, _ => False

/-! ## Proofs -/

theorem tables_scheme : ∀ nl, nl < 4 → ∀ J, J < 5 → (J = 0 → nl < 2) → Scheme nl J (lTable nl (2 * J + 1)) (sTable nl (2 * J + 1)) := by
  intro nl hnl J hJ h
  match nl, J, hnl, hJ, h with
  | 0, 0, _, _, _ => exact ⟨rfl, rfl⟩
  | 1, 0, _, _, _ => exact ⟨rfl, rfl⟩
  | 2, 0, _, _, h => exact absurd (h rfl) (by decide)
  | 3, 0, _, _, h => exact absurd (h rfl) (by decide)
  | 0, 1, _, _, _ => exact ⟨rfl, rfl⟩
  | 0, 2, _, _, _ => exact ⟨rfl, rfl⟩
  | 0, 3, _, _, _ => exact ⟨rfl, rfl⟩
  | 0, 4, _, _, _ => exact ⟨rfl, rfl⟩
  | 1, 1, _, _, _ => exact ⟨rfl, rfl⟩
  | 1, 2, _, _, _ => exact ⟨rfl, rfl⟩
  | 1, 3, _, _, _ => exact ⟨rfl, rfl⟩
  | 1, 4, _, _, _ => exact ⟨rfl, rfl⟩
  | 2, 1, _, _, _ => exact ⟨rfl, rfl⟩
  | 2, 2, _, _, _ => exact ⟨rfl, rfl⟩
  | 2, 3, _, _, _ => exact ⟨rfl, rfl⟩
  | 2, 4, _, _, _ => exact ⟨rfl, rfl⟩
  | 3, 1, _, _, _ => exact ⟨rfl, rfl⟩
  | 3, 2, _, _, _ => exact ⟨rfl, rfl⟩
  | 3, 3, _, _, _ => exact ⟨rfl, rfl⟩
  | 3, 4, _, _, _ => exact ⟨rfl, rfl⟩

/-- **C184** (scheme): the orbital momentum and the spin of a meson of the numbering scheme, whose last digit is odd and whose
`nL` is one the scheme has, are those of the scheme. -/
theorem C184_scheme (pid : Int) (hm : isMeson pid = true) (h9 : digit pid 7 ≠ 9) (hodd : digit pid 1 % 2 = 1) (hl : digit pid 5 < 4)
    (h0 : digit pid 1 = 1 → digit pid 5 < 2) : Scheme (digit pid 5) ((digit pid 1 - 1) / 2) (lSpin pid) (sSpin pid) := by
  have e1 : digit pid 1 = absPID pid % 10 := by simp [digit]
  have e5 : digit pid 5 = absPID pid / 10000 % 10 := rfl
  have e7 : digit pid 7 = absPID pid / 1000000 % 10 := rfl
  rw [e1] at hodd h0
  rw [e5] at hl h0
  rw [e7] at h9
  rw [e1, e5]
  clear e1 e5 e7
  unfold lSpin sSpin
  simp only [hm, Bool.true_eq_false, if_false, h9]
  generalize absPID pid / 10000 % 10 = nl at *
  have hj : absPID pid % 10 < 10 := Nat.mod_lt _ (by decide)
  generalize absPID pid % 10 = js at *
  obtain ⟨J, rfl⟩ : ∃ J, js = 2 * J + 1 := ⟨js / 2, by omega⟩
  have : (2 * J + 1 - 1) / 2 = J := by omega
  rw [this]
  exact tables_scheme nl hl J (by omega) (fun h => h0 (by omega))

theorem scheme_couples {nl J L S : Nat} (h : Scheme nl J L S) : Couples L S J := by
  unfold Couples
  unfold Scheme at h
  split at h <;> first | exact h.elim | omega

/-- **C184** (coupling): they can be coupled to the total spin that `JSpin` gives for such a meson. -/
theorem C184_couples (pid : Int) (hm : isMeson pid = true) (h9 : digit pid 7 ≠ 9)
    (hodd : digit pid 1 % 2 = 1) (hl : digit pid 5 < 4) (h0 : digit pid 1 = 1 → digit pid 5 < 2) :
    ∃ J, jSpin pid = 2 * J + 1 ∧ Couples (lSpin pid) (sSpin pid) J := by
  have e1 : digit pid 1 = absPID pid % 10 := by simp [digit]
  refine ⟨(digit pid 1 - 1) / 2, ?_, scheme_couples (C184_scheme pid hm h9 hodd hl h0)⟩
  have hb : extraBits pid = 0 ∧ ¬ (fundamentalID pid ≤ 100 ∧ fundamentalID pid > 0) := by
    unfold isMeson at hm
    simp only at hm
    split at hm
    · cases hm
    · split at hm
      · cases hm
      · split at hm
        · cases hm
        · exact ⟨by omega, by assumption⟩
  unfold jSpin
  rw [if_neg (fun h => hb.2 ⟨h.2, h.1⟩), if_neg (by omega), ← e1]
  omega

/-- **C184** (fundamental): quarks and leptons have spin one half, the gluon and the other bosons of the electroweak and the strong
interactions spin one. -/
theorem C184_fundamental (pid : Int) :
    ((1 ≤ pid.natAbs ∧ pid.natAbs ≤ 6) ∨ (11 ≤ pid.natAbs ∧ pid.natAbs ≤ 16) → jSpin pid = 2) ∧
      (21 ≤ pid.natAbs ∧ pid.natAbs ≤ 24 → jSpin pid = 3) := by
  have key : pid.natAbs ≤ 100 → fundamentalID pid = pid.natAbs := by
    intro h
    unfold fundamentalID digit absPID
    have h1 : ∀ n, pid.natAbs / 10 ^ (n + 3) = 0 := fun n => Nat.div_eq_of_lt (by
      have : 10 ^ 3 ≤ 10 ^ (n + 3) := Nat.pow_le_pow_right (by decide) (by omega)
      omega)
    have h2 : pid.natAbs / 10 ^ (3 - 1) % 10 ≠ 2 := by
      have : (10 : Nat) ^ (3 - 1) = 100 := rfl
      rw [this]
      omega
    rw [if_neg (by rw [h1 6]; omega), if_neg (fun h' => h2 h'.1), if_pos (by omega)]
  constructor
  · intro h
    have := key (by omega)
    unfold jSpin
    rw [this]
    rcases h with h | h
    · rw [if_pos (by omega), if_pos (by omega)]
    · rw [if_pos (by omega), if_neg (by omega), if_neg (by omega), if_pos (by omega)]
  · intro h
    have := key (by omega)
    unfold jSpin
    rw [this, if_pos (by omega), if_neg (by omega), if_neg (by omega), if_neg (by omega), if_pos (by omega)]

/-- **C184** (antiparticle): an antiparticle has the spins of the particle. -/
theorem C184_antiparticle (pid : Int) : jSpin (-pid) = jSpin pid := by
  have e : absPID (-pid) = absPID pid := Int.natAbs_neg pid
  unfold jSpin fundamentalID extraBits digit
  rw [e]

/-! ## Counterexamples and examples -/

/-- `JSpin` is to give `2J + 1`. For the Higgs boson (25), the long-lived kaon (130) and the graviton (39), of spins 0, 0 and 2, it
gives 0. -/
theorem C184_zero_counterexample : jSpin 25 = 0 ∧ jSpin 130 = 0 ∧ jSpin 39 = 0 := by decide +kernel

/-- The partner of the up quark (1000002) is a scalar and that of the gluon (1000021) has spin one half; it is the other way round. -/
theorem C184_susy_counterexample : jSpin 1000002 = 2 ∧ jSpin 1000021 = 1 := by decide +kernel

example : isMeson 20213 = true ∧ digit 20213 7 ≠ 9 ∧ digit 20213 1 % 2 = 1 ∧
    digit 20213 5 = 2 ∧ lSpin 20213 = 1 ∧ sSpin 20213 = 1 ∧ jSpin 20213 = 3 := by decide +kernel

end Verif.HepPDT
