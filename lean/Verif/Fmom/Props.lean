import Verif.Fmom.P4
import Mathlib.Analysis.SpecialFunctions.Arsinh
import Mathlib.Tactic.Ring
import Mathlib.Tactic.Linarith
import Mathlib.Tactic.NormNum
import Mathlib.Tactic.FieldSimp
import Mathlib.Tactic.Positivity
import Mathlib.Tactic.LinearCombination

/-!
# Conversions between representations of four-momenta (C93)
-/

namespace Verif.Fmom
open Real

/-! ## Which momenta -/

/-- Momenta the representations can hold: not along the beam axis, not spacelike, with a
pseudo-rapidity within the limit of the code, the mass not negative. -/
def Sane (q : P4) : Prop :=
  match q.kind with
  | .pxPyPzE => 0 < q.vec.x ^ 2 + q.vec.y ^ 2 ∧ q.vec.x ^ 2 + q.vec.y ^ 2 + q.vec.z ^ 2 ≤ q.vec.t ^ 2 ∧
      |q.get.eta| ≤ 710
  | .eEtaPhiM => |q.vec.y| ≤ 710 ∧ 0 ≤ q.vec.t ∧ q.vec.t < |q.vec.x|
  | .etEtaPhiM => |q.vec.y| ≤ 710 ∧ 0 ≤ q.vec.t ∧ q.vec.t < |q.vec.x| * cosh q.vec.y
  | .ptEtaPhiM => q.vec.x ≠ 0 ∧ |q.vec.y| ≤ 710 ∧ 0 ≤ q.vec.t
  | .iPtCotThPhiM => q.vec.x ≠ 0 ∧ 0 ≤ q.vec.t ∧ (q.vec.t = 0 ∨ 0 < q.vec.x) ∧ |q.get.eta| ≤ 710

/-- The same four-momentum. -/
def Same (q q' : P4) : Prop :=
  q.get.px = q'.get.px ∧ q.get.py = q'.get.py ∧ q.get.pz = q'.get.pz ∧ q.get.e = q'.get.e

/-- All getters belong to one and the same momentum. -/
structure Canon (g : Getters) : Prop where
  pt_ne : g.pt ≠ 0
  eta_le : |g.eta| ≤ 710
  m_nonneg : 0 ≤ g.m
  px : g.px = g.pt * cos g.phi
  py : g.py = g.pt * sin g.phi
  pz : g.pz = g.pt * sinh g.eta
  e_sq : g.e ^ 2 = (g.pt * cosh g.eta) ^ 2 + g.m ^ 2
  e_sign : 0 < g.e * g.pt
  p : g.p = g.pt * cosh g.eta
  p2 : g.p2 = (g.pt * cosh g.eta) ^ 2
  m2 : g.m2 = g.m ^ 2
  et : g.et * cosh g.eta = g.e
  ipt : g.ipt * g.pt = 1
  cosPhi : g.cosPhi = cos g.phi
  sinPhi : g.sinPhi = sin g.phi
  cosTh : g.cosTh * cosh g.eta = sinh g.eta
  sinTh : g.sinTh * cosh g.eta = 1
  cotTh : g.cotTh = sinh g.eta
  tanTh : sinh g.eta ≠ 0 → g.tanTh * sinh g.eta = 1
  rapidity : g.rapidity = 0.5 * log ((g.e + g.pz) / (g.e - g.pz))

/-! ## Signs and square roots -/

theorem sgn_sq (e : ℝ) : sgn e * sgn e = 1 := by
  rw [sgn]; split <;> norm_num

theorem sgn_mul_self (e : ℝ) : sgn e * e = |e| := by
  rw [sgn]
  split
  · rw [abs_of_neg (by assumption)]; ring
  · rw [abs_of_nonneg (by linarith)]; ring

theorem sgn_mul_abs (e : ℝ) : sgn e * |e| = e := by
  rw [← sgn_mul_self, ← mul_assoc, sgn_sq, one_mul]

theorem sgn_ne (e : ℝ) : sgn e ≠ 0 := by
  rw [sgn]; split <;> norm_num

theorem sgn_congr {a b : ℝ} (h : 0 < a * b) : sgn a = sgn b := by
  rw [sgn, sgn]
  rcases lt_trichotomy a 0 with ha | ha | ha
  · have : b < 0 := by
      by_contra hb
      have := mul_nonpos_of_nonpos_of_nonneg ha.le (not_lt.mp hb)
      linarith
    rw [if_pos ha, if_pos this]
  · rw [ha, zero_mul] at h; exact absurd h (lt_irrefl _)
  · have : 0 < b := (pos_iff_pos_of_mul_pos h).mp ha
    rw [if_neg (by linarith), if_neg (by linarith)]

theorem eq_of_sq {a b : ℝ} (h : a ^ 2 = b ^ 2) (hs : 0 < a * b) : a = b := by
  rcases sq_eq_sq_iff_eq_or_eq_neg.mp h with h | h
  · exact h
  · rw [h] at hs
    nlinarith [sq_nonneg b]

theorem sgn_sqrt {a b : ℝ} (h : a ^ 2 = b) : sgn a * √b = a := by
  rw [← h, sqrt_sq_eq_abs, sgn_mul_abs]

/-! ## Hyperbolic functions -/

/-- The pseudo-rapidity of a momentum of size `P` with components `z` along the axis and `r`
across. -/
theorem half_log {P z r : ℝ} (hr : 0 < r) (hP : 0 ≤ P) (h : P ^ 2 = z ^ 2 + r ^ 2) :
    sinh (0.5 * log ((P + z) / (P - z))) = z / r ∧ cosh (0.5 * log ((P + z) / (P - z))) = P / r := by
  have hz : |z| < P := by
    have : z ^ 2 < P ^ 2 := by nlinarith
    exact abs_lt_of_sq_lt_sq this hP
  rw [abs_lt] at hz
  have h1 : 0 < P + z := by linarith
  have h2 : 0 < P - z := by linarith
  have h3 : (P + z) * (P - z) = r ^ 2 := by linarith [h]
  have e : (P + z) / (P - z) = ((P + z) / r) ^ 2 := by
    rw [div_pow, ← h3]
    field_simp
  have e2 : (0.5 : ℝ) * log ((P + z) / (P - z)) = log ((P + z) / r) := by
    rw [e, log_pow]; push_cast; ring
  have e3 : rexp (log ((P + z) / r)) = (P + z) / r := exp_log (by positivity)
  have e4 : rexp (-log ((P + z) / r)) = (P - z) / r := by
    rw [exp_neg, e3, inv_div, div_eq_div_iff (by positivity) (by positivity)]
    linarith [h3]
  constructor
  · rw [e2, sinh_eq, e3, e4]; ring
  · rw [e2, cosh_eq, e3, e4]; ring

theorem sinTh_eq {η : ℝ} (h : |η| ≤ 710) : sinTh η = 1 / cosh η := by
  rw [sinTh, min_eq_left h, cosh_abs]

theorem sinTh_cosh {η : ℝ} (h : |η| ≤ 710) : sinTh η * cosh η = 1 := by
  rw [sinTh_eq h]
  exact div_mul_cancel₀ 1 (cosh_pos η).ne'

theorem tanTh_sinh {η : ℝ} (h : |η| ≤ 710) (h0 : sinh η ≠ 0) : tanTh η * sinh η = 1 := by
  have : ¬ 710 < |η| := not_lt.mpr h
  simp only [tanTh, this, if_false]
  exact div_mul_cancel₀ 1 h0

theorem tanh_cosh (η : ℝ) : tanh η * cosh η = sinh η := by
  rw [tanh_eq_sinh_div_cosh]
  exact div_mul_cancel₀ _ (cosh_pos η).ne'

theorem cosh_sq_eq (η : ℝ) : cosh η ^ 2 = 1 + sinh η ^ 2 := by
  rw [cosh_sq]; ring

/-! ## Each representation -/

theorem canon_pt {v : Vec4} (h0 : v.x ≠ 0) (hη : |v.y| ≤ 710) (hm : 0 ≤ v.t) : Canon (ptEtaPhiM v) := by
  have hc := cosh_pos v.y
  have hsq := cosh_sq_eq v.y
  have key : v.x * v.x + v.x * sinh v.y * (v.x * sinh v.y) = (v.x * cosh v.y) ^ 2 := by
    rw [mul_pow, hsq]; ring
  have hpos : 0 < (v.x * cosh v.y) ^ 2 + v.t * v.t := by
    have : v.x * cosh v.y ≠ 0 := mul_ne_zero h0 hc.ne'
    positivity
  refine ⟨h0, hη, hm, rfl, rfl, rfl, ?_, ?_, ?_, ?_, ?_, ?_, ?_, rfl, rfl, ?_, ?_, rfl, ?_, rfl⟩
  · simp only [ptEtaPhiM]
    rw [mul_pow, sq (sgn _), sgn_sq, one_mul, key, sq_sqrt hpos.le]; ring
  · simp only [ptEtaPhiM]
    rw [key, mul_right_comm, sgn_mul_self]
    have : 0 < |v.x| := abs_pos.mpr h0
    have := sqrt_pos.mpr hpos
    positivity
  · simp only [ptEtaPhiM]
    rw [key, sqrt_sq_eq_abs, abs_mul, abs_of_pos hc, ← mul_assoc, sgn_mul_abs]
  · exact key
  · exact (sq _).symm
  · simp only [ptEtaPhiM]
    rw [mul_assoc, sinTh_cosh hη, mul_one]
  · exact div_mul_cancel₀ 1 h0
  · exact tanh_cosh _
  · exact sinTh_cosh hη
  · exact tanTh_sinh hη

theorem pOf_sq {e m : ℝ} (hm : 0 ≤ m) (h : m < |e|) :
    pOf e m ^ 2 = e ^ 2 - m ^ 2 ∧ 0 < e * pOf e m := by
  have he : e ≠ 0 := by
    rintro rfl
    rw [abs_zero] at h
    linarith
  have h1 : 0 < e * e - m * m := by
    have : m ^ 2 < e ^ 2 := by
      rw [← sq_abs e]
      nlinarith [abs_nonneg e]
    nlinarith
  rw [pOf]
  split
  · rename_i h0
    rw [h0]
    exact ⟨by ring, mul_self_pos.mpr he⟩
  · constructor
    · rw [mul_pow, sq (sgn _), sgn_sq, one_mul, sq_sqrt h1.le]; ring
    · rw [mul_left_comm, ← mul_assoc, sgn_mul_self]
      have : 0 < |e| := abs_pos.mpr he
      have := sqrt_pos.mpr h1
      positivity

theorem canon_e {v : Vec4} (hη : |v.y| ≤ 710) (hm : 0 ≤ v.t) (h : v.t < |v.x|) : Canon (eEtaPhiM v) := by
  have hc := cosh_pos v.y
  obtain ⟨h1, h2⟩ := pOf_sq hm h
  have hp : pOf v.x v.t ≠ 0 := by
    intro h0
    rw [h0, mul_zero] at h2
    exact absurd h2 (lt_irrefl _)
  have hs := sinTh_cosh hη
  have hs0 : 0 < sinTh v.y := by rw [sinTh_eq hη]; positivity
  have e1 : pOf v.x v.t * sinTh v.y * cosh v.y = pOf v.x v.t := by rw [mul_assoc, hs, mul_one]
  refine ⟨mul_ne_zero hp hs0.ne', hη, hm, rfl, rfl, ?_, ?_, ?_, e1.symm, ?_, ?_, ?_, ?_, rfl, rfl, ?_, ?_, rfl, ?_, rfl⟩
  · simp only [eEtaPhiM]
    rw [← tanh_cosh v.y, mul_assoc, ← mul_assoc (sinTh _), mul_comm (sinTh _), mul_assoc (tanh _), hs, mul_one]
  · simp only [eEtaPhiM]
    rw [e1, h1]; ring
  · simp only [eEtaPhiM]
    rw [← mul_assoc]; positivity
  · simp only [eEtaPhiM]
    rw [e1, h1]; ring
  · exact (sq _).symm
  · simp only [eEtaPhiM]
    rw [mul_assoc, hs, mul_one]
  · exact div_mul_cancel₀ 1 (mul_ne_zero hp hs0.ne')
  · exact tanh_cosh _
  · exact hs
  · exact tanTh_sinh hη

/-- Transverse energy and energy differ only in what is stored. -/
theorem canon_et {v : Vec4} (hη : |v.y| ≤ 710) (hm : 0 ≤ v.t) (h : v.t < |v.x| * cosh v.y) : Canon (etEtaPhiM v) := by
  have hc := cosh_pos v.y
  have hs := sinTh_cosh hη
  have hs0 : 0 < sinTh v.y := by rw [sinTh_eq hη]; positivity
  have he : v.x / sinTh v.y = v.x * cosh v.y := by
    rw [sinTh_eq hη, div_div_eq_mul_div, div_one]
  have c := canon_e (v := ⟨v.x / sinTh v.y, v.y, v.z, v.t⟩) hη hm (by
    rw [he, abs_mul, abs_of_pos hc]; exact h)
  have eq : etEtaPhiM v = { eEtaPhiM ⟨v.x / sinTh v.y, v.y, v.z, v.t⟩ with et := v.x } := rfl
  rw [eq]
  refine ⟨c.pt_ne, c.eta_le, c.m_nonneg, c.px, c.py, c.pz, c.e_sq, c.e_sign, c.p, c.p2, c.m2, ?_, c.ipt, c.cosPhi,
    c.sinPhi, c.cosTh, c.sinTh, c.cotTh, c.tanTh, c.rapidity⟩
  exact he.symm

theorem canon_ipt {v : Vec4} (h0 : v.x ≠ 0) (hm : 0 ≤ v.t) (hs : v.t = 0 ∨ 0 < v.x)
    (hη : |(iPtCotThPhiM v).eta| ≤ 710) : Canon (iPtCotThPhiM v) := by
  have haux : 0 < 1 + v.y * v.y := by nlinarith [sq_nonneg v.y]
  have hsqrt := sqrt_pos.mpr haux
  have hsq : √(1 + v.y * v.y) ^ 2 = 1 + v.y * v.y := sq_sqrt haux.le
  have heta : (iPtCotThPhiM v).eta = 0.5 * log ((√(1 + v.y * v.y) + v.y) / (√(1 + v.y * v.y) - v.y)) := by
    simp only [iPtCotThPhiM]
    rw [← inv_div, log_inv]; ring
  obtain ⟨hsh, hch⟩ := half_log (P := √(1 + v.y * v.y)) (z := v.y) (r := 1) one_pos hsqrt.le (by rw [hsq]; ring)
  rw [← heta, div_one] at hsh hch
  have hpt : (iPtCotThPhiM v).pt ≠ 0 := one_div_ne_zero h0
  have hp : (iPtCotThPhiM v).p = (iPtCotThPhiM v).pt * √(1 + v.y * v.y) := by
    simp only [iPtCotThPhiM]; ring
  refine ⟨hpt, hη, hm, rfl, rfl, ?_, ?_, ?_, ?_, ?_, ?_, ?_, ?_, rfl, rfl, ?_, ?_, ?_, ?_, rfl⟩
  · rw [hsh]; rfl
  · rw [hch, ← hp]
    have : 0 ≤ (iPtCotThPhiM v).p * (iPtCotThPhiM v).p + v.t * v.t := by nlinarith [mul_self_nonneg (iPtCotThPhiM v).p, mul_self_nonneg v.t]
    change (if v.t = 0 then (iPtCotThPhiM v).p else √((iPtCotThPhiM v).p * (iPtCotThPhiM v).p + v.t * v.t)) ^ 2 =
      (iPtCotThPhiM v).p ^ 2 + v.t ^ 2
    split
    · rename_i h; rw [h]; ring
    · rw [sq_sqrt this]; ring
  · change 0 < (if v.t = 0 then (iPtCotThPhiM v).p else √((iPtCotThPhiM v).p * (iPtCotThPhiM v).p + v.t * v.t)) *
      (iPtCotThPhiM v).pt
    split
    · rw [hp, mul_right_comm]
      have := mul_self_pos.mpr hpt
      positivity
    · rename_i h
      have hx := hs.resolve_left h
      have h1 : 0 < (iPtCotThPhiM v).pt := one_div_pos.mpr hx
      have h2 : 0 < v.t * v.t := mul_self_pos.mpr h
      have h3 : 0 < (iPtCotThPhiM v).p * (iPtCotThPhiM v).p + v.t * v.t := by
        nlinarith [mul_self_nonneg (iPtCotThPhiM v).p]
      have := sqrt_pos.mpr h3
      positivity
  · rw [hch]; exact hp
  · rw [hch, mul_pow, hsq]
    simp only [iPtCotThPhiM]
    field_simp
  · exact (sq _).symm
  · rw [hch]
    exact div_mul_cancel₀ _ hsqrt.ne'
  · exact mul_one_div_cancel h0
  · rw [hch, hsh]
    simp only [iPtCotThPhiM]
    rw [sqrt_div (mul_self_nonneg _), sqrt_mul_self_eq_abs, mul_assoc, div_mul_cancel₀ _ hsqrt.ne', sgn_mul_abs]
  · rw [hch]
    exact div_mul_cancel₀ _ hsqrt.ne'
  · rw [hsh]; rfl
  · rw [hsh]
    intro h
    exact div_mul_cancel₀ _ h

theorem rapidity_px {v : Vec4} (h0 : 0 < v.x ^ 2 + v.y ^ 2) (he : v.x ^ 2 + v.y ^ 2 + v.z ^ 2 ≤ v.t ^ 2)
    (hne : v.t ≠ 0) : (pxPyPzE v).rapidity = 0.5 * log ((v.t + v.z) / (v.t - v.z)) := by
  have h1 : v.t ≠ v.z := by
    intro h; rw [h] at he; linarith
  have h2 : v.t ≠ -v.z := by
    intro h; rw [h, neg_sq] at he; linarith
  simp only [pxPyPzE]
  rw [if_neg hne, if_neg h1, if_neg h2]

theorem canon_px {v : Vec4} (h0 : 0 < v.x ^ 2 + v.y ^ 2) (he : v.x ^ 2 + v.y ^ 2 + v.z ^ 2 ≤ v.t ^ 2)
    (hη : |(pxPyPzE v).eta| ≤ 710) : Canon (pxPyPzE v) := by
  have hr2 : 0 < v.x * v.x + v.y * v.y := by nlinarith
  have hP2 : 0 < v.x * v.x + v.y * v.y + v.z * v.z := by nlinarith [mul_self_nonneg v.z]
  have hr := sqrt_pos.mpr hr2
  have hP := sqrt_pos.mpr hP2
  have hrs : √(v.x * v.x + v.y * v.y) ^ 2 = v.x * v.x + v.y * v.y := sq_sqrt hr2.le
  have hPs : √(v.x * v.x + v.y * v.y + v.z * v.z) ^ 2 = v.x * v.x + v.y * v.y + v.z * v.z := sq_sqrt hP2.le
  generalize hrdef : √(v.x * v.x + v.y * v.y) = r at hr hrs
  generalize hPdef : √(v.x * v.x + v.y * v.y + v.z * v.z) = P at hP hPs
  have hne : v.t ≠ 0 := by
    intro h
    rw [h] at he
    nlinarith [sq_nonneg v.z]
  have hs := sgn_ne v.t
  have hss := sgn_sq v.t
  obtain ⟨hsh, hch⟩ := half_log (P := P) (z := v.z) (r := r) hr hP.le (by rw [hrs, hPs]; ring)
  have hPz : P ≠ v.z := by
    rintro rfl
    nlinarith
  have hPz' : P ≠ -v.z := by
    rintro rfl
    nlinarith
  have heta : (pxPyPzE v).eta = sgn v.t * (0.5 * log ((P + v.z) / (P - v.z))) := by
    simp only [pxPyPzE]
    rw [hPdef, if_neg hP.ne', if_neg hPz, if_neg hPz', mul_assoc]
  have hsh' : sinh (pxPyPzE v).eta = sgn v.t * (v.z / r) := by
    rw [heta, ← hsh, sgn]
    split
    · rw [neg_one_mul, sinh_neg, neg_one_mul]
    · rw [one_mul, one_mul]
  have hch' : cosh (pxPyPzE v).eta = P / r := by
    rw [heta, ← hch, sgn]
    split
    · rw [neg_one_mul, cosh_neg]
    · rw [one_mul]
  have hpt : (pxPyPzE v).pt = sgn v.t * r := by simp only [pxPyPzE]; rw [hrdef]
  have hp : (pxPyPzE v).p = sgn v.t * P := by simp only [pxPyPzE]; rw [hPdef]
  have hpc : (pxPyPzE v).pt * cosh (pxPyPzE v).eta = sgn v.t * P := by
    rw [hpt, hch']; field_simp
  have hpt0 : (pxPyPzE v).pt ≠ 0 := by rw [hpt]; exact mul_ne_zero hs hr.ne'
  have hxy : ¬ (sgn v.t * v.x = 0 ∧ sgn v.t * v.y = 0) := by
    rintro ⟨h1, h2⟩
    have := (mul_eq_zero.mp h1).resolve_left hs
    have := (mul_eq_zero.mp h2).resolve_left hs
    nlinarith
  have hz : (⟨sgn v.t * v.x, sgn v.t * v.y⟩ : ℂ) ≠ 0 := by
    intro h
    exact hxy ⟨congrArg Complex.re h, congrArg Complex.im h⟩
  have hnorm : ‖(⟨sgn v.t * v.x, sgn v.t * v.y⟩ : ℂ)‖ = r := by
    rw [Complex.norm_def, Complex.normSq_mk, ← hrdef]
    congr 1
    linear_combination (v.x * v.x + v.y * v.y) * hss
  have hphi : (pxPyPzE v).phi = Complex.arg ⟨sgn v.t * v.x, sgn v.t * v.y⟩ := by
    simp only [pxPyPzE]
    rw [if_neg hxy, atan2]
  have hcos : cos (pxPyPzE v).phi = sgn v.t * v.x / r := by
    rw [hphi, Complex.cos_arg hz, hnorm]
  have hsin : sin (pxPyPzE v).phi = sgn v.t * v.y / r := by
    rw [hphi, Complex.sin_arg, hnorm]
  have hm2 : 0 ≤ v.t * v.t - (v.x * v.x + v.y * v.y + v.z * v.z) := by nlinarith
  have hm : (pxPyPzE v).m = √(v.t * v.t - (v.x * v.x + v.y * v.y + v.z * v.z)) := by
    simp only [pxPyPzE]
    rw [if_neg (not_lt.mpr hm2)]
  have hmsq : (pxPyPzE v).m ^ 2 = v.t * v.t - (v.x * v.x + v.y * v.y + v.z * v.z) := by
    rw [hm, sq_sqrt hm2]
  refine ⟨hpt0, hη, by rw [hm]; exact sqrt_nonneg _, ?_, ?_, ?_, ?_, ?_, ?_, ?_, ?_, ?_, ?_, ?_, ?_, ?_, ?_, ?_, ?_, ?_⟩
  · rw [hpt, hcos]
    change v.x = _
    field_simp
    linear_combination (-v.x) * hss
  · rw [hpt, hsin]
    change v.y = _
    field_simp
    linear_combination (-v.y) * hss
  · rw [hpt, hsh']
    change v.z = _
    field_simp
    linear_combination (-v.z) * hss
  · rw [hpc, hmsq]
    change v.t ^ 2 = _
    rw [mul_pow, hPs, sq (sgn v.t), hss]; ring
  · rw [hpt]
    change 0 < v.t * _
    rw [mul_left_comm, ← mul_assoc, sgn_mul_self]
    have := abs_pos.mpr hne
    positivity
  · rw [hpc, hp]
  · rw [hpc, mul_pow, hPs, sq (sgn v.t), hss, one_mul]; rfl
  · rw [hmsq]; rfl
  · rw [hch']
    change v.t * ((pxPyPzE v).pt / (pxPyPzE v).p) * _ = v.t
    rw [hpt, hp]
    field_simp
  · exact div_mul_cancel₀ 1 hpt0
  · rw [hcos]
    change v.x * (1 / (pxPyPzE v).pt) = _
    rw [hpt]
    field_simp
    linear_combination (-v.x) * hss
  · rw [hsin]
    change v.y * (1 / (pxPyPzE v).pt) = _
    rw [hpt]
    field_simp
    linear_combination (-v.y) * hss
  · rw [hch', hsh']
    change v.z / (pxPyPzE v).p * _ = _
    rw [hp]
    field_simp
    linear_combination (-v.z) * hss
  · rw [hch']
    change (pxPyPzE v).pt / (pxPyPzE v).p * _ = 1
    rw [hpt, hp]
    field_simp
  · rw [hsh']
    change v.z / (pxPyPzE v).pt = _
    rw [hpt]
    field_simp
    linear_combination (-v.z) * hss
  · rw [hsh']
    intro h
    have hz0 : v.z ≠ 0 := by
      rintro h0
      rw [h0] at h
      simp at h
    change (pxPyPzE v).pt / v.z * _ = 1
    rw [hpt]
    field_simp
    linear_combination hss
  · exact rapidity_px h0 he hne

/-- The getters of a sane momentum agree with each other. -/
theorem canon_of_sane {q : P4} (h : Sane q) : Canon q.get := by
  obtain ⟨k, v⟩ := q
  cases k with
  | pxPyPzE => exact canon_px h.1 h.2.1 h.2.2
  | eEtaPhiM => exact canon_e h.1 h.2.1 h.2.2
  | etEtaPhiM => exact canon_et h.1 h.2.1 h.2.2
  | ptEtaPhiM => exact canon_pt h.1 h.2.1 h.2.2
  | iPtCotThPhiM => exact canon_ipt h.1 h.2.1 h.2.2.1 h.2.2.2

end Verif.Fmom
