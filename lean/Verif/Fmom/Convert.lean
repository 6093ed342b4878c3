import Verif.Fmom.Props

/-!
# Conversions between representations of four-momenta (C93)
-/

namespace Verif.Fmom
open Real

/-! ## Setting one representation from another -/

/-- The four numbers of a consistent set of getters. -/
theorem Canon.energy {g : Getters} (c : Canon g) : sgn g.pt * √(g.pt * g.pt + g.pt * sinh g.eta * (g.pt * sinh g.eta) + g.m * g.m) = g.e := by
  have hs : sgn g.pt = sgn g.e := (sgn_congr c.e_sign).symm
  rw [hs]
  refine sgn_sqrt ?_
  rw [c.e_sq, mul_pow, cosh_sq_eq]; ring

theorem Canon.mom {g : Getters} (c : Canon g) : pOf g.e g.m = g.pt * cosh g.eta ∧ g.m < |g.e| := by
  have hc := cosh_pos g.eta
  have hpos : 0 < (g.pt * cosh g.eta) ^ 2 := by
    have := mul_ne_zero c.pt_ne hc.ne'
    positivity
  have hlt : g.m < |g.e| := by
    refine lt_of_pow_lt_pow_left₀ 2 (abs_nonneg _) ?_
    rw [sq_abs, c.e_sq]
    linarith
  obtain ⟨h1, h2⟩ := pOf_sq c.m_nonneg hlt
  refine ⟨eq_of_sq ?_ ?_, hlt⟩
  · rw [h1, c.e_sq]; ring
  · have h3 : 0 < pOf g.e g.m * g.pt := by
      have h4 : 0 < (g.e * pOf g.e g.m) * (g.e * g.pt) := mul_pos h2 c.e_sign
      have h5 : (g.e * pOf g.e g.m) * (g.e * g.pt) = g.e ^ 2 * (pOf g.e g.m * g.pt) := by ring
      rw [h5] at h4
      exact (pos_iff_pos_of_mul_pos h4).mp (by
        have : g.e ≠ 0 := by
          intro h0
          have := c.e_sign
          rw [h0, zero_mul] at this
          exact lt_irrefl _ this
        positivity)
    rw [← mul_assoc]
    positivity

/-- A momentum set from consistent getters: still representable, and the same momentum. -/
theorem set_canon (k : Kind) {g : Getters} (c : Canon g) (hk : k = .iPtCotThPhiM → g.m = 0 ∨ 0 < g.e) :
    let q : P4 := { kind := k, vec := vecFor k g }
    Sane q ∧ q.get.px = g.px ∧ q.get.py = g.py ∧ q.get.pz = g.pz ∧ q.get.e = g.e := by
  have hc := cosh_pos g.eta
  have hsin := sinTh_cosh c.eta_le
  obtain ⟨hp, hlt⟩ := c.mom
  cases k with
  | pxPyPzE =>
    refine ⟨⟨?_, ?_, ?_⟩, rfl, rfl, rfl, rfl⟩
    · change 0 < g.px ^ 2 + g.py ^ 2
      have h1 : g.px ^ 2 + g.py ^ 2 = g.pt ^ 2 := by
        rw [c.px, c.py]
        linear_combination g.pt ^ 2 * (sin_sq_add_cos_sq g.phi)
      rw [h1]
      have := c.pt_ne
      positivity
    · change g.px ^ 2 + g.py ^ 2 + g.pz ^ 2 ≤ g.e ^ 2
      have h1 : g.px ^ 2 + g.py ^ 2 + g.pz ^ 2 = (g.pt * cosh g.eta) ^ 2 := by
        rw [c.px, c.py, c.pz]
        linear_combination g.pt ^ 2 * (sin_sq_add_cos_sq g.phi) - g.pt ^ 2 * cosh_sq_eq g.eta
      rw [h1, c.e_sq]
      nlinarith [sq_nonneg g.m]
    · change |(pxPyPzE ⟨g.px, g.py, g.pz, g.e⟩).eta| ≤ 710
      have hr : √(g.px * g.px + g.py * g.py) = |g.pt| := by
        rw [← sqrt_sq_eq_abs]
        congr 1
        rw [c.px, c.py]
        linear_combination g.pt ^ 2 * (sin_sq_add_cos_sq g.phi)
      have hP : √(g.px * g.px + g.py * g.py + g.pz * g.pz) = |g.pt| * cosh g.eta := by
        rw [← abs_of_pos hc, ← abs_mul, ← sqrt_sq_eq_abs]
        congr 1
        rw [c.px, c.py, c.pz]
        linear_combination g.pt ^ 2 * (sin_sq_add_cos_sq g.phi) - g.pt ^ 2 * cosh_sq_eq g.eta
      have hpt := abs_pos.mpr c.pt_ne
      have habs : |g.pz| < |g.pt| * cosh g.eta := by
        rw [c.pz, abs_mul]
        refine mul_lt_mul_of_pos_left ?_ hpt
        refine abs_lt_of_sq_lt_sq ?_ hc.le
        rw [cosh_sq_eq]
        linarith
      rw [abs_lt] at habs
      obtain ⟨hsh, -⟩ := half_log (P := |g.pt| * cosh g.eta) (z := g.pz) (r := |g.pt|) hpt (by positivity) (by
        rw [c.pz, mul_pow, mul_pow, sq_abs, cosh_sq_eq]; ring)
      have hs : sgn g.e = sgn g.pt := sgn_congr c.e_sign
      have heta : (pxPyPzE ⟨g.px, g.py, g.pz, g.e⟩).eta = g.eta := by
        apply sinh_injective
        simp only [pxPyPzE]
        rw [hP, if_neg (by positivity), if_neg (by linarith), if_neg (by linarith), mul_assoc, hs]
        have : sinh (sgn g.pt * (0.5 * log ((|g.pt| * cosh g.eta + g.pz) / (|g.pt| * cosh g.eta - g.pz)))) =
            sgn g.pt * (g.pz / |g.pt|) := by
          rw [← hsh, sgn]
          split
          · rw [neg_one_mul, sinh_neg, neg_one_mul]
          · rw [one_mul, one_mul]
        rw [this, c.pz, ← sgn_mul_self]
        have h1 := sgn_ne g.pt
        have h2 := c.pt_ne
        field_simp
      rw [heta]
      exact c.eta_le
  | eEtaPhiM =>
    refine ⟨⟨c.eta_le, c.m_nonneg, hlt⟩, ?_, ?_, ?_, rfl⟩
    · change pOf g.e g.m * sinTh g.eta * cos g.phi = g.px
      rw [hp, c.px, mul_assoc g.pt, mul_comm (cosh _), hsin, mul_one]
    · change pOf g.e g.m * sinTh g.eta * sin g.phi = g.py
      rw [hp, c.py, mul_assoc g.pt, mul_comm (cosh _), hsin, mul_one]
    · change pOf g.e g.m * tanh g.eta = g.pz
      rw [hp, c.pz, mul_assoc g.pt, mul_comm (cosh _), tanh_cosh]
  | etEtaPhiM =>
    have he : g.et / sinTh g.eta = g.e := by
      rw [sinTh_eq c.eta_le, div_div_eq_mul_div, div_one, c.et]
    refine ⟨⟨c.eta_le, c.m_nonneg, ?_⟩, ?_, ?_, ?_, he⟩
    · change g.m < |g.et| * cosh g.eta
      rw [← abs_of_pos hc, ← abs_mul, c.et]
      exact hlt
    · change pOf (g.et / sinTh g.eta) g.m * sinTh g.eta * cos g.phi = g.px
      rw [he, hp, c.px, mul_assoc g.pt, mul_comm (cosh _), hsin, mul_one]
    · change pOf (g.et / sinTh g.eta) g.m * sinTh g.eta * sin g.phi = g.py
      rw [he, hp, c.py, mul_assoc g.pt, mul_comm (cosh _), hsin, mul_one]
    · change pOf (g.et / sinTh g.eta) g.m * tanh g.eta = g.pz
      rw [he, hp, c.pz, mul_assoc g.pt, mul_comm (cosh _), tanh_cosh]
  | ptEtaPhiM => exact ⟨⟨c.pt_ne, c.eta_le, c.m_nonneg⟩, c.px.symm, c.py.symm, c.pz.symm, c.energy⟩
  | iPtCotThPhiM =>
    have hipt : g.ipt ≠ 0 := by
      intro h
      have := c.ipt
      rw [h, zero_mul] at this
      exact zero_ne_one this
    have hpt : 1 / g.ipt = g.pt := by
      rw [div_eq_iff hipt, mul_comm]; exact c.ipt.symm
    have hsq : √(1 + g.cotTh * g.cotTh) = cosh g.eta := by
      rw [c.cotTh, ← sq, ← cosh_sq_eq]
      exact sqrt_sq hc.le
    have hP : √(1 + g.cotTh * g.cotTh) / g.ipt = g.pt * cosh g.eta := by
      rw [hsq, ← hpt]; ring
    have hE : (if g.m = 0 then √(1 + g.cotTh * g.cotTh) / g.ipt
        else √(√(1 + g.cotTh * g.cotTh) / g.ipt * (√(1 + g.cotTh * g.cotTh) / g.ipt) + g.m * g.m)) = g.e := by
      rw [hP]
      split
      · rename_i h0
        refine (eq_of_sq ?_ ?_).symm
        · rw [c.e_sq, h0]; ring
        · rw [← mul_assoc]
          exact mul_pos c.e_sign hc
      · rename_i h0
        have h1 := (hk rfl).resolve_left h0
        rw [← sqrt_sq h1.le, c.e_sq]
        congr 1
        ring
    have hsign : g.m = 0 ∨ 0 < g.ipt := by
      rcases hk rfl with h | h
      · exact Or.inl h
      · refine Or.inr ?_
        have h1 : 0 < g.pt := (pos_iff_pos_of_mul_pos c.e_sign).mp h
        have h2 : 0 < g.ipt * g.pt := by rw [c.ipt]; exact one_pos
        exact (pos_iff_pos_of_mul_pos h2).mpr h1
    refine ⟨⟨hipt, c.m_nonneg, hsign, ?_⟩, ?_, ?_, ?_, hE⟩
    · change |(iPtCotThPhiM ⟨g.ipt, g.cotTh, g.phi, g.m⟩).eta| ≤ 710
      have heta : (iPtCotThPhiM ⟨g.ipt, g.cotTh, g.phi, g.m⟩).eta = g.eta := by
        apply sinh_injective
        simp only [iPtCotThPhiM]
        rw [hsq, ← inv_div, log_inv, neg_mul, mul_neg, neg_neg, c.cotTh]
        obtain ⟨h, -⟩ := half_log (P := cosh g.eta) (z := sinh g.eta) (r := 1) one_pos hc.le (by rw [cosh_sq_eq]; ring)
        rw [h, div_one]
      rw [heta]
      exact c.eta_le
    · change 1 / g.ipt * cos g.phi = g.px
      rw [hpt, c.px]
    · change 1 / g.ipt * sin g.phi = g.py
      rw [hpt, c.py]
    · change 1 / g.ipt * g.cotTh = g.pz
      rw [hpt, c.pz, c.cotTh]

/-- **C93** (part): a momentum set from another has the same components and energy, whatever the
two representations; and it can be converted further.  Only a massive momentum of negative energy
is not to be put into the representation by inverse transverse momentum. -/
theorem C93_set_partial (dst src : P4) (h : Sane src)
    (hk : dst.kind = .iPtCotThPhiM → src.get.m = 0 ∨ 0 < src.get.e) :
    Sane (dst.set src) ∧ Same (dst.set src) src ∧ (dst.set src).kind = dst.kind := by
  obtain ⟨h1, h2, h3, h4, h5⟩ := set_canon dst.kind (canon_of_sane h) hk
  exact ⟨h1, ⟨h2, h3, h4, h5⟩, rfl⟩

/-- The getters belong to the four-momentum `(px, py, pz, e)`; momenta of negative energy have
negative `P` and `Pt` and the angles of the opposite momentum. -/
structure Agree (g : Getters) : Prop where
  m2 : g.m2 = g.e ^ 2 - (g.px ^ 2 + g.py ^ 2 + g.pz ^ 2)
  m : 0 ≤ g.m ∧ g.m ^ 2 = g.m2
  p2 : g.p2 = g.px ^ 2 + g.py ^ 2 + g.pz ^ 2
  p : g.p ^ 2 = g.p2 ∧ 0 < g.p * g.e
  pt : g.pt ^ 2 = g.px ^ 2 + g.py ^ 2 ∧ 0 < g.pt * g.e
  ipt : g.ipt * g.pt = 1
  phi : g.pt * cos g.phi = g.px ∧ g.pt * sin g.phi = g.py
  cosPhi : g.cosPhi = cos g.phi
  sinPhi : g.sinPhi = sin g.phi
  eta : g.pt * sinh g.eta = g.pz ∧ g.p * tanh g.eta = g.pz
  cosTh : g.p * g.cosTh = g.pz
  sinTh : g.p * g.sinTh = g.pt
  cotTh : g.pt * g.cotTh = g.pz
  tanTh : g.pz ≠ 0 → g.pz * g.tanTh = g.pt
  et : g.et = g.e * g.sinTh
  rapidity : g.e * tanh g.rapidity = g.pz

theorem Canon.agree {g : Getters} (c : Canon g) : Agree g := by
  have hc := cosh_pos g.eta
  have hmag : g.px ^ 2 + g.py ^ 2 + g.pz ^ 2 = (g.pt * cosh g.eta) ^ 2 := by
    rw [c.px, c.py, c.pz]
    linear_combination g.pt ^ 2 * (sin_sq_add_cos_sq g.phi) - g.pt ^ 2 * cosh_sq_eq g.eta
  have hsTh : g.sinTh = 1 / cosh g.eta := by
    rw [eq_div_iff hc.ne']; exact c.sinTh
  have hcTh : g.cosTh = sinh g.eta / cosh g.eta := by
    rw [eq_div_iff hc.ne']; exact c.cosTh
  refine ⟨?_, ⟨c.m_nonneg, c.m2.symm⟩, ?_, ⟨?_, ?_⟩, ⟨?_, ?_⟩, c.ipt, ⟨c.px.symm, c.py.symm⟩, c.cosPhi, c.sinPhi,
    ⟨c.pz.symm, ?_⟩, ?_, ?_, ?_, ?_, ?_, ?_⟩
  · rw [c.m2, hmag, c.e_sq]; ring
  · rw [c.p2, hmag]
  · rw [c.p, c.p2]
  · rw [c.p, mul_right_comm, mul_comm g.pt]
    exact mul_pos c.e_sign hc
  · rw [c.px, c.py]
    linear_combination (-(g.pt ^ 2)) * (sin_sq_add_cos_sq g.phi)
  · rw [mul_comm]; exact c.e_sign
  · rw [c.p, c.pz, mul_assoc, mul_comm (cosh _), tanh_cosh]
  · rw [c.p, c.pz, hcTh]; field_simp
  · rw [c.p, hsTh]; field_simp
  · rw [c.cotTh, c.pz]
  · intro h0
    have : sinh g.eta ≠ 0 := by
      intro h
      rw [c.pz, h, mul_zero] at h0
      exact h0 rfl
    rw [c.pz, mul_assoc, mul_comm (sinh _), c.tanTh this, mul_one]
  · rw [hsTh, ← c.et]; field_simp
  · -- the rapidity, for either sign of the energy
    have he : g.e ≠ 0 := by
      intro h0
      have := c.e_sign
      rw [h0, zero_mul] at this
      exact lt_irrefl _ this
    have hlt : g.pz ^ 2 < g.e ^ 2 := by
      rw [c.e_sq, c.pz, mul_pow, mul_pow, cosh_sq_eq]
      have := c.pt_ne
      have : 0 < g.pt ^ 2 := by positivity
      nlinarith [sq_nonneg g.m]
    have hr : (g.e + g.pz) / (g.e - g.pz) = (|g.e| + sgn g.e * g.pz) / (|g.e| - sgn g.e * g.pz) := by
      rw [← sgn_mul_self, ← mul_add, ← mul_sub, mul_div_mul_left _ _ (sgn_ne _)]
    have hR : 0 < √(g.e ^ 2 - g.pz ^ 2) := sqrt_pos.mpr (by linarith)
    obtain ⟨h1, h2⟩ := half_log (P := |g.e|) (z := sgn g.e * g.pz) (r := √(g.e ^ 2 - g.pz ^ 2)) hR (abs_nonneg _) (by
      rw [sq_sqrt (by linarith), sq_abs, mul_pow, sq (sgn _), sgn_sq]; ring)
    have hE : |g.e| ≠ 0 := abs_ne_zero.mpr he
    rw [c.rapidity, hr, tanh_eq_sinh_div_cosh, h1, h2, div_div_div_cancel_right₀ hR.ne', ← sgn_mul_self]
    have := sgn_ne g.e
    field_simp

/-- **C93** (part): in every representation all getters describe one and the same momentum. -/
theorem C93_getters_partial (q : P4) (h : Sane q) : Agree q.get := (canon_of_sane h).agree

/-- **C93**: the components set by `SetPtEtaPhiM` and `SetPtEtaPhiE` are the ones asked for. -/
theorem C93_set_components (pt eta phi m e : ℝ) (hpt : 0 < pt) (hm : 0 ≤ m) (hη : |eta| ≤ 710) :
    Same (setPtEtaPhiM pt eta phi m) { kind := .ptEtaPhiM, vec := ⟨pt, eta, phi, m⟩ } ∧
    (setPtEtaPhiE pt eta phi e).get.e = e ∧
    (setPtEtaPhiE pt eta phi e).get.px = pt * cos phi ∧ (setPtEtaPhiE pt eta phi e).get.py = pt * sin phi ∧
    (setPtEtaPhiE pt eta phi e).get.pz = pt * sinh eta := by
  have c := canon_of_sane (q := { kind := .ptEtaPhiM, vec := ⟨pt, eta, phi, m⟩ }) ⟨hpt.ne', hη, hm⟩
  have ha : |pt| = pt := abs_of_pos hpt
  refine ⟨⟨?_, ?_, ?_, ?_⟩, rfl, ?_, ?_, ?_⟩
  · change |pt| * cos phi = pt * cos phi; rw [ha]
  · change |pt| * sin phi = pt * sin phi; rw [ha]
  · change |pt| * sinh eta = pt * sinh eta; rw [ha]
  · change (if 0 ≤ m then √(|pt| * cos phi * (|pt| * cos phi) + |pt| * sin phi * (|pt| * sin phi) +
      |pt| * sinh eta * (|pt| * sinh eta) + m * m) else _) = _
    rw [if_pos hm, ha]
    have h1 := c.e_sign
    change 0 < _ * pt at h1
    have h2 := (pos_iff_pos_of_mul_pos h1).mpr hpt
    rw [← sqrt_sq h2.le, c.e_sq]
    congr 1
    change _ = (pt * cosh eta) ^ 2 + m ^ 2
    rw [mul_pow, cosh_sq_eq]
    linear_combination pt ^ 2 * (sin_sq_add_cos_sq phi)
  · change |pt| * cos phi = pt * cos phi; rw [ha]
  · change |pt| * sin phi = pt * sin phi; rw [ha]
  · change |pt| * sinh eta = pt * sinh eta; rw [ha]

/-! ## Where it fails -/

/-- **C93 fails** for spacelike momenta: the mass squared and the energy are lost. -/
theorem C93_spacelike_counterexample :
    let q := newPxPyPzE 1 0 0 0
    let q' : P4 := P4.set { kind := .ptEtaPhiM, vec := ⟨0, 0, 0, 0⟩ } q
    q.get.e = 0 ∧ q'.get.e = √2 ∧ q.get.m2 = -1 ∧ q'.get.m2 = 1 := by
  have harg : Complex.arg ⟨1, 0⟩ = 0 := Complex.arg_one
  refine ⟨rfl, ?_, ?_, ?_⟩
  · simp [P4.set, P4.get, newPxPyPzE, vecFor, pxPyPzE, ptEtaPhiM, sgn, atan2, harg]
    norm_num
  · simp [P4.get, newPxPyPzE, pxPyPzE]
  · simp [P4.set, P4.get, newPxPyPzE, vecFor, pxPyPzE, ptEtaPhiM, sgn]

/-- **C93 fails** for massive momenta of negative energy in one representation: the energy changes
sign. -/
theorem C93_negative_energy_counterexample :
    let q := newPxPyPzE 3 0 0 (-5)
    let q' : P4 := P4.set { kind := .iPtCotThPhiM, vec := ⟨0, 0, 0, 0⟩ } q
    q.get.e = -5 ∧ q'.get.e = 5 ∧ q'.get.pz = q.get.pz := by
  have h9 : √((3 : ℝ) * 3) = 3 := sqrt_mul_self (by norm_num)
  have h16 : √((5 : ℝ) * 5 - 3 * 3) = 4 := by
    rw [show (5 : ℝ) * 5 - 3 * 3 = 4 * 4 by norm_num]; exact sqrt_mul_self (by norm_num)
  have h25 : √((3 : ℝ) * 3 + 4 * 4) = 5 := by
    rw [show (3 : ℝ) * 3 + 4 * 4 = 5 * 5 by norm_num]; exact sqrt_mul_self (by norm_num)
  have hlt : ¬ ((5 : ℝ) * 5 < 3 * 3) := by norm_num
  refine ⟨rfl, ?_, ?_⟩
  · simp [P4.set, P4.get, newPxPyPzE, vecFor, pxPyPzE, iPtCotThPhiM, sgn, h9, h16, h25, hlt]
  · simp [P4.set, P4.get, newPxPyPzE, vecFor, pxPyPzE, iPtCotThPhiM]

/-! ## Examples -/

/-- A massive momentum. -/
example : Sane (P4.set { kind := .iPtCotThPhiM, vec := ⟨0, 0, 0, 0⟩ } { kind := .ptEtaPhiM, vec := ⟨5, 1.5, 0.9, 5⟩ }) :=
  (C93_set_partial _ { kind := .ptEtaPhiM, vec := ⟨5, 1.5, 0.9, 5⟩ } ⟨by norm_num, by norm_num [abs_of_pos], by norm_num⟩ fun _ => Or.inr (by
    simp only [P4.get, ptEtaPhiM, sgn]
    rw [if_neg (by norm_num)]
    positivity)).1

/-- A momentum of negative energy. -/
example : Agree (P4.get { kind := .eEtaPhiM, vec := ⟨-5, 1.5, 0.9, 3⟩ }) :=
  C93_getters_partial _ ⟨by norm_num [abs_of_pos], by norm_num, by norm_num [abs_of_neg]⟩

end Verif.Fmom
