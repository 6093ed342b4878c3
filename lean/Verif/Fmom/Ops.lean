import Verif.Fmom.Convert

/-!
# Sums and boosts of four-momenta (C94), distances between them (C95)
-/

namespace Verif.Fmom
open Real

/-! ## Results in the representation of the first argument -/

/-- The momentum `(px, py, pz, e)` can be held by a representation. -/
def Fits (k : Kind) (px py pz e : ℝ) : Prop :=
  k = .pxPyPzE ∨ (Sane (newPxPyPzE px py pz e) ∧
    (k = .iPtCotThPhiM → e ^ 2 = px ^ 2 + py ^ 2 + pz ^ 2 ∨ 0 < e))

/-- The components of a momentum. -/
def Is (q : P4) (px py pz e : ℝ) : Prop := q.get.px = px ∧ q.get.py = py ∧ q.get.pz = pz ∧ q.get.e = e

theorem set_fits (p : P4) {px py pz e : ℝ} (h : Fits p.kind px py pz e) :
    Is (p.set (newPxPyPzE px py pz e)) px py pz e := by
  obtain ⟨k, v⟩ := p
  rcases h with h | ⟨h, hk⟩
  · change k = _ at h
    subst h
    exact ⟨rfl, rfl, rfl, rfl⟩
  · have ha := (canon_of_sane h).agree
    refine (C93_set_partial ⟨k, v⟩ _ h fun hi => ?_).2.1
    rcases hk hi with hk | hk
    · refine Or.inl ?_
      have h1 := ha.m.2
      rw [ha.m2] at h1
      change _ = e ^ 2 - (px ^ 2 + py ^ 2 + pz ^ 2) at h1
      rw [hk, sub_self] at h1
      exact pow_eq_zero_iff (two_ne_zero) |>.mp h1
    · exact Or.inr hk

/-- Going through components of its own does not change a momentum that is given by components. -/
theorem iadd_add (p1 p2 : P4) : iadd p1 p2 = add p1 p2 := by
  obtain ⟨k, v⟩ := p1
  cases k <;> rfl

/-- **C94** (part): the sum has the sums of the components, in the representation of the first
momentum; adding in place gives the same; and so for multiples. -/
theorem C94_sum_partial (p1 p2 : P4) (a : ℝ) :
    (Fits p1.kind (p1.get.px + p2.get.px) (p1.get.py + p2.get.py) (p1.get.pz + p2.get.pz) (p1.get.e + p2.get.e) →
      Is (add p1 p2) (p1.get.px + p2.get.px) (p1.get.py + p2.get.py) (p1.get.pz + p2.get.pz) (p1.get.e + p2.get.e)) ∧
    (add p1 p2).kind = p1.kind ∧ iadd p1 p2 = add p1 p2 ∧
    (Fits p1.kind (a * p1.get.px) (a * p1.get.py) (a * p1.get.pz) (a * p1.get.e) →
      Is (scale a p1) (a * p1.get.px) (a * p1.get.py) (a * p1.get.pz) (a * p1.get.e)) ∧
    (scale a p1).kind = p1.kind := by
  refine ⟨fun h => ?_, ?_, iadd_add p1 p2, fun h => set_fits p1 h, rfl⟩
  · rw [← iadd_add]
    obtain ⟨k, v⟩ := p1
    cases k <;> exact set_fits _ h
  · obtain ⟨k, v⟩ := p1
    cases k <;> rfl

/-- **C94 fails** for sums along the axis: two such momenta add up to one along the axis, and no
momentum given by its transverse component can be that, whatever stands for the infinite
pseudo-rapidity. -/
theorem C94_axis_counterexample :
    let p1 : P4 := { kind := .ptEtaPhiM, vec := ⟨1, 1, 0, 0⟩ }
    let p2 : P4 := { kind := .ptEtaPhiM, vec := ⟨1, 1, π, 0⟩ }
    p1.get.px + p2.get.px = 0 ∧ p1.get.py + p2.get.py = 0 ∧ 0 < p1.get.pz + p2.get.pz ∧
    ∀ q : P4, q.kind = .ptEtaPhiM → q.get.px = 0 → q.get.py = 0 → q.get.pz = 0 := by
  refine ⟨?_, ?_, ?_, ?_⟩
  · simp [P4.get, ptEtaPhiM]
  · simp [P4.get, ptEtaPhiM]
  · have h : 0 < sinh 1 := sinh_pos_iff.mpr one_pos
    simp only [P4.get, ptEtaPhiM]
    linarith
  · rintro ⟨k, v⟩ hk h1 h2
    change k = _ at hk
    subst hk
    change v.x * cos v.z = 0 at h1
    change v.x * sin v.z = 0 at h2
    have h0 : v.x = 0 := by
      have : v.x ^ 2 = 0 := by
        have := sin_sq_add_cos_sq v.z
        calc v.x ^ 2 = (v.x * cos v.z) ^ 2 + (v.x * sin v.z) ^ 2 := by linear_combination (-(v.x ^ 2)) * this
          _ = 0 := by rw [h1, h2]; ring
      exact pow_eq_zero_iff (two_ne_zero) |>.mp this
    change v.x * sinh v.y = 0
    rw [h0, zero_mul]

/-! ## Momenta of particles -/

/-- A momentum of a particle: the energy is positive and at least the momentum. -/
def Particle (q : P4) : Prop := 0 ≤ q.get.e ∧ q.get.px ^ 2 + q.get.py ^ 2 + q.get.pz ^ 2 ≤ q.get.e ^ 2

/-- The mass squared by the components. -/
noncomputable def mass2 (q : P4) : ℝ := q.get.e ^ 2 - (q.get.px ^ 2 + q.get.py ^ 2 + q.get.pz ^ 2)

theorem dot_ge {e1 x1 y1 z1 e2 x2 y2 z2 m1 m2 : ℝ} (h1 : e1 ^ 2 = x1 ^ 2 + y1 ^ 2 + z1 ^ 2 + m1 ^ 2)
    (h2 : e2 ^ 2 = x2 ^ 2 + y2 ^ 2 + z2 ^ 2 + m2 ^ 2) (he1 : 0 ≤ e1) (he2 : 0 ≤ e2) :
    m1 * m2 ≤ e1 * e2 - (x1 * x2 + y1 * y2 + z1 * z2) := by
  have : (m1 * m2 + (x1 * x2 + y1 * y2 + z1 * z2)) ^ 2 ≤ (e1 * e2) ^ 2 := by
    rw [mul_pow, h1, h2]
    nlinarith [sq_nonneg (x1 * y2 - y1 * x2), sq_nonneg (x1 * z2 - z1 * x2), sq_nonneg (y1 * z2 - z1 * y2),
      sq_nonneg (m1 * x2 - m2 * x1), sq_nonneg (m1 * y2 - m2 * y1), sq_nonneg (m1 * z2 - m2 * z1)]
  have := abs_le_of_sq_le_sq this (mul_nonneg he1 he2)
  linarith [le_abs_self (m1 * m2 + (x1 * x2 + y1 * y2 + z1 * z2))]

theorem mass_px {x y z t : ℝ} (h : 0 ≤ t ^ 2 - (x ^ 2 + y ^ 2 + z ^ 2)) :
    (newPxPyPzE x y z t).get.m = √(t ^ 2 - (x ^ 2 + y ^ 2 + z ^ 2)) := by
  simp only [newPxPyPzE, P4.get, pxPyPzE, ← sq]
  rw [if_neg (not_lt.mpr h)]

/-- **C94** (part): the sum of momenta of particles is one, and the invariant mass of two
particles is at least the sum of their masses: never imaginary. -/
theorem C94_invariant_mass_partial (p1 p2 : P4) (h1 : Particle p1) (h2 : Particle p2)
    (hf : Fits p1.kind (p1.get.px + p2.get.px) (p1.get.py + p2.get.py) (p1.get.pz + p2.get.pz) (p1.get.e + p2.get.e)) :
    Particle (add p1 p2) ∧ √(mass2 p1) + √(mass2 p2) ≤ invMass p1 p2 ∧
    invMass p1 p2 ^ 2 = (p1.get.e + p2.get.e) ^ 2 -
      ((p1.get.px + p2.get.px) ^ 2 + (p1.get.py + p2.get.py) ^ 2 + (p1.get.pz + p2.get.pz) ^ 2) := by
  obtain ⟨hs, hkind, -⟩ := C94_sum_partial p1 p2 0
  obtain ⟨i1, i2, i3, i4⟩ := hs hf
  have hm1 : 0 ≤ mass2 p1 := by rw [mass2]; linarith [h1.2]
  have hm2 : 0 ≤ mass2 p2 := by rw [mass2]; linarith [h2.2]
  have hd := dot_ge (m1 := √(mass2 p1)) (m2 := √(mass2 p2)) (e1 := p1.get.e) (x1 := p1.get.px) (y1 := p1.get.py)
    (z1 := p1.get.pz) (e2 := p2.get.e) (x2 := p2.get.px) (y2 := p2.get.py) (z2 := p2.get.pz)
    (by rw [sq_sqrt hm1, mass2]; ring) (by rw [sq_sqrt hm2, mass2]; ring) h1.1 h2.1
  have hsq1 := sq_sqrt hm1
  have hsq2 := sq_sqrt hm2
  have key : (√(mass2 p1) + √(mass2 p2)) ^ 2 ≤ (p1.get.e + p2.get.e) ^ 2 -
      ((p1.get.px + p2.get.px) ^ 2 + (p1.get.py + p2.get.py) ^ 2 + (p1.get.pz + p2.get.pz) ^ 2) := by
    rw [mass2] at hsq1 hsq2
    rw [mass2, mass2] at *
    nlinarith
  have hnn : 0 ≤ (p1.get.e + p2.get.e) ^ 2 -
      ((p1.get.px + p2.get.px) ^ 2 + (p1.get.py + p2.get.py) ^ 2 + (p1.get.pz + p2.get.pz) ^ 2) :=
    le_trans (sq_nonneg _) key
  have hinv : 0 ≤ invMass p1 p2 ∧ invMass p1 p2 ^ 2 = (p1.get.e + p2.get.e) ^ 2 -
      ((p1.get.px + p2.get.px) ^ 2 + (p1.get.py + p2.get.py) ^ 2 + (p1.get.pz + p2.get.pz) ^ 2) := by
    rcases hf with hk | ⟨hS, hI⟩
    · have hq : (add p1 p2) = newPxPyPzE (p1.get.px + p2.get.px) (p1.get.py + p2.get.py) (p1.get.pz + p2.get.pz)
          (p1.get.e + p2.get.e) := by
        obtain ⟨k, v⟩ := p1
        change k = _ at hk
        subst hk
        rfl
      rw [invMass, hq]
      have e : ((newPxPyPzE (p1.get.px + p2.get.px) (p1.get.py + p2.get.py) (p1.get.pz + p2.get.pz)
          (p1.get.e + p2.get.e)).get.m) = √((p1.get.e + p2.get.e) ^ 2 -
          ((p1.get.px + p2.get.px) ^ 2 + (p1.get.py + p2.get.py) ^ 2 + (p1.get.pz + p2.get.pz) ^ 2)) := by
        exact mass_px hnn
      rw [e]
      exact ⟨sqrt_nonneg _, sq_sqrt hnn⟩
    · have hSadd : Sane (add p1 p2) := by
        rw [← iadd_add]
        have hm : p1.kind = .iPtCotThPhiM → (newPxPyPzE (p1.get.px + p2.get.px) (p1.get.py + p2.get.py)
            (p1.get.pz + p2.get.pz) (p1.get.e + p2.get.e)).get.m = 0 ∨ 0 < (newPxPyPzE (p1.get.px + p2.get.px)
            (p1.get.py + p2.get.py) (p1.get.pz + p2.get.pz) (p1.get.e + p2.get.e)).get.e := by
          intro _
          refine Or.inr ?_
          change 0 < p1.get.e + p2.get.e
          have h3 := (canon_of_sane hS).e_sign
          change 0 < (p1.get.e + p2.get.e) * _ at h3
          refine lt_of_le_of_ne (add_nonneg h1.1 h2.1) ?_
          intro h0
          rw [← h0, zero_mul] at h3
          exact lt_irrefl _ h3
        have := (C93_set_partial p1 _ hS hm).1
        obtain ⟨k, v⟩ := p1
        cases k <;> exact this
      have ha := C93_getters_partial _ hSadd
      refine ⟨ha.m.1, ?_⟩
      rw [invMass, ha.m.2, ha.m2, i1, i2, i3, i4]
  refine ⟨⟨?_, ?_⟩, ?_, hinv.2⟩
  · rw [i4]; exact add_nonneg h1.1 h2.1
  · rw [i1, i2, i3, i4]; linarith
  · refine abs_le_of_sq_le_sq' ?_ hinv.1 |>.2
    rw [hinv.2]
    exact key

/-! ## Boosts -/

/-- The components of a boosted momentum, as the code computes them. -/
noncomputable def boosted (v : Vec3) (px py pz e : ℝ) : ℝ × ℝ × ℝ × ℝ :=
  let v2 := v.dot v
  let bp := v.dot ⟨px, py, pz⟩
  let gamma := 1 / √(1 - v2)
  let beta := (gamma - 1) / v2
  let alpha := beta * bp + gamma * e
  (px + alpha * v.x, py + alpha * v.y, pz + alpha * v.z, gamma * (e + bp))

/-- The boosted momentum can be held by its representation. -/
def FitsBoosted (p : P4) (v : Vec3) : Prop :=
  let b := boosted v p.get.px p.get.py p.get.pz p.get.e
  Fits p.kind b.1 b.2.1 b.2.2.1 b.2.2.2

/-- No boost. -/
abbrev Vec3.IsZero (v : Vec3) : Prop := v.x = 0 ∧ v.y = 0 ∧ v.z = 0

theorem boost_eq {p : P4} {v : Vec3} (h0 : ¬ v.IsZero) :
    let b := boosted v p.get.px p.get.py p.get.pz p.get.e
    boost p v = p.set (newPxPyPzE b.1 b.2.1 b.2.2.1 b.2.2.2) := by
  simp only [boost]
  rw [if_neg h0]
  rfl

theorem boost_is {p : P4} {v : Vec3} (h0 : ¬ v.IsZero) (h : FitsBoosted p v) :
    let b := boosted v p.get.px p.get.py p.get.pz p.get.e
    Is (boost p v) b.1 b.2.1 b.2.2.1 b.2.2.2 := by
  rw [boost_eq h0]
  exact set_fits p h

theorem dot_pos {v : Vec3} (h0 : ¬ v.IsZero) : 0 < v.dot v := by
  rw [Vec3.dot]
  by_contra h
  have h1 := mul_self_nonneg v.x
  have h2 := mul_self_nonneg v.y
  have h3 := mul_self_nonneg v.z
  exact h0 ⟨mul_self_eq_zero.mp (by linarith), mul_self_eq_zero.mp (by linarith), mul_self_eq_zero.mp (by linarith)⟩

/-- The two factors of a boost. -/
theorem factors {v : Vec3} (h0 : ¬ v.IsZero) (h1 : v.dot v < 1) :
    let γ := 1 / √(1 - v.dot v)
    let β := (γ - 1) / v.dot v
    0 < γ ∧ γ ^ 2 * (1 - v.dot v) = 1 ∧ β * v.dot v = γ - 1 ∧ β * (γ + 1) = γ ^ 2 := by
  have hp := dot_pos h0
  have hs : 0 < √(1 - v.dot v) := sqrt_pos.mpr (by linarith)
  have hγ : (1 / √(1 - v.dot v)) ^ 2 * (1 - v.dot v) = 1 := by
    rw [div_pow, one_pow, sq_sqrt (by linarith)]
    exact div_mul_cancel₀ 1 (by linarith)
  have hβ : (1 / √(1 - v.dot v) - 1) / v.dot v * v.dot v = 1 / √(1 - v.dot v) - 1 := div_mul_cancel₀ _ hp.ne'
  refine ⟨by positivity, hγ, hβ, ?_⟩
  generalize 1 / √(1 - v.dot v) = γ at *
  rw [div_mul_eq_mul_div, div_eq_iff hp.ne']
  linear_combination hγ

theorem boosted_dot {v : Vec3} (h0 : ¬ v.IsZero) (h1 : v.dot v < 1) (x1 y1 z1 e1 x2 y2 z2 e2 : ℝ) :
    let a := boosted v x1 y1 z1 e1
    let b := boosted v x2 y2 z2 e2
    a.2.2.2 * b.2.2.2 - (a.1 * b.1 + a.2.1 * b.2.1 + a.2.2.1 * b.2.2.1) = e1 * e2 - (x1 * x2 + y1 * y2 + z1 * z2) := by
  obtain ⟨-, hγ, hβ, hβ2⟩ := factors h0 h1
  simp only [boosted]
  generalize 1 / √(1 - v.dot v) = γ at *
  generalize (γ - 1) / v.dot v = β at *
  have hb1 : v.dot ⟨x1, y1, z1⟩ = v.x * x1 + v.y * y1 + v.z * z1 := rfl
  have hb2 : v.dot ⟨x2, y2, z2⟩ = v.x * x2 + v.y * y2 + v.z * z2 := rfl
  have hv : v.dot v = v.x * v.x + v.y * v.y + v.z * v.z := rfl
  generalize v.dot ⟨x1, y1, z1⟩ = b1 at *
  generalize v.dot ⟨x2, y2, z2⟩ = b2 at *
  generalize v.dot v = w at *
  have exp1 : (x1 + (β * b1 + γ * e1) * v.x) * (x2 + (β * b2 + γ * e2) * v.x) +
      (y1 + (β * b1 + γ * e1) * v.y) * (y2 + (β * b2 + γ * e2) * v.y) +
      (z1 + (β * b1 + γ * e1) * v.z) * (z2 + (β * b2 + γ * e2) * v.z) =
      x1 * x2 + y1 * y2 + z1 * z2 + (β * b1 + γ * e1) * b2 + (β * b2 + γ * e2) * b1 +
      (β * b1 + γ * e1) * (β * b2 + γ * e2) * w := by
    rw [hb1, hb2, hv]; ring
  rw [exp1]
  linear_combination (e1 * e2) * hγ - (b1 * b2 * β + γ * (b1 * e2 + e1 * b2)) * hβ - b1 * b2 * hβ2

/-- The product by components. -/
theorem dot_eq (p q : P4) : dot p q = p.get.e * q.get.e - (p.get.px * q.get.px + p.get.py * q.get.py + p.get.pz * q.get.pz) := by
  rw [dot]; ring

/-- **C94** (part): boosts keep products of momenta, so masses and angles in the rest frame. -/
theorem C94_boost_invariant_partial (p1 p2 : P4) (v : Vec3) (hv : v.dot v < 1) (h1 : FitsBoosted p1 v)
    (h2 : FitsBoosted p2 v) :
    dot (boost p1 v) (boost p2 v) = dot p1 p2 ∧ mass2 (boost p1 v) = mass2 p1 ∧ (boost p1 v).kind = p1.kind := by
  by_cases h0 : v.IsZero
  · have e : ∀ p : P4, boost p v = p := by
      intro p
      simp only [boost]
      rw [if_pos h0]
    rw [e, e]
    exact ⟨rfl, rfl, rfl⟩
  · obtain ⟨a1, a2, a3, a4⟩ := boost_is h0 h1
    obtain ⟨b1, b2, b3, b4⟩ := boost_is h0 h2
    refine ⟨?_, ?_, ?_⟩
    · rw [dot_eq, dot_eq, a1, a2, a3, a4, b1, b2, b3, b4]
      exact boosted_dot h0 hv _ _ _ _ _ _ _ _
    · have := boosted_dot h0 hv p1.get.px p1.get.py p1.get.pz p1.get.e p1.get.px p1.get.py p1.get.pz p1.get.e
      rw [mass2, mass2, a1, a2, a3, a4]
      simp only [sq]
      exact this
    · simp only [boost]
      rw [if_neg h0]
      rfl

/-- The opposite velocity. -/
def Vec3.neg (v : Vec3) : Vec3 := ⟨-v.x, -v.y, -v.z⟩

theorem neg_isZero {v : Vec3} (h : ¬ v.IsZero) : ¬ v.neg.IsZero := by
  rintro ⟨h1, h2, h3⟩
  exact h ⟨neg_eq_zero.mp h1, neg_eq_zero.mp h2, neg_eq_zero.mp h3⟩

theorem neg_dot (v : Vec3) : v.neg.dot v.neg = v.dot v := by
  simp only [Vec3.neg, Vec3.dot]; ring

theorem boosted_neg {v : Vec3} (h0 : ¬ v.IsZero) (h1 : v.dot v < 1) (x y z e : ℝ) :
    let b := boosted v x y z e
    boosted v.neg b.1 b.2.1 b.2.2.1 b.2.2.2 = (x, y, z, e) := by
  obtain ⟨-, hγ, hβ, hβ2⟩ := factors h0 h1
  simp only [boosted, neg_dot]
  generalize 1 / √(1 - v.dot v) = γ at *
  generalize (γ - 1) / v.dot v = β at *
  have hb : v.dot ⟨x, y, z⟩ = v.x * x + v.y * y + v.z * z := rfl
  have hv : v.dot v = v.x * v.x + v.y * v.y + v.z * v.z := rfl
  generalize v.dot ⟨x, y, z⟩ = b at *
  have hn : v.neg.dot ⟨x + (β * b + γ * e) * v.x, y + (β * b + γ * e) * v.y, z + (β * b + γ * e) * v.z⟩ =
      -(b + (β * b + γ * e) * v.dot v) := by
    rw [hb, hv]
    simp only [Vec3.neg, Vec3.dot]; ring
  rw [hn]
  generalize v.dot v = w at *
  have ha : β * -(b + (β * b + γ * e) * w) + γ * (γ * (e + b)) = β * b + γ * e := by
    linear_combination (-(β * b + γ * e)) * hβ - b * hβ2
  have he : γ * (γ * (e + b) + -(b + (β * b + γ * e) * w)) = e := by
    linear_combination e * hγ - γ * b * hβ
  rw [ha, he]
  simp only [Vec3.neg, Prod.mk.injEq]
  refine ⟨by ring, by ring, by ring, trivial⟩

/-- **C94** (part): the opposite boost undoes a boost. -/
theorem C94_boost_back_partial (p : P4) (v : Vec3) (hv : v.dot v < 1) (h1 : FitsBoosted p v)
    (h2 : FitsBoosted (boost p v) v.neg) : Same (boost (boost p v) v.neg) p := by
  by_cases h0 : v.IsZero
  · have e : ∀ p : P4, ∀ w : Vec3, w.IsZero → boost p w = p := by
      intro p w hw
      simp only [boost]
      rw [if_pos hw]
    rw [e p v h0, e p v.neg ⟨by simp [Vec3.neg, h0.1], by simp [Vec3.neg, h0.2.1], by simp [Vec3.neg, h0.2.2]⟩]
    exact ⟨rfl, rfl, rfl, rfl⟩
  · obtain ⟨a1, a2, a3, a4⟩ := boost_is h0 h1
    obtain ⟨b1, b2, b3, b4⟩ := boost_is (neg_isZero h0) h2
    rw [a1, a2, a3, a4] at b1 b2 b3 b4
    have := boosted_neg h0 hv p.get.px p.get.py p.get.pz p.get.e
    simp only at this b1 b2 b3 b4
    rw [this] at b1 b2 b3 b4
    exact ⟨b1, b2, b3, b4⟩

/-- **C94** (part): `BoostOf` gives a velocity below that of light exactly for momenta that are
timelike (and the zero momentum), and the opposite boost brings the particle to rest with its mass
as energy. -/
theorem C94_rest_frame_partial (p : P4) (hk : p.kind = .pxPyPzE) :
    (boostOf p = none ↔ mass2 p ≤ 0 ∧ ¬ (p.get.e = 0 ∧ p.get.px = 0 ∧ p.get.py = 0 ∧ p.get.pz = 0)) ∧
    ∀ v, boostOf p = some v → v.dot v < 1 ∧ (p.get.e * v.x = p.get.px ∧ p.get.e * v.y = p.get.py ∧ p.get.e * v.z = p.get.pz) ∧
      (0 < p.get.e → Is (boost p v.neg) 0 0 0 √(mass2 p)) := by
  obtain ⟨k, q⟩ := p
  change k = _ at hk
  subst hk
  have hm2 : (P4.get ⟨.pxPyPzE, q⟩).m2 = mass2 ⟨.pxPyPzE, q⟩ := by
    simp only [P4.get, pxPyPzE, mass2]; ring
  have hp2 : (P4.get ⟨.pxPyPzE, q⟩).p2 = q.x * q.x + q.y * q.y + q.z * q.z := rfl
  have hmass : mass2 ⟨.pxPyPzE, q⟩ = q.t ^ 2 - (q.x ^ 2 + q.y ^ 2 + q.z ^ 2) := rfl
  change (boostOf ⟨.pxPyPzE, q⟩ = none ↔ mass2 ⟨.pxPyPzE, q⟩ ≤ 0 ∧ ¬ (q.t = 0 ∧ q.x = 0 ∧ q.y = 0 ∧ q.z = 0)) ∧ _
  have hz : q.x * q.x + q.y * q.y + q.z * q.z = 0 ↔ q.x = 0 ∧ q.y = 0 ∧ q.z = 0 := by
    constructor
    · intro h
      have h1 := mul_self_nonneg q.x
      have h2 := mul_self_nonneg q.y
      have h3 := mul_self_nonneg q.z
      exact ⟨mul_self_eq_zero.mp (by linarith), mul_self_eq_zero.mp (by linarith), mul_self_eq_zero.mp (by linarith)⟩
    · rintro ⟨h1, h2, h3⟩
      rw [h1, h2, h3]; ring
  have unf : boostOf ⟨.pxPyPzE, q⟩ = if q.t = 0 then (if q.x * q.x + q.y * q.y + q.z * q.z = 0 then some ⟨0, 0, 0⟩ else none)
      else if mass2 ⟨.pxPyPzE, q⟩ ≤ 0 then none else some ⟨1 / q.t * q.x, 1 / q.t * q.y, 1 / q.t * q.z⟩ := by
    simp only [boostOf, hm2, hp2]
    rfl
  constructor
  · rw [unf]
    split
    · rename_i h0
      split
      · rename_i h1
        have h2 := hz.mp h1
        simp [h0, h2]
      · rename_i h1
        have : mass2 ⟨.pxPyPzE, q⟩ ≤ 0 := by
          rw [hmass, h0]
          nlinarith [sq_nonneg q.x, sq_nonneg q.y, sq_nonneg q.z]
        simp only [true_iff]
        exact ⟨this, fun h => h1 (hz.mpr h.2)⟩
    · rename_i h0
      split
      · rename_i h1
        simp [h1, h0]
      · rename_i h1
        simp [h1]
  · intro v hv
    rw [unf] at hv
    split at hv
    · rename_i h0
      split at hv
      · rename_i h1
        have h2 := hz.mp h1
        cases hv
        refine ⟨by simp [Vec3.dot], ⟨?_, ?_, ?_⟩, ?_⟩
        · change q.t * 0 = q.x; rw [h2.1, mul_zero]
        · change q.t * 0 = q.y; rw [h2.2.1, mul_zero]
        · change q.t * 0 = q.z; rw [h2.2.2, mul_zero]
        · intro he
          change 0 < q.t at he
          rw [h0] at he
          exact absurd he (lt_irrefl _)
      · cases hv
    · rename_i h0
      split at hv
      · cases hv
      · rename_i h1
        rw [not_le] at h1
        injection hv with hv
        have hx : q.t * v.x = q.x := by rw [← hv]; field_simp
        have hy : q.t * v.y = q.y := by rw [← hv]; field_simp
        have hzz : q.t * v.z = q.z := by rw [← hv]; field_simp
        have ht2 : 0 < q.t ^ 2 := by positivity
        have hM : mass2 ⟨.pxPyPzE, q⟩ = q.t ^ 2 * (1 - v.dot v) := by
          rw [hmass, ← hx, ← hy, ← hzz, Vec3.dot]; ring
        have hdot : v.dot v < 1 := by
          rw [hM] at h1
          have := (pos_iff_pos_of_mul_pos h1).mp ht2
          linarith
        refine ⟨hdot, ⟨hx, hy, hzz⟩, ?_⟩
        intro he
        change 0 < q.t at he
        by_cases hzero : v.IsZero
        · have hb : boost ⟨.pxPyPzE, q⟩ v.neg = ⟨.pxPyPzE, q⟩ := by
            simp only [boost]
            rw [if_pos ⟨by simp [Vec3.neg, hzero.1], by simp [Vec3.neg, hzero.2.1], by simp [Vec3.neg, hzero.2.2]⟩]
          rw [hb]
          refine ⟨?_, ?_, ?_, ?_⟩
          · change q.x = 0; rw [← hx, hzero.1, mul_zero]
          · change q.y = 0; rw [← hy, hzero.2.1, mul_zero]
          · change q.z = 0; rw [← hzz, hzero.2.2, mul_zero]
          · change q.t = _
            rw [hM, Vec3.dot, hzero.1, hzero.2.1, hzero.2.2]
            rw [show q.t ^ 2 * (1 - (0 * 0 + 0 * 0 + 0 * 0)) = q.t ^ 2 by ring, sqrt_sq he.le]
        · have hb := boost_is (p := ⟨.pxPyPzE, q⟩) (neg_isZero hzero) (Or.inl rfl)
          obtain ⟨hγ0, hγ, hβ, hβ2⟩ := factors hzero hdot
          have hbo : boosted v.neg q.x q.y q.z q.t = (0, 0, 0, √(mass2 ⟨.pxPyPzE, q⟩)) := by
            simp only [boosted, neg_dot]
            generalize hγe : 1 / √(1 - v.dot v) = γ at *
            generalize (γ - 1) / v.dot v = β at *
            have hbp : v.neg.dot ⟨q.x, q.y, q.z⟩ = -(q.t * v.dot v) := by
              rw [← hx, ← hy, ← hzz]
              simp only [Vec3.neg, Vec3.dot]; ring
            rw [hbp]
            have ha : β * -(q.t * v.dot v) + γ * q.t = q.t := by linear_combination (-q.t) * hβ
            rw [ha]
            simp only [Vec3.neg, Prod.mk.injEq]
            refine ⟨by linarith, by linarith, by linarith, ?_⟩
            have hpos : 0 ≤ γ * (q.t + -(q.t * v.dot v)) := by
              have : q.t + -(q.t * v.dot v) = q.t * (1 - v.dot v) := by ring
              rw [this]
              have : 0 < 1 - v.dot v := by linarith
              positivity
            rw [← sqrt_sq hpos, hM]
            congr 1
            linear_combination q.t ^ 2 * (1 - v.dot v) * hγ
          rw [show (P4.get ⟨.pxPyPzE, q⟩).px = q.x from rfl, show (P4.get ⟨.pxPyPzE, q⟩).py = q.y from rfl,
            show (P4.get ⟨.pxPyPzE, q⟩).pz = q.z from rfl, show (P4.get ⟨.pxPyPzE, q⟩).e = q.t from rfl] at hb
          simp only [hbo] at hb
          exact hb

/-- **C94**: a boost along the axis adds to the rapidity, whatever the particle. -/
theorem C94_rapidity (px py pz e y : ℝ) (h : |pz| < e) :
    (boost (newPxPyPzE px py pz e) ⟨0, 0, tanh y⟩).get.rapidity = (newPxPyPzE px py pz e).get.rapidity + y := by
  have rap : ∀ px py pz e : ℝ, |pz| < e →
      (newPxPyPzE px py pz e).get.rapidity = 0.5 * log ((e + pz) / (e - pz)) := by
    intro px py pz e h
    rw [abs_lt] at h
    have h0 : e ≠ 0 := by intro h0; rw [h0] at h; linarith
    have h1 : e ≠ pz := by intro h1; linarith
    have h2 : e ≠ -pz := by intro h2; linarith
    change (if e = 0 then (0 : ℝ) else if e = pz then 0 else if e = -pz then 0 else 0.5 * log ((e + pz) / (e - pz))) = _
    rw [if_neg h0, if_neg h1, if_neg h2]
  by_cases h0 : tanh y = 0
  · have hy : y = 0 := by
      rw [tanh_eq_sinh_div_cosh, div_eq_zero_iff] at h0
      exact sinh_eq_zero.mp (h0.resolve_right (cosh_pos y).ne')
    have hb : boost (newPxPyPzE px py pz e) ⟨0, 0, tanh y⟩ = newPxPyPzE px py pz e := by
      rw [boost, if_pos ⟨rfl, rfl, h0⟩]
    rw [hb, hy, add_zero]
  · have hz : ¬ Vec3.IsZero ⟨0, 0, tanh y⟩ := fun h => h0 h.2.2
    have hc := cosh_pos y
    have hdot : Vec3.dot ⟨0, 0, tanh y⟩ ⟨0, 0, tanh y⟩ = tanh y * tanh y := by simp [Vec3.dot]
    have hlt : 1 - tanh y * tanh y = (1 / cosh y) ^ 2 := by
      rw [tanh_eq_sinh_div_cosh]
      field_simp
      linarith [cosh_sq_eq y]
    have hγ : 1 / √(1 - tanh y * tanh y) = cosh y := by
      rw [hlt, sqrt_sq (by positivity), one_div_one_div]
    obtain ⟨-, -, hβ, -⟩ := factors hz (by
      rw [hdot]
      have : 0 < (1 / cosh y) ^ 2 := by positivity
      linarith)
    have hb : boost (newPxPyPzE px py pz e) ⟨0, 0, tanh y⟩ =
        newPxPyPzE px py (cosh y * pz + sinh y * e) (cosh y * e + sinh y * pz) := by
      rw [boost_eq hz]
      simp only [boosted]
      rw [hdot, hγ]
      rw [hdot, hγ] at hβ
      have h1 : Vec3.dot ⟨0, 0, tanh y⟩ ⟨px, py, pz⟩ = tanh y * pz := by simp [Vec3.dot]
      have e1 : (newPxPyPzE px py pz e).get.px = px := rfl
      have e2 : (newPxPyPzE px py pz e).get.py = py := rfl
      have e3 : (newPxPyPzE px py pz e).get.pz = pz := rfl
      have e4 : (newPxPyPzE px py pz e).get.e = e := rfl
      rw [e1, e2, e3, e4, h1]
      have h2 : pz + ((cosh y - 1) / (tanh y * tanh y) * (tanh y * pz) + cosh y * e) * tanh y =
          cosh y * pz + sinh y * e := by
        rw [← tanh_cosh y]
        linear_combination pz * hβ
      have h3 : cosh y * (e + tanh y * pz) = cosh y * e + sinh y * pz := by
        rw [← tanh_cosh y]; ring
      rw [h2, h3, mul_zero, add_zero, add_zero]
      rfl
    rw [hb]
    have hp : 0 < e + pz := by rw [abs_lt] at h; linarith
    have hm : 0 < e - pz := by rw [abs_lt] at h; linarith
    have s1 : cosh y * e + sinh y * pz + (cosh y * pz + sinh y * e) = rexp y * (e + pz) := by
      rw [← cosh_add_sinh]; ring
    have s2 : cosh y * e + sinh y * pz - (cosh y * pz + sinh y * e) = rexp (-y) * (e - pz) := by
      rw [← cosh_sub_sinh]; ring
    have q1 : 0 < rexp y * (e + pz) := by positivity
    have q2 : 0 < rexp (-y) * (e - pz) := by positivity
    rw [rap _ _ _ _ (by rw [abs_lt]; constructor <;> linarith), rap _ _ _ _ h, s1, s2, log_div q1.ne' q2.ne',
      log_mul (exp_pos _).ne' hp.ne', log_mul (exp_pos _).ne' hm.ne', log_exp, log_exp, log_div hp.ne' hm.ne']
    ring

/-! ## Angles and distances -/

theorem nearestEven_err (r : ℝ) : |r - nearestEven r| ≤ 1 / 2 := by
  have h1 := Int.floor_le r
  have h2 := Int.lt_floor_add_one r
  rw [abs_le, nearestEven]
  split
  · constructor <;> linarith
  · split
    · push_cast
      constructor <;> linarith
    · split
      · constructor <;> linarith
      · push_cast
        constructor <;> linarith

theorem remainder_le_half {x y : ℝ} (hy : 0 < y) : |remainder x y| ≤ y / 2 := by
  have h := nearestEven_err (x / y)
  have e : remainder x y = (x / y - nearestEven (x / y)) * y := by
    rw [remainder, sub_mul, div_mul_cancel₀ _ hy.ne']
  rw [e, abs_mul, abs_of_pos hy]
  nlinarith

/-- The remainder is the shortest way around. -/
theorem remainder_min {x y : ℝ} (hy : 0 < y) (k : ℤ) : |remainder x y| ≤ |x - k * y| := by
  by_cases hk : k = nearestEven (x / y)
  · rw [hk, remainder]
  · have h1 := remainder_le_half (x := x) hy
    have h2 : y ≤ |(nearestEven (x / y) - k : ℝ)| * y := by
      have : (1 : ℝ) ≤ |(nearestEven (x / y) - k : ℝ)| := by
        have : (1 : ℤ) ≤ |nearestEven (x / y) - k| := Int.one_le_abs (sub_ne_zero.mpr (Ne.symm hk))
        exact_mod_cast this
      nlinarith
    have h3 : x - k * y = remainder x y + (nearestEven (x / y) - k) * y := by rw [remainder]; ring
    rw [h3]
    have h4 := abs_sub_abs_le_abs_sub ((nearestEven (x / y) - k : ℝ) * y) (-remainder x y)
    rw [abs_neg, sub_neg_eq_add, abs_mul, abs_of_pos hy, add_comm] at h4
    linarith

theorem remainder_neg_abs {x y : ℝ} (hy : 0 < y) : |remainder (-x) y| = |remainder x y| := by
  apply le_antisymm
  · have := remainder_min (x := -x) hy (-nearestEven (x / y))
    rw [show -x - ((-nearestEven (x / y) : ℤ) : ℝ) * y = -remainder x y by rw [remainder]; push_cast; ring, abs_neg] at this
    exact this
  · have := remainder_min (x := x) hy (-nearestEven (-x / y))
    rw [show x - ((-nearestEven (-x / y) : ℤ) : ℝ) * y = -remainder (-x) y by rw [remainder]; push_cast; ring,
      abs_neg] at this
    exact this

theorem remainder_add_le {a b y : ℝ} (hy : 0 < y) : |remainder (a + b) y| ≤ |remainder a y| + |remainder b y| := by
  have := remainder_min (x := a + b) hy (nearestEven (a / y) + nearestEven (b / y))
  refine le_trans this ?_
  rw [show a + b - ((nearestEven (a / y) + nearestEven (b / y) : ℤ) : ℝ) * y = remainder a y + remainder b y by
    rw [remainder, remainder]; push_cast; ring]
  exact abs_add_le _ _

/-- **C95** (part): the difference of the azimuths is that from the first to the second, by the
shorter way around. -/
theorem C95_delta_phi_partial (p1 p2 : P4) :
    |deltaPhi p1 p2| ≤ π ∧ (∃ k : ℤ, deltaPhi p1 p2 = p2.get.phi - p1.get.phi + k * (2 * π)) ∧
    ∀ k : ℤ, |deltaPhi p1 p2| ≤ |p2.get.phi - p1.get.phi + k * (2 * π)| := by
  have hpi : 0 < 2 * π := by positivity
  refine ⟨?_, ⟨nearestEven ((p1.get.phi - p2.get.phi) / (2 * π)), ?_⟩, fun k => ?_⟩
  · rw [deltaPhi, abs_neg]
    have := remainder_le_half (x := p1.get.phi - p2.get.phi) hpi
    linarith
  · rw [deltaPhi, remainder]; ring
  · rw [deltaPhi, abs_neg]
    have := remainder_min (x := p1.get.phi - p2.get.phi) hpi k
    rw [show p2.get.phi - p1.get.phi + k * (2 * π) = -(p1.get.phi - p2.get.phi - k * (2 * π)) by ring, abs_neg]
    exact this

/-- **C95 fails** at the upper end: two opposite momenta are at `π`, which the documentation
excludes. -/
theorem C95_delta_phi_counterexample :
    let p1 : P4 := { kind := .ptEtaPhiM, vec := ⟨1, 0, -(π / 2), 0⟩ }
    let p2 : P4 := { kind := .ptEtaPhiM, vec := ⟨1, 0, π / 2, 0⟩ }
    deltaPhi p1 p2 = π := by
  have hpi := pi_pos
  have h : (-(π / 2) - π / 2) / (2 * π) = -1 / 2 := by
    field_simp
    norm_num
  have hf : ⌊(-1 / 2 : ℝ)⌋ = -1 := by
    rw [Int.floor_eq_iff]; norm_num
  have hn : nearestEven (-1 / 2) = 0 := by
    rw [nearestEven, hf]
    norm_num
  change -remainder (-(π / 2) - π / 2) (2 * π) = π
  rw [remainder, h, hn]
  push_cast
  ring

theorem deltaPhi_symm (p1 p2 : P4) : |deltaPhi p1 p2| = |deltaPhi p2 p1| := by
  have hpi : 0 < 2 * π := by positivity
  rw [deltaPhi, deltaPhi, abs_neg, abs_neg, ← remainder_neg_abs hpi, neg_sub]

theorem deltaPhi_triangle (p1 p2 p3 : P4) : |deltaPhi p1 p3| ≤ |deltaPhi p1 p2| + |deltaPhi p2 p3| := by
  have hpi : 0 < 2 * π := by positivity
  simp only [deltaPhi, abs_neg]
  rw [show p1.get.phi - p3.get.phi = p1.get.phi - p2.get.phi + (p2.get.phi - p3.get.phi) by ring]
  exact remainder_add_le hpi

/-- Minkowski's inequality in the plane. -/
theorem hypot_le {a b c d e f : ℝ} (h1 : |a| ≤ |c| + |e|) (h2 : |b| ≤ |d| + |f|) :
    √(a * a + b * b) ≤ √(c * c + d * d) + √(e * e + f * f) := by
  have nn : ∀ x y : ℝ, 0 ≤ x * x + y * y := fun x y => add_nonneg (mul_self_nonneg x) (mul_self_nonneg y)
  rw [sqrt_le_left (by positivity)]
  have h3 := sq_sqrt (nn c d)
  have h4 := sq_sqrt (nn e f)
  have h5 : |c| * |e| + |d| * |f| ≤ √(c * c + d * d) * √(e * e + f * f) := by
    rw [← sqrt_mul (nn c d)]
    apply le_sqrt_of_sq_le
    have q1 := sq_abs c
    have q2 := sq_abs d
    have q3 := sq_abs e
    have q4 := sq_abs f
    nlinarith [sq_nonneg (|c| * |f| - |d| * |e|)]
  have q1 : a * a ≤ (|c| + |e|) ^ 2 := by
    rw [← abs_mul_abs_self]
    nlinarith [abs_nonneg a, abs_nonneg c, abs_nonneg e]
  have q2 : b * b ≤ (|d| + |f|) ^ 2 := by
    rw [← abs_mul_abs_self]
    nlinarith [abs_nonneg b, abs_nonneg d, abs_nonneg f]
  have q3 := sq_abs c
  have q4 := sq_abs d
  have q5 := sq_abs e
  have q6 := sq_abs f
  nlinarith

/-- **C95**: `DeltaR` is a distance, on the cylinder of pseudo-rapidity and azimuth. -/
theorem C95_delta_r (p1 p2 p3 : P4) :
    deltaR p1 p2 = deltaR p2 p1 ∧ deltaR p1 p3 ≤ deltaR p1 p2 + deltaR p2 p3 ∧ 0 ≤ deltaR p1 p2 ∧
    (deltaR p1 p2 = 0 ↔ p1.get.eta = p2.get.eta ∧ ∃ k : ℤ, p1.get.phi = p2.get.phi + k * (2 * π)) ∧
    |p1.get.eta - p2.get.eta| ≤ deltaR p1 p2 ∧ |deltaPhi p1 p2| ≤ deltaR p1 p2 := by
  have hpi : 0 < 2 * π := by positivity
  refine ⟨?_, ?_, sqrt_nonneg _, ?_, ?_, ?_⟩
  · rw [deltaR, deltaR, ← abs_mul_abs_self (deltaPhi p1 p2), deltaPhi_symm, abs_mul_abs_self, deltaEta, deltaEta]
    congr 1
    ring
  · refine hypot_le ?_ (deltaPhi_triangle p1 p2 p3)
    rw [deltaEta, deltaEta, deltaEta, show p1.get.eta - p3.get.eta = p1.get.eta - p2.get.eta + (p2.get.eta - p3.get.eta) by ring]
    exact abs_add_le _ _
  · rw [deltaR, sqrt_eq_zero (add_nonneg (mul_self_nonneg _) (mul_self_nonneg _))]
    constructor
    · intro h
      have h1 := mul_self_nonneg (deltaEta p1 p2)
      have h2 := mul_self_nonneg (deltaPhi p1 p2)
      have h3 : deltaEta p1 p2 = 0 := mul_self_eq_zero.mp (by linarith)
      have h4 : deltaPhi p1 p2 = 0 := mul_self_eq_zero.mp (by linarith)
      refine ⟨sub_eq_zero.mp h3, nearestEven ((p1.get.phi - p2.get.phi) / (2 * π)), ?_⟩
      rw [deltaPhi, remainder] at h4
      linarith
    · rintro ⟨h1, k, h2⟩
      have h3 : deltaEta p1 p2 = 0 := sub_eq_zero.mpr h1
      have h4 : deltaPhi p1 p2 = 0 := by
        have := (C95_delta_phi_partial p1 p2).2.2 k
        rw [show p2.get.phi - p1.get.phi + k * (2 * π) = 0 by rw [h2]; ring, abs_zero] at this
        exact abs_eq_zero.mp (le_antisymm this (abs_nonneg _))
      rw [h3, h4]; ring
  · rw [deltaR]
    apply le_sqrt_of_sq_le
    rw [sq_abs, deltaEta]
    nlinarith [mul_self_nonneg (deltaPhi p1 p2)]
  · rw [deltaR]
    apply le_sqrt_of_sq_le
    rw [sq_abs]
    nlinarith [mul_self_nonneg (deltaEta p1 p2)]

/-- **C95** (part): `CosTheta` is the cosine of the angle between the two momenta: the projection
of one onto the other, between -1 and 1, and ±1 only when they are along the same line. -/
theorem C95_cos_theta_partial (p1 p2 : P4)
    (h1 : p1.get.p2 = p1.get.px ^ 2 + p1.get.py ^ 2 + p1.get.pz ^ 2)
    (h2 : p2.get.p2 = p2.get.px ^ 2 + p2.get.py ^ 2 + p2.get.pz ^ 2) (n1 : p1.get.p2 ≠ 0) (n2 : p2.get.p2 ≠ 0) :
    cosTheta p1 p2 * (√p1.get.p2 * √p2.get.p2) =
      p1.get.px * p2.get.px + p1.get.py * p2.get.py + p1.get.pz * p2.get.pz ∧ |cosTheta p1 p2| ≤ 1 ∧
    (|cosTheta p1 p2| = 1 → p1.get.px * p2.get.py = p1.get.py * p2.get.px ∧
      p1.get.px * p2.get.pz = p1.get.pz * p2.get.px ∧ p1.get.py * p2.get.pz = p1.get.pz * p2.get.py) := by
  have q1 : 0 < p1.get.p2 := lt_of_le_of_ne (by rw [h1]; positivity) (Ne.symm n1)
  have q2 : 0 < p2.get.p2 := lt_of_le_of_ne (by rw [h2]; positivity) (Ne.symm n2)
  have hd : (vecOf p1).dot (vecOf p2) = p1.get.px * p2.get.px + p1.get.py * p2.get.py + p1.get.pz * p2.get.pz := rfl
  have hs : 0 < √(p1.get.p2 * p2.get.p2) := sqrt_pos.mpr (mul_pos q1 q2)
  have hsq : √(p1.get.p2 * p2.get.p2) ^ 2 = p1.get.p2 * p2.get.p2 := sq_sqrt (mul_pos q1 q2).le
  have hid : p1.get.p2 * p2.get.p2 = (p1.get.px * p2.get.px + p1.get.py * p2.get.py + p1.get.pz * p2.get.pz) ^ 2 +
      ((p1.get.px * p2.get.py - p1.get.py * p2.get.px) ^ 2 + (p1.get.px * p2.get.pz - p1.get.pz * p2.get.px) ^ 2 +
      (p1.get.py * p2.get.pz - p1.get.pz * p2.get.py) ^ 2) := by
    rw [h1, h2]; ring
  have n1 := sq_nonneg (p1.get.px * p2.get.py - p1.get.py * p2.get.px)
  have n2 := sq_nonneg (p1.get.px * p2.get.pz - p1.get.pz * p2.get.px)
  have n3 := sq_nonneg (p1.get.py * p2.get.pz - p1.get.pz * p2.get.py)
  refine ⟨?_, ?_, ?_⟩
  · rw [cosTheta, hd, ← sqrt_mul q1.le, div_mul_cancel₀ _ hs.ne']
  · rw [cosTheta, hd, abs_div, abs_of_pos hs, div_le_one hs]
    refine abs_le_of_sq_le_sq ?_ hs.le
    rw [hsq, hid]
    linarith
  · intro h
    rw [cosTheta, hd, abs_div, abs_of_pos hs, div_eq_one_iff_eq hs.ne'] at h
    have h' := congrArg (· ^ 2) h
    simp only [sq_abs] at h'
    rw [hsq, hid] at h'
    refine ⟨?_, ?_, ?_⟩
    · exact sub_eq_zero.mp (pow_eq_zero_iff (two_ne_zero) |>.mp (by linarith))
    · exact sub_eq_zero.mp (pow_eq_zero_iff (two_ne_zero) |>.mp (by linarith))
    · exact sub_eq_zero.mp (pow_eq_zero_iff (two_ne_zero) |>.mp (by linarith))

/-! ## Examples -/

/-- Two particles. -/
example : √(mass2 (newPxPyPzE 3 0 0 5)) + √(mass2 (newPxPyPzE 0 4 0 5)) ≤
    invMass (newPxPyPzE 3 0 0 5) (newPxPyPzE 0 4 0 5) :=
  (C94_invariant_mass_partial (newPxPyPzE 3 0 0 5) (newPxPyPzE 0 4 0 5)
    ⟨by norm_num [newPxPyPzE, P4.get, pxPyPzE], by norm_num [newPxPyPzE, P4.get, pxPyPzE]⟩
    ⟨by norm_num [newPxPyPzE, P4.get, pxPyPzE], by norm_num [newPxPyPzE, P4.get, pxPyPzE]⟩ (Or.inl rfl)).2.1

/-- A boost with 0.6 of the velocity of light. -/
example : mass2 (boost (newPxPyPzE 1 2 3 5) ⟨0.6, 0, 0⟩) = mass2 (newPxPyPzE 1 2 3 5) :=
  (C94_boost_invariant_partial _ (newPxPyPzE 1 2 3 5) _ (by norm_num [Vec3.dot]) (Or.inl rfl) (Or.inl rfl)).2.1

example : (boost (newPxPyPzE 1 2 3 5) ⟨0, 0, tanh 2⟩).get.rapidity = (newPxPyPzE 1 2 3 5).get.rapidity + 2 :=
  C94_rapidity _ _ _ _ _ (by norm_num [abs_of_pos])

/-- The velocity of a particle. -/
example : ∃ v, boostOf (newPxPyPzE 3 0 0 5) = some v :=
  Option.ne_none_iff_exists'.mp fun h => by
    have := ((C94_rest_frame_partial (newPxPyPzE 3 0 0 5) rfl).1.mp h).1
    norm_num [mass2, newPxPyPzE, P4.get, pxPyPzE] at this

example : |cosTheta (newPxPyPzE 3 0 0 5) (newPxPyPzE 1 1 0 5)| ≤ 1 :=
  (C95_cos_theta_partial _ _ (by norm_num [newPxPyPzE, P4.get, pxPyPzE]) (by norm_num [newPxPyPzE, P4.get, pxPyPzE])
    (by norm_num [newPxPyPzE, P4.get, pxPyPzE]) (by norm_num [newPxPyPzE, P4.get, pxPyPzE])).2.1

end Verif.Fmom
