import Verif.Fads.Propagate
import Mathlib.Tactic.Linarith
import Mathlib.Tactic.FieldSimp
import Mathlib.Tactic.Ring
import Mathlib.Tactic.NormNum
import Mathlib.Tactic.Positivity

/-!
# Where particles leave the detector (C172)
-/

namespace Verif.Fads.Propagate

/-! ## Specification -/

/-- A point, in mm, is in the cylinder. -/
def Inside (c : Cyl) (x y z : ℝ) : Prop :=
  (x / 1000) ^ 2 + (y / 1000) ^ 2 ≤ c.radius ^ 2 ∧ |z / 1000| ≤ c.halflen

/-- A point is on the surface of the cylinder. -/
def OnSurface (c : Cyl) (x y z : ℝ) : Prop :=
  Inside c x y z ∧ ((x / 1000) ^ 2 + (y / 1000) ^ 2 = c.radius ^ 2 ∨ |z / 1000| = c.halflen)

/-- It is a cylinder, as fads/propagator.go:36-43 checks. -/
def Cyl.Ok (c : Cyl) : Prop := 0 < c.radius ∧ 0 < c.halflen

/-! ## Straight lines -/

theorem hypot_le {a b r : ℝ} (hr : 0 < r) : ¬ r < hypot a b ↔ a ^ 2 + b ^ 2 ≤ r ^ 2 := by
  unfold hypot
  rw [not_lt, Real.sqrt_le_left hr.le]
  constructor <;> intro h <;> nlinarith

/-- The line is inside the sides until the time that is computed. -/
theorem sideTime_spec {r px py x y : ℝ} (hp : 0 < px * px + py * py) (hi : x ^ 2 + y ^ 2 ≤ r ^ 2) :
    ∃ t, sideTime (r * r) px py x y = some t ∧ 0 ≤ t ∧
      ∀ u, 0 ≤ u → ((x + px * u) ^ 2 + (y + py * u) ^ 2 ≤ r ^ 2 ↔ u ≤ t) := by
  have hD : (px * x + py * y) ^ 2 ≤ (px * px + py * py) * (r * r) - (px * y - py * x) * (px * y - py * x) := by
    nlinarith [mul_le_mul_of_nonneg_left hi hp.le]
  have hD0 : 0 ≤ (px * px + py * py) * (r * r) - (px * y - py * x) * (px * y - py * x) :=
    le_trans (sq_nonneg _) hD
  have hs := Real.abs_le_sqrt hD
  have hsq := Real.sq_sqrt hD0
  have hs0 := Real.sqrt_nonneg ((px * px + py * py) * (r * r) - (px * y - py * x) * (px * y - py * x))
  have hid : ∀ u, (px * px + py * py) * ((x + px * u) ^ 2 + (y + py * u) ^ 2 - r ^ 2) =
      ((px * px + py * py) * u + (px * x + py * y)) ^ 2 -
        ((px * px + py * py) * (r * r) - (px * y - py * x) * (px * y - py * x)) := by
    intro u; ring
  unfold sideTime
  generalize (px * px + py * py) * (r * r) - (px * y - py * x) * (px * y - py * x) = D at *
  generalize px * x + py * y = v at *
  generalize px * px + py * py = k at *
  rw [if_neg (not_lt.2 hD0)]
  obtain ⟨h1, h2⟩ := abs_le.1 hs
  have ht : 0 ≤ (-v + √D) / k := div_nonneg (by linarith) hp.le
  rw [if_neg (not_lt.2 ht)]
  refine ⟨_, rfl, ht, fun u hu => ?_⟩
  have hku : 0 ≤ k * u := mul_nonneg hp.le hu
  rw [le_div_iff₀ hp]
  constructor
  · intro h
    have h3 : k * ((x + px * u) ^ 2 + (y + py * u) ^ 2 - r ^ 2) ≤ 0 :=
      mul_nonpos_of_nonneg_of_nonpos hp.le (by linarith)
    rw [hid] at h3
    have h4 : k * u + v ≤ √D := by
      have := Real.abs_le_sqrt (show (k * u + v) ^ 2 ≤ D by linarith)
      exact (abs_le.1 this).2
    linarith [mul_comm u k]
  · intro h
    have h4 : (k * u + v) ^ 2 ≤ D := by
      rw [← hsq]
      refine sq_le_sq' ?_ ?_ <;> linarith [mul_comm u k]
    have h5 := hid u
    have h6 : k * ((x + px * u) ^ 2 + (y + py * u) ^ 2 - r ^ 2) ≤ 0 := by rw [h5]; linarith
    nlinarith

/-- The line is inside the cylinder until the time that is computed. -/
theorem endTime_spec {l z pz t : ℝ} (hz : |z| ≤ l) (ht : 0 ≤ t) (he : z = l → 0 ≤ pz) :
    0 ≤ endTime l z pz t ∧ ∀ u, 0 ≤ u → ((u ≤ t ∧ |z + pz * u| ≤ l) ↔ u ≤ endTime l z pz t) := by
  obtain ⟨z1, z2⟩ := abs_le.1 hz
  unfold endTime
  split
  · rename_i h
    have hne : pz ≠ 0 := by
      rintro rfl
      rw [zero_mul, add_zero] at h
      linarith
    rcases lt_or_gt_of_ne hne with hneg | hpos
    · have hzl : z < l := lt_of_le_of_ne z2 fun e => absurd (he e) (not_le.2 hneg)
      have h3 : (l - z) * (1 / pz) < 0 := mul_neg_of_pos_of_neg (by linarith) (one_div_neg.2 hneg)
      rw [if_pos h3]
      have hq : (-l - z) * (1 / pz) * pz = -l - z := by rw [mul_assoc, one_div_mul_cancel hne, mul_one]
      have h0 : 0 ≤ (-l - z) * (1 / pz) := mul_nonneg_of_nonpos_of_nonpos (by linarith) (one_div_neg.2 hneg).le
      generalize (-l - z) * (1 / pz) = s at *
      have hlt : z + pz * t < -l := by
        rcases lt_abs.1 h with h | h
        · nlinarith [mul_nonpos_of_nonpos_of_nonneg hneg.le ht]
        · linarith
      refine ⟨h0, fun u hu => ⟨fun ⟨_, h2⟩ => ?_, fun h2 => ?_⟩⟩
      · have := (abs_le.1 h2).1
        by_contra hc
        nlinarith [mul_lt_mul_of_neg_left (not_le.1 hc) hneg]
      · have hmul : pz * s ≤ pz * u := mul_le_mul_of_nonpos_left h2 hneg.le
        refine ⟨?_, abs_le.2 ⟨by linarith [mul_comm s pz], by nlinarith [mul_nonpos_of_nonpos_of_nonneg hneg.le hu]⟩⟩
        by_contra hc
        nlinarith [mul_lt_mul_of_neg_left (not_le.1 hc) hneg]
    · have h3 : ¬ (l - z) * (1 / pz) < 0 := not_lt.2 (mul_nonneg (by linarith) (one_div_pos.2 hpos).le)
      rw [if_neg h3]
      have hq : (l - z) * (1 / pz) * pz = l - z := by rw [mul_assoc, one_div_mul_cancel hne, mul_one]
      have h0 := not_lt.1 h3
      generalize (l - z) * (1 / pz) = s at *
      have hlt : l < z + pz * t := by
        rcases lt_abs.1 h with h | h
        · exact h
        · nlinarith [mul_nonneg hpos.le ht]
      refine ⟨h0, fun u hu => ⟨fun ⟨_, h2⟩ => ?_, fun h2 => ?_⟩⟩
      · have := (abs_le.1 h2).2
        by_contra hc
        nlinarith [mul_lt_mul_of_pos_left (not_le.1 hc) hpos]
      · have hmul : pz * u ≤ pz * s := mul_le_mul_of_nonneg_left h2 hpos.le
        refine ⟨?_, abs_le.2 ⟨by nlinarith [mul_nonneg hpos.le hu], by linarith [mul_comm s pz]⟩⟩
        by_contra hc
        nlinarith [mul_lt_mul_of_pos_left (not_le.1 hc) hpos]
  · rename_i h
    obtain ⟨a1, a2⟩ := abs_le.1 (not_lt.1 h)
    refine ⟨ht, fun u hu => ⟨fun h2 => h2.1, fun h2 => ⟨h2, ?_⟩⟩⟩
    rcases le_total 0 pz with hp | hp
    · have := mul_le_mul_of_nonneg_left h2 hp
      have := mul_nonneg hp hu
      exact abs_le.2 ⟨by linarith, by linarith⟩
    · have := mul_le_mul_of_nonpos_left h2 hp
      have := mul_nonpos_of_nonpos_of_nonneg hp hu
      exact abs_le.2 ⟨by linarith, by linarith⟩

/-- **C172** (straight lines): a particle in the cylinder without charge, or without field, with some transverse
momentum, is moved along its momentum, its time with its energy, to the last point of its way in the
cylinder. Missing: a particle exactly on the far end that moves inwards. -/
theorem C172_straight_partial (c : Cyl) (hc : c.Ok) (p : Part) (hi : Inside c p.x p.y p.z)
    (hp : 1 / 10 ^ 9 ≤ p.px * p.px + p.py * p.py) (hq : p.q = 0 ∨ c.bz = 0)
    (he : p.z / 1000 = c.halflen → 0 ≤ p.pz) :
    ∃ s v, 0 ≤ s ∧ propagate c p = some v ∧
      v.x = p.x + s * p.px * 1000 ∧ v.y = p.y + s * p.py * 1000 ∧ v.z = p.z + s * p.pz * 1000 ∧
      v.t = p.t + s * p.e * 1000 ∧
      ∀ u, 0 ≤ u → (Inside c (p.x + u * p.px * 1000) (p.y + u * p.py * 1000) (p.z + u * p.pz * 1000) ↔ u ≤ s) := by
  have hpos : 0 < p.px * p.px + p.py * p.py := lt_of_lt_of_le (by norm_num) hp
  obtain ⟨t, ht, ht0, hside⟩ := sideTime_spec (r := c.radius) (x := p.x / 1000) (y := p.y / 1000) hpos hi.1
  obtain ⟨hs0, hend⟩ := endTime_spec (pz := p.pz) hi.2 ht0 he
  refine ⟨endTime c.halflen (p.z / 1000) p.pz t, onLine p (endTime c.halflen (p.z / 1000) p.pz t), hs0, ?_, ?_⟩
  · unfold propagate
    rw [if_neg, if_neg (not_lt.2 hp), if_pos, straight, ht]
    · rfl
    · rcases hq with hq | hq <;> rw [hq]
      · exact Or.inl (by norm_num)
      · exact Or.inr (by norm_num)
    · rintro (h | h)
      · exact (hypot_le hc.1).2 hi.1 h
      · exact not_lt.2 hi.2 h
  · refine ⟨?_, ?_, ?_, rfl, ?_⟩
    · simp only [onLine]; ring
    · simp only [onLine]; ring
    · simp only [onLine]; ring
    · intro u hu
      rw [← hend u hu, ← hside u hu]
      unfold Inside
      have e1 : (p.x + u * p.px * 1000) / 1000 = p.x / 1000 + p.px * u := by ring
      have e2 : (p.y + u * p.py * 1000) / 1000 = p.y / 1000 + p.py * u := by ring
      have e3 : (p.z + u * p.pz * 1000) / 1000 = p.z / 1000 + p.pz * u := by ring
      rw [e1, e2, e3]

/-- The same as a point: it is on the surface. -/
theorem C172_surface_partial (c : Cyl) (hc : c.Ok) (p : Part) (hi : Inside c p.x p.y p.z)
    (hp : 1 / 10 ^ 9 ≤ p.px * p.px + p.py * p.py) (hq : p.q = 0 ∨ c.bz = 0)
    (he : p.z / 1000 = c.halflen → 0 ≤ p.pz) (v : Pos) (hv : propagate c p = some v) : OnSurface c v.x v.y v.z := by
  obtain ⟨s, v', hs, hv', hx, hy, hz, _, hall⟩ := C172_straight_partial c hc p hi hp hq he
  have hvv : v' = v := Option.some.inj (hv'.symm.trans hv)
  subst hvv
  have hin : Inside c v'.x v'.y v'.z := by
    rw [hx, hy, hz]
    exact (hall s hs).2 le_rfl
  refine ⟨hin, ?_⟩
  by_contra hno
  rw [not_or] at hno
  have h1 : (v'.x / 1000) ^ 2 + (v'.y / 1000) ^ 2 < c.radius ^ 2 := lt_of_le_of_ne hin.1 hno.1
  have h2 : |v'.z / 1000| < c.halflen := lt_of_le_of_ne hin.2 hno.2
  -- a little further it would still be inside
  have hcont : ∃ d > 0, ((v'.x / 1000 + p.px * d) ^ 2 + (v'.y / 1000 + p.py * d) ^ 2 ≤ c.radius ^ 2 ∧
      |v'.z / 1000 + p.pz * d| ≤ c.halflen) := by
    have f1 : Filter.Tendsto (fun d : ℝ => (v'.x / 1000 + p.px * d) ^ 2 + (v'.y / 1000 + p.py * d) ^ 2) (nhds 0)
        (nhds ((v'.x / 1000 + p.px * 0) ^ 2 + (v'.y / 1000 + p.py * 0) ^ 2)) :=
      (by fun_prop : Continuous fun d : ℝ => (v'.x / 1000 + p.px * d) ^ 2 + (v'.y / 1000 + p.py * d) ^ 2).tendsto 0
    have f2 : Filter.Tendsto (fun d : ℝ => |v'.z / 1000 + p.pz * d|) (nhds 0) (nhds |v'.z / 1000 + p.pz * 0|) :=
      (by fun_prop : Continuous fun d : ℝ => |v'.z / 1000 + p.pz * d|).tendsto 0
    simp only [mul_zero, add_zero] at f1 f2
    have g := (f1.eventually_lt_const h1).and (f2.eventually_lt_const h2)
    obtain ⟨ε, hε, hb⟩ := Metric.eventually_nhds_iff.1 g
    have := hb (y := ε / 2) (by rw [Real.dist_eq, sub_zero, abs_of_pos (by linarith)]; linarith)
    exact ⟨ε / 2, by linarith, this.1.le, this.2.le⟩
  obtain ⟨d, hd, h3, h4⟩ := hcont
  have := (hall (s + d) (by linarith)).1 (by
    unfold Inside
    have e1 : (p.x + (s + d) * p.px * 1000) / 1000 = v'.x / 1000 + p.px * d := by rw [hx]; ring
    have e2 : (p.y + (s + d) * p.py * 1000) / 1000 = v'.y / 1000 + p.py * d := by rw [hy]; ring
    have e3 : (p.z + (s + d) * p.pz * 1000) / 1000 = v'.z / 1000 + p.pz * d := by rw [hz]; ring
    rw [e1, e2, e3]
    exact ⟨h3, h4⟩)
  linarith

/-- **C172** (outside): particles that are not in the cylinder are not in the output. -/
theorem C172_outside (c : Cyl) (hc : c.Ok) (p : Part) (ho : ¬ Inside c p.x p.y p.z) : propagate c p = none := by
  unfold propagate
  rw [if_pos]
  by_contra h
  rw [not_or] at h
  exact ho ⟨(hypot_le hc.1).1 h.1, not_lt.1 h.2⟩

/-! ## Helices -/

theorem hypot_sq (a b : ℝ) : hypot a b ^ 2 = a ^ 2 + b ^ 2 := by
  unfold hypot
  rw [Real.sq_sqrt (by nlinarith [sq_nonneg a, sq_nonneg b])]
  ring

theorem polar (a b : ℝ) (h : 0 < a * a + b * b) :
    hypot a b * Real.cos (atan2 b a) = a ∧ hypot a b * Real.sin (atan2 b a) = b := by
  have hn : ‖(⟨a, b⟩ : ℂ)‖ = hypot a b := by
    rw [Complex.norm_def, Complex.normSq_mk]
    rfl
  have h0 : (⟨a, b⟩ : ℂ) ≠ 0 := by
    intro hz
    have h1 : a = 0 := congrArg Complex.re hz
    have h2 : b = 0 := congrArg Complex.im hz
    rw [h1, h2] at h
    norm_num at h
  unfold atan2
  rw [Complex.cos_arg h0, Complex.sin_arg, hn]
  have : hypot a b ≠ 0 := by rw [← hn]; exact norm_ne_zero_iff.2 h0
  constructor <;> field_simp

/-- **C172** (helices): a charged particle in a field is moved on its circle in the transverse plane, whose centre is
`k·p/(qB)` beside it, and along z with the speed `pz/e`. Missing: that the end is on the surface. -/
theorem C172_helix_partial (c : Cyl) (hc : c.Ok) (p : Part) (hi : Inside c p.x p.y p.z)
    (hp : 1 / 10 ^ 9 ≤ p.px * p.px + p.py * p.py) (hq : p.q ≠ 0) (hb : 1 / 10 ^ 9 ≤ |c.bz|) (he : 0 < p.e) (v : Pos)
    (hv : propagate c p = some v) :
    (v.x / 1000 - (p.x / 1000 + 10 ^ 9 / cLight * p.py / (p.q * c.bz))) ^ 2 +
        (v.y / 1000 - (p.y / 1000 - 10 ^ 9 / cLight * p.px / (p.q * c.bz))) ^ 2 =
      (10 ^ 9 / cLight) ^ 2 * (p.px ^ 2 + p.py ^ 2) / (p.q * c.bz) ^ 2 ∧
    v.z - p.z = p.pz / p.e * (v.t - p.t) := by
  have hpos : 0 < p.px * p.px + p.py * p.py := lt_of_lt_of_le (by norm_num) hp
  have hq1 : ¬ (|(p.q : ℝ)| < 1 / 10 ^ 9 ∨ |c.bz| < 1 / 10 ^ 9) := by
    rintro (h | h)
    · have : (1 : ℝ) ≤ |(p.q : ℝ)| := by
        rw [← Int.cast_abs]
        exact_mod_cast Int.one_le_abs hq
      have h9 : (1 : ℝ) / 10 ^ 9 ≤ 1 := by norm_num
      linarith
    · linarith
  have hqr : (p.q : ℝ) ≠ 0 := by exact_mod_cast hq
  have hbr : c.bz ≠ 0 := by
    intro h
    rw [h, abs_zero] at hb
    norm_num at hb
  have hcl : cLight ≠ 0 := by norm_num [cLight]
  unfold propagate at hv
  rw [if_neg, if_neg (not_lt.2 hp), if_neg hq1, helix] at hv
  · split at hv
    · cases hv
      obtain ⟨hcos, hsin⟩ := polar p.px p.py hpos
      have hx : helixR c p * Real.sin (phi0 p) = 10 ^ 9 / cLight * p.py / (p.q * c.bz) := by
        rw [← hsin]; unfold helixR phi0; ring
      have hy : helixR c p * Real.cos (phi0 p) = 10 ^ 9 / cLight * p.px / (p.q * c.bz) := by
        rw [← hcos]; unfold helixR phi0; ring
      refine ⟨?_, ?_⟩
      · rw [← hx, ← hy]
        have e1 : ∀ th, (axisX c p + helixR c p * Real.sin th) * 1000 / 1000 -
            (p.x / 1000 + helixR c p * Real.sin (phi0 p)) = helixR c p * Real.sin th := by
          intro th; unfold axisX; ring
        have e2 : ∀ th, (axisY c p + helixR c p * Real.cos th) * 1000 / 1000 -
            (p.y / 1000 - helixR c p * Real.cos (phi0 p)) = helixR c p * Real.cos th := by
          intro th; unfold axisY; ring
        simp only [onHelix]
        rw [e1, e2]
        have e3 : ∀ r th : ℝ, (r * Real.sin th) ^ 2 + (r * Real.cos th) ^ 2 = r ^ 2 := by
          intro r th
          rw [mul_pow, mul_pow, ← mul_add, Real.sin_sq_add_cos_sq, mul_one]
        rw [e3, ← hypot_sq]
        unfold helixR
        field_simp
      · simp only [onHelix, gammam]
        field_simp
        ring
    · cases hv
  · rintro (h | h)
    · exact (hypot_le hc.1).2 hi.1 h
    · exact not_lt.2 hi.2 h

/-! ### Where helices end -/

theorem polar' (a b : ℝ) : hypot a b * Real.cos (atan2 b a) = a ∧ hypot a b * Real.sin (atan2 b a) = b := by
  by_cases h : 0 < a * a + b * b
  · exact polar a b h
  · have ha : a = 0 := by nlinarith [sq_nonneg a, sq_nonneg b]
    have hb : b = 0 := by nlinarith [sq_nonneg a, sq_nonneg b]
    subst ha; subst hb
    simp [hypot]

theorem hypot_nonneg (a b : ℝ) : 0 ≤ hypot a b := Real.sqrt_nonneg _

/-- The distance to the z axis of a point of a circle. -/
theorem dist_circle (a b r th : ℝ) : (a + r * Real.sin th) ^ 2 + (b + r * Real.cos th) ^ 2 =
    hypot a b ^ 2 + r ^ 2 + 2 * r * hypot a b * Real.sin (th + atan2 b a) := by
  obtain ⟨h1, h2⟩ := polar' a b
  rw [Real.sin_add]
  have e : 2 * r * hypot a b * (Real.sin th * Real.cos (atan2 b a) + Real.cos th * Real.sin (atan2 b a)) =
      2 * r * (Real.sin th * (hypot a b * Real.cos (atan2 b a)) + Real.cos th * (hypot a b * Real.sin (atan2 b a))) := by
    ring
  rw [e, h1, h2, hypot_sq]
  have := Real.sin_sq_add_cos_sq th
  linear_combination r ^ 2 * this

/-- The six candidates. -/
def Cand (d a w t : ℝ) : Prop :=
  t = (d + a) / w ∨ t = (d + Real.pi - a) / w ∨ t = (d + Real.pi + a) / w ∨
    t = (d - a) / w ∨ t = (d - Real.pi - a) / w ∨ t = (d - Real.pi + a) / w

theorem future_cases (t : ℝ) : future t = t ∨ future t = 10 ^ 99 := by
  unfold future; split <;> simp

theorem min_cases' (a b : ℝ) : min a b = a ∨ min a b = b := min_choice a b

theorem rTime_cases (d a w : ℝ) : Cand d a w (rTime d a w) ∨ rTime d a w = 10 ^ 99 := by
  have key : ∀ x y, (Cand d a w x ∨ x = 10 ^ 99) → (Cand d a w y ∨ y = 10 ^ 99) →
      (Cand d a w (min x y) ∨ min x y = 10 ^ 99) := by
    intro x y hx hy
    rcases min_choice x y with h | h <;> rw [h] <;> assumption
  have fut : ∀ x, Cand d a w x → (Cand d a w (future x) ∨ future x = 10 ^ 99) := by
    intro x hx
    rcases future_cases x with h | h
    · rw [h]; exact Or.inl hx
    · exact Or.inr h
  unfold rTime
  refine key _ _ (key _ _ ?_ (key _ _ ?_ ?_)) (key _ _ ?_ (key _ _ ?_ ?_))
  all_goals apply fut; unfold Cand; simp

theorem rTime_small {d a w : ℝ} (hd : |d| ≤ Real.pi) (ha : |a| ≤ Real.pi / 2) (hw : 1 / 10 ^ 98 < |w|) :
    rTime d a w < 10 ^ 99 := by
  have hpi := Real.pi_le_four
  have hpi0 := Real.pi_pos
  obtain ⟨d1, d2⟩ := abs_le.1 hd
  obtain ⟨a1, a2⟩ := abs_le.1 ha
  have hw0 : 0 < |w| := lt_trans (by positivity) hw
  have hbound : ∀ n : ℝ, |n| ≤ 10 → 0 ≤ n / w → future (n / w) < 10 ^ 99 := by
    intro n hn h0
    unfold future
    rw [if_neg (not_lt.2 h0)]
    calc n / w ≤ |n / w| := le_abs_self _
      _ = |n| / |w| := abs_div _ _
      _ < 10 ^ 99 := by
        rw [div_lt_iff₀ hw0]
        calc |n| ≤ 10 := hn
          _ = 10 ^ 99 * (1 / 10 ^ 98) := by norm_num
          _ < 10 ^ 99 * |w| := by
            apply mul_lt_mul_of_pos_left hw
            positivity
  unfold rTime
  rcases lt_or_gt_of_ne (abs_pos.1 hw0) with hn | hp
  · rcases le_total 0 a with h | h
    · refine lt_of_le_of_lt (le_trans (min_le_right _ _) (le_trans (min_le_right _ _) (min_le_left _ _)))
        (hbound _ ?_ (div_nonneg_of_nonpos (by linarith) hn.le))
      rw [abs_le]; constructor <;> linarith
    · refine lt_of_le_of_lt (le_trans (min_le_right _ _) (le_trans (min_le_right _ _) (min_le_right _ _)))
        (hbound _ ?_ (div_nonneg_of_nonpos (by linarith) hn.le))
      rw [abs_le]; constructor <;> linarith
  · rcases le_total 0 a with h | h
    · refine lt_of_le_of_lt (le_trans (min_le_left _ _) (le_trans (min_le_right _ _) (min_le_right _ _)))
        (hbound _ ?_ (div_nonneg (by linarith) hp.le))
      rw [abs_le]; constructor <;> linarith
    · refine lt_of_le_of_lt (le_trans (min_le_left _ _) (le_trans (min_le_right _ _) (min_le_left _ _)))
        (hbound _ ?_ (div_nonneg (by linarith) hp.le))
      rw [abs_le]; constructor <;> linarith

/-- The angle is brought to `[-π, π]`, by a multiple of `2π`. -/
theorem wrap_spec {d : ℝ} (h1 : -(3 * Real.pi) < d) (h2 : d < 2 * Real.pi) :
    |wrapDown (wrapUp d)| ≤ Real.pi ∧ ∃ m : ℤ, wrapDown (wrapUp d) = d + m * (2 * Real.pi) := by
  have hpi := Real.pi_pos
  unfold wrapUp
  split
  · rename_i h
    unfold wrapDown
    rw [if_neg (by linarith)]
    exact ⟨abs_le.2 ⟨by linarith, by linarith⟩, 1, by push_cast; ring⟩
  · unfold wrapDown
    split
    · exact ⟨abs_le.2 ⟨by linarith, by linarith⟩, -1, by push_cast; ring⟩
    · exact ⟨abs_le.2 ⟨by linarith, by linarith⟩, 0, by push_cast; ring⟩

/-- The sine at a candidate is that of `asinrho`, but for the sign. -/
theorem sin_cand {d a w t : ℝ} (hw : w ≠ 0) (h : Cand d a w t) (k : ℝ) (m : ℤ)
    (hk : d = -k + m * (2 * Real.pi) ∨ d = -k - Real.pi + m * (2 * Real.pi)) :
    Real.sin (w * t + k) = Real.sin a ∨ Real.sin (w * t + k) = -Real.sin a := by
  have per : ∀ x, Real.sin (x + m * (2 * Real.pi)) = Real.sin x := fun x => Real.sin_add_int_mul_two_pi x m
  have hpi1 : ∀ x, Real.sin (x + Real.pi) = -Real.sin x := Real.sin_add_pi
  have hpi2 : ∀ x, Real.sin (x - Real.pi) = -Real.sin x := Real.sin_sub_pi
  have hww : ∀ x, w * (x / w) = x := fun x => mul_div_cancel₀ x hw
  rcases hk with hk | hk <;> subst hk <;> rcases h with h | h | h | h | h | h <;> rw [h, hww]
  · left; rw [show -k + m * (2 * Real.pi) + a + k = a + m * (2 * Real.pi) by ring, per]
  · left; rw [show -k + m * (2 * Real.pi) + Real.pi - a + k = (-a + Real.pi) + m * (2 * Real.pi) by ring, per, hpi1,
      Real.sin_neg, neg_neg]
  · right; rw [show -k + m * (2 * Real.pi) + Real.pi + a + k = (a + Real.pi) + m * (2 * Real.pi) by ring, per, hpi1]
  · right; rw [show -k + m * (2 * Real.pi) - a + k = -a + m * (2 * Real.pi) by ring, per, Real.sin_neg]
  · left; rw [show -k + m * (2 * Real.pi) - Real.pi - a + k = (-a - Real.pi) + m * (2 * Real.pi) by ring, per, hpi2,
      Real.sin_neg, neg_neg]
  · right; rw [show -k + m * (2 * Real.pi) - Real.pi + a + k = (a - Real.pi) + m * (2 * Real.pi) by ring, per, hpi2]
  · right; rw [show -k - Real.pi + m * (2 * Real.pi) + a + k = (a - Real.pi) + m * (2 * Real.pi) by ring, per, hpi2]
  · right; rw [show -k - Real.pi + m * (2 * Real.pi) + Real.pi - a + k = -a + m * (2 * Real.pi) by ring, per,
      Real.sin_neg]
  · left; rw [show -k - Real.pi + m * (2 * Real.pi) + Real.pi + a + k = a + m * (2 * Real.pi) by ring, per]
  · left; rw [show -k - Real.pi + m * (2 * Real.pi) - a + k = (-a - Real.pi) + m * (2 * Real.pi) by ring, per, hpi2,
      Real.sin_neg, neg_neg]
  · right; rw [show -k - Real.pi + m * (2 * Real.pi) - Real.pi - a + k = ((-a - Real.pi) - Real.pi) + m * (2 * Real.pi) by
      ring, per, hpi2, hpi2, Real.sin_neg, neg_neg]
  · left; rw [show -k - Real.pi + m * (2 * Real.pi) - Real.pi + a + k = ((a - Real.pi) - Real.pi) + m * (2 * Real.pi) by
      ring, per, hpi2, hpi2, neg_neg]

/-- A point is on the circle of the particle in the transverse plane. -/
def OnCircle (c : Cyl) (p : Part) (x y : ℝ) : Prop :=
  (x - (p.x / 1000 + 10 ^ 9 / cLight * p.py / (p.q * c.bz))) ^ 2 +
      (y - (p.y / 1000 - 10 ^ 9 / cLight * p.px / (p.q * c.bz))) ^ 2 =
    (10 ^ 9 / cLight) ^ 2 * (p.px ^ 2 + p.py ^ 2) / (p.q * c.bz) ^ 2

theorem axis_eq (c : Cyl) (p : Part) (hpos : 0 < p.px * p.px + p.py * p.py) :
    axisX c p = p.x / 1000 + 10 ^ 9 / cLight * p.py / (p.q * c.bz) ∧
      axisY c p = p.y / 1000 - 10 ^ 9 / cLight * p.px / (p.q * c.bz) ∧
      helixR c p ^ 2 = (10 ^ 9 / cLight) ^ 2 * (p.px ^ 2 + p.py ^ 2) / (p.q * c.bz) ^ 2 := by
  obtain ⟨hcos, hsin⟩ := polar p.px p.py hpos
  refine ⟨?_, ?_, ?_⟩
  · unfold axisX
    congr 1
    rw [← hsin]; unfold helixR phi0; ring
  · unfold axisY
    congr 1
    rw [← hcos]; unfold helixR phi0; ring
  · rw [← hypot_sq]; unfold helixR; ring

theorem circle_far {c : Cyl} {p : Part} (hpos : 0 < p.px * p.px + p.py * p.py) {x y : ℝ} (h : OnCircle c p x y) :
    x ^ 2 + y ^ 2 ≤ (hypot (axisX c p) (axisY c p) + |helixR c p|) ^ 2 := by
  obtain ⟨h1, h2, h3⟩ := axis_eq c p hpos
  unfold OnCircle at h
  rw [← h1, ← h2, ← h3] at h
  have hs := hypot_sq (axisX c p) (axisY c p)
  have h0 := hypot_nonneg (axisX c p) (axisY c p)
  generalize axisX c p = X at *
  generalize axisY c p = Y at *
  generalize helixR c p = r at *
  generalize hypot X Y = g at *
  have hr := sq_abs r
  have hr0 := abs_nonneg r
  generalize |r| = k at *
  -- X(x-X) + Y(y-Y) ≤ g k
  have hcs : (X * (x - X) + Y * (y - Y)) ^ 2 ≤ (g * k) ^ 2 := by
    rw [mul_pow, hs, hr, ← h]
    nlinarith [sq_nonneg (X * (y - Y) - Y * (x - X))]
  have := abs_le_of_sq_le_sq hcs (mul_nonneg h0 hr0)
  nlinarith [(abs_le.1 this).2]

theorem rho_bounds {g k r R : ℝ} (hg : 0 < g) (hk : 0 < k) (hr : k ^ 2 = r ^ 2) (h1 : (g - k) ^ 2 ≤ R ^ 2)
    (h2 : R ^ 2 ≤ (g + k) ^ 2) :
    -1 ≤ (R * R - g * g - r * r) * (1 / 2) / (k * g) ∧ (R * R - g * g - r * r) * (1 / 2) / (k * g) ≤ 1 := by
  have hden : 0 < k * g := mul_pos hk hg
  rw [le_div_iff₀ hden, div_le_iff₀ hden]
  constructor <;> nlinarith

theorem start_le {g k r sn : ℝ} (hk : -k ≤ r * sn) (hg : 0 ≤ g) (hr : k ^ 2 = r ^ 2) :
    (g - k) ^ 2 ≤ g ^ 2 + r ^ 2 + 2 * r * g * sn := by
  nlinarith [mul_le_mul_of_nonneg_left hk hg]

theorem far_le {g k R : ℝ} (hR : 0 < R) (h : R ≤ g + k) : R ^ 2 ≤ (g + k) ^ 2 := by
  nlinarith

theorem zTime_end {c : Cyl} {p : Part} (hl : 0 < c.halflen) (he : 0 < p.e) (hz : p.pz ≠ 0) :
    |p.z / 1000 + p.pz * 10 ^ 9 / cLight / gammam p * zTime c p| = c.halflen := by
  have hcl : cLight ≠ 0 := by norm_num [cLight]
  have hg : gammam p ≠ 0 := by
    unfold gammam
    have : 0 < cLight := by norm_num [cLight]
    positivity
  unfold zTime
  rw [if_neg hz]
  have : p.z / 1000 + p.pz * 10 ^ 9 / cLight / gammam p *
      (gammam p / (p.pz * 10 ^ 9 / cLight) * (-(p.z / 1000) + c.halflen * if 0 < p.pz then 1 else -1)) =
      c.halflen * if 0 < p.pz then 1 else -1 := by
    generalize (if 0 < p.pz then (1 : ℝ) else -1) = s
    field_simp
    ring
  rw [this]
  split
  · rw [mul_one, abs_of_pos hl]
  · rw [mul_neg_one, abs_neg, abs_of_pos hl]

/-- **C172** (helices): it is moved to an end of the cylinder, or to its sides, or to points that a wrong sign of a
sine gives: these have the squared distance `2(d² + r²) - R²` from the axis, where `d` is the distance of the centre of
the circle and `r` its radius. Missing: the third case should not be there, see the counterexample below. -/
theorem C172_helix_end_partial (c : Cyl) (hc : c.Ok) (p : Part) (hi : Inside c p.x p.y p.z)
    (hp : 1 / 10 ^ 9 ≤ p.px * p.px + p.py * p.py) (hq : p.q ≠ 0) (hb : 1 / 10 ^ 9 ≤ |c.bz|) (he : 0 < p.e)
    (he' : p.e < 10 ^ 80) (X Y : ℝ) (hX : X = p.x / 1000 + 10 ^ 9 / cLight * p.py / (p.q * c.bz))
    (hY : Y = p.y / 1000 - 10 ^ 9 / cLight * p.px / (p.q * c.bz)) (h0 : X ^ 2 + Y ^ 2 ≠ 0)
    (hend : p.pz ≠ 0 ∨ ∃ x y, OnCircle c p x y ∧ c.radius ^ 2 ≤ x ^ 2 + y ^ 2) (v : Pos)
    (hv : propagate c p = some v) :
    |v.z / 1000| = c.halflen ∨ (v.x / 1000) ^ 2 + (v.y / 1000) ^ 2 = c.radius ^ 2 ∨
      (v.x / 1000) ^ 2 + (v.y / 1000) ^ 2 =
        2 * (X ^ 2 + Y ^ 2 + (10 ^ 9 / cLight) ^ 2 * (p.px ^ 2 + p.py ^ 2) / (p.q * c.bz) ^ 2) - c.radius ^ 2 := by
  have hpos : 0 < p.px * p.px + p.py * p.py := lt_of_lt_of_le (by norm_num) hp
  have hqabs : (1 : ℝ) ≤ |(p.q : ℝ)| := by
    rw [← Int.cast_abs]
    exact_mod_cast Int.one_le_abs hq
  have hq1 : ¬ (|(p.q : ℝ)| < 1 / 10 ^ 9 ∨ |c.bz| < 1 / 10 ^ 9) := by
    rintro (h | h)
    · have h9 : (1 : ℝ) / 10 ^ 9 ≤ 1 := by norm_num
      linarith
    · linarith
  have hqr : (p.q : ℝ) ≠ 0 := by exact_mod_cast hq
  have hbr : c.bz ≠ 0 := by
    intro h
    rw [h, abs_zero] at hb
    norm_num at hb
  have hcl0 : 0 < cLight := by norm_num [cLight]
  have hcl : cLight ≠ 0 := hcl0.ne'
  have hg : 0 < gammam p := by unfold gammam; positivity
  have hw0 : omega c p ≠ 0 := by unfold omega; exact div_ne_zero (mul_ne_zero hqr hbr) hg.ne'
  obtain ⟨a1, a2, a3⟩ := axis_eq c p hpos
  rw [← a1] at hX
  rw [← a2] at hY
  rw [← a3]
  unfold propagate at hv
  rw [if_neg, if_neg (not_lt.2 hp), if_neg hq1, helix] at hv
  swap
  · rintro (h | h)
    · exact (hypot_le hc.1).2 hi.1 h
    · exact not_lt.2 hi.2 h
  split at hv
  swap
  · cases hv
  cases hv
  have ex : ∀ t, (onHelix c p t).x / 1000 = axisX c p + helixR c p * Real.sin (omega c p * t - phi0 p) := by
    intro t; simp only [onHelix]; ring
  have ey : ∀ t, (onHelix c p t).y / 1000 = axisY c p + helixR c p * Real.cos (omega c p * t - phi0 p) := by
    intro t; simp only [onHelix]; ring
  have ez : ∀ t, (onHelix c p t).z / 1000 = p.z / 1000 + p.pz * 10 ^ 9 / cLight / gammam p * t := by
    intro t; simp only [onHelix]; ring
  rw [ex, ey, ez, dist_circle, hX, hY]
  by_cases hin : hypot (axisX c p) (axisY c p) + |helixR c p| < c.radius
  · have hz : p.pz ≠ 0 := by
      rcases hend with h | ⟨x, y, hcirc, hfar⟩
      · exact h
      · exfalso
        have := circle_far hpos hcirc
        have h1 := hypot_nonneg (axisX c p) (axisY c p)
        have h2 := abs_nonneg (helixR c p)
        nlinarith
    left
    unfold helixTime
    rw [if_pos hin]
    exact zTime_end hc.2 he hz
  · have hwbig : 1 / 10 ^ 98 < |omega c p| := by
      have h1 : (1 : ℝ) / 10 ^ 9 ≤ |(p.q : ℝ) * c.bz| := by
        rw [abs_mul]
        calc (1 : ℝ) / 10 ^ 9 ≤ 1 * |c.bz| := by linarith
          _ ≤ |(p.q : ℝ)| * |c.bz| := mul_le_mul_of_nonneg_right hqabs (abs_nonneg _)
      unfold omega
      rw [abs_div, abs_of_pos hg, lt_div_iff₀ hg]
      refine lt_of_lt_of_le ?_ h1
      unfold gammam
      rw [← mul_div_assoc, div_lt_iff₀ (by positivity)]
      have h9 : (1 : ℝ) / 10 ^ 98 * (p.e * 10 ^ 9) < 1 / 10 ^ 98 * (10 ^ 80 * 10 ^ 9) := by
        apply mul_lt_mul_of_pos_left _ (by positivity)
        exact mul_lt_mul_of_pos_right he' (by positivity)
      refine lt_trans h9 ?_
      norm_num [cLight]
    have harg1 := Complex.neg_pi_lt_arg (⟨p.px, p.py⟩ : ℂ)
    have harg2 := Complex.arg_le_pi (⟨p.px, p.py⟩ : ℂ)
    have harg3 := Complex.neg_pi_lt_arg (⟨axisX c p, axisY c p⟩ : ℂ)
    have harg4 := Complex.arg_le_pi (⟨axisX c p, axisY c p⟩ : ℂ)
    have hpi := Real.pi_pos
    have haxis : axisPhi c p = atan2 (axisY c p) (axisX c p) ∨
        axisPhi c p = atan2 (axisY c p) (axisX c p) + Real.pi := by
      unfold axisPhi
      split
      · exact Or.inr rfl
      · exact Or.inl rfl
    obtain ⟨hd, m, hm⟩ := wrap_spec (d := phi0 p - axisPhi c p)
      (by unfold phi0; rcases haxis with h | h <;> rw [h] <;> unfold atan2 <;> linarith)
      (by unfold phi0; rcases haxis with h | h <;> rw [h] <;> unfold atan2 <;> linarith)
    have hab : |asinrho c p| ≤ Real.pi / 2 := abs_le.2 ⟨Real.neg_pi_div_two_le_arcsin _, Real.arcsin_le_pi_div_two _⟩
    have hsmall := rTime_small hd hab hwbig
    have hcand := (rTime_cases (wrapDown (wrapUp (phi0 p - axisPhi c p))) (asinrho c p) (omega c p)).resolve_right hsmall.ne
    unfold helixTime
    rw [if_neg hin]
    rcases le_or_gt (zTime c p) (rTime (wrapDown (wrapUp (phi0 p - axisPhi c p))) (asinrho c p) (omega c p)) with hle | hlt
    · rw [min_eq_right hle]
      left
      apply zTime_end hc.2 he
      intro hz
      have : zTime c p = 10 ^ 99 := by unfold zTime; rw [if_pos hz]
      rw [this] at hle
      linarith
    · rw [min_eq_left hlt.le]
      right
      generalize rTime (wrapDown (wrapUp (phi0 p - axisPhi c p))) (asinrho c p) (omega c p) = t at *
      have hsin := sin_cand hw0 hcand (-phi0 p + atan2 (axisY c p) (axisX c p)) m (by
        rcases haxis with h | h <;> rw [h] at hm
        · left; rw [h, hm]; ring
        · right; rw [h, hm]; ring)
      have harr : omega c p * t - phi0 p + atan2 (axisY c p) (axisX c p) =
          omega c p * t + (-phi0 p + atan2 (axisY c p) (axisX c p)) := by ring
      rw [harr]
      have hs := hypot_sq (axisX c p) (axisY c p)
      have hg0 := hypot_nonneg (axisX c p) (axisY c p)
      rw [hX, hY, ← hs] at h0
      have hgpos : 0 < hypot (axisX c p) (axisY c p) := lt_of_le_of_ne hg0 fun e => h0 (by rw [← e]; norm_num)
      have hrpos : 0 < |helixR c p| := by
        rw [abs_pos]
        intro hz
        rw [hz] at a3
        have : 0 < (10 ^ 9 / cLight) ^ 2 * (p.px ^ 2 + p.py ^ 2) / (p.q * c.bz) ^ 2 := by
          have h5 : 0 < p.px ^ 2 + p.py ^ 2 := by nlinarith
          have h6 : (p.q : ℝ) * c.bz ≠ 0 := mul_ne_zero hqr hbr
          positivity
        rw [← a3] at this
        norm_num at this
      have hrr := sq_abs (helixR c p)
      -- the start is on the circle and inside
      have hstart : (hypot (axisX c p) (axisY c p) - |helixR c p|) ^ 2 ≤ c.radius ^ 2 := by
        have hd0 := dist_circle (axisX c p) (axisY c p) (helixR c p) (-phi0 p)
        have e1 : axisX c p + helixR c p * Real.sin (-phi0 p) = p.x / 1000 := by
          rw [Real.sin_neg]; unfold axisX; ring
        have e2 : axisY c p + helixR c p * Real.cos (-phi0 p) = p.y / 1000 := by
          rw [Real.cos_neg]; unfold axisY; ring
        rw [e1, e2] at hd0
        refine le_trans ?_ hi.1
        rw [hd0]
        have hb1 := Real.neg_one_le_sin (-phi0 p + atan2 (axisY c p) (axisX c p))
        have hb2 := Real.sin_le_one (-phi0 p + atan2 (axisY c p) (axisX c p))
        generalize Real.sin (-phi0 p + atan2 (axisY c p) (axisX c p)) = sn at *
        have hk : -(|helixR c p|) ≤ helixR c p * sn := by
          have : |helixR c p * sn| ≤ |helixR c p| := by
            rw [abs_mul]
            exact mul_le_of_le_one_right (abs_nonneg _) (abs_le.2 ⟨hb1, hb2⟩)
          exact (abs_le.1 this).1
        exact start_le hk hg0 hrr
      have hfar : c.radius ^ 2 ≤ (hypot (axisX c p) (axisY c p) + |helixR c p|) ^ 2 := by
        exact far_le hc.1 (not_lt.1 hin)
      have hrho : Real.sin (asinrho c p) * (2 * (|helixR c p| * hypot (axisX c p) (axisY c p))) =
          c.radius ^ 2 - hypot (axisX c p) (axisY c p) ^ 2 - helixR c p ^ 2 := by
        unfold asinrho
        have hden : 0 < |helixR c p| * hypot (axisX c p) (axisY c p) := mul_pos hrpos hgpos
        rw [Real.sin_arcsin]
        · field_simp
        · exact (rho_bounds hgpos hrpos hrr hstart hfar).1
        · exact (rho_bounds hgpos hrpos hrr hstart hfar).2
      have hsgn : helixR c p = |helixR c p| ∨ helixR c p = -|helixR c p| := by
        rcases abs_choice (helixR c p) with h | h
        · exact Or.inl h.symm
        · right; rw [h]; ring
      rw [← hs]
      generalize Real.sin (asinrho c p) = sa at *
      rcases hsin with h | h <;> rw [h] <;> rcases hsgn with h' | h'
      · left; linear_combination hrho + 2 * hypot (axisX c p) (axisY c p) * sa * h'
      · right; linear_combination -hrho + 2 * hypot (axisX c p) (axisY c p) * sa * h'
      · right; linear_combination -hrho - 2 * hypot (axisX c p) (axisY c p) * sa * h'
      · left; linear_combination hrho - 2 * hypot (axisX c p) (axisY c p) * sa * h'

/-- The particle of the counterexample: from the origin along y, on a circle of radius 1 around (1, 0). -/
noncomputable def exPart : Part := ⟨0, 0, 0, 0, 0, 1, 0, 1, 1, 211⟩

noncomputable def exCyl : Cyl := ⟨√3, 3, 10 ^ 9 / cLight⟩

/-- A charged particle that should leave through the sides, at the distance √3 of the axis, is stopped inside, at the
distance 1: a candidate with the wrong sign of the sine comes first. -/
theorem C172_helix_counterexample : ∃ v, propagate exCyl exPart = some v ∧
    Inside exCyl exPart.x exPart.y exPart.z ∧ (v.x / 1000) ^ 2 + (v.y / 1000) ^ 2 = 1 ∧ v.z = 0 ∧
    ¬ OnSurface exCyl v.x v.y v.z := by
  have hcl0 : 0 < cLight := by norm_num [cLight]
  have h3 : (√3 : ℝ) ^ 2 = 3 := Real.sq_sqrt (by norm_num)
  have h30 : 0 < √(3 : ℝ) := Real.sqrt_pos.2 (by norm_num)
  have hpi := Real.pi_pos
  have hphi : phi0 exPart = Real.pi / 2 := by
    unfold phi0 atan2 exPart
    exact Complex.arg_I
  have hr : helixR exCyl exPart = 1 := by
    unfold helixR hypot exPart exCyl
    have hcl := hcl0.ne'
    have h1 : √((0 : ℝ) * 0 + 1 * 1) = 1 := by norm_num
    simp only [h1]
    push_cast
    field_simp
  have hX : axisX exCyl exPart = 1 := by
    unfold axisX
    rw [hr, hphi, Real.sin_pi_div_two]
    norm_num [exPart]
  have hY : axisY exCyl exPart = 0 := by
    unfold axisY
    rw [hr, hphi, Real.cos_pi_div_two]
    norm_num [exPart]
  have hA : axisPhi exCyl exPart = 0 := by
    unfold axisPhi
    rw [hX, hY, if_neg (by norm_num)]
    unfold atan2
    exact Complex.arg_one
  have hH : hypot 1 0 = 1 := by unfold hypot; norm_num
  have hw : omega exCyl exPart = cLight := by
    unfold omega gammam exPart exCyl
    have hcl := hcl0.ne'
    push_cast
    field_simp
  have ha : asinrho exCyl exPart = Real.pi / 6 := by
    unfold asinrho
    rw [hX, hY, hr, hH]
    have : (exCyl.radius * exCyl.radius - 1 * 1 - 1 * 1) * (1 / 2) / (|1| * 1) = 1 / 2 := by
      have : exCyl.radius * exCyl.radius = 3 := by rw [← sq]; exact h3
      rw [this]; norm_num
    rw [this, ← Real.sin_pi_div_six, Real.arcsin_sin (by linarith) (by linarith)]
  have hd : wrapDown (wrapUp (phi0 exPart - axisPhi exCyl exPart)) = Real.pi / 2 := by
    rw [hphi, hA, sub_zero]
    unfold wrapUp
    rw [if_neg (by linarith)]
    unfold wrapDown
    rw [if_neg (by linarith)]
  have hcbig : (1 : ℝ) ≤ cLight := by norm_num [cLight]
  have hp4 := Real.pi_le_four
  have hsm : Real.pi / 3 / cLight ≤ 10 ^ 99 := by
    rw [div_le_iff₀ hcl0]
    have : (10 : ℝ) ^ 99 * 1 ≤ 10 ^ 99 * cLight := mul_le_mul_of_nonneg_left hcbig (by positivity)
    have h99 : (4 : ℝ) ≤ 10 ^ 99 := by norm_num
    linarith
  have hle : ∀ x, Real.pi / 3 ≤ x ∨ x < 0 → Real.pi / 3 / cLight ≤ future (x / cLight) := by
    intro x hx
    unfold future
    split
    · exact hsm
    · rename_i h
      rcases hx with hx | hx
      · exact div_le_div_of_nonneg_right hx hcl0.le
      · exact absurd (div_neg_of_neg_of_pos hx hcl0) h
  have hrt : rTime (Real.pi / 2) (Real.pi / 6) cLight = Real.pi / 3 / cLight := by
    unfold rTime
    apply le_antisymm
    · refine le_trans (min_le_right _ _) (le_trans (min_le_left _ _) ?_)
      have : Real.pi / 2 - Real.pi / 6 = Real.pi / 3 := by ring
      rw [this]
      unfold future
      rw [if_neg (not_lt.2 (by positivity))]
    · refine le_min (le_min (hle _ (Or.inl (by linarith))) (le_min (hle _ (Or.inl (by linarith)))
        (hle _ (Or.inl (by linarith))))) (le_min (hle _ (Or.inl (by linarith))) (le_min (hle _ (Or.inr (by linarith)))
        (hle _ (Or.inr (by linarith)))))
  have ht : helixTime exCyl exPart = Real.pi / 3 / cLight := by
    unfold helixTime
    rw [hX, hY, hH, hr, hd, ha, hw, hrt, if_neg, min_eq_left]
    · unfold zTime exPart
      rw [if_pos rfl]
      exact hsm
    · rw [not_lt]
      show √3 ≤ 1 + |1|
      norm_num
      rw [Real.sqrt_le_left (by norm_num)]
      norm_num
  have hth : omega exCyl exPart * helixTime exCyl exPart - phi0 exPart = -(Real.pi / 6) := by
    rw [hw, ht, hphi, mul_div_cancel₀ _ hcl0.ne']
    ring
  have hx : axisX exCyl exPart + helixR exCyl exPart * Real.sin (-(Real.pi / 6)) = 1 / 2 := by
    rw [hX, hr, Real.sin_neg, Real.sin_pi_div_six]; norm_num
  have hy : axisY exCyl exPart + helixR exCyl exPart * Real.cos (-(Real.pi / 6)) = √3 / 2 := by
    rw [hY, hr, Real.cos_neg, Real.cos_pi_div_six]; norm_num
  have hvx : (onHelix exCyl exPart (helixTime exCyl exPart)).x / 1000 = 1 / 2 := by
    simp only [onHelix]
    rw [hth, hx]; norm_num
  have hvy : (onHelix exCyl exPart (helixTime exCyl exPart)).y / 1000 = √3 / 2 := by
    simp only [onHelix]
    rw [hth, hy]; ring
  have hvz : (onHelix exCyl exPart (helixTime exCyl exPart)).z = 0 := by
    simp only [onHelix, exPart]; norm_num
  have hrad : ((onHelix exCyl exPart (helixTime exCyl exPart)).x / 1000) ^ 2 +
      ((onHelix exCyl exPart (helixTime exCyl exPart)).y / 1000) ^ 2 = 1 := by
    rw [hvx, hvy]
    linear_combination (1 / 4 : ℝ) * h3
  have hin : Inside exCyl exPart.x exPart.y exPart.z := by
    unfold Inside exPart exCyl
    norm_num
  refine ⟨onHelix exCyl exPart (helixTime exCyl exPart), ?_, hin, hrad, hvz, ?_⟩
  · unfold propagate
    rw [if_neg, if_neg, if_neg, helix, if_pos]
    · rw [hth, hx, hy]
      unfold hypot
      apply Real.sqrt_pos.2
      positivity
    · rw [not_or]
      constructor
      · norm_num [exPart]
      · have : |exCyl.bz| = 10 ^ 9 / cLight := abs_of_pos (by show (0 : ℝ) < 10 ^ 9 / cLight; positivity)
        rw [this]
        norm_num [cLight]
    · norm_num [exPart]
    · rw [not_or]
      exact ⟨(hypot_le h30).2 hin.1, not_lt.2 hin.2⟩
  · rintro ⟨_, h | h⟩
    · rw [hrad] at h
      have : exCyl.radius ^ 2 = 3 := h3
      rw [this] at h
      norm_num at h
    · rw [hvz] at h
      norm_num [exCyl] at h

/-! ## Examples -/

/-- A photon near the middle, in the direction (3, 4, 1). -/
example : ∃ s v, 0 ≤ s ∧ propagate ⟨1, 3, 4⟩ ⟨100, 0, 0, 0, 3, 4, 1, 6, 0, 22⟩ = some v ∧ v.x = 100 + s * 3 * 1000 ∧
    OnSurface ⟨1, 3, 4⟩ v.x v.y v.z := by
  have hi : Inside ⟨1, 3, 4⟩ (⟨100, 0, 0, 0, 3, 4, 1, 6, 0, 22⟩ : Part).x 0 0 := by
    unfold Inside
    norm_num
  have h1 : (1 : ℝ) / 10 ^ 9 ≤ 3 * 3 + 4 * 4 := by norm_num
  have h2 : (0 : ℝ) / 1000 = 3 → (0 : ℝ) ≤ 1 := by norm_num
  obtain ⟨s, v, hs, hv, hx, _⟩ := C172_straight_partial ⟨1, 3, 4⟩ ⟨one_pos, by norm_num⟩
    ⟨100, 0, 0, 0, 3, 4, 1, 6, 0, 22⟩ hi h1 (Or.inl rfl) h2
  exact ⟨s, v, hs, hv, hx, C172_surface_partial ⟨1, 3, 4⟩ ⟨one_pos, by norm_num⟩ _ hi h1 (Or.inl rfl) h2 v hv⟩

example : propagate ⟨1, 3, 4⟩ ⟨2000, 0, 0, 0, 3, 4, 1, 6, 0, 22⟩ = none :=
  C172_outside _ ⟨one_pos, by norm_num⟩ _ (by unfold Inside; norm_num)

/-- The particle of the counterexample meets the hypotheses for helices. -/
example : exCyl.Ok ∧ Inside exCyl exPart.x exPart.y exPart.z ∧ 1 / 10 ^ 9 ≤ exPart.px * exPart.px + exPart.py * exPart.py ∧
    exPart.q ≠ 0 ∧ 1 / 10 ^ 9 ≤ |exCyl.bz| ∧ 0 < exPart.e ∧ exPart.e < 10 ^ 80 ∧
    OnCircle exCyl exPart 2 0 ∧ exCyl.radius ^ 2 ≤ 2 ^ 2 + 0 ^ 2 := by
  have hcl0 : 0 < cLight := by norm_num [cLight]
  have h3 : (√3 : ℝ) ^ 2 = 3 := Real.sq_sqrt (by norm_num)
  refine ⟨⟨Real.sqrt_pos.2 (by norm_num), by norm_num [exCyl]⟩, by unfold Inside exPart exCyl; norm_num,
    by norm_num [exPart], by decide, ?_, by norm_num [exPart], by norm_num [exPart], ?_, ?_⟩
  · have : |exCyl.bz| = 10 ^ 9 / cLight := abs_of_pos (by show (0 : ℝ) < 10 ^ 9 / cLight; positivity)
    rw [this]
    norm_num [cLight]
  · unfold OnCircle exPart exCyl
    have hcl := hcl0.ne'
    norm_num
    field_simp
    ring
  · show (√3 : ℝ) ^ 2 ≤ _
    rw [h3]; norm_num

/-! ## Counterexamples -/

/-- The lists: antiparticles are hadrons. A positron and an antimuon are not in the lists of electrons and
muons. -/
theorem C172_antiparticle_counterexample : kind (-11) = .hadron ∧ kind (-13) = .hadron ∧ kind 11 = .electron := by
  decide

/-- **C172** (lists): electrons and muons are in their lists. -/
theorem C172_lists_partial (pid : Int) (h : 0 ≤ pid) :
    (kind pid = .electron ↔ pid = 11) ∧ (kind pid = .muon ↔ pid = 13) := by
  unfold kind
  rw [max_eq_left h]
  by_cases h1 : pid = 11
  · simp [h1]
  · by_cases h2 : pid = 13
    · simp [h2]
    · simp [h1, h2]

/-- A particle on the far end that moves inwards is left where it is. -/
theorem C172_end_counterexample : ∃ v, propagate ⟨1, 3, 0⟩ ⟨0, 0, 3000, 0, 1, 0, -100, 101, 0, 22⟩ = some v ∧
    v.x = 0 ∧ v.y = 0 ∧ v.z = 3000 ∧ ∃ u > 0, Inside ⟨1, 3, 0⟩ (0 + u * 1 * 1000) (0 + u * 0 * 1000) (3000 + u * -100 * 1000) := by
  refine ⟨onLine ⟨0, 0, 3000, 0, 1, 0, -100, 101, 0, 22⟩ 0, ?_, ?_, ?_, ?_, 1 / 100, by norm_num, ?_⟩
  · unfold propagate
    rw [if_neg, if_neg (by norm_num), if_pos (Or.inl (by norm_num)), straight]
    · have h1 : sideTime ((1 : ℝ) * 1) 1 0 (0 / 1000) (0 / 1000) = some 1 := by
        unfold sideTime
        norm_num
      simp only [h1, Option.map_some]
      have h2 : endTime 3 (3000 / 1000) (-100) 1 = 0 := by
        unfold endTime
        rw [if_pos (by rw [lt_abs]; right; norm_num), if_neg (by norm_num)]
        norm_num
      rw [h2]
    · rw [not_or]
      refine ⟨(hypot_le (by norm_num)).2 (by norm_num), by norm_num⟩
  · simp [onLine]
  · simp [onLine]
  · simp only [onLine]; norm_num
  · unfold Inside
    norm_num

end Verif.Fads.Propagate
