import Mathlib.Algebra.Order.Field.Basic
import Mathlib.Tactic.Ring
import Mathlib.Tactic.Linarith
import Mathlib.LinearAlgebra.Lagrange
import Verif.Fit.Poly

/-!
# Fit of a polynomial (C186)
-/

namespace Verif.Fit.Poly

variable {K : Type} [Field K] [LinearOrder K] [IsStrictOrderedRing K]

/-! ## Specification -/

/-- `p[0] * x^deg + ... + p[deg]`, as documented. -/
def value {K : Type} [CommRing K] : List K → K → K
  | [], _ => 0
  | c :: cs, x => c * x ^ cs.length + value cs x

/-- The sum of the squares of the distances to the points. -/
def chi2 (f : K → K) : List K → List K → K
  | x :: xs, y :: ys => (f x - y) * (f x - y) + chi2 f xs ys
  | _, _ => 0

/-- The product of a row and a column. -/
def dot {K : Type} [CommRing K] : List K → List K → K
  | a :: as, b :: bs => a * b + dot as bs
  | _, _ => 0

/-- The square of the length of `A c - b`. -/
def residual : List (List K) → List K → List K → K
  | r :: rs, y :: ys, c => (dot r c - y) * (dot r c - y) + residual rs ys c
  | _, _, _ => 0

/-- What gonum documents for a system with more equations than unknowns: the solution has the least residual of all of its length. -/
def LeastSquares (solve : List (List K) → List K → Option (List K)) (n : Nat) : Prop :=
  ∀ A b c, solve A b = some c → c.length = n ∧ ∀ c', c'.length = n → residual A b c ≤ residual A b c'

/-! ## Proofs -/

theorem value_append {K : Type} [CommRing K] (p : List K) (c x : K) : value (p ++ [c]) x = value p x * x + c := by
  induction p with
  | nil => simp [value]
  | cons a p ih =>
    rw [List.cons_append, value, ih, value, List.length_append, List.length_singleton, pow_succ]
    ring

theorem dot_powers {K : Type} [CommRing K] (x : K) (c : List K) : ∀ p : K, dot (powers x c.length p) c = p * value c.reverse x := by
  induction c with
  | nil => intro p; simp [powers, dot, value]
  | cons a c ih =>
    intro p
    rw [List.length_cons, powers, dot, ih, List.reverse_cons, value_append]
    ring

omit [LinearOrder K] [IsStrictOrderedRing K] in
theorem residual_eq (xs : List K) : ∀ (ys c : List K), residual (vandermonde xs c.length) ys c = chi2 (value c.reverse) xs ys := by
  induction xs with
  | nil => intro ys c; cases ys <;> rfl
  | cons x xs ih =>
    intro ys c
    cases ys with
    | nil => rfl
    | cons y ys =>
      have := ih ys c
      unfold vandermonde at this
      unfold vandermonde
      rw [List.map_cons, residual, chi2, dot_powers, this]
      ring

omit [LinearOrder K] [IsStrictOrderedRing K] in
theorem poly_ok {solve : List (List K) → List K → Option (List K)} {xs ys p : List K} {degree : Nat}
    (h : poly solve xs ys degree = some (some p)) :
    ∃ c, solve (vandermonde xs (degree + 1)) ys = some c ∧ p = c.reverse ∧ degree + 1 ≤ xs.length ∧ xs.length = ys.length := by
  unfold poly at h
  split at h
  · cases h
  · rename_i hc
    injection h with h
    obtain ⟨c, hc', hp⟩ := Option.map_eq_some_iff.mp h
    exact ⟨c, hc', hp.symm, by omega, by omega⟩

omit [IsStrictOrderedRing K] in
/-- **C186** (least): the polynomial that is returned, of the degree asked for and with the highest power first, is nearer to the points,
in the sum of squares, than any other. -/
theorem C186_least (solve : List (List K) → List K → Option (List K)) (xs ys p : List K) (degree : Nat)
    (hs : LeastSquares solve (degree + 1)) (h : poly solve xs ys degree = some (some p)) :
    p.length = degree + 1 ∧ ∀ q : List K, q.length = degree + 1 → chi2 (value p) xs ys ≤ chi2 (value q) xs ys := by
  obtain ⟨c, hc, rfl, _, _⟩ := poly_ok h
  obtain ⟨hl, hmin⟩ := hs _ _ _ hc
  refine ⟨by rw [List.length_reverse, hl], fun q hq => ?_⟩
  have h1 := hmin q.reverse (by rw [List.length_reverse, hq])
  have e1 := residual_eq xs ys c
  have e2 := residual_eq xs ys q.reverse
  rw [hl] at e1
  rw [List.length_reverse, hq, List.reverse_reverse] at e2
  rw [e1, e2] at h1
  exact h1

theorem chi2_nonneg (f : K → K) (xs : List K) : ∀ ys, 0 ≤ chi2 f xs ys := by
  induction xs with
  | nil => intro ys; exact le_refl _
  | cons x xs ih =>
    intro ys
    cases ys with
    | nil => exact le_refl _
    | cons y ys => exact add_nonneg (mul_self_nonneg _) (ih ys)

omit [LinearOrder K] [IsStrictOrderedRing K] in
theorem chi2_zero (f : K → K) (xs : List K) : chi2 f xs (xs.map f) = 0 := by
  induction xs with
  | nil => rfl
  | cons x xs ih => rw [List.map_cons, chi2, ih, sub_self, mul_zero, add_zero]

theorem of_chi2_zero (f g : K → K) (xs : List K) (h : chi2 f xs (xs.map g) ≤ 0) : ∀ x ∈ xs, f x = g x := by
  induction xs with
  | nil => exact fun x hx => (List.not_mem_nil hx).elim
  | cons a xs ih =>
    rw [List.map_cons, chi2] at h
    have h1 := mul_self_nonneg (f a - g a)
    have h2 := chi2_nonneg f xs (xs.map g)
    intro x hx
    rcases List.mem_cons.mp hx with rfl | hx
    · have : (f x - g x) * (f x - g x) = 0 := by linarith
      exact sub_eq_zero.mp (mul_self_eq_zero.mp this)
    · exact ih (by linarith) x hx

open Polynomial in
/-- The polynomial of coefficients with the highest power first. -/
noncomputable def toPoly : List K → Polynomial K
  | [] => 0
  | c :: cs => C c * X ^ cs.length + toPoly cs

open Polynomial in
omit [LinearOrder K] [IsStrictOrderedRing K] in
theorem eval_toPoly (p : List K) (x : K) : (toPoly p).eval x = value p x := by
  induction p with
  | nil => simp [toPoly, value]
  | cons c p ih => simp [toPoly, value, ih]

open Polynomial in
omit [LinearOrder K] [IsStrictOrderedRing K] in
theorem degree_toPoly (p : List K) : (toPoly p).degree < p.length := by
  induction p with
  | nil => simp [toPoly]
  | cons c p ih =>
    rw [toPoly, List.length_cons]
    refine lt_of_le_of_lt (degree_add_le _ _) (max_lt ?_ (lt_trans ih (by exact_mod_cast Nat.lt_succ_self _)))
    exact lt_of_le_of_lt (degree_C_mul_X_pow_le _ _) (by exact_mod_cast Nat.lt_succ_self _)

open Polynomial in
omit [LinearOrder K] [IsStrictOrderedRing K] in
theorem coeff_top (c : K) (p : List K) : (toPoly (c :: p)).coeff p.length = c := by
  rw [toPoly, coeff_add, coeff_C_mul_X_pow, if_pos rfl, coeff_eq_zero_of_degree_lt (degree_toPoly p), add_zero]

omit [LinearOrder K] [IsStrictOrderedRing K] in
theorem toPoly_inj : ∀ {p q : List K}, p.length = q.length → toPoly p = toPoly q → p = q := by
  intro p
  induction p with
  | nil => intro q hl _; exact (List.length_eq_zero_iff.mp hl.symm).symm
  | cons a p ih =>
    intro q hl h
    cases q with
    | nil => cases hl
    | cons b q =>
      rw [List.length_cons, List.length_cons] at hl
      have hl' : p.length = q.length := by omega
      have hab : a = b := by
        have := coeff_top a p
        rw [h, hl', coeff_top] at this
        exact this.symm
      have : toPoly p = toPoly q := by
        rw [toPoly, toPoly, hab, hl'] at h
        exact add_left_cancel h
      rw [hab, ih hl' this]

/-- **C186** (exact): points of a polynomial of that degree, of which at least one more than the degree are different, give that
polynomial. -/
theorem C186_exact (solve : List (List K) → List K → Option (List K)) (xs p q : List K) (degree : Nat)
    (hs : LeastSquares solve (degree + 1)) (hq : q.length = degree + 1) (hx : degree + 1 ≤ xs.toFinset.card)
    (h : poly solve xs (xs.map (value q)) degree = some (some p)) : p = q := by
  obtain ⟨hl, hmin⟩ := C186_least solve xs _ p degree hs h
  have h0 := hmin q hq
  rw [chi2_zero] at h0
  have hv := of_chi2_zero _ _ _ h0
  refine toPoly_inj (hl.trans hq.symm) ?_
  refine Polynomial.eq_of_degrees_lt_of_eval_finset_eq xs.toFinset ?_ ?_ (fun x hx => ?_)
  · exact lt_of_lt_of_le (degree_toPoly p) (by rw [hl]; exact_mod_cast hx)
  · exact lt_of_lt_of_le (degree_toPoly q) (by rw [hq]; exact_mod_cast hx)
  · rw [eval_toPoly, eval_toPoly]
    exact hv x (List.mem_toFinset.mp hx)

/-! ## Examples -/

/-- A solution of two equations with two unknowns. -/
def exSolve : List (List ℚ) → List ℚ → Option (List ℚ)
  | [[o, a], [o', b]], [y, z] => if o ≠ 1 ∨ o' ≠ 1 ∨ a = b then none else some [y - (z - y) / (b - a) * a, (z - y) / (b - a)]
  | _, _ => none

/-- The line through (1, 5) and (3, 9), of slope 2. -/
example : poly exSolve [1, 3] [5, 9] 1 = some (some [2, 3]) := by decide +kernel

example : value [2, 3] (1 : ℚ) = 5 ∧ value [2, 3] (3 : ℚ) = 9 := by decide +kernel

/-- Too few points. -/
example : poly exSolve [1] [5] 1 = none := by decide +kernel

theorem exSolve_least : LeastSquares exSolve 2 := by
  intro A b c h
  unfold exSolve at h
  split at h
  · rename_i o a o' b' y z
    split at h
    · cases h
    · rename_i hc
      obtain ⟨h1, hc⟩ := not_or.mp hc
      obtain ⟨h2, hab⟩ := not_or.mp hc
      obtain rfl := not_not.mp h1
      obtain rfl := not_not.mp h2
      injection h with h
      have hne : b' - a ≠ 0 := fun h => hab (sub_eq_zero.mp h).symm
      refine ⟨by rw [← h]; rfl, fun c' _ => ?_⟩
      have : residual [[1, a], [1, b']] [y, z] c = 0 := by
        rw [← h]
        have e : (z - y) / (b' - a) * b' - (z - y) / (b' - a) * a = z - y := by rw [← mul_sub, div_mul_cancel₀ _ hne]
        simp only [residual, dot]
        have e1 : 1 * (y - (z - y) / (b' - a) * a) + (a * ((z - y) / (b' - a)) + 0) - y = 0 := by ring
        have e2 : 1 * (y - (z - y) / (b' - a) * a) + (b' * ((z - y) / (b' - a)) + 0) - z = 0 := by linarith
        rw [e1, e2]
        ring
      rw [this]
      simp only [residual]
      have h1 := mul_self_nonneg (dot [1, a] c' - y)
      have h2 := mul_self_nonneg (dot [1, b'] c' - z)
      linarith
  · cases h

/-- The theorem used: whatever the fit gives for points of a line is that line. -/
example (p : List ℚ) (h : poly exSolve [1, 3] ([1, 3].map (value [2, 3])) 1 = some (some p)) : p = [2, 3] :=
  C186_exact exSolve [1, 3] p [2, 3] 1 exSolve_least rfl (by decide) h

end Verif.Fit.Poly
