import Verif.Fads.Smear
import Verif.Fmom.Props
import Mathlib.Data.List.Forall2

/-!
# Energies and momenta are scaled and smeared (C177)
-/

namespace Verif.Fads.Smear

open Verif.Fmom Real

variable {R : Type}

/-! ## Specification -/

/-- The length of a momentum, and that of its transverse part. -/
noncomputable def len (v : Vec4) : ℝ := √(v.x ^ 2 + v.y ^ 2 + v.z ^ 2)

noncomputable def tra (v : Vec4) : ℝ := √(v.x ^ 2 + v.y ^ 2)

/-- A particle: energy positive, not spacelike, not along the beam. -/
def Phys (v : Vec4) : Prop :=
  0 < v.t ∧ 0 < v.x ^ 2 + v.y ^ 2 ∧ v.x ^ 2 + v.y ^ 2 + v.z ^ 2 ≤ v.t ^ 2 ∧ |(pxPyPzE v).eta| ≤ 710

/-- `v` times `k` in space, with energy `e`. -/
def Along (k e : ℝ) (v w : Vec4) : Prop := w.x = k * v.x ∧ w.y = k * v.y ∧ w.z = k * v.z ∧ w.t = e

/-- A new candidate, made of `c`: only the momentum is another, and `c` is its last constituent. -/
def Made (c c' : Cand R) : Prop := c'.rest = c.rest ∧ c'.pos = c.pos ∧ c'.subs = c.subs ++ [c]

/-! ## Proofs -/

theorem e_eq (v : Vec4) : (pxPyPzE v).e = v.t := rfl

theorem sgn_one {e : ℝ} (h : 0 < e) : sgn e = 1 := by unfold sgn; rw [if_neg (not_lt.mpr h.le)]

theorem pt_eq {v : Vec4} (h : 0 < v.t) : (pxPyPzE v).pt = tra v := by
  show sgn v.t * √(v.x * v.x + v.y * v.y) = _
  rw [sgn_one h, one_mul, tra, pow_two, pow_two]

theorem p_eq {v : Vec4} (h : 0 < v.t) : (pxPyPzE v).p = len v := by
  show sgn v.t * √(v.x * v.x + v.y * v.y + v.z * v.z) = _
  rw [sgn_one h, one_mul, len, pow_two, pow_two, pow_two]

theorem len_pos {v : Vec4} (h : Phys v) : 0 < len v := sqrt_pos.mpr (by nlinarith [h.2.1, sq_nonneg v.z])

theorem tra_pos {v : Vec4} (h : Phys v) : 0 < tra v := sqrt_pos.mpr h.2.1

theorem withEnergy_along (c : Cand R) (h : Phys c.mom) (e : ℝ) :
    Along (e / len c.mom) e c.mom (withEnergy c e).mom ∧ Made c (withEnergy c e) := by
  have hc := canon_px h.2.1 h.2.2.1 h.2.2.2
  have hp := hc.p
  rw [p_eq h.1] at hp
  have h1 : c.mom.x = (pxPyPzE c.mom).pt * cos (pxPyPzE c.mom).phi := hc.px
  have h2 : c.mom.y = (pxPyPzE c.mom).pt * sin (pxPyPzE c.mom).phi := hc.py
  have h3 : c.mom.z = (pxPyPzE c.mom).pt * sinh (pxPyPzE c.mom).eta := hc.pz
  have hn := hc.pt_ne
  have hch := (cosh_pos (pxPyPzE c.mom).eta).ne'
  have key : ∀ a b : ℝ, a = (pxPyPzE c.mom).pt * b → e / cosh (pxPyPzE c.mom).eta * b = e / len c.mom * a := by
    intro a b hab
    rw [hp, hab]
    generalize (pxPyPzE c.mom).pt = q at hn
    generalize cosh (pxPyPzE c.mom).eta = k at hch
    field_simp
  exact ⟨⟨key _ _ h1, key _ _ h2, key _ _ h3, rfl⟩, rfl, rfl, rfl⟩

theorem withPt_along (c : Cand R) (h : Phys c.mom) (pt : ℝ) :
    Along (pt / tra c.mom) (pt / tra c.mom * len c.mom) c.mom (withPt c pt).mom ∧ Made c (withPt c pt) := by
  have hc := canon_px h.2.1 h.2.2.1 h.2.2.2
  have hp := hc.p
  rw [p_eq h.1] at hp
  have hn := hc.pt_ne
  have h1 : c.mom.x = (pxPyPzE c.mom).pt * cos (pxPyPzE c.mom).phi := hc.px
  have h2 : c.mom.y = (pxPyPzE c.mom).pt * sin (pxPyPzE c.mom).phi := hc.py
  have h3 : c.mom.z = (pxPyPzE c.mom).pt * sinh (pxPyPzE c.mom).eta := hc.pz
  have key : ∀ a b : ℝ, a = (pxPyPzE c.mom).pt * b → pt * b = pt / tra c.mom * a := by
    intro a b hab
    rw [← pt_eq h.1, hab]
    generalize (pxPyPzE c.mom).pt = q at hn
    field_simp
  exact ⟨⟨key _ _ h1, key _ _ h2, key _ _ h3, key _ _ hp⟩, rfl, rfl, rfl⟩

/-- **C177** (scale): every candidate is kept, in order; its momentum and energy are multiplied by the scale for its transverse
momentum and pseudo-rapidity if that is positive, and nothing else changes. -/
theorem C177_scale (f : ℝ → ℝ → ℝ) (input : List (Cand R)) :
    List.Forall₂ (fun c c' : Cand R => c'.rest = c.rest ∧ c'.pos = c.pos ∧ c'.subs = c.subs ∧
      ∃ k, k = f (pxPyPzE c.mom).pt (pxPyPzE c.mom).eta ∧
        (0 < k → Along k (k * c.mom.t) c.mom c'.mom) ∧ (k ≤ 0 → c'.mom = c.mom)) input (energyScale f input) := by
  unfold energyScale
  rw [List.forall₂_map_right_iff]
  refine List.forall₂_same.mpr fun c _ => ?_
  cases c with
  | mk r m p s =>
    unfold scaleOne
    split
    · rename_i h
      exact ⟨rfl, rfl, rfl, _, rfl, fun _ => ⟨rfl, rfl, rfl, rfl⟩, fun h' => absurd h (not_lt.mpr h')⟩
    · rename_i h
      exact ⟨rfl, rfl, rfl, _, rfl, fun h' => absurd h' h, fun _ => rfl⟩

/-- **C177** (energy): the candidates whose drawn energy is positive are kept, in order; each has that energy, and a momentum of
that length in the direction it had. The width of the draw is the resolution at the place where the candidate is. Missing:
particles along the beam, whose pseudo-rapidity is infinite. -/
theorem C177_energy_partial (smear : ℝ → ℝ → ℝ) (rnd : Nat → ℝ → ℝ → ℝ) (i : Nat) (input : List (Cand R))
    (h : ∀ c ∈ input, Phys c.mom) :
    List.Forall₂ (fun (p : Cand R × Nat) (c' : Cand R) =>
        ∃ e, e = rnd p.2 p.1.mom.t (smear (pxPyPzE p.1.pos).eta p.1.mom.t) ∧
          Along (e / len p.1.mom) e p.1.mom c'.mom ∧ Made p.1 c')
      ((input.zipIdx i).filter fun p => decide (0 < rnd p.2 p.1.mom.t (smear (pxPyPzE p.1.pos).eta p.1.mom.t)))
      (energySmearing smear rnd i input) := by
  induction input generalizing i with
  | nil => exact .nil
  | cons c cs ih =>
    have ih' := ih (i + 1) fun d hd => h d (List.mem_cons_of_mem _ hd)
    rw [List.zipIdx_cons, energySmearing, e_eq]
    split
    · rename_i hn
      rw [List.filter_cons_of_neg (by simpa using hn)]
      exact ih'
    · rename_i hn
      rw [List.filter_cons_of_pos (by simpa using hn)]
      exact .cons ⟨_, rfl, withEnergy_along c (h c List.mem_cons_self) _⟩ ih'

/-- **C177** (momentum): the same for the transverse momentum, with a relative resolution; the energy becomes the length of the
new momentum. Missing: particles along the beam. -/
theorem C177_momentum_partial (smear : ℝ → ℝ → ℝ) (rnd : Nat → ℝ → ℝ → ℝ) (i : Nat) (input : List (Cand R))
    (h : ∀ c ∈ input, Phys c.mom) :
    List.Forall₂ (fun (p : Cand R × Nat) (c' : Cand R) =>
        ∃ q, q = rnd p.2 (tra p.1.mom) (smear (tra p.1.mom) (pxPyPzE p.1.pos).eta * tra p.1.mom) ∧
          Along (q / tra p.1.mom) (q / tra p.1.mom * len p.1.mom) p.1.mom c'.mom ∧ Made p.1 c')
      ((input.zipIdx i).filter fun p =>
        decide (0 < rnd p.2 (tra p.1.mom) (smear (tra p.1.mom) (pxPyPzE p.1.pos).eta * tra p.1.mom)))
      (momentumSmearing smear rnd i input) := by
  induction input generalizing i with
  | nil => exact .nil
  | cons c cs ih =>
    have ih' := ih (i + 1) fun d hd => h d (List.mem_cons_of_mem _ hd)
    have hc := h c List.mem_cons_self
    rw [List.zipIdx_cons, momentumSmearing, pt_eq hc.1]
    split
    · rename_i hn
      rw [List.filter_cons_of_neg (by simpa using hn)]
      exact ih'
    · rename_i hn
      rw [List.filter_cons_of_pos (by simpa using hn)]
      exact .cons ⟨_, rfl, withPt_along c hc _⟩ ih'

/-- **C177** (massless): what either of them gives has no mass. -/
theorem C177_massless_partial (smear : ℝ → ℝ → ℝ) (rnd : Nat → ℝ → ℝ → ℝ) (i : Nat) (input : List (Cand R))
    (h : ∀ c ∈ input, Phys c.mom) (c' : Cand R)
    (hc' : c' ∈ energySmearing smear rnd i input ∨ c' ∈ momentumSmearing smear rnd i input) :
    c'.mom.x ^ 2 + c'.mom.y ^ 2 + c'.mom.z ^ 2 = c'.mom.t ^ 2 := by
  have hmem : ∀ {P : Cand R × Nat → Cand R → Prop} {l : List (Cand R × Nat)} {m : List (Cand R)},
      List.Forall₂ P l m → c' ∈ m → ∃ p ∈ l, P p c' := by
    intro P l m hf
    induction hf with
    | nil => intro h; cases h
    | cons hp _ ih =>
      intro hm
      rcases List.mem_cons.mp hm with rfl | hm
      · exact ⟨_, List.mem_cons_self, hp⟩
      · obtain ⟨p, hp, hP⟩ := ih hm
        exact ⟨p, List.mem_cons_of_mem _ hp, hP⟩
  have hin : ∀ p : Cand R × Nat, p ∈ input.zipIdx i → Phys p.1.mom := by
    rintro ⟨c, n⟩ hp
    obtain ⟨_, _, hg⟩ := List.mem_zipIdx hp
    exact h c (hg ▸ List.getElem_mem _)
  have hlen : ∀ v : Vec4, Phys v → len v ^ 2 = v.x ^ 2 + v.y ^ 2 + v.z ^ 2 := fun v hv =>
    sq_sqrt (by nlinarith [hv.2.1, sq_nonneg v.z])
  rcases hc' with hc' | hc'
  · obtain ⟨p, hp, e, -, ⟨h1, h2, h3, h4⟩, -⟩ := hmem (C177_energy_partial smear rnd i input h) hc'
    have hph := hin p (List.mem_of_mem_filter hp)
    have hl := hlen _ hph
    have hl0 := (len_pos hph).ne'
    rw [h1, h2, h3, h4]
    have : (e / len p.1.mom) * len p.1.mom = e := div_mul_cancel₀ _ hl0
    calc _ = (e / len p.1.mom) ^ 2 * (p.1.mom.x ^ 2 + p.1.mom.y ^ 2 + p.1.mom.z ^ 2) := by ring
      _ = ((e / len p.1.mom) * len p.1.mom) ^ 2 := by rw [← hl]; ring
      _ = _ := by rw [this]
  · obtain ⟨p, hp, e, -, ⟨h1, h2, h3, h4⟩, -⟩ := hmem (C177_momentum_partial smear rnd i input h) hc'
    have hl := hlen _ (hin p (List.mem_of_mem_filter hp))
    rw [h1, h2, h3, h4, mul_pow (e / tra p.1.mom) (len p.1.mom), hl]
    ring

/-! ## Counterexamples -/

/-- A heavy particle: momentum (3, 4, 0), energy 13. -/
def heavy : Cand Unit := .mk () ⟨3, 4, 0, 13⟩ ⟨1, 0, 0, 1⟩ []

theorem heavy_phys : Phys heavy.mom := by
  refine ⟨by norm_num [heavy, Cand.mom], by norm_num [heavy, Cand.mom], by norm_num [heavy, Cand.mom], ?_⟩
  have : (pxPyPzE heavy.mom).eta = 0 := by
    norm_num [heavy, Cand.mom, pxPyPzE]
  rw [this]
  norm_num

theorem heavy_len : len heavy.mom = 5 := by
  rw [len, show (heavy.mom.x ^ 2 + heavy.mom.y ^ 2 + heavy.mom.z ^ 2 : ℝ) = 5 ^ 2 by norm_num [heavy, Cand.mom]]
  exact sqrt_sq (by norm_num)

theorem heavy_tra : tra heavy.mom = 5 := by
  rw [tra, show (heavy.mom.x ^ 2 + heavy.mom.y ^ 2 : ℝ) = 5 ^ 2 by norm_num [heavy, Cand.mom]]
  exact sqrt_sq (by norm_num)

/-- A perfect resolution, and the energy drawn is the energy: the momentum of a heavy particle becomes another. -/
theorem C177_perfect_energy_counterexample : ∃ c' : Cand Unit,
    energySmearing (fun _ _ => 0) (fun _ mu _ => mu) 0 [heavy] = [c'] ∧ c'.mom.t = heavy.mom.t ∧ c'.mom.x ≠ heavy.mom.x := by
  obtain ⟨⟨h1, -, -, h4⟩, -⟩ := withEnergy_along heavy heavy_phys 13
  refine ⟨withEnergy heavy 13, ?_, h4, ?_⟩
  · rw [energySmearing, energySmearing, if_neg]
    · rfl
    · norm_num [e_eq, heavy, Cand.mom]
  · rw [h1, heavy_len]
    norm_num [heavy, Cand.mom]

/-- The same for the momentum: the energy becomes another. -/
theorem C177_perfect_momentum_counterexample : ∃ c' : Cand Unit,
    momentumSmearing (fun _ _ => 0) (fun _ mu _ => mu) 0 [heavy] = [c'] ∧ c'.mom.x = heavy.mom.x ∧ c'.mom.t ≠ heavy.mom.t := by
  obtain ⟨⟨h1, -, -, h4⟩, -⟩ := withPt_along heavy heavy_phys 5
  rw [heavy_tra] at h1 h4
  rw [heavy_len] at h4
  refine ⟨withPt heavy 5, ?_, by rw [h1]; norm_num, ?_⟩
  · rw [momentumSmearing, momentumSmearing, pt_eq heavy_phys.1, heavy_tra, if_neg (by norm_num)]
  · rw [h4]
    norm_num [heavy, Cand.mom]

/-- The output cannot be written: the task gives no error. -/
theorem C177_put_counterexample : ∃ put : Option String, put ≠ none ∧ taskErr none put = none := ⟨some "put", by decide, rfl⟩

/-! ## Examples -/

/-- Twice the energy. -/
example : ∃ c' : Cand Unit, energySmearing (fun _ e => e) (fun _ mu sigma => mu + sigma) 0 [heavy] = [c'] ∧ c'.mom.t = 26 := by
  have h := C177_energy_partial (fun _ e => e) (fun _ mu sigma => mu + sigma) 0 [heavy] (by simpa using heavy_phys)
  rw [List.zipIdx_cons, List.filter_cons_of_pos (by norm_num [heavy, Cand.mom])] at h
  generalize energySmearing (fun _ e => e) (fun _ mu sigma => mu + sigma) 0 [heavy] = out at h ⊢
  cases h with
  | cons h1 h2 =>
    cases h2
    obtain ⟨e, he, ⟨-, -, -, ht⟩, -⟩ := h1
    refine ⟨_, rfl, ?_⟩
    rw [ht, he]
    norm_num [heavy, Cand.mom]

example : (energyScale (fun _ _ => 2) [heavy]).map (fun c => c.mom.t) = [2 * 13] := by
  rw [energyScale, List.map_cons, List.map_nil, scaleOne, if_pos (by norm_num)]
  rfl

end Verif.Fads.Smear
