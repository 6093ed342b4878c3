import Verif.Fads.JetCand
import Mathlib.Algebra.BigOperators.Group.List.Basic
import Mathlib.Algebra.Order.Ring.Rat
import Mathlib.Tactic.NormNum

/-!
# Jets become candidates (C180)
-/

namespace Verif.Fads.JetCand

variable {K V : Type} [Field K] [LinearOrder K]

/-! ## Specification -/

/-- `w` is the largest of the distances and 0. -/
def Width (ds : List K) (w : K) : Prop := 0 ≤ w ∧ (∀ d ∈ ds, d ≤ w) ∧ (w = 0 ∨ w ∈ ds)

/-- The mean time of the constituents, weighted by the square roots of their energies. -/
def meanTime (cs : List (Part K V)) : K := (cs.map fun c => c.esqrt * c.time).sum / (cs.map (·.esqrt)).sum

/-- The candidate of a jet, but for the widths. -/
def CandOf (input : List (Part K V)) (j : Jet V) (c : Cand K V) : Prop :=
  c.mom = j.mom ∧ c.time = meanTime c.subs ∧ ∃ is, j.csts = some is ∧ is.map (fun i => input[i]?) = c.subs.map some

/-- All that was clustered are the indices of the input. -/
def Clustered (input : List (Part K V)) (js : List (Jet V)) : Prop :=
  ∀ j ∈ js, ∀ is, j.csts = some is → ∀ i ∈ is, i < input.length

/-! ## Proofs -/

omit [Field K] in
theorem larger_eq (m d : K) : larger m d = max m d := by
  unfold larger
  split
  · rename_i h; exact (max_eq_right h.le).symm
  · rename_i h; exact (max_eq_left (not_lt.mp h)).symm

omit [Field K] [LinearOrder K] in
theorem pick_some (input : List (Part K V)) (is : List Nat) (h : ∀ i ∈ is, i < input.length) :
    ∃ cs, pick input is = some cs ∧ is.map (fun i => input[i]?) = cs.map some := by
  induction is with
  | nil => exact ⟨[], rfl, rfl⟩
  | cons i is ih =>
    obtain ⟨cs, h1, h2⟩ := ih fun k hk => h k (List.mem_cons_of_mem _ hk)
    have hi := h i List.mem_cons_self
    refine ⟨input[i] :: cs, ?_, ?_⟩
    · rw [pick, List.getElem?_eq_getElem hi, Option.bind_some, h1]
      rfl
    · rw [List.map_cons, List.map_cons, h2, List.getElem?_eq_getElem hi]

theorem sums_eq (deta dphi : V → V → K) (jet : V) (cs : List (Part K V)) (s : Sums K) :
    (cs.foldl (cstStep deta dphi jet) s).time = s.time + (cs.map fun c => c.esqrt * c.time).sum ∧
      (cs.foldl (cstStep deta dphi jet) s).wtime = s.wtime + (cs.map (·.esqrt)).sum := by
  induction cs generalizing s with
  | nil => simp
  | cons c cs ih =>
    rw [List.foldl_cons, (ih _).1, (ih _).2, List.map_cons, List.map_cons, List.sum_cons, List.sum_cons]
    exact ⟨add_assoc _ _ _, add_assoc _ _ _⟩

theorem width_step {ds : List K} {w d : K} (h : Width ds w) : Width (ds ++ [d]) (larger w d) := by
  obtain ⟨h0, h1, h2⟩ := h
  rw [larger_eq]
  refine ⟨h0.trans (le_max_left _ _), ?_, ?_⟩
  · intro e he
    rcases List.mem_append.mp he with he | he
    · exact (h1 e he).trans (le_max_left _ _)
    · rw [List.mem_singleton.mp he]; exact le_max_right _ _
  · rcases max_choice w d with h | h <;> rw [h]
    · rcases h2 with h2 | h2
      · exact .inl h2
      · exact .inr (List.mem_append_left _ h2)
    · exact .inr (List.mem_append_right _ List.mem_cons_self)

theorem widths_eq (deta dphi : V → V → K) (jet : V) (cs : List (Part K V)) (s : Sums K) (d1 d2 : List K) (h1 : Width d1 s.deta)
    (h2 : Width d2 s.dphi) :
    Width (d1 ++ cs.map fun c => deta jet c.mom) (cs.foldl (cstStep deta dphi jet) s).deta ∧
      Width (d2 ++ cs.map fun c => dphi jet c.mom) (cs.foldl (cstStep deta dphi jet) s).dphi := by
  induction cs generalizing s d1 d2 with
  | nil => simpa using ⟨h1, h2⟩
  | cons c cs ih =>
    have := ih (cstStep deta dphi jet s c) (d1 ++ [deta jet c.mom]) (d2 ++ [dphi jet c.mom]) (width_step h1) (width_step h2)
    rw [List.foldl_cons]
    simpa using this

/-- The distances of the constituents of candidates from their jets. -/
def distances (f : V → V → K) (cs : List (Cand K V)) : List K := cs.flatMap fun c => c.subs.map fun p => f c.mom p.mom

theorem loop_spec (deta dphi : V → V → K) (input : List (Part K V)) (js : List (Jet V)) (hc : Clustered input js) (de dp : K)
    (d1 d2 : List K) (h1 : Width d1 de) (h2 : Width d2 dp) :
    ∃ out err, loop deta dphi input de dp js = some (out, err) ∧
      List.Forall₂ (CandOf input) (js.takeWhile fun j => j.csts.isSome) out ∧ (err = true ↔ ∃ j ∈ js, j.csts = none) ∧
      ∀ pre c post, out = pre ++ c :: post → Width (d1 ++ distances deta (pre ++ [c])) c.deta ∧
        Width (d2 ++ distances dphi (pre ++ [c])) c.dphi := by
  induction js generalizing de dp d1 d2 with
  | nil => exact ⟨[], false, rfl, .nil, by simp, fun pre c post h => by simp at h⟩
  | cons j js ih =>
    cases hj : j.csts with
    | none =>
      refine ⟨[], true, by rw [loop, hj], ?_, ?_, fun pre c post h => by simp at h⟩
      · rw [List.takeWhile_cons, hj]
        exact .nil
      · exact iff_of_true rfl ⟨j, List.mem_cons_self, hj⟩
    | some is =>
      obtain ⟨cs, hp, hpm⟩ := pick_some input is (hc j List.mem_cons_self is hj)
      have hs := sums_eq deta dphi j.mom cs ⟨de, dp, 0, 0⟩
      have hw := widths_eq deta dphi j.mom cs ⟨de, dp, 0, 0⟩ d1 d2 h1 h2
      generalize hS : cs.foldl (cstStep deta dphi j.mom) ⟨de, dp, 0, 0⟩ = s at hs hw
      obtain ⟨out, err, hl, hf, he, hwid⟩ := ih (fun k hk => hc k (List.mem_cons_of_mem _ hk)) s.deta s.dphi _ _ hw.1 hw.2
      refine ⟨⟨j.mom, cs, s.time / s.wtime, s.deta, s.dphi⟩ :: out, err, ?_, ?_, ?_, ?_⟩
      · rw [loop, hj]
        simp only [hp, Option.bind_some, hS, hl, Option.map_some]
      · rw [List.takeWhile_cons, if_pos (by rw [hj]; rfl)]
        refine .cons ⟨rfl, ?_, is, hj, hpm⟩ hf
        show s.time / s.wtime = _
        rw [hs.1, hs.2, zero_add, zero_add]
        rfl
      · rw [he]
        constructor
        · rintro ⟨k, hk, hn⟩
          exact ⟨k, List.mem_cons_of_mem _ hk, hn⟩
        · rintro ⟨k, hk, hn⟩
          rcases List.mem_cons.mp hk with rfl | hk
          · rw [hj] at hn; cases hn
          · exact ⟨k, hk, hn⟩
      · intro pre c post h
        cases pre with
        | nil =>
          rw [List.nil_append] at h
          injection h with h _
          subst h
          simpa [distances] using hw
        | cons b pre =>
          rw [List.cons_append] at h
          injection h with hb h
          have := hwid pre c post h
          subst hb
          simpa [distances] using this

/-- **C180** (candidates): every jet, in order, becomes a candidate of its momentum, with its constituents in their order and their
mean time. If the constituents of a jet cannot be found there is an error, and the candidates of the jets before are
stored. -/
theorem C180_candidates (deta dphi : V → V → K) (input : List (Part K V)) (js : List (Jet V)) (hc : Clustered input js) :
    ∃ out err, process deta dphi input js = some (out, err) ∧
      List.Forall₂ (CandOf input) (js.takeWhile fun j => j.csts.isSome) out ∧ (err = true ↔ ∃ j ∈ js, j.csts = none) := by
  have hz : Width ([] : List K) 0 := ⟨le_refl _, by simp, .inl rfl⟩
  obtain ⟨out, err, h1, h2, h3, -⟩ := loop_spec deta dphi input js hc 0 0 [] [] hz hz
  exact ⟨out, err, h1, h2, h3⟩

/-- **C180** (widths): the widths of a candidate are the largest distances of constituents from their jets, over this jet *and all
before it*. Missing: that they are those of this jet alone. -/
theorem C180_widths_partial (deta dphi : V → V → K) (input : List (Part K V)) (js : List (Jet V)) (hc : Clustered input js)
    (pre : List (Cand K V)) (c : Cand K V) (post : List (Cand K V)) (err : Bool)
    (h : process deta dphi input js = some (pre ++ c :: post, err)) :
    Width (distances deta (pre ++ [c])) c.deta ∧ Width (distances dphi (pre ++ [c])) c.dphi := by
  have hz : Width ([] : List K) 0 := ⟨le_refl _, by simp, .inl rfl⟩
  obtain ⟨out, err', h1, -, -, h4⟩ := loop_spec deta dphi input js hc 0 0 [] [] hz hz
  unfold process at h
  rw [h1] at h
  injection h with h
  injection h with h _
  simpa using h4 pre c post h

/-- **C180** (first): the widths of the first candidate are its own. -/
theorem C180_first (deta dphi : V → V → K) (input : List (Part K V)) (js : List (Jet V)) (hc : Clustered input js)
    (c : Cand K V) (post : List (Cand K V)) (err : Bool) (h : process deta dphi input js = some (c :: post, err)) :
    Width (c.subs.map fun p => deta c.mom p.mom) c.deta ∧ Width (c.subs.map fun p => dphi c.mom p.mom) c.dphi := by
  simpa [distances] using C180_widths_partial deta dphi input js hc [] c post err h

/-! ## Counterexample and example -/

/-- The distance of numbers. -/
def exD (a b : ℚ) : ℚ := if a < b then b - a else a - b

/-- A wide jet, then one of a single particle at its axis: the second has the width of the first. -/
theorem C180_widths_counterexample : ∃ (c1 c2 : Cand ℚ ℚ),
    process exD exD [⟨1, 1, 3⟩, ⟨5, 1, 5⟩, ⟨9, 1, 7⟩] [⟨3, some [0, 1]⟩, ⟨9, some [2]⟩] = some ([c1, c2], false) ∧
      c2.subs.map (fun p => exD c2.mom p.mom) = [0] ∧ c2.deta = 2 :=
  ⟨_, _, rfl, by decide +kernel, by decide +kernel⟩

example : (process exD exD [⟨1, 1, 3⟩, ⟨5, 3, 5⟩] [⟨4, some [0, 1]⟩]).map (fun r => r.1.map fun c => (c.deta, c.time)) =
    some [(3, 9 / 2)] := by decide +kernel

example : Clustered (K := ℚ) (V := ℚ) [⟨1, 1, 3⟩, ⟨5, 3, 5⟩] [⟨4, some [0, 1]⟩] := by
  intro j hj is his i hi
  rw [List.mem_singleton.mp hj] at his
  injection his with his
  subst his
  simp at hi
  rcases hi with rfl | rfl <;> simp

end Verif.Fads.JetCand
