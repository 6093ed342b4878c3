import Verif.FastJet.Lemmas
import Mathlib.Order.Defs.LinearOrder
import Mathlib.Algebra.BigOperators.Group.List.Basic

/-!
# Inclusive and exclusive jets (C53, C54), momenta of jets (C78), closest first (C79)

All theorems are about any number of particles, any type of jets, any distances, comparisons
(so with NaN), and any recombination, unless they say otherwise.
-/

namespace Verif.FastJet

variable {J F : Type}

/-! ## Constituents -/

theorem Good.lt {cs : CS J F} {a : Nat} (g : Good cs a) : a < cs.hist.length := by
  obtain ⟨x, hx, e⟩ := g
  simp only [CS.jetOf, at?] at hx
  simp only [Int.natCast_nonneg, if_pos, Int.toNat_natCast] at hx
  cases hh : cs.hist[a]? with
  | none => rw [hh] at hx; simp at hx
  | some h => exact getElem?_lt hh

theorem cons_spec {n : Nat} {cs : CS J F} {act : List Nat} {G : List (List Nat)}
    (I : Inv n cs act G) : ∀ (fuel : Nat) (x : J × Nat), x.2 < cs.hist.length → x.2 < fuel →
    ∃ l, addConstituents cs fuel x = some l ∧ l.map (·.2) = lv G x.2 ∧ l ≠ [] ∧
      ∀ y ∈ l, cs.jets[y.2]? = some y ∧ y.2 < n
  | 0, x, _, hf => absurd hf (Nat.not_lt_zero _)
  | fuel + 1, x, hl, hf => by
    have hh := List.getElem?_eq_getElem hl
    simp only [addConstituents]
    rw [hh]
    dsimp only
    by_cases hn : x.2 < n
    · obtain ⟨h, z, h1, h2, _, _, h5, h6, h7⟩ := I.leaf x.2 hn
      rw [hh] at h1
      simp only [Option.some.injEq] at h1
      rw [h1, if_pos h2, h5]
      refine ⟨[z], rfl, by simp [lv, h7, h6], by simp, ?_⟩
      intro y hy
      simp at hy
      subst hy
      rw [h6]
      exact ⟨h5, hn⟩
    · have jet : ∀ a, Good cs a → a < x.2 → ∃ z, cs.jetOf (a : Int) = some z ∧ z.2 = a ∧
          ∃ l, addConstituents cs fuel z = some l ∧ l.map (·.2) = lv G a ∧ l ≠ [] ∧
            ∀ y ∈ l, cs.jets[y.2]? = some y ∧ y.2 < n := by
        intro a ⟨z, hz, e⟩ ha
        refine ⟨z, hz, e, ?_⟩
        rw [← e]
        exact cons_spec I fuel z (by omega) (by omega)
      rcases I.node x.2 _ (by omega) hh with ⟨a, ha, p1, p2, g, ge⟩ |
        ⟨a, b, hab, hb, p1, p2, g1, g2, _, ge⟩
      · obtain ⟨z, hz, _, l, hl1, hl2, hl3, hl4⟩ := jet a g ha
        rw [p1, if_neg (show ¬ ((a : Int) = inexistentParent) by simp only [inexistentParent]; omega), hz]
        dsimp only
        rw [hl1, p2]
        dsimp only
        rw [if_pos rfl]
        exact ⟨l, rfl, by rw [hl2]; simp [lv, ge], hl3, hl4⟩
      · obtain ⟨z, hz, _, l, hl1, hl2, hl3, hl4⟩ := jet a g1 (by omega)
        obtain ⟨z', hz', _, l', hl1', hl2', hl3', hl4'⟩ := jet b g2 hb
        rw [p1, if_neg (show ¬ ((a : Int) = inexistentParent) by simp only [inexistentParent]; omega), hz]
        dsimp only
        rw [hl1, p2]
        dsimp only
        rw [if_neg (show ¬ ((b : Int) = beamJetIndex) by simp only [beamJetIndex]; omega), hz']
        dsimp only
        rw [hl1']
        refine ⟨l ++ l', rfl, by simp [hl2, hl2', lv, ge], by simp [hl3], ?_⟩
        intro y hy
        rcases List.mem_append.1 hy with h | h
        · exact hl4 y h
        · exact hl4' y h

theorem constituents_spec {n : Nat} {cs : CS J F} {act : List Nat} {G : List (List Nat)}
    (I : Inv n cs act G) (x : J × Nat) (hx : x.2 < cs.hist.length) :
    ∃ l, cs.constituents x = some l ∧ l.map (·.2) = lv G x.2 ∧ l ≠ [] ∧
      ∀ y ∈ l, cs.jets[y.2]? = some y ∧ y.2 < n :=
  cons_spec I _ x hx (by omega)

/-- Jets of some history elements, and their constituents. -/
theorem many_constituents {n : Nat} {cs : CS J F} {act : List Nat} {G : List (List Nat)}
    (I : Inv n cs act G) : ∀ (xs : List (J × Nat)), (∀ x ∈ xs, x.2 < cs.hist.length) →
    ∃ cl, xs.mapM cs.constituents = some cl ∧
      cl.flatten.map (·.2) = xs.flatMap (fun x => lv G x.2) ∧ (∀ c ∈ cl, c ≠ []) ∧
      ∀ y ∈ cl.flatten, cs.jets[y.2]? = some y ∧ y.2 < n
  | [], _ => ⟨[], by simp, by simp, by simp, by simp⟩
  | x :: xs, h => by
    obtain ⟨l, h1, h2, h3, h4⟩ := constituents_spec I x (h x (by simp))
    obtain ⟨cl, k1, k2, k3, k4⟩ := many_constituents I xs (fun y hy => h y (by simp [hy]))
    refine ⟨l :: cl, by simp [h1, k1], ?_, ?_, ?_⟩
    · simp only [List.flatten_cons, List.map_append, List.flatMap_cons, h2, k2]
    · intro c hc
      rcases List.mem_cons.1 hc with e | e
      · rw [e]; exact h3
      · exact k3 c e
    · intro y hy
      rw [List.flatten_cons] at hy
      rcases List.mem_append.1 hy with e | e
      · exact h4 y e
      · exact k4 y e

theorem eq_filterMap {jets : List (J × Nat)} : ∀ (l : List (J × Nat)),
    (∀ y ∈ l, jets[y.2]? = some y) → l = (l.map (·.2)).filterMap (fun i => jets[i]?)
  | [], _ => rfl
  | y :: l, h => by
    have := eq_filterMap l (fun z hz => h z (by simp [hz]))
    simp only [List.map_cons]
    rw [List.filterMap_cons_some (h y (by simp))]
    rw [← this]

theorem range_filterMap {α : Type} : ∀ (n : Nat) (l : List α), n ≤ l.length →
    (List.range n).filterMap (fun i => l[i]?) = l.take n
  | 0, l, _ => by simp
  | n + 1, l, h => by
    rw [List.range_succ, List.filterMap_append, range_filterMap n l (by omega),
      List.take_add_one]
    simp [List.getElem?_eq_getElem (show n < l.length by omega)]

/-- The particles of the event as the clustering shows them: their values after preprocessing,
numbered. -/
def particles (A : Alg J F) (js : List J) : List (J × Nat) :=
  ((js.mapM A.preprocess).getD []).zipIdx

theorem leaves_perm {n : Nat} {cs : CS J F} {ps : List J} {js : List (J × Nat)} (hps : ps.length = n)
    (hj : cs.jets = ps.zipIdx ++ js) (l : List (J × Nat))
    (hl : ∀ y ∈ l, cs.jets[y.2]? = some y) (hp : (l.map (·.2)).Perm (List.range n)) :
    l.Perm ps.zipIdx := by
  rw [eq_filterMap l hl]
  refine (hp.filterMap _).trans ?_
  rw [hj, range_filterMap n _ (by simp [hps]), List.take_left' (by simp [hps])]

/-! ## Inclusive jets -/

/-- The jets combined with the beam, in the order of a part of the history. -/
def beamJets (cs : CS J F) (hs : List (Hist F)) : List (J × Nat) :=
  hs.filterMap fun h => if h.parent2 = beamJetIndex then cs.jetOf h.parent1 else none

theorem inclusive_other (A : Alg J F) (cs : CS J F) (dcut : F) : ∀ (hs : List (Hist F)),
    (∀ h ∈ hs, h.parent2 = beamJetIndex → ∃ x, cs.jetOf h.parent1 = some x) →
    inclusiveLoop A cs dcut .other hs =
      some ((beamJets cs hs).filter (fun j => A.ge (A.pt2 j.1) dcut))
  | [], _ => by simp [inclusiveLoop, beamJets]
  | h :: hs, hh => by
    have ih := inclusive_other A cs dcut hs (fun x hx => hh x (by simp [hx]))
    simp only [inclusiveLoop, ne_eq, ite_not]
    by_cases hb : h.parent2 = beamJetIndex
    · obtain ⟨x, hx⟩ := hh h (by simp) hb
      rw [if_pos hb, hx]
      dsimp only
      rw [ih]
      simp only [beamJets, List.filterMap_cons, if_pos hb, hx, List.filter_cons, Option.map_some]
      split <;> rfl
    · rw [if_neg hb, ih]
      simp only [beamJets, List.filterMap_cons, if_neg hb]

theorem Inv.beam_parent {n : Nat} {cs : CS J F} {act : List Nat} {G : List (List Nat)}
    (I : Inv n cs act G) (i : Nat) (h : Hist F) (hi : cs.hist[i]? = some h)
    (hb : h.parent2 = beamJetIndex) :
    ∃ x, cs.jetOf h.parent1 = some x ∧ x.2 < cs.hist.length ∧ G[i]? = some (lv G x.2) := by
  by_cases hn : i < n
  · obtain ⟨h', x, h1, _, h3, _⟩ := I.leaf i hn
    rw [hi] at h1
    simp only [Option.some.injEq] at h1
    subst h1
    rw [hb] at h3
    simp [beamJetIndex, inexistentParent] at h3
  · rcases I.node i h (by omega) hi with ⟨a, ha, p1, p2, ⟨x, hx, e⟩, ge⟩ |
      ⟨a, b, hab, hb', p1, p2, _⟩
    · have := getElem?_lt hi
      exact ⟨x, by rw [p1]; exact hx, by omega, by rw [e]; exact ge⟩
    · rw [hb] at p2; simp only [beamJetIndex] at p2; omega

theorem beamLeaves_eq {n : Nat} {cs : CS J F} {act : List Nat} {G : List (List Nat)}
    (I : Inv n cs act G) : beamLeaves cs.hist G = (beamJets cs cs.hist).flatMap (fun x => lv G x.2) := by
  have key : ∀ (hs : List (Hist F)) (gs : List (List Nat)), hs.length = gs.length →
      (∀ (i : Nat) h, hs[i]? = some h → h.parent2 = beamJetIndex →
        ∃ x, cs.jetOf h.parent1 = some x ∧ gs[i]? = some (lv G x.2)) →
      beamLeaves hs gs = (beamJets cs hs).flatMap (fun x => lv G x.2) := by
    intro hs
    induction hs with
    | nil => intro gs _ _; simp [beamLeaves, beamJets]
    | cons h hs ih =>
      intro gs hl hh
      cases gs with
      | nil => simp at hl
      | cons g gs =>
        have := ih gs (by simpa using hl) (fun i h' hi hb => by
          have := hh (i + 1) h' (by simpa using hi) hb
          simpa using this)
        simp only [beamLeaves, List.zip_cons_cons, List.flatMap_cons] at this ⊢
        rw [this]
        by_cases hb : h.parent2 = beamJetIndex
        · obtain ⟨x, hx, hg⟩ := hh 0 h (by simp) hb
          simp at hg
          simp only [beamJets, List.filterMap_cons, if_pos hb, hx, List.flatMap_cons, hg]
        · simp only [beamJets, List.filterMap_cons, if_neg hb, List.nil_append]
  apply key _ _ I.len.symm
  intro i h hi hb
  obtain ⟨x, h1, _, h3⟩ := I.beam_parent i h hi hb
  exact ⟨x, h1, h3⟩

/-- The clustering at its end: the history, the particles, the jets combined with the beam. -/
theorem final_spec (A : Alg J F) (js : List J) (cs : CS J F)
    (h : newClusterSequence A js = some cs) :
    ∃ cl, (beamJets cs cs.hist.reverse).mapM cs.constituents = some cl ∧
      cl.flatten.Perm (particles A js) ∧ (∀ c ∈ cl, c ≠ []) ∧
      ∀ h ∈ cs.hist.reverse, h.parent2 = beamJetIndex → ∃ x, cs.jetOf h.parent1 = some x := by
  obtain ⟨ps, cs0, G0, h1, h2, h3, _, I0, hl⟩ := new_spec A js cs h
  obtain ⟨G', I⟩ := I0.loop A hl
  obtain ⟨js', hs', e, _⟩ := loop_prefix A _ _ _ _ _ _ _ I0 hl
  have hbj : ∀ x ∈ beamJets cs cs.hist.reverse, x.2 < cs.hist.length := by
    intro x hx
    simp only [beamJets, List.mem_filterMap] at hx
    obtain ⟨h', hh', hx'⟩ := hx
    split at hx'
    · rename_i hb
      obtain ⟨i, hi⟩ := List.mem_iff_getElem?.1 (List.mem_reverse.1 hh')
      obtain ⟨z, hz, hz', _⟩ := I.beam_parent i h' hi hb
      rw [hz] at hx'
      simp only [Option.some.injEq] at hx'
      subst hx'
      exact hz'
    · simp at hx'
  obtain ⟨cl, c1, c2, c3, c4⟩ := many_constituents I _ hbj
  refine ⟨cl, c1, ?_, c3, ?_⟩
  · have hpart := I.part
    simp only [List.flatMap_nil, List.nil_append] at hpart
    rw [beamLeaves_eq I] at hpart
    have hpp : particles A js = ps.zipIdx := by simp [particles, h1]
    rw [hpp]
    apply leaves_perm (cs := cs) (js := js') h2 (by rw [e, h3]) _ (fun y hy => (c4 y hy).1)
    rw [c2]
    refine List.Perm.trans ?_ hpart
    apply List.Perm.flatMap_right
    simp only [beamJets, List.filterMap_reverse]
    exact List.reverse_perm _
  · intro h' hh' hb
    obtain ⟨i, hi⟩ := List.mem_iff_getElem?.1 (List.mem_reverse.1 hh')
    obtain ⟨z, hz, _, _⟩ := I.beam_parent i h' hi hb
    exact ⟨z, hz⟩

/-- The inclusive jets of an event are what is left of a list of jets after the cut on the
transverse momentum, and the constituents of that list of jets are the particles of the event, each
exactly once. -/
def Partition (A : Alg J F) (js : List J) (cs : CS J F) (w : Way) : Prop :=
  ∃ (roots : List (J × Nat)) (cl : List (List (J × Nat))), roots.mapM cs.constituents = some cl ∧ cl.flatten.Perm (particles A js) ∧
    (∀ c ∈ cl, c ≠ []) ∧
    ∀ dcut, cs.inclusive A w dcut = some (roots.filter (fun j => A.ge (A.pt2 j.1) dcut))

/-- C53 for the algorithms other than Kt and Cambridge: anti-kt, generalised kt, and so on.
Any distances, with NaN among them. -/
theorem C53_other (A : Alg J F) (js : List J) (cs : CS J F)
    (h : newClusterSequence A js = some cs) : Partition A js cs .other := by
  obtain ⟨cl, c1, c2, c3, c4⟩ := final_spec A js cs h
  exact ⟨_, cl, c1, c2, c3, fun dcut => inclusive_other A cs dcut _ c4⟩

/-! ### Cambridge -/

theorem inclusive_cambridge (A : Alg J F) (cs : CS J F) (dcut : F) : ∀ (bs nb : List (Hist F)),
    (∀ h ∈ bs, h.parent2 = beamJetIndex) → (∀ h ∈ nb, h.parent2 ≠ beamJetIndex) →
    inclusiveLoop A cs dcut .cambridge (bs ++ nb) = inclusiveLoop A cs dcut .other (bs ++ nb)
  | [], nb, _, hn => by
    have : ∀ nb : List (Hist F), (∀ h ∈ nb, h.parent2 ≠ beamJetIndex) →
        inclusiveLoop A cs dcut .other nb = some [] := by
      intro nb
      induction nb with
      | nil => intro _; rfl
      | cons h nb ih =>
        intro hh
        simp only [inclusiveLoop]
        rw [if_pos (hh h (by simp))]
        exact ih (fun x hx => hh x (by simp [hx]))
    rw [List.nil_append, this nb hn]
    cases nb with
    | nil => rfl
    | cons h nb =>
      simp only [inclusiveLoop]
      rw [if_pos (hn h (by simp))]
  | h :: bs, nb, hb, hn => by
    have ih := inclusive_cambridge A cs dcut bs nb (fun x hx => hb x (by simp [hx])) hn
    have : ¬ h.parent2 ≠ beamJetIndex := fun e => e (hb h (by simp))
    simp only [List.cons_append, inclusiveLoop]
    rw [if_neg this, if_neg this, ih]

/-- No two active jets are closer than the beam. -/
def Far (A : Alg J F) (one : F) (cs : CS J F) (act : List Nat) : Prop :=
  ∀ i ∈ act, ∀ j ∈ act, i ≠ j → ∀ x y, cs.jets[i]? = some x → cs.jets[j]? = some y →
    A.lt (A.dist x.1 y.1) one = false

theorem beamMin_const (lt : F → F → Bool) (one : F) (hone : lt one one = false) :
    ∀ (ys : List F) (i m : Nat), (∀ y ∈ ys, y = one) → beamMin lt i (one, m) ys = (one, m)
  | [], _, _, _ => rfl
  | y :: ys, i, m, h => by
    simp only [beamMin]
    rw [h y (by simp), hone]
    exact beamMin_const lt one hone ys (i + 1) m (fun z hz => h z (by simp [hz]))

theorem rowMin_far (A : Alg J F) (one : F) (i : Nat) (x : J) : ∀ (ys : List J) (j m : Nat),
    (rowMin A i x j (one, m, none) ys).2.2 = none ↔ ∀ y ∈ ys, A.lt (A.dist x y) one = false := by
  have some_stays : ∀ (ys : List J) (j : Nat) (r : F × Nat × Option Nat), r.2.2 ≠ none →
      (rowMin A i x j r ys).2.2 ≠ none := by
    intro ys
    induction ys with
    | nil => intro j r h; exact h
    | cons y ys ih =>
      intro j r h
      simp only [rowMin]
      apply ih
      split
      · simp
      · exact h
  intro ys
  induction ys with
  | nil => intro j m; simp [rowMin]
  | cons y ys ih =>
    intro j m
    simp only [rowMin]
    by_cases hy : A.lt (A.dist x y) one = true
    · rw [if_pos hy]
      constructor
      · intro h; exact absurd h (some_stays _ _ _ (by simp))
      · intro h; have := h y (by simp); rw [this] at hy; simp at hy
    · rw [if_neg hy, ih]
      simp only [List.mem_cons, forall_eq_or_imp]
      have : A.lt (A.dist x y) one = false := by simpa using hy
      simp [this]

theorem rowMin_far_eq (A : Alg J F) (one : F) (i : Nat) (x : J) : ∀ (ys : List J) (j m : Nat),
    (∀ y ∈ ys, A.lt (A.dist x y) one = false) →
    rowMin A i x j (one, m, none) ys = (one, m, none)
  | [], _, _, _ => rfl
  | y :: ys, j, m, h => by
    simp only [rowMin]
    rw [h y (by simp)]
    exact rowMin_far_eq A one i x ys (j + 1) m (fun z hz => h z (by simp [hz]))

theorem pairMin_some (A : Alg J F) : ∀ (xs : List J) (i : Nat) (r : F × Nat × Option Nat),
    r.2.2 ≠ none → (pairMin A i r xs).2.2 ≠ none := by
  have some_stays : ∀ (i : Nat) (x : J) (ys : List J) (j : Nat) (r : F × Nat × Option Nat),
      r.2.2 ≠ none → (rowMin A i x j r ys).2.2 ≠ none := by
    intro i x ys
    induction ys with
    | nil => intro j r h; exact h
    | cons y ys ih =>
      intro j r h
      simp only [rowMin]
      apply ih
      split
      · simp
      · exact h
  intro xs
  induction xs with
  | nil => intro i r h; exact h
  | cons x xs ih =>
    intro i r h
    simp only [pairMin]
    exact ih _ _ (some_stays _ _ _ _ _ h)

theorem pairMin_far (A : Alg J F) (one : F) : ∀ (xs : List J) (i m : Nat),
    (pairMin A i (one, m, none) xs).2.2 = none ↔
      xs.Pairwise (fun x y => A.lt (A.dist x y) one = false) := by
  intro xs
  induction xs with
  | nil => intro i m; simp [pairMin]
  | cons x xs ih =>
    intro i m
    simp only [pairMin, List.pairwise_cons]
    by_cases hx : ∀ y ∈ xs, A.lt (A.dist x y) one = false
    · rw [rowMin_far_eq A one i x xs (i + 1) m hx, ih]
      simp only [iff_and_self]
      exact fun _ => hx
    · constructor
      · intro h
        exact absurd h (pairMin_some A _ _ _ (fun e => hx ((rowMin_far A one i x xs _ m).1 e)))
      · intro h; exact absurd h.1 hx

theorem pick_far (A : Alg J F) (one : F) (hone : A.lt one one = false)
    (hsc : ∀ x, A.scale x = one) (js : List J) (r : F × Nat × Option Nat)
    (h : pick A js = some r) :
    r.2.2 = none ↔ js.Pairwise (fun x y => A.lt (A.dist x y) one = false) := by
  cases js with
  | nil => simp [pick] at h
  | cons x xs =>
    simp only [pick, Option.some.injEq] at h
    rw [hsc x, beamMin_const A.lt one hone _ _ _ (by
      intro y hy
      simp only [List.mem_map] at hy
      obtain ⟨z, _, rfl⟩ := hy
      exact hsc z)] at h
    rw [← h]
    exact pairMin_far A one (x :: xs) 0 0

/-- A step with equal distances to the beam: it combines a jet with the beam if and only if no
two active jets are closer. -/
theorem step_far (A : Alg J F) (one : F) (hone : A.lt one one = false)
    (hsc : ∀ x, A.scale x = one) (hsym : ∀ x y, A.dist x y = A.dist y x)
    {n : Nat} {cs : CS J F} {act : List Nat} {G : List (List Nat)} (I : Inv n cs act G)
    (cs' : CS J F) (act' : List Nat) (h : step A cs act = some (cs', act')) :
    (Far A one cs act ∧ Far A one cs' act' ∧
      ∃ e, cs'.hist = cs.hist ++ [e] ∧ e.parent2 = beamJetIndex) ∨
    (¬ Far A one cs act ∧ ∃ e, cs'.hist = cs.hist ++ [e] ∧ e.parent2 ≠ beamJetIndex) := by
  have hpick : ∃ js r, act.mapM (fun k => (cs.jets[k]?).map (·.1)) = some js ∧
      pick A js = some r := by
    simp only [step] at h
    cases hjs : act.mapM (fun k => (cs.jets[k]?).map (·.1)) with
    | none => rw [hjs] at h; simp at h
    | some js =>
      rw [hjs] at h
      dsimp only at h
      cases hp : pick A js with
      | none => rw [hp] at h; simp at h
      | some r => exact ⟨js, r, rfl, hp⟩
  obtain ⟨js, r, hjs, hp⟩ := hpick
  have hiff := pick_far A one hone hsc js r hp
  have hfar : js.Pairwise (fun x y => A.lt (A.dist x y) one = false) ↔ Far A one cs act := by
    have hlen := mapM_some_length _ _ _ hjs
    constructor
    · intro hpw i hi j hj hij x y hx hy
      obtain ⟨a, ha, ea⟩ := List.mem_iff_getElem.1 hi
      obtain ⟨b, hb, eb⟩ := List.mem_iff_getElem.1 hj
      obtain ⟨x', hx1, hx2⟩ := mapM_some_get _ _ _ hjs a i (by rw [List.getElem?_eq_getElem ha, ea])
      obtain ⟨y', hy1, hy2⟩ := mapM_some_get _ _ _ hjs b j (by rw [List.getElem?_eq_getElem hb, eb])
      rw [hx] at hx1
      rw [hy] at hy1
      simp at hx1 hy1
      subst hx1 hy1
      rw [List.pairwise_iff_getElem] at hpw
      have hne : a ≠ b := by
        intro e; subst e; rw [ea] at eb; exact hij eb
      obtain ⟨ha', ea'⟩ := List.getElem?_eq_some_iff.1 hx2
      obtain ⟨hb', eb'⟩ := List.getElem?_eq_some_iff.1 hy2
      rcases Nat.lt_or_gt_of_ne hne with hab | hab
      · have := hpw a b ha' hb' hab
        rw [ea', eb'] at this
        exact this
      · have := hpw b a hb' ha' hab
        rw [ea', eb'] at this
        rw [hsym]; exact this
    · intro hf
      rw [List.pairwise_iff_getElem]
      intro a b ha hb hab
      have ha1 : a < act.length := by omega
      have hb1 : b < act.length := by omega
      obtain ⟨x', hx1, hx2⟩ := mapM_some_get _ _ _ hjs a act[a] (List.getElem?_eq_getElem ha1)
      obtain ⟨y', hy1, hy2⟩ := mapM_some_get _ _ _ hjs b act[b] (List.getElem?_eq_getElem hb1)
      rw [List.getElem?_eq_getElem ha] at hx2
      rw [List.getElem?_eq_getElem hb] at hy2
      simp only [Option.some.injEq] at hx2 hy2
      cases hx : cs.jets[act[a]]? with
      | none => rw [hx] at hx1; simp at hx1
      | some x =>
        cases hy : cs.jets[act[b]]? with
        | none => rw [hy] at hy1; simp at hy1
        | some y =>
          rw [hx] at hx1
          rw [hy] at hy1
          simp at hx1 hy1
          rw [hx2, hy2, ← hx1, ← hy1]
          refine hf _ (List.getElem_mem ha1) _ (List.getElem_mem hb1) ?_ x y hx hy
          intro e
          have := (List.getElem_inj I.nodup).1 e
          omega
  rw [hfar] at hiff
  have hcase : (r.2.2 = none → ∃ x, ∃ l : Hist F, cs' = { cs with
          hist := cs.hist ++ [⟨x, beamJetIndex, invalidIndex, r.1,
            A.fmax r.1 l.maxdij⟩] } ∧ ∀ k ∈ act', k ∈ act) ∧
      (r.2.2 ≠ none → ∃ e, cs'.hist = cs.hist ++ [e] ∧ e.parent2 ≠ beamJetIndex) := by
    simp only [step] at h
    rw [hjs] at h
    dsimp only at h
    rw [hp] at h
    obtain ⟨y, ii, jj⟩ := r
    cases jj with
    | none =>
      refine ⟨fun _ => ?_, fun hh => absurd rfl hh⟩
      dsimp only at h ⊢
      cases hi : act[ii]? with
      | none => rw [hi] at h; simp at h
      | some i =>
        rw [hi] at h
        dsimp only at h
        simp only [ibStep, addStep] at h
        cases hx : cs.jets[i]? with
        | none => rw [hx] at h; simp at h
        | some x =>
          rw [hx] at h
          cases hl : cs.hist.getLast? with
          | none => rw [hl] at h; simp at h
          | some l =>
            rw [hl] at h
            simp only [Option.map_some, Option.some.injEq, Prod.mk.injEq] at h
            refine ⟨_, l, h.1.symm, ?_⟩
            intro k hk
            have := set_last_perm act ii i 0 hi
            rw [h.2] at this
            exact this.symm.subset (by simp [hk])
    | some jj =>
      refine ⟨fun hh => by simp at hh, fun _ => ?_⟩
      dsimp only at h
      cases hi : act[ii]? with
      | none => rw [hi] at h; simp at h
      | some i =>
        cases hj : act[jj]? with
        | none => rw [hi, hj] at h; simp at h
        | some j =>
          rw [hi, hj] at h
          dsimp only at h
          simp only [ijStep, addStep] at h
          cases hx : cs.jets[i]? with
          | none => rw [hx] at h; simp at h
          | some x =>
            cases hy : cs.jets[j]? with
            | none => rw [hx, hy] at h; simp at h
            | some z =>
              rw [hx, hy] at h
              dsimp only at h
              cases hk : A.recombine x.1 z.1 with
              | none => rw [hk] at h; simp at h
              | some k =>
                rw [hk] at h
                cases hl : cs.hist.getLast? with
                | none => rw [hl] at h; simp at h
                | some l =>
                  rw [hl] at h
                  simp only [Option.some.injEq, Prod.mk.injEq] at h
                  refine ⟨⟨(min x.2 z.2 : Nat), (max x.2 z.2 : Nat), cs.jets.length, y,
                    A.fmax y l.maxdij⟩, by rw [← h.1], ?_⟩
                  simp only [beamJetIndex]; omega
  by_cases hr : r.2.2 = none
  · left
    obtain ⟨x, l, e, hsub⟩ := hcase.1 hr
    have hf := hiff.1 hr
    refine ⟨hf, ?_, ⟨_, by rw [e], rfl⟩⟩
    intro i hi j hj hij x y hx hy
    rw [e] at hx hy
    exact hf i (hsub i hi) j (hsub j hj) hij x y hx hy
  · right
    exact ⟨fun hf => hr (hiff.2 hf), hcase.2 hr⟩

theorem loop_far (A : Alg J F) (one : F) (hone : A.lt one one = false)
    (hsc : ∀ x, A.scale x = one) (hsym : ∀ x y, A.dist x y = A.dist y x) (n : Nat) :
    ∀ (m : Nat) (cs : CS J F) act G cs' act', Inv n cs act G →
    loop A m cs act = some (cs', act') →
    ∃ nb bs, cs'.hist = cs.hist ++ nb ++ bs ∧ (∀ h ∈ nb, h.parent2 ≠ beamJetIndex) ∧
      (∀ h ∈ bs, h.parent2 = beamJetIndex) ∧ (Far A one cs act → nb = [])
  | 0, cs, act, G, cs', act', _, h => by
    simp only [loop, Option.some.injEq, Prod.mk.injEq] at h
    exact ⟨[], [], by simp [h.1], by simp, by simp, fun _ => rfl⟩
  | m + 1, cs, act, G, cs', act', I, h => by
    simp only [loop] at h
    cases hs : step A cs act with
    | none => rw [hs] at h; simp at h
    | some r =>
      obtain ⟨cs1, act1⟩ := r
      rw [hs] at h
      obtain ⟨g, I1⟩ := I.step A hs
      obtain ⟨nb, bs, e, hn, hb, hf⟩ := loop_far A one hone hsc hsym n m cs1 act1 _ cs' act' I1 h
      rcases step_far A one hone hsc hsym I cs1 act1 hs with ⟨f1, f2, x, ex, hx⟩ | ⟨f1, x, ex, hx⟩
      · have : nb = [] := hf f2
        subst this
        refine ⟨[], x :: bs, by rw [e, ex]; simp, by simp, ?_, fun _ => rfl⟩
        intro y hy
        rcases List.mem_cons.1 hy with e | e
        · rw [e]; exact hx
        · exact hb y e
      · refine ⟨x :: nb, bs, by rw [e, ex]; simp, ?_, hb, fun hh => absurd hh f1⟩
        intro y hy
        rcases List.mem_cons.1 hy with e | e
        · rw [e]; exact hx
        · exact hn y e

/-- C53 for Cambridge: every distance to the beam is the same number, which is not smaller than
itself, and the distance of a pair does not depend on its order. -/
theorem C53_cambridge (A : Alg J F) (one : F) (hone : A.lt one one = false)
    (hsc : ∀ x, A.scale x = one) (hsym : ∀ x y, A.dist x y = A.dist y x) (js : List J)
    (cs : CS J F) (h : newClusterSequence A js = some cs) : Partition A js cs .cambridge := by
  obtain ⟨roots, cl, c1, c2, c3, c4⟩ := C53_other A js cs h
  refine ⟨roots, cl, c1, c2, c3, fun dcut => ?_⟩
  rw [← c4 dcut]
  obtain ⟨ps, cs0, G0, h1, h2, h3, hi, I0, hl⟩ := new_spec A js cs h
  obtain ⟨nb, bs, e, hn, hb, _⟩ := loop_far A one hone hsc hsym _ _ _ _ _ _ _ I0 hl
  simp only [CS.inclusive]
  have : cs.hist.reverse = bs.reverse ++ (cs0.hist ++ nb).reverse := by rw [e]; simp
  rw [this]
  apply inclusive_cambridge
  · intro x hx; exact hb x (List.mem_reverse.1 hx)
  · intro x hx
    rcases List.mem_append.1 (List.mem_reverse.1 hx) with hx | hx
    · obtain ⟨i, hi'⟩ := List.mem_iff_getElem?.1 hx
      have hil : i < js.length := by
        have t := I0.total
        have := getElem?_lt hi'
        simp at t
        omega
      obtain ⟨h', z, z1, _, z3, _⟩ := I0.leaf i hil
      rw [hi'] at z1
      simp only [Option.some.injEq] at z1
      rw [z1, z3]
      simp [beamJetIndex, inexistentParent]
    · exact hn x hx

/-! ### Kt -/

theorem Inv.jetOf_self {n : Nat} {cs : CS J F} {act : List Nat} {G : List (List Nat)}
    (I : Inv n cs act G) {k : Nat} {x : J × Nat} (hx : cs.jets[k]? = some x) :
    cs.jetOf (x.2 : Int) = some x := by
  obtain ⟨h, hh, hj⟩ := I.jinv k x hx
  simp only [CS.jetOf, at?]
  simp only [Int.natCast_nonneg, if_pos, Int.toNat_natCast, hh, hj, hx]

/-- What the history keeps of the distances. -/
structure DistInv [LinearOrder F] (A : Alg J F) (cs : CS J F) : Prop where
  mono : cs.hist.Pairwise (fun a b => a.maxdij ≤ b.maxdij)
  dle : ∀ h ∈ cs.hist, h.dij ≤ h.maxdij
  beam : ∀ h ∈ cs.hist, h.parent2 = beamJetIndex →
    ∃ x, cs.jetOf h.parent1 = some x ∧ h.dij = A.scale x.1

theorem pairwise_concat {α : Type} (R : α → α → Prop) (l : List α) (b : α)
    (h : l.Pairwise R) (hb : ∀ a ∈ l, R a b) : (l ++ [b]).Pairwise R := by
  rw [List.pairwise_append]
  exact ⟨h, by simp, fun a ha c hc => by simp at hc; subst hc; exact hb a ha⟩

theorem le_getLast [LinearOrder F] {hist : List (Hist F)} {l : Hist F}
    (hm : hist.Pairwise (fun a b => a.maxdij ≤ b.maxdij)) (hl : hist.getLast? = some l) :
    ∀ a ∈ hist, a.maxdij ≤ l.maxdij := by
  obtain ⟨ini, e⟩ := List.getLast?_eq_some_iff.1 hl
  subst e
  intro a ha
  rcases List.mem_append.1 ha with h | h
  · exact (List.pairwise_append.1 hm).2.2 a h l (by simp)
  · simp at h; rw [h]

theorem DistInv.step [LinearOrder F] (A : Alg J F) (hmax : ∀ x y, A.fmax x y = max x y)
    {n : Nat} {cs : CS J F} {act : List Nat} {G : List (List Nat)} (I : Inv n cs act G)
    (D : DistInv A cs) (cs' : CS J F) (act' : List Nat)
    (h : FastJet.step A cs act = some (cs', act')) : DistInv A cs' := by
  have old : ∀ (js : List (J × Nat)) (e : Hist F), ∀ h ∈ cs.hist, h.parent2 = beamJetIndex →
      ∃ x, ({ cs with jets := cs.jets ++ js, hist := cs.hist ++ [e] } : CS J F).jetOf h.parent1 =
        some x ∧ h.dij = A.scale x.1 := by
    intro js e h hh hb
    obtain ⟨x, hx, he⟩ := D.beam h hh hb
    exact ⟨x, jetOf_append _ _ _ _ _ hx, he⟩
  have app : ∀ (js : List (J × Nat)) (p1 p2 jt : Int) (d : F) (l : Hist F),
      cs.hist.getLast? = some l → (p2 = beamJetIndex → ∃ x, cs.jetOf p1 = some x ∧ d = A.scale x.1) →
      DistInv A ({ cs with
        jets := cs.jets ++ js
        hist := cs.hist ++ [⟨p1, p2, jt, d, A.fmax d l.maxdij⟩] } : CS J F) := by
    intro js p1 p2 jt d l hl hb
    refine ⟨?_, ?_, ?_⟩
    · apply pairwise_concat _ _ _ D.mono
      intro a ha
      dsimp only
      rw [hmax]
      exact le_trans (le_getLast D.mono hl a ha) (le_max_right _ _)
    · intro x hx
      rcases List.mem_append.1 hx with hx | hx
      · exact D.dle x hx
      · simp at hx; subst hx
        dsimp only
        rw [hmax]
        exact le_max_left _ _
    · intro x hx hxb
      rcases List.mem_append.1 hx with hx | hx
      · exact old _ _ x hx hxb
      · simp at hx; subst hx
        obtain ⟨z, hz, e⟩ := hb hxb
        exact ⟨z, jetOf_append _ _ _ _ _ hz, e⟩
  rcases step_cases A cs act cs' act' h I.actlt with
    ⟨i, j, x, y, rest, k, l, hp, hp', hx, hy, _, hl, rfl⟩ | ⟨i, x, l, hp, hx, hl, rfl⟩
  · apply app _ _ _ _ _ l hl
    intro e
    simp only [beamJetIndex] at e
    omega
  · have := app [] x.2 beamJetIndex invalidIndex (A.scale x.1) l hl
      (fun _ => ⟨x, I.jetOf_self hx, rfl⟩)
    rw [List.append_nil] at this
    exact this

theorem final_dist [LinearOrder F] (A : Alg J F) (hmax : ∀ x y, A.fmax x y = max x y)
    (js : List J) (cs : CS J F) (h : newClusterSequence A js = some cs) : DistInv A cs := by
  obtain ⟨ps, cs0, G0, h1, h2, h3, hi, I0, hl⟩ := new_spec A js cs h
  have D0 : DistInv A cs0 := by
    simp only [init] at hi
    cases hj : initJets A 0 js with
    | none => rw [hj] at hi; simp at hi
    | some l =>
      rw [hj] at hi
      simp only [Option.map_some, Option.some.injEq] at hi
      subst hi
      refine ⟨?_, ?_, ?_⟩
      · dsimp only
        rw [List.pairwise_map]
        exact List.Pairwise.imp (fun _ => le_refl _) (List.pairwise_lt_range)
      · intro x hx
        simp only [List.mem_map] at hx
        obtain ⟨i, _, rfl⟩ := hx
        exact le_refl _
      · intro x hx hb
        simp only [List.mem_map] at hx
        obtain ⟨i, _, rfl⟩ := hx
        simp [beamJetIndex, inexistentParent] at hb
  have := loop_inv A (fun cs act => (∃ G, Inv js.length cs act G) ∧ DistInv A cs)
    (fun cs act cs' act' ⟨⟨G, I⟩, D⟩ hs => by
      obtain ⟨g, I'⟩ := I.step A hs
      exact ⟨⟨_, I'⟩, D.step A hmax I cs' act' hs⟩) _ _ _ _ _ ⟨⟨_, I0⟩, D0⟩ hl
  exact this.2

theorem inclusive_kt [LinearOrder F] (A : Alg J F) (hlt : ∀ x y, A.lt x y = decide (x < y))
    (hge : ∀ x y, A.ge x y = decide (y ≤ x)) (hpt : ∀ x, A.scale x = A.pt2 x) (cs : CS J F)
    (dcut : F) : ∀ (hs : List (Hist F)), hs.Pairwise (fun a b => b.maxdij ≤ a.maxdij) →
    (∀ h ∈ hs, h.dij ≤ h.maxdij) →
    (∀ h ∈ hs, h.parent2 = beamJetIndex → ∃ x, cs.jetOf h.parent1 = some x ∧
      h.dij = A.scale x.1) →
    inclusiveLoop A cs dcut .kt hs =
      some ((beamJets cs hs).filter (fun j => A.ge (A.pt2 j.1) dcut))
  | [], _, _, _ => by simp [inclusiveLoop, beamJets]
  | h :: hs, hm, hd, hb => by
    have ih := inclusive_kt A hlt hge hpt cs dcut hs (List.pairwise_cons.1 hm).2
      (fun x hx => hd x (by simp [hx])) (fun x hx => hb x (by simp [hx]))
    simp only [inclusiveLoop, hlt]
    by_cases hc : h.maxdij < dcut
    · rw [if_pos (by simpa using hc)]
      congr 1
      symm
      apply List.filter_eq_nil_iff.2
      intro j hj
      simp only [beamJets, List.mem_filterMap] at hj
      obtain ⟨h', hh', hj'⟩ := hj
      split at hj'
      · rename_i hbm
        obtain ⟨x, hx, hxd⟩ := hb h' hh' hbm
        rw [hx] at hj'
        simp only [Option.some.injEq] at hj'
        subst hj'
        rw [hge, decide_eq_true_eq, not_le, ← hpt, ← hxd]
        have h1 : h'.maxdij ≤ h.maxdij := by
          rcases List.mem_cons.1 hh' with e | e
          · rw [e]
          · exact (List.pairwise_cons.1 hm).1 h' e
        exact lt_of_le_of_lt (le_trans (hd h' hh') h1) hc
      · simp at hj'
    · rw [if_neg (by simpa using hc)]
      by_cases hbm : h.parent2 = beamJetIndex
      · obtain ⟨x, hx, hxd⟩ := hb h (by simp) hbm
        have hbj : beamJets cs (h :: hs) = x :: beamJets cs hs := by
          simp only [beamJets, List.filterMap_cons, if_pos hbm, hx]
        rw [hx, ih, hbj]
        simp only [List.filter_cons, Option.map_some, hbm, true_and, hxd, hpt]
        split <;> rfl
      · rw [if_neg (fun e => hbm e.1), ih]
        simp only [beamJets, List.filterMap_cons, if_neg hbm]

/-- C53 for Kt: the numbers are ordered (no NaN), and the distance to the beam is the square of
the transverse momentum. -/
theorem C53_kt [LinearOrder F] (A : Alg J F) (hlt : ∀ x y, A.lt x y = decide (x < y))
    (hge : ∀ x y, A.ge x y = decide (y ≤ x)) (hmax : ∀ x y, A.fmax x y = max x y)
    (hpt : ∀ x, A.scale x = A.pt2 x) (js : List J)
    (cs : CS J F) (h : newClusterSequence A js = some cs) : Partition A js cs .kt := by
  obtain ⟨cl, c1, c2, c3, _⟩ := final_spec A js cs h
  have D := final_dist A hmax js cs h
  refine ⟨_, cl, c1, c2, c3, fun dcut => ?_⟩
  exact inclusive_kt A hlt hge hpt cs dcut _ (List.pairwise_reverse.2 D.mono)
    (fun x hx => D.dle x (List.mem_reverse.1 hx)) (fun x hx => D.beam x (List.mem_reverse.1 hx))

/-- C53, without a cut: if every transverse momentum passes (at `ptmin = 0`: if none is NaN), the
constituents of the inclusive jets are the particles of the event, each exactly once. -/
theorem C53_partition (A : Alg J F) (js : List J) (cs : CS J F) (w : Way)
    (h : Partition A js cs w) (dcut : F) (hcut : ∀ j, A.ge (A.pt2 j) dcut = true) :
    ∃ jets cl, cs.inclusive A w dcut = some jets ∧ jets.mapM cs.constituents = some cl ∧
      cl.flatten.Perm (particles A js) := by
  obtain ⟨roots, cl, h1, h2, _, h4⟩ := h
  refine ⟨roots, cl, ?_, h1, h2⟩
  rw [h4 dcut]
  congr 1
  exact List.filter_eq_self.2 (fun j _ => hcut j.1)

/-! ## Exclusive jets -/

theorem picked_filter (t : Nat) (hs : List (Hist F)) :
    picked t hs = (picked (t + 1) hs).filter (fun p => decide (p < (t : Int))) := by
  simp only [picked]
  induction hs with
  | nil => rfl
  | cons h hs ih =>
    simp only [List.flatMap_cons, List.filter_append]
    rw [← ih]
    congr 1
    congr 1
    · by_cases h1 : h.parent1 < (t : Int)
      · rw [if_pos h1, if_pos (by omega)]; simp [h1]
      · rw [if_neg h1]
        split
        · simp [h1]
        · rfl
    · by_cases h1 : 0 < h.parent2 ∧ h.parent2 < (t : Int)
      · rw [if_pos h1, if_pos (by omega)]; simp [h1]
      · rw [if_neg h1]
        split
        · simp; omega
        · rfl

/-- Read from any moment of the clustering on, the history names exactly the jets active at that
moment. -/
theorem loop_picked (A : Alg J F) (n : Nat) : ∀ (m : Nat) (cs : CS J F) act G cs',
    Inv n cs act G → loop A m cs act = some (cs', []) →
    (picked cs.hist.length (cs'.hist.drop cs.hist.length)).Perm
      (act.map (fun k => (hix cs k : Int)))
  | 0, cs, act, G, cs', _, h => by
    simp only [loop, Option.some.injEq, Prod.mk.injEq] at h
    rw [← h.1, h.2]
    simp [picked]
  | m + 1, cs, act, G, cs', I, h => by
    simp only [loop] at h
    cases hs : step A cs act with
    | none => rw [hs] at h; simp at h
    | some r =>
      obtain ⟨cs1, act1⟩ := r
      rw [hs] at h
      obtain ⟨g, I1⟩ := I.step A hs
      have ih := loop_picked A n m cs1 act1 _ cs' I1 h
      obtain ⟨js', hs', e2, _⟩ := loop_prefix A _ _ _ _ _ _ _ I1 h
      have hixlt : ∀ k ∈ act, hix cs k < cs.hist.length := by
        intro k hk
        have hk' := I.actlt k hk
        simp only [hix, List.getElem?_eq_getElem hk', Option.map_some, Option.getD_some]
        obtain ⟨h, hh, _⟩ := I.jinv k _ (List.getElem?_eq_getElem hk')
        exact getElem?_lt hh
      rcases step_cases A cs act cs1 act1 hs I.actlt with
        ⟨i, j, x, y, rest, k, l, hp, hp', hx, hy, _, _, e1⟩ | ⟨i, x, l, hp, hx, _, e1⟩
      · have hd : cs'.hist.drop cs.hist.length =
            ⟨(min x.2 y.2 : Nat), (max x.2 y.2 : Nat), cs.jets.length,
              A.dist x.1 y.1, A.fmax (A.dist x.1 y.1) l.maxdij⟩ ::
            cs'.hist.drop cs1.hist.length := by
          rw [e2, e1]
          simp
        have hl1 : cs1.hist.length = cs.hist.length + 1 := by rw [e1]; simp
        rw [hd]
        rw [hl1] at ih ⊢
        have hxi : hix cs i = x.2 := by simp [hix, hx]
        have hyj : hix cs j = y.2 := by simp [hix, hy]
        have hxl := hixlt i (hp.symm.subset (by simp))
        have hyl := hixlt j (hp.symm.subset (by simp))
        rw [hxi] at hxl
        rw [hyj] at hyl
        have hxy : x.2 ≠ y.2 := by
          intro e
          have hij := I.hidx_inj hx hy e
          have := hp.nodup_iff.1 I.nodup
          simp [hij] at this
        have e3 : picked cs.hist.length (⟨(min x.2 y.2 : Nat), (max x.2 y.2 : Nat), cs.jets.length,
              A.dist x.1 y.1, A.fmax (A.dist x.1 y.1) l.maxdij⟩ ::
            cs'.hist.drop (cs.hist.length + 1)) =
            ((min x.2 y.2 : Nat) : Int) :: ((max x.2 y.2 : Nat) : Int) ::
              picked cs.hist.length (cs'.hist.drop (cs.hist.length + 1)) := by
          simp only [picked, List.flatMap_cons]
          rw [if_pos (by omega), if_pos (by omega)]
          rfl
        rw [e3, picked_filter]
        refine (((ih.filter _).cons _).cons _).trans ?_
        refine List.Perm.trans ?_ (hp.map _).symm
        have e4 : (act1.map (fun k => (hix cs1 k : Int))).Perm
            ((cs.hist.length : Int) :: rest.map (fun k => (hix cs k : Int))) := by
          refine (hp'.map _).trans ?_
          simp only [List.map_cons]
          have : hix cs1 cs.jets.length = cs.hist.length := by
            rw [e1]; simp [hix]
          rw [this]
          apply List.Perm.cons
          apply List.Perm.of_eq
          apply List.map_congr_left
          intro q hq
          rw [e1, hix_append]
          exact I.actlt q (hp.symm.subset (by simp [hq]))
        have e5 : (List.filter (fun p => decide (p < (cs.hist.length : Int)))
            ((cs.hist.length : Int) :: rest.map (fun k => (hix cs k : Int)))) =
            rest.map (fun k => (hix cs k : Int)) := by
          rw [List.filter_cons_of_neg (by simp)]
          apply List.filter_eq_self.2
          intro p hp2
          simp only [List.mem_map] at hp2
          obtain ⟨q, hq, rfl⟩ := hp2
          have := hixlt q (hp.symm.subset (by simp [hq]))
          simpa using this
        refine ((((e4.filter _).trans (List.Perm.of_eq e5)).cons _).cons _).trans ?_
        simp only [List.map_cons, hxi, hyj]
        rcases Nat.le_total x.2 y.2 with h' | h'
        · rw [Nat.min_eq_left h', Nat.max_eq_right h']
        · rw [Nat.min_eq_right h', Nat.max_eq_left h']
          exact List.Perm.swap _ _ _
      · have hd : cs'.hist.drop cs.hist.length =
            ⟨x.2, beamJetIndex, invalidIndex, A.scale x.1, A.fmax (A.scale x.1) l.maxdij⟩ ::
            cs'.hist.drop cs1.hist.length := by
          rw [e2, e1]
          simp
        have hl1 : cs1.hist.length = cs.hist.length + 1 := by rw [e1]; simp
        rw [hd]
        rw [hl1] at ih ⊢
        have hxi : hix cs i = x.2 := by simp [hix, hx]
        have hxl := hixlt i (hp.symm.subset (by simp))
        rw [hxi] at hxl
        have e3 : picked cs.hist.length (⟨x.2, beamJetIndex, invalidIndex, A.scale x.1,
              A.fmax (A.scale x.1) l.maxdij⟩ :: cs'.hist.drop (cs.hist.length + 1)) =
            (x.2 : Int) :: picked cs.hist.length (cs'.hist.drop (cs.hist.length + 1)) := by
          simp only [picked, List.flatMap_cons]
          rw [if_pos (by omega), if_neg (by simp [beamJetIndex])]
          rfl
        rw [e3, picked_filter]
        refine ((ih.filter _).cons _).trans ?_
        refine List.Perm.trans ?_ (hp.map _).symm
        have e4 : act1.map (fun k => (hix cs1 k : Int)) = act1.map (fun k => (hix cs k : Int)) := by
          rw [e1]
          rfl
        rw [e4, List.filter_eq_self.2]
        · simp only [List.map_cons, hxi]
          exact List.Perm.refl _
        · intro p hp2
          simp only [List.mem_map] at hp2
          obtain ⟨q, hq, rfl⟩ := hp2
          have := hixlt q (hp.symm.subset (by simp [hq]))
          simpa using this

/-- The jets of history elements. -/
theorem jets_of_hix {n : Nat} {cs : CS J F} {act : List Nat} {G : List (List Nat)}
    (I : Inv n cs act G) (cs' : CS J F) (js : List (J × Nat)) (hs : List (Hist F))
    (e : cs' = { cs with jets := cs.jets ++ js, hist := cs.hist ++ hs }) (ps : List Int)
    (hp : ∀ p ∈ ps, p ∈ act.map (fun k => (hix cs k : Int))) :
    ∃ l, ps.mapM cs'.jetOf = some l ∧ l.map (fun x => (x.2 : Int)) = ps := by
  induction ps with
  | nil => exact ⟨[], by simp, by simp⟩
  | cons p ps ih =>
    obtain ⟨l, h1, h2⟩ := ih (fun q hq => hp q (by simp [hq]))
    have := hp p (by simp)
    simp only [List.mem_map] at this
    obtain ⟨k, hk, rfl⟩ := this
    have hk' := I.actlt k hk
    have hx := List.getElem?_eq_getElem hk'
    have hj := I.jetOf_self hx
    have e1 : hix cs k = (cs.jets[k]).2 := by simp [hix, hx]
    rw [e1]
    have hj' : cs'.jetOf ((cs.jets[k]).2 : Int) = some cs.jets[k] := by
      rw [e]; exact jetOf_append _ _ _ _ _ hj
    exact ⟨cs.jets[k] :: l, by simp [hj', h1], by simp [h2]⟩

/-- C54: asking for `k` jets, not more than there are particles, gives exactly `k` jets.  Each has
constituents, these are particles of the event, and no particle belongs to two of the jets. -/
theorem C54_exclusive (A : Alg J F) (js : List J) (cs : CS J F)
    (h : newClusterSequence A js = some cs) (k : Nat) (hk : k ≤ js.length) :
    ∃ jets cl, cs.exclusiveUpTo k = .ok jets ∧ jets.length = k ∧
      jets.mapM cs.constituents = some cl ∧ (∀ c ∈ cl, c ≠ []) ∧ cl.flatten.Nodup ∧
      ∀ p ∈ cl.flatten, p ∈ particles A js := by
  obtain ⟨ps, cs0, G0, h1, h2, h3, _, I0, hl⟩ := new_spec A js cs h
  have t0 := I0.total
  simp only [List.length_range] at t0
  obtain ⟨⟨csm, actm⟩, hm1, hm2⟩ := loop_split A (js.length - k) k cs0 _ _
    (by rw [show js.length - k + k = js.length by omega]; exact hl)
  obtain ⟨Gm, Im⟩ := I0.loop A hm1
  obtain ⟨js1, hs1, e1, hlen1⟩ := loop_prefix A _ _ _ _ _ _ _ I0 hm1
  obtain ⟨Gf, If⟩ := Im.loop A hm2
  obtain ⟨js2, hs2, e2, hlen2⟩ := loop_prefix A _ _ _ _ _ _ _ Im hm2
  dsimp only at hm2 Im If e2
  have hlm : csm.hist.length = 2 * js.length - k := by
    rw [e1]; simp [hlen1]; omega
  have hpk := loop_picked A _ _ _ _ _ _ Im hm2
  obtain ⟨jets, hj1, hj2⟩ := jets_of_hix Im cs js2 hs2 e2 _ (fun p hp => hpk.subset hp)
  have hlk : actm.length = k := by
    have := Im.total; omega
  have hjlt : ∀ x ∈ jets, x.2 < cs.hist.length := by
    intro x hx
    have : (x.2 : Int) ∈ jets.map (fun x => (x.2 : Int)) := List.mem_map.2 ⟨x, hx, rfl⟩
    rw [hj2] at this
    have := hpk.subset this
    simp only [List.mem_map] at this
    obtain ⟨q, hq, hqe⟩ := this
    have hq' := Im.actlt q hq
    have hqx := List.getElem?_eq_getElem hq'
    obtain ⟨hh, hh1, _⟩ := Im.jinv q _ hqx
    have hlt := getElem?_lt hh1
    have e3 : hix csm q = (csm.jets[q]).2 := by simp [hix, hqx]
    rw [e2]
    simp only [List.length_append]
    omega
  obtain ⟨cl, c1, c2, c3, c4⟩ := many_constituents If jets hjlt
  have hmk : (max (2 * (cs.initn : Int) - (k : Int)) cs.initn).toNat = csm.hist.length := by
    rw [If.initn, hlm]
    omega
  refine ⟨jets, cl, ?_, ?_, c1, c3, ?_, ?_⟩
  · simp only [CS.exclusiveUpTo]
    rw [if_neg (by rw [If.initn]; omega), if_neg, if_neg, hmk, hj1]
    · rw [If.initn]; omega
    · have := If.total
      rw [If.initn]
      simp only [List.length_nil] at this
      omega
  · have := congrArg List.length hj2
    rw [List.length_map, hpk.length_eq, List.length_map, hlk] at this
    exact this
  · have hnd : (cl.flatten.map (·.2)).Nodup := by
      rw [c2]
      have e4 : (jets.flatMap fun x => lv (G0 ++ Gm ++ Gf) x.2) =
          (jets.map (fun x => (x.2 : Int))).flatMap (fun p => lv (G0 ++ Gm ++ Gf) p.toNat) := by
        rw [List.flatMap_map]
        rfl
      rw [e4, hj2]
      have hpart := Im.part
      have hnd := hpart.nodup_iff.2 List.nodup_range
      have hnd' := (List.nodup_append.1 hnd).1
      refine (List.Perm.nodup_iff (hpk.flatMap_right _)).2 ?_
      rw [List.flatMap_map]
      have e5 : (actm.flatMap fun a => lv (G0 ++ Gm ++ Gf) ((hix csm a : Int).toNat)) =
          actm.flatMap (fun k => lv (G0 ++ Gm) (hix csm k)) := by
        simp only [List.flatMap_def]
        congr 1
        apply List.map_congr_left
        intro q hq
        rw [Int.toNat_natCast]
        apply lv_append
        rw [Im.len]
        have hq' := Im.actlt q hq
        have hqx := List.getElem?_eq_getElem hq'
        obtain ⟨hh, hh1, _⟩ := Im.jinv q _ hqx
        have hlt := getElem?_lt hh1
        have e3 : hix csm q = (csm.jets[q]).2 := by simp [hix, hqx]
        rw [e3]
        exact hlt
      rw [e5]
      exact hnd'
    exact List.Pairwise.of_map _ (fun a b hab e => hab (by rw [e])) hnd
  · intro p hp
    obtain ⟨p1, p2⟩ := c4 p hp
    have hpp : particles A js = ps.zipIdx := by simp [particles, h1]
    rw [hpp, ← h3]
    have : cs.jets = cs0.jets ++ (js1 ++ js2) := by rw [e2, e1]; simp
    rw [this, List.getElem?_append_left (by rw [h3]; simp; omega)] at p1
    exact List.mem_of_getElem? p1

end Verif.FastJet
