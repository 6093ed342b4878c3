import Verif.FastJet.Props
import Mathlib.Algebra.Order.Ring.Int
import Mathlib.Algebra.Group.Int.Defs

/-!
# More about the clustering: it ends well, cuts, momenta, closest first (C53, C54, C78, C79)
-/

namespace Verif.FastJet

variable {J F : Type}

/-! ## The clustering does not fail by itself -/

theorem initJets_total (A : Alg J F) (hp : ∀ x, (A.preprocess x).isSome = true) :
    ∀ (js : List J) (i : Nat), ∃ l, initJets A i js = some l
  | [], _ => ⟨[], rfl⟩
  | j :: js, i => by
    obtain ⟨l, hl⟩ := initJets_total A hp js (i + 1)
    obtain ⟨j', hj⟩ := Option.isSome_iff_exists.1 (hp j)
    exact ⟨(j', i) :: l, by simp [initJets, hj, hl]⟩

theorem step_total (A : Alg J F) (hr : ∀ x y, (A.recombine x y).isSome = true) {n : Nat}
    {cs : CS J F} {act : List Nat} {G : List (List Nat)} (I : Inv n cs act G) (hne : act ≠ []) :
    ∃ r, step A cs act = some r := by
  obtain ⟨js, hjs⟩ := mapM_of_forall (fun k => (cs.jets[k]?).map (·.1)) act (by
    intro k hk
    exact ⟨_, by rw [List.getElem?_eq_getElem (I.actlt k hk)]; rfl⟩)
  have hlen := mapM_some_length _ _ _ hjs
  have hjn : js ≠ [] := by
    intro e; subst e
    exact hne (List.eq_nil_of_length_eq_zero (by simpa using hlen.symm))
  obtain ⟨r, hp⟩ := pick_ne_nil A js hjn
  have hhist : ∃ l, cs.hist.getLast? = some l := by
    have : cs.hist ≠ [] := by
      intro e
      have t := I.total
      have l := I.nle
      rw [e] at t l
      simp at t l
      subst l
      exact hne (List.eq_nil_of_length_eq_zero (by omega))
    exact ⟨_, List.getLast?_eq_some_getLast this⟩
  obtain ⟨l, hl⟩ := hhist
  have get : ∀ (m : Nat) z, js[m]? = some z → ∃ i x, act[m]? = some i ∧ cs.jets[i]? = some x := by
    intro m z hz
    have hm : m < act.length := by
      have := getElem?_lt hz; omega
    exact ⟨act[m], _, List.getElem?_eq_getElem hm,
      List.getElem?_eq_getElem (I.actlt _ (List.getElem_mem hm))⟩
  obtain ⟨y, ii, jj⟩ := r
  simp only [step, hjs, hp]
  rcases pick_spec A js _ hp with ⟨hn, x, hx, _⟩ | ⟨j, x, z, hj, _, hx, hz, _⟩
  · dsimp only at hn hx
    subst hn
    obtain ⟨i, x', hi, hx'⟩ := get _ _ hx
    simp only [hi, ibStep, hx', addStep, hl]
    exact ⟨_, rfl⟩
  · dsimp only at hj hx hz
    subst hj
    obtain ⟨i, x', hi, hx'⟩ := get _ _ hx
    obtain ⟨j', z', hj', hz'⟩ := get _ _ hz
    obtain ⟨k, hk⟩ := Option.isSome_iff_exists.1 (hr x'.1 z'.1)
    simp only [hi, hj', ijStep, hx', hz', hk, addStep, hl]
    exact ⟨_, rfl⟩

theorem loop_total (A : Alg J F) (hr : ∀ x y, (A.recombine x y).isSome = true) {n : Nat} :
    ∀ (m : Nat) {cs : CS J F} {act : List Nat} {G : List (List Nat)}, Inv n cs act G →
    m ≤ act.length → ∃ r, loop A m cs act = some r
  | 0, cs, act, G, _, _ => ⟨_, rfl⟩
  | m + 1, cs, act, G, I, h => by
    obtain ⟨⟨cs', act'⟩, hs⟩ := step_total A hr I (by intro e; simp [e] at h)
    simp only [loop, hs]
    obtain ⟨g, I'⟩ := I.step A hs
    have t := I.total
    have t' := I'.total
    obtain ⟨js, e, e1⟩ := step_prefix A cs act cs' act' hs I.actlt
    have hl : cs'.hist.length = cs.hist.length + 1 := by rw [e1]; simp
    exact loop_total A hr m I' (by omega)

/-- C53: the clustering of any event ends without an index out of range; it fails only if the
recombination scheme does. -/
theorem C53_total (A : Alg J F) (hp : ∀ x, (A.preprocess x).isSome = true)
    (hr : ∀ x y, (A.recombine x y).isSome = true) (js : List J) :
    ∃ cs, newClusterSequence A js = some cs := by
  obtain ⟨l, hl⟩ := initJets_total A hp js 0
  have hi : ∃ cs0, init A js = some cs0 := ⟨_, by simp only [init, hl, Option.map_some]; rfl⟩
  obtain ⟨cs0, hi⟩ := hi
  obtain ⟨ps, _, _, _, G, I⟩ := init_inv A js cs0 hi
  obtain ⟨r, hr⟩ := loop_total A hr js.length I (by simp)
  exact ⟨r.1, by simp only [newClusterSequence, hi, hr, Option.map_some]⟩

/-! ## Exclusive jets with a cut -/

theorem dropWhile_filter {α : Type} (p : α → Bool) : ∀ (l : List α),
    l.Pairwise (fun a b => p b = true → p a = true) →
    (l.dropWhile p).length + (l.filter p).length = l.length
  | [], _ => rfl
  | a :: l, h => by
    have ih := dropWhile_filter p l (List.pairwise_cons.1 h).2
    cases ha : p a with
    | true => simp only [List.dropWhile_cons, List.filter_cons, ha, if_true, List.length_cons]; omega
    | false =>
      have : l.filter p = [] := by
        apply List.filter_eq_nil_iff.2
        intro b hb hpb
        have := (List.pairwise_cons.1 h).1 b hb hpb
        rw [ha] at this; exact absurd this (by simp)
      simp [ha, this]

/-- C54, with a cut that is not negative: `ExclusiveJets(dcut)` returns as many jets as
`NumExclusiveJets(dcut)` says: the number of steps of the clustering at which the largest distance
so far is above the cut. -/
theorem C54_dcut [LinearOrder F] (A : Alg J F) (hge : ∀ x y, A.ge x y = decide (y ≤ x))
    (hmax : ∀ x y, A.fmax x y = max x y) (js : List J) (cs : CS J F)
    (h : newClusterSequence A js = some cs) (dcut : F) (hd : A.zero ≤ dcut) :
    ∃ jets, cs.exclusive A dcut = .ok jets ∧ cs.numExclusive A dcut = jets.length ∧
      jets.length = (cs.hist.filter (fun h => decide (dcut < h.maxdij))).length ∧
      jets.length ≤ js.length := by
  have D := final_dist A hmax js cs h
  obtain ⟨ps, cs0, G0, h1, h2, h3, hi, I0, hl⟩ := new_spec A js cs h
  obtain ⟨G', I⟩ := I0.loop A hl
  obtain ⟨js1, hs1, e1, hlen1⟩ := loop_prefix A _ _ _ _ _ _ _ I0 hl
  have hp : (fun h : Hist F => !A.ge dcut h.maxdij) = fun h => decide (dcut < h.maxdij) := by
    funext h
    rw [hge]
    by_cases hh : h.maxdij ≤ dcut
    · simp [hh, not_lt.2 hh]
    · simp [hh, not_le.1 hh]
  have hdw := dropWhile_filter (fun h : Hist F => decide (dcut < h.maxdij)) cs.hist.reverse (by
    apply List.pairwise_reverse.2
    refine List.Pairwise.imp ?_ D.mono
    intro a b hab ha
    simp only [decide_eq_true_eq] at ha ⊢
    exact lt_of_lt_of_le ha hab)
  have hfr : (cs.hist.reverse.filter (fun h => decide (dcut < h.maxdij))).length =
      (cs.hist.filter (fun h => decide (dcut < h.maxdij))).length := by
    rw [List.filter_reverse, List.length_reverse]
  have htot : cs.hist.length = 2 * js.length := by
    have := I.total; simpa using this
  have hnum : cs.numExclusive A dcut =
      ((cs.hist.filter (fun h => decide (dcut < h.maxdij))).length : Nat) := by
    simp only [CS.numExclusive, hp, I.initn]
    rw [hfr, List.length_reverse, htot] at hdw
    omega
  have hle : (cs.hist.filter (fun h => decide (dcut < h.maxdij))).length ≤ js.length := by
    rw [e1]
    dsimp only
    rw [List.filter_append, List.length_append]
    have : cs0.hist.filter (fun h => decide (dcut < h.maxdij)) = [] := by
      simp only [init] at hi
      cases hj : initJets A 0 js with
      | none => rw [hj] at hi; simp at hi
      | some l =>
        rw [hj] at hi
        simp only [Option.map_some, Option.some.injEq] at hi
        subst hi
        apply List.filter_eq_nil_iff.2
        intro x hx
        simp only [List.mem_map] at hx
        obtain ⟨i, _, rfl⟩ := hx
        simpa using hd
    rw [this]
    have := List.length_filter_le (fun h : Hist F => decide (dcut < h.maxdij)) hs1
    simp only [List.length_nil]
    omega
  obtain ⟨jets, cl, k1, k2, _⟩ := C54_exclusive A js cs h _ hle
  refine ⟨jets, ?_, ?_, k2, by omega⟩
  · simp only [CS.exclusive, hnum]; exact k1
  · rw [hnum, k2]

/-- More jets than particles are refused. -/
theorem C54_too_many (A : Alg J F) (js : List J) (cs : CS J F)
    (h : newClusterSequence A js = some cs) (k : Int) (hk : js.length < k) :
    cs.exclusiveUpTo k = .error := by
  obtain ⟨ps, cs0, G0, h1, h2, h3, hi, I0, hl⟩ := new_spec A js cs h
  obtain ⟨G', I⟩ := I0.loop A hl
  simp only [CS.exclusiveUpTo]
  rw [if_pos (by rw [I.initn]; exact hk)]

/-! ## Momenta -/

/-- The jets that are not particles of the event: each is the recombination of its two parents. -/
def RecInv (A : Alg J F) (n : Nat) (cs : CS J F) : Prop :=
  ∀ (k : Nat) x, n ≤ k → cs.jets[k]? = some x → ∃ (h : Hist F) (a b : Nat) (y z : J × Nat),
    cs.hist[x.2]? = some h ∧ h.parent1 = (a : Int) ∧ h.parent2 = (b : Int) ∧
    cs.jetOf (a : Int) = some y ∧ cs.jetOf (b : Int) = some z ∧
    (A.recombine y.1 z.1 = some x.1 ∨ A.recombine z.1 y.1 = some x.1)

theorem RecInv.step (A : Alg J F) {n : Nat} {cs : CS J F} {act : List Nat} {G : List (List Nat)}
    (I : Inv n cs act G) (R : RecInv A n cs) (cs' : CS J F) (act' : List Nat)
    (h : FastJet.step A cs act = some (cs', act')) : RecInv A n cs' := by
  rcases step_cases A cs act cs' act' h I.actlt with
    ⟨i, j, x, y, rest, k, l, hp, hp', hx, hy, hk, hl, rfl⟩ | ⟨i, x, l, hp, hx, hl, rfl⟩
  · intro q z hq hz
    by_cases hql : q < cs.jets.length
    · dsimp only at hz
      rw [List.getElem?_append_left hql] at hz
      obtain ⟨h, a, b, y, z', h1, h2, h3, h4, h5, h6⟩ := R q z hq hz
      exact ⟨h, a, b, y, z', getElem?_append_some _ h1, h2, h3, jetOf_append _ _ _ _ _ h4,
        jetOf_append _ _ _ _ _ h5, h6⟩
    · have hqe : q = cs.jets.length := by
        have := getElem?_lt hz; simp at this; omega
      subst hqe
      simp at hz
      subst hz
      have jx := I.jetOf_self hx
      have jy := I.jetOf_self hy
      rcases Nat.le_total x.2 y.2 with hle | hle
      · exact ⟨_, x.2, y.2, x, y, by simp; rfl, by rw [Nat.min_eq_left hle],
          by rw [Nat.max_eq_right hle], jetOf_append _ _ _ _ _ jx, jetOf_append _ _ _ _ _ jy,
          .inl hk⟩
      · exact ⟨_, y.2, x.2, y, x, by simp; rfl, by rw [Nat.min_eq_right hle],
          by rw [Nat.max_eq_left hle], jetOf_append _ _ _ _ _ jy, jetOf_append _ _ _ _ _ jx,
          .inr hk⟩
  · intro q z hq hz
    obtain ⟨h, a, b, y, z', h1, h2, h3, h4, h5, h6⟩ := R q z hq hz
    have j4 := jetOf_append cs [] [⟨x.2, beamJetIndex, invalidIndex, A.scale x.1,
            A.fmax (A.scale x.1) l.maxdij⟩] _ _ h4
    have j5 := jetOf_append cs [] [⟨x.2, beamJetIndex, invalidIndex, A.scale x.1,
            A.fmax (A.scale x.1) l.maxdij⟩] _ _ h5
    rw [List.append_nil] at j4 j5
    exact ⟨h, a, b, y, z', getElem?_append_some _ h1, h2, h3, j4, j5, h6⟩

theorem final_rec (A : Alg J F) (js : List J) (cs : CS J F)
    (h : newClusterSequence A js = some cs) :
    RecInv A js.length cs ∧ ∃ G, Inv js.length cs [] G := by
  obtain ⟨ps, cs0, G0, h1, h2, h3, hi, I0, hl⟩ := new_spec A js cs h
  have R0 : RecInv A js.length cs0 := by
    intro k x hk hx
    have := getElem?_lt hx
    rw [h3] at this
    simp at this
    omega
  have := loop_inv A (fun cs act => (∃ G, Inv js.length cs act G) ∧ RecInv A js.length cs)
    (fun cs act cs' act' ⟨⟨G, I⟩, D⟩ hs => by
      obtain ⟨g, I'⟩ := I.step A hs
      exact ⟨⟨_, I'⟩, RecInv.step A I D cs' act' hs⟩) _ _ _ _ _ ⟨⟨_, I0⟩, R0⟩ hl
  exact ⟨this.2, this.1⟩

theorem sum_spec {M : Type} [AddCommMonoid M] (A : Alg J F) (p : J → M)
    (hrec : ∀ x y k, A.recombine x y = some k → p k = p x + p y) {n : Nat} {cs : CS J F}
    {act : List Nat} {G : List (List Nat)} (I : Inv n cs act G) (R : RecInv A n cs) :
    ∀ (fuel : Nat) (x : J × Nat) (k : Nat), cs.jets[k]? = some x →
    ∀ l, addConstituents cs fuel x = some l → p x.1 = (l.map (fun y => p y.1)).sum
  | 0, x, k, hx, l, h => by simp [addConstituents] at h
  | fuel + 1, x, k, hx, l, h => by
    simp only [addConstituents] at h
    by_cases hk : k < n
    · obtain ⟨h', z, h1, h2, _, _, h5, h6, _⟩ := I.leaf k hk
      rw [hx] at h5
      simp only [Option.some.injEq] at h5
      subst h5
      rw [h6, h1] at h
      dsimp only at h
      rw [if_pos h2, hx] at h
      simp only [Option.map_some, Option.some.injEq] at h
      subst h
      simp
    · obtain ⟨h', a, b, y, z, h1, h2, h3, h4, h5, h6⟩ := R k x (by omega) hx
      have mem : ∀ (i : Int) y, cs.jetOf i = some y → ∃ k : Nat, cs.jets[k]? = some y := by
        intro i y hy
        simp only [CS.jetOf] at hy
        split at hy
        · simp at hy
        · rename_i h'' _
          simp only [at?] at hy
          split at hy
          · exact ⟨_, hy⟩
          · simp at hy
      obtain ⟨ky, hky⟩ := mem _ _ h4
      obtain ⟨kz, hkz⟩ := mem _ _ h5
      rw [h1] at h
      dsimp only at h
      rw [h2, if_neg (show ¬ ((a : Int) = inexistentParent) by simp only [inexistentParent]; omega),
        h4] at h
      dsimp only at h
      cases hc1 : addConstituents cs fuel y with
      | none => rw [hc1] at h; simp at h
      | some l1 =>
        rw [hc1] at h
        dsimp only at h
        rw [h3, if_neg (show ¬ ((b : Int) = beamJetIndex) by simp only [beamJetIndex]; omega), h5]
          at h
        dsimp only at h
        cases hc2 : addConstituents cs fuel z with
        | none => rw [hc2] at h; simp at h
        | some l2 =>
          rw [hc2] at h
          simp only [Option.some.injEq] at h
          subst h
          have i1 := sum_spec A p hrec I R fuel y ky hky l1 hc1
          have i2 := sum_spec A p hrec I R fuel z kz hkz l2 hc2
          rw [List.map_append, List.sum_append, ← i1, ← i2]
          rcases h6 with h6 | h6
          · exact hrec _ _ _ h6
          · rw [hrec _ _ _ h6, add_comm]

/-- C78: with a recombination that adds momenta (the E scheme,
fastjet/recombiner.go:36-80 (`Recombine`)), in exact arithmetic, the momentum of every jet of the
clustering is the sum of the momenta of its constituents. -/
theorem C78_momentum {M : Type} [AddCommMonoid M] (A : Alg J F) (p : J → M)
    (hrec : ∀ x y k, A.recombine x y = some k → p k = p x + p y) (js : List J) (cs : CS J F)
    (h : newClusterSequence A js = some cs) (jet : J × Nat) (hj : jet ∈ cs.jets) :
    ∃ l, cs.constituents jet = some l ∧ p jet.1 = (l.map (fun y => p y.1)).sum := by
  obtain ⟨R, G, I⟩ := final_rec A js cs h
  obtain ⟨k, hk⟩ := List.mem_iff_getElem?.1 hj
  obtain ⟨hh, hh1, _⟩ := I.jinv k jet hk
  obtain ⟨l, hl, _⟩ := constituents_spec I jet (getElem?_lt hh1)
  exact ⟨l, hl, sum_spec A p hrec I R _ jet k hk l hl⟩

/-- C78: the jets the user gets are jets of the clustering. -/
theorem C78_inclusive (A : Alg J F) (cs : CS J F) (w : Way) (dcut : F) (jets : List (J × Nat))
    (h : cs.inclusive A w dcut = some jets) : ∀ j ∈ jets, j ∈ cs.jets := by
  have mem : ∀ (i : Int) y, cs.jetOf i = some y → y ∈ cs.jets := by
    intro i y hy
    simp only [CS.jetOf] at hy
    split at hy
    · simp at hy
    · simp only [at?] at hy
      split at hy
      · exact List.mem_of_getElem? hy
      · simp at hy
  simp only [CS.inclusive] at h
  generalize cs.hist.reverse = hs at h
  induction hs generalizing jets with
  | nil => simp [inclusiveLoop] at h; subst h; simp
  | cons x hs ih =>
    have cons : ∀ (y : J × Nat) (i : Int) (o : Option (List (J × Nat))), cs.jetOf i = some y →
        o.map (y :: ·) = some jets → (∀ l, o = some l → ∀ j ∈ l, j ∈ cs.jets) →
        ∀ j ∈ jets, j ∈ cs.jets := by
      intro y i o hy ho hh
      cases o with
      | none => simp at ho
      | some l =>
        simp at ho
        subst ho
        intro j hj
        rcases List.mem_cons.1 hj with e | e
        · rw [e]; exact mem _ _ hy
        · exact hh l rfl j e
    simp only [inclusiveLoop] at h
    cases w with
    | kt =>
      dsimp only at h
      split at h
      · simp at h; subst h; simp
      · split at h
        · split at h
          · simp at h
          · rename_i y hy; exact cons y _ _ hy h ih
        · exact ih jets h
    | cambridge =>
      dsimp only at h
      split at h
      · simp at h; subst h; simp
      · split at h
        · simp at h
        · rename_i y hy
          split at h
          · exact cons y _ _ hy h ih
          · exact ih jets h
    | other =>
      dsimp only at h
      split at h
      · exact ih jets h
      · split at h
        · simp at h
        · rename_i y hy
          split at h
          · exact cons y _ _ hy h ih
          · exact ih jets h

/-! ## Closest first -/

theorem beamMin_le [LinearOrder F] (lt : F → F → Bool) (hlt : ∀ x y, lt x y = decide (x < y)) :
    ∀ (ys : List F) (i : Nat) (r : F × Nat),
    (beamMin lt i r ys).1 ≤ r.1 ∧ ∀ y ∈ ys, (beamMin lt i r ys).1 ≤ y
  | [], _, r => ⟨le_refl _, by simp⟩
  | y :: ys, i, r => by
    simp only [beamMin, hlt, decide_eq_true_eq]
    by_cases h : y < r.1
    · rw [if_pos h]
      obtain ⟨h1, h2⟩ := beamMin_le lt hlt ys (i + 1) (y, i)
      refine ⟨le_trans h1 (le_of_lt h), ?_⟩
      intro z hz
      rcases List.mem_cons.1 hz with e | e
      · rw [e]; exact h1
      · exact h2 z e
    · rw [if_neg h]
      obtain ⟨h1, h2⟩ := beamMin_le lt hlt ys (i + 1) r
      refine ⟨h1, ?_⟩
      intro z hz
      rcases List.mem_cons.1 hz with e | e
      · rw [e]; exact le_trans h1 (not_lt.1 h)
      · exact h2 z e

theorem rowMin_le [LinearOrder F] (A : Alg J F) (hlt : ∀ x y, A.lt x y = decide (x < y)) (i : Nat)
    (x : J) : ∀ (ys : List J) (j : Nat) (r : F × Nat × Option Nat),
    (rowMin A i x j r ys).1 ≤ r.1 ∧ ∀ y ∈ ys, (rowMin A i x j r ys).1 ≤ A.dist x y
  | [], _, r => ⟨le_refl _, by simp⟩
  | y :: ys, j, r => by
    simp only [rowMin, hlt, decide_eq_true_eq]
    by_cases h : A.dist x y < r.1
    · rw [if_pos h]
      obtain ⟨h1, h2⟩ := rowMin_le A hlt i x ys (j + 1) (A.dist x y, i, some j)
      refine ⟨le_trans h1 (le_of_lt h), ?_⟩
      intro z hz
      rcases List.mem_cons.1 hz with e | e
      · rw [e]; exact h1
      · exact h2 z e
    · rw [if_neg h]
      obtain ⟨h1, h2⟩ := rowMin_le A hlt i x ys (j + 1) r
      refine ⟨h1, ?_⟩
      intro z hz
      rcases List.mem_cons.1 hz with e | e
      · rw [e]; exact le_trans h1 (not_lt.1 h)
      · exact h2 z e

theorem pairMin_le [LinearOrder F] (A : Alg J F) (hlt : ∀ x y, A.lt x y = decide (x < y)) :
    ∀ (xs : List J) (i : Nat) (r : F × Nat × Option Nat),
    (pairMin A i r xs).1 ≤ r.1 ∧ xs.Pairwise (fun x y => (pairMin A i r xs).1 ≤ A.dist x y)
  | [], _, r => ⟨le_refl _, by simp⟩
  | x :: xs, i, r => by
    simp only [pairMin]
    obtain ⟨h1, h2⟩ := rowMin_le A hlt i x xs (i + 1) r
    obtain ⟨h3, h4⟩ := pairMin_le A hlt xs (i + 1) (rowMin A i x (i + 1) r xs)
    refine ⟨le_trans h3 h1, List.pairwise_cons.2 ⟨?_, h4⟩⟩
    intro y hy
    exact le_trans h3 (h2 y hy)

/-- C79: with ordered numbers (no NaN), what is combined next is at the smallest of all distances,
between two active jets or of one to the beam. -/
theorem C79_closest [LinearOrder F] (A : Alg J F) (hlt : ∀ x y, A.lt x y = decide (x < y))
    (js : List J) (r : F × Nat × Option Nat) (h : pick A js = some r) :
    (∀ x ∈ js, r.1 ≤ A.scale x) ∧ js.Pairwise (fun x y => r.1 ≤ A.dist x y) ∧
    ((r.2.2 = none ∧ ∃ x, js[r.2.1]? = some x ∧ r.1 = A.scale x) ∨
     (∃ j x y, r.2.2 = some j ∧ r.2.1 < j ∧ js[r.2.1]? = some x ∧ js[j]? = some y ∧
       r.1 = A.dist x y)) := by
  refine ⟨?_, ?_, pick_spec A js r h⟩
  all_goals
    cases js with
    | nil => simp [pick] at h
    | cons z zs =>
      simp only [pick, Option.some.injEq] at h
      subst h
      have hp := pairMin_le A hlt (z :: zs) 0
        ((beamMin A.lt 0 (A.scale z, 0) ((z :: zs).map A.scale)).1,
         (beamMin A.lt 0 (A.scale z, 0) ((z :: zs).map A.scale)).2, none)
      have hb := beamMin_le A.lt hlt ((z :: zs).map A.scale) 0 (A.scale z, 0)
      first
        | exact hp.2
        | exact fun x hx => le_trans hp.1 (hb.2 _ (List.mem_map.2 ⟨x, hx, rfl⟩))

/-- C79, for a step of the clustering: the distance it records is that of what it combines, and no
two active jets are closer, nor is any to the beam. -/
theorem C79_step [LinearOrder F] (A : Alg J F) (hlt : ∀ x y, A.lt x y = decide (x < y))
    (hsym : ∀ x y, A.dist x y = A.dist y x) (cs : CS J F) (act : List Nat)
    (cs' : CS J F) (act' : List Nat) (h : step A cs act = some (cs', act')) :
    ∃ e, cs'.hist = cs.hist ++ [e] ∧
      (∀ i ∈ act, ∀ x, cs.jets[i]? = some x → e.dij ≤ A.scale x.1) ∧
      (∀ i ∈ act, ∀ j ∈ act, i ≠ j → ∀ x y, cs.jets[i]? = some x → cs.jets[j]? = some y →
        e.dij ≤ A.dist x.1 y.1) := by
  simp only [step] at h
  cases hjs : act.mapM (fun k => (cs.jets[k]?).map (·.1)) with
  | none => rw [hjs] at h; simp at h
  | some js =>
    rw [hjs] at h
    dsimp only at h
    cases hp : pick A js with
    | none => rw [hp] at h; simp at h
    | some r =>
      rw [hp] at h
      obtain ⟨c1, c2, _⟩ := C79_closest A hlt js r hp
      have hdij : ∃ e, cs'.hist = cs.hist ++ [e] ∧ e.dij = r.1 := by
        obtain ⟨y, ii, jj⟩ := r
        cases jj with
        | none =>
          dsimp only at h
          cases hi : act[ii]? with
          | none => rw [hi] at h; simp at h
          | some i =>
            rw [hi] at h
            dsimp only at h
            simp only [ibStep, addStep] at h
            cases hx : cs.jets[i]? with
            | none => rw [hx] at h; simp at h
            | some x =>
              rw [hx] at h
              cases hl : cs.hist.getLast? with
              | none => rw [hl] at h; simp at h
              | some l =>
                rw [hl] at h
                simp only [Option.map_some, Option.some.injEq, Prod.mk.injEq] at h
                exact ⟨⟨x.2, beamJetIndex, invalidIndex, y, A.fmax y l.maxdij⟩, by rw [← h.1], rfl⟩
        | some jj =>
          dsimp only at h
          cases hi : act[ii]? with
          | none => rw [hi] at h; simp at h
          | some i =>
            cases hj : act[jj]? with
            | none => rw [hi, hj] at h; simp at h
            | some j =>
              rw [hi, hj] at h
              dsimp only at h
              simp only [ijStep, addStep] at h
              cases hx : cs.jets[i]? with
              | none => rw [hx] at h; simp at h
              | some x =>
                cases hy : cs.jets[j]? with
                | none => rw [hx, hy] at h; simp at h
                | some z =>
                  rw [hx, hy] at h
                  dsimp only at h
                  cases hk : A.recombine x.1 z.1 with
                  | none => rw [hk] at h; simp at h
                  | some k =>
                    rw [hk] at h
                    cases hl : cs.hist.getLast? with
                    | none => rw [hl] at h; simp at h
                    | some l =>
                      rw [hl] at h
                      simp only [Option.some.injEq, Prod.mk.injEq] at h
                      exact ⟨⟨(min x.2 z.2 : Nat), (max x.2 z.2 : Nat), cs.jets.length, y,
                        A.fmax y l.maxdij⟩, by rw [← h.1], rfl⟩
      obtain ⟨e, he, hd⟩ := hdij
      refine ⟨e, he, ?_, ?_⟩
      · intro i hi x hx
        obtain ⟨a, ha, ea⟩ := List.mem_iff_getElem.1 hi
        obtain ⟨x', hx1, hx2⟩ := mapM_some_get _ _ _ hjs a i
          (by rw [List.getElem?_eq_getElem ha, ea])
        rw [hx] at hx1
        simp at hx1
        subst hx1
        rw [hd]
        exact c1 _ (List.mem_of_getElem? hx2)
      · intro i hi j hj hij x y hx hy
        obtain ⟨a, ha, ea⟩ := List.mem_iff_getElem.1 hi
        obtain ⟨b, hb, eb⟩ := List.mem_iff_getElem.1 hj
        obtain ⟨x', hx1, hx2⟩ := mapM_some_get _ _ _ hjs a i
          (by rw [List.getElem?_eq_getElem ha, ea])
        obtain ⟨y', hy1, hy2⟩ := mapM_some_get _ _ _ hjs b j
          (by rw [List.getElem?_eq_getElem hb, eb])
        rw [hx] at hx1
        rw [hy] at hy1
        simp at hx1 hy1
        subst hx1 hy1
        rw [List.pairwise_iff_getElem] at c2
        have hne : a ≠ b := by
          intro e; subst e; rw [ea] at eb; exact hij eb
        obtain ⟨ha', ea'⟩ := List.getElem?_eq_some_iff.1 hx2
        obtain ⟨hb', eb'⟩ := List.getElem?_eq_some_iff.1 hy2
        rw [hd]
        rcases Nat.lt_or_gt_of_ne hne with hab | hab
        · have := c2 a b ha' hb' hab
          rw [ea', eb'] at this
          exact this
        · have := c2 b a hb' ha' hab
          rw [ea', eb'] at this
          rw [hsym]; exact this

/-! ## Examples, and what goes wrong -/

/-- Particles on a line: a position and a momentum.  Kt with numbers without NaN. -/
def exKt : Alg (Int × Int) Int where
  scale := fun x => x.2 * x.2
  dist := fun x y => min (x.2 * x.2) (y.2 * y.2) * ((x.1 - y.1) * (x.1 - y.1))
  lt := fun x y => decide (x < y)
  ge := fun x y => decide (y ≤ x)
  fmax := max
  zero := 0
  pt2 := fun x => x.2 * x.2
  recombine := fun x y => some ((x.1 + y.1) / 2, x.2 + y.2)
  preprocess := some

/-- The same with the distances of Cambridge, the square of the radius being 10. -/
def exCam : Alg (Int × Int) Int :=
  { exKt with scale := fun _ => 10, dist := fun x y => (x.1 - y.1) * (x.1 - y.1) }

/-- An event of four particles. -/
def exEvent : List (Int × Int) := [(0, 5), (0, 2), (10, 3), (11, 3)]

/-- The constituents of the inclusive jets, by number. -/
def exInclusive (A : Alg (Int × Int) Int) (w : Way) (dcut : Int) : Option (List (List Nat)) :=
  match newClusterSequence A exEvent with
  | none => none
  | some cs =>
    match cs.inclusive A w dcut with
    | none => none
    | some l => (l.mapM cs.constituents).map fun cl => cl.map fun c => c.map (·.2)

/-- The constituents of the exclusive jets, by number. -/
def exExclusive (A : Alg (Int × Int) Int) (k : Int) : Option (List (List Nat)) :=
  match newClusterSequence A exEvent with
  | none => none
  | some cs =>
    match cs.exclusiveUpTo k with
    | .ok l => (l.mapM cs.constituents).map fun cl => cl.map fun c => c.map (·.2)
    | _ => none

/-- Two close particles recombine in `exCam`; the cut drops one of the two jets. -/
example : exInclusive exCam .cambridge 0 = some [[2, 3], [0, 1]] ∧
    exInclusive exCam .other 0 = some [[2, 3], [0, 1]] ∧
    exInclusive exCam .cambridge 40 = some [[0, 1]] ∧
    exExclusive exCam 3 = some [[2], [3], [0, 1]] ∧
    exExclusive exCam 1 = some [[2, 3]] ∧ exExclusive exCam 0 = some [] := by
  decide +kernel

/-- In `exKt` the particles at the same place recombine, the others are as close to the beam. -/
example : exInclusive exKt .kt 0 = some [[0, 1], [2], [3]] ∧
    exInclusive exKt .kt 10 = some [[0, 1]] ∧ exExclusive exKt 2 = some [[2], [0, 1]] := by
  decide +kernel

/-- The hypotheses of the theorems hold for the examples. -/
example : ∃ cs, newClusterSequence exCam exEvent = some cs ∧
    Partition exCam exEvent cs .cambridge ∧ Partition exCam exEvent cs .other := by
  obtain ⟨cs, h⟩ := C53_total exCam (fun _ => rfl) (fun _ _ => rfl) exEvent
  exact ⟨cs, h, C53_cambridge exCam 10 rfl (fun _ => rfl)
    (fun x y => by
      show (x.1 - y.1) * (x.1 - y.1) = (y.1 - x.1) * (y.1 - x.1)
      rw [← Int.neg_mul_neg, Int.neg_sub]) exEvent cs h, C53_other _ _ _ h⟩

example : ∃ cs, newClusterSequence exKt exEvent = some cs ∧ Partition exKt exEvent cs .kt ∧
    (∃ jets, cs.exclusive exKt 4 = .ok jets ∧ jets.length ≤ 4) ∧
    ∀ jet ∈ cs.jets, ∃ l, cs.constituents jet = some l ∧
      jet.1.2 = (l.map (fun y => y.1.2)).sum := by
  obtain ⟨cs, h⟩ := C53_total exKt (fun _ => rfl) (fun _ _ => rfl) exEvent
  refine ⟨cs, h, C53_kt exKt (fun _ _ => rfl) (fun _ _ => rfl) (fun _ _ => rfl) (fun _ => rfl)
    exEvent cs h, ?_, ?_⟩
  · obtain ⟨jets, j1, _, _, j4⟩ := C54_dcut exKt (fun _ _ => rfl) (fun _ _ => rfl) exEvent cs h 4
      (by decide)
    exact ⟨jets, j1, j4⟩
  · exact C78_momentum exKt (fun x => x.2)
      (fun x y k hk => by simp [exKt] at hk; rw [← hk]) exEvent cs h

/-- Numbers with NaN: `none`.  Comparisons with it are false. -/
def exNaN : Alg (Option Int) (Option Int) where
  scale := fun x => x
  dist := fun _ _ => some 1000
  lt := fun x y => match x, y with | some a, some b => decide (a < b) | _, _ => false
  ge := fun x y => match x, y with | some a, some b => decide (b ≤ a) | _, _ => false
  fmax := fun x y => match x, y with | some a, some b => some (max a b) | _, _ => none
  zero := some 0
  pt2 := fun x => x
  recombine := fun x y => match x, y with | some a, some b => some (some (a + b)) | _, _ => some none
  preprocess := some

/-- C53 fails with NaN: a particle whose transverse momentum is NaN belongs to no inclusive jet
at `ptmin = 0`, whatever the algorithm. -/
theorem C53_nan_counterexample : ∀ w, (match newClusterSequence exNaN [some 5, none] with
    | none => none
    | some cs => (cs.inclusive exNaN w (some 0)).map fun l => l.map (·.2)) = some [0] := by
  intro w
  cases w <;> decide +kernel

/-- C54 with a negative number of jets: a panic. -/
theorem C54_negative_counterexample : (newClusterSequence exCam exEvent).map
    (fun cs => cs.exclusiveUpTo (-1)) = some .panic := by
  decide +kernel

/-- C54 with a negative cut: `NumExclusiveJets` counts eight jets of four particles, and
`ExclusiveJets` returns an error. -/
theorem C54_negative_cut_counterexample : (newClusterSequence exCam exEvent).map
    (fun cs => (cs.numExclusive exCam (-1), cs.exclusive exCam (-1))) = some (8, .error) := by
  decide +kernel

/-- C54 with a cut below the distances to the beam: the particles of a jet combined with the beam
early are in no exclusive jet.  Three particles of momenta 1, 5, 5: of two exclusive jets, none
holds the first. -/
theorem C54_beam_counterexample : (match newClusterSequence exKt [(0, 1), (10, 5), (20, 5)] with
    | none => none
    | some cs => match cs.exclusiveUpTo 2 with
      | .ok l => some (l.map (·.2))
      | _ => none) = some [2, 1] := by
  decide +kernel

end Verif.FastJet
