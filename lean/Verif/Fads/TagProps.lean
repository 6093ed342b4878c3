import Verif.Fads.SelectProps

/-!
# C152: Tagging jets
-/

namespace Verif.Fads

/-! ## Specification -/

section

variable {K : Type} [Field K] [LinearOrder K]

/-- The daughters of a particle: those from the first to the last index. -/
def daughters (particles : List (Cand K)) (t : Cand K) : List (Cand K) :=
  (particles.drop t.obj.d1.toNat).take (t.obj.d2 + 1 - t.obj.d1).toNat

/-- A tau in the acceptance that decays into hadrons. -/
def HadronicTau (pt eta : P4 K → K) (ptMin etaMax : K) (particles : List (Cand K)) (t : Cand K) : Prop :=
  (t.obj.pid = 15 ∨ t.obj.pid = -15) ∧ ptMin < pt t.obj.mom ∧ |eta t.obj.mom| ≤ etaMax ∧
    0 ≤ t.obj.d1 ∧
    ∀ d ∈ daughters particles t, ∀ p ∈ ([11, 13, 15, 24] : List Int), d.obj.pid ≠ p ∧ d.obj.pid ≠ -p

/-- The momentum of what can be seen of a tau: the sum over its daughters without the neutrinos. -/
def visibleMom (particles : List (Cand K)) (t : Cand K) : P4 K :=
  let ds := (daughters particles t).filter fun d => decide (d.obj.pid ≠ 16 ∧ d.obj.pid ≠ -16)
  ⟨(ds.map fun d => d.obj.mom.px).sum, (ds.map fun d => d.obj.mom.py).sum,
   (ds.map fun d => d.obj.mom.pz).sum, (ds.map fun d => d.obj.mom.e).sum⟩

/-- A jet is near a hadronic tau. -/
def NearTau (pt eta : P4 K → K) (dR : P4 K → P4 K → K) (rmax ptMin etaMax : K)
    (particles partons : List (Cand K)) (jet : P4 K) (t : Cand K) : Prop :=
  t ∈ partons ∧ HadronicTau pt eta ptMin etaMax particles t ∧ dR jet (visibleMom particles t) < rmax

/-! ## Jets of b quarks -/

/-- **C152, b tags.**  The jets put into the store should carry a tag where the random number is
within the efficiency for their flavour.  What is put are the jets as they were: no jet is ever
tagged. -/
theorem C152_btag_counterexample (pt eta : P4 K → K) (dR : P4 K → P4 K → K) (rmax ptMin etaMax : K)
    (bit : Nat) (eff : Int → Option (K → K → K)) (partons jets : List (Cand K)) (rs : List K)
    (out : List (Obj K))
    (h : btagging pt eta dR rmax ptMin etaMax bit eff partons jets rs = some out) :
    out = jets.map Cand.obj := by
  simp only [btagging] at h
  split at h
  · cases h
  · simpa using h.symm

/-! ## Jets of taus -/

omit [Field K] [LinearOrder K] in
theorem rangeI_get (particles : List (Cand K)) : ∀ (n a : Nat), a + n ≤ particles.length →
    (rangeI (a : Int) n).map (atI particles) = ((particles.drop a).take n).map some
  | 0, a, _ => by simp [rangeI]
  | n + 1, a, h => by
    have e : particles.drop a = particles[a] :: particles.drop (a + 1) :=
      List.drop_eq_getElem_cons (by omega)
    rw [rangeI, e, List.take_succ_cons, List.map_cons, List.map_cons]
    have := rangeI_get particles n (a + 1) (by omega)
    push_cast at this
    rw [this]
    congr 1
    simp [atI]

omit [Field K] [LinearOrder K] in
theorem leptonic_iff (c : Cand K) : leptonic c = true ↔
    ¬ ∀ p ∈ ([11, 13, 15, 24] : List Int), c.obj.pid ≠ p ∧ c.obj.pid ≠ -p := by
  simp only [leptonic, Bool.or_eq_true, beq_iff_eq, List.forall_mem_cons, List.not_mem_nil]
  constructor
  · intro h hn
    simp at hn
    omega
  · intro h
    by_contra hn
    apply h
    simp
    omega

omit [Field K] [LinearOrder K] in
theorem anyLeptonic_eq (particles : List (Cand K)) : ∀ (is : List Int) (ds : List (Cand K)),
    is.map (atI particles) = ds.map some → anyLeptonic particles is = some (ds.any leptonic)
  | [], ds, h => by
    have : ds = [] := by simpa using h.symm
    subst this
    rfl
  | i :: is, [], h => by simp at h
  | i :: is, d :: ds, h => by
    simp only [List.map_cons, List.cons.injEq] at h
    simp only [anyLeptonic, h.1, List.any_cons]
    cases leptonic d
    · simpa using anyLeptonic_eq particles is ds h.2
    · simp

/-- All daughters of a tau are there. -/
def InRange (particles : List (Cand K)) (t : Cand K) : Prop :=
  t.obj.pid = 15 ∨ t.obj.pid = -15 → 0 ≤ t.obj.d1 → t.obj.d1 ≤ t.obj.d2 ∧ t.obj.d2 < particles.length

theorem isTau_iff (pt eta : P4 K → K) (ptMin etaMax : K) (particles : List (Cand K)) (t : Cand K)
    (hr : InRange particles t) :
    ∃ b, isTau pt eta ptMin etaMax particles t = some b ∧
      (b = true ↔ HadronicTau pt eta ptMin etaMax particles t) := by
  have h15 : t.obj.pid.natAbs = 15 ↔ t.obj.pid = 15 ∨ t.obj.pid = -15 := by omega
  simp only [isTau]
  split_ifs with h1 h2 h3
  · refine ⟨false, rfl, ?_⟩
    simp only [Bool.false_eq_true, false_iff]
    intro h
    exact h1 (h15.mpr h.1)
  · refine ⟨false, rfl, ?_⟩
    simp only [Bool.false_eq_true, false_iff]
    intro h
    rcases h2 with h2 | h2
    · exact absurd h.2.1 (not_lt.mpr h2)
    · exact absurd h.2.2.1 (not_le.mpr h2)
  · refine ⟨false, rfl, ?_⟩
    simp only [Bool.false_eq_true, false_iff]
    intro h
    have := h.2.2.2.1
    omega
  · have hr' := hr (by omega) (by omega)
    have hmap := rangeI_get particles (t.obj.d2 + 1 - t.obj.d1).toNat t.obj.d1.toNat (by omega)
    rw [Int.toNat_of_nonneg (by omega)] at hmap
    rw [anyLeptonic_eq particles _ _ hmap]
    refine ⟨_, rfl, ?_⟩
    rw [Bool.not_eq_true', ← Bool.not_eq_true, List.any_eq_true]
    push Not at h1 h2
    constructor
    · intro h
      refine ⟨h15.mp h1, h2.1, h2.2, by omega, ?_⟩
      intro d hd
      by_contra hl
      exact h ⟨d, hd, (leptonic_iff d).mpr hl⟩
    · rintro h ⟨d, hd, hl⟩
      exact (leptonic_iff d).mp hl (h.2.2.2.2 d hd)

theorem taus_eq (pt eta : P4 K → K) (ptMin etaMax : K) (particles : List (Cand K)) :
    ∀ (l : List (Cand K)), (∀ t ∈ l, InRange particles t) →
      ∃ ts, taus pt eta ptMin etaMax particles l = some ts ∧
        ∀ t, t ∈ ts ↔ t ∈ l ∧ HadronicTau pt eta ptMin etaMax particles t
  | [], _ => ⟨[], rfl, by simp⟩
  | c :: cs, h => by
    obtain ⟨ts, h1, h2⟩ := taus_eq pt eta ptMin etaMax particles cs fun t ht => h t (by simp [ht])
    obtain ⟨b, h3, h4⟩ := isTau_iff pt eta ptMin etaMax particles c (h c (by simp))
    refine ⟨if b then c :: ts else ts, by simp [taus, h1, h3], ?_⟩
    intro t
    cases b
    · simp only [Bool.false_eq_true, if_false, List.mem_cons, h2]
      constructor
      · rintro ⟨h5, h6⟩
        exact ⟨Or.inr h5, h6⟩
      · rintro ⟨rfl | h5, h6⟩
        · exact absurd (h4.mpr h6) (by simp)
        · exact ⟨h5, h6⟩
    · simp only [if_true, List.mem_cons, h2]
      constructor
      · rintro (rfl | ⟨h5, h6⟩)
        · exact ⟨Or.inl rfl, h4.mp rfl⟩
        · exact ⟨Or.inr h5, h6⟩
      · rintro ⟨rfl | h5, h6⟩
        · exact Or.inl rfl
        · exact Or.inr ⟨h5, h6⟩

/-- The sum over the particles which are no tau neutrinos. -/
def seen (ds : List (Cand K)) : P4 K :=
  let ds := ds.filter fun d => decide (d.obj.pid ≠ 16 ∧ d.obj.pid ≠ -16)
  ⟨(ds.map fun d => d.obj.mom.px).sum, (ds.map fun d => d.obj.mom.py).sum,
   (ds.map fun d => d.obj.mom.pz).sum, (ds.map fun d => d.obj.mom.e).sum⟩

omit [LinearOrder K] in
theorem sumDaughters_eq (particles : List (Cand K)) : ∀ (is : List Int) (ds : List (Cand K)) (s : P4 K),
    is.map (atI particles) = ds.map some →
      sumDaughters particles s is = some (s.add (seen ds))
  | [], ds, s, h => by
    have : ds = [] := by simpa using h.symm
    subst this
    simp [sumDaughters, seen, P4.add]
  | i :: is, [], s, h => by simp at h
  | i :: is, d :: ds, s, h => by
    simp only [List.map_cons, List.cons.injEq] at h
    simp only [sumDaughters, h.1]
    rw [sumDaughters_eq particles is ds _ h.2]
    by_cases hp : d.obj.pid.natAbs = 16
    · rw [if_pos hp]
      have : ¬ (d.obj.pid ≠ 16 ∧ d.obj.pid ≠ -16) := by omega
      simp only [seen]
      rw [List.filter_cons_of_neg (by simpa using this)]
    · rw [if_neg hp]
      have : d.obj.pid ≠ 16 ∧ d.obj.pid ≠ -16 := by omega
      simp only [seen]
      rw [List.filter_cons_of_pos (by simpa using this)]
      simp [P4.add, add_assoc]

/-- The last daughter of a tau is a neutrino. -/
def LastNeutrino (particles : List (Cand K)) (t : Cand K) : Prop :=
  ∀ d, particles[t.obj.d2.toNat]? = some d → d.obj.pid = 16 ∨ d.obj.pid = -16

omit [LinearOrder K] in
theorem visible_eq (particles : List (Cand K)) (t : Cand K) (hr : InRange particles t)
    (hp : t.obj.pid = 15 ∨ t.obj.pid = -15) (h0 : 0 ≤ t.obj.d1) (hl : LastNeutrino particles t) :
    visible particles t = some (visibleMom particles t) := by
  obtain ⟨h1, h2⟩ := hr hp h0
  have hmap := rangeI_get particles (t.obj.d2 - t.obj.d1).toNat t.obj.d1.toNat (by omega)
  rw [Int.toNat_of_nonneg h0] at hmap
  rw [visible, sumDaughters_eq particles _ _ _ hmap]
  have hd : daughters particles t =
      (particles.drop t.obj.d1.toNat).take (t.obj.d2 - t.obj.d1).toNat ++
        [particles[t.obj.d2.toNat]'(by omega)] := by
    have e : (t.obj.d2 + 1 - t.obj.d1).toNat = (t.obj.d2 - t.obj.d1).toNat + 1 := by omega
    rw [daughters, e, List.take_add_one]
    congr 1
    have e2 : t.obj.d1.toNat + (t.obj.d2 - t.obj.d1).toNat = t.obj.d2.toNat := by omega
    rw [List.getElem?_drop, e2, List.getElem?_eq_getElem (by omega)]
    rfl
  have hp := hl (particles[t.obj.d2.toNat]'(by omega)) (List.getElem?_eq_getElem (by omega))
  have hs : visibleMom particles t =
      seen ((particles.drop t.obj.d1.toNat).take (t.obj.d2 - t.obj.d1).toNat) := by
    simp only [visibleMom, seen, hd, List.filter_append]
    rw [List.filter_cons_of_neg (by simp; omega)]
    simp
  rw [hs]
  simp [P4.add, seen]

/-- What the loop over the taus leaves. -/
theorem tauMatch_eq (dR : P4 K → P4 K → K) (rmax : K) (particles : List (Cand K)) (jet : P4 K) :
    ∀ (ts : List (Cand K)) (r : Int × Int),
      (∀ t ∈ ts, 0 ≤ t.obj.d1 ∧ visible particles t = some (visibleMom particles t)) →
      ∃ r', tauMatch dR rmax particles jet ts r = some r' ∧
        ((∃ t ∈ ts, dR jet (visibleMom particles t) < rmax ∧ r' = (15, t.obj.charge)) ∨
         ((∀ t ∈ ts, ¬ dR jet (visibleMom particles t) < rmax) ∧ r' = r))
  | [], r, _ => ⟨r, rfl, Or.inr ⟨by simp, rfl⟩⟩
  | c :: cs, r, h => by
    obtain ⟨h1, h2⟩ := h c (by simp)
    have hcs := fun t ht => h t (List.mem_cons_of_mem c ht)
    simp only [tauMatch, h2]
    rw [if_neg (by omega)]
    by_cases hd : dR jet (visibleMom particles c) < rmax
    · rw [if_pos hd]
      obtain ⟨r', h3, h4⟩ := tauMatch_eq dR rmax particles jet cs (15, c.obj.charge) hcs
      refine ⟨r', h3, Or.inl ?_⟩
      rcases h4 with ⟨t, ht, h5, h6⟩ | ⟨_, h6⟩
      · exact ⟨t, by simp [ht], h5, h6⟩
      · exact ⟨c, by simp, hd, h6⟩
    · rw [if_neg hd]
      obtain ⟨r', h3, h4⟩ := tauMatch_eq dR rmax particles jet cs r hcs
      refine ⟨r', h3, ?_⟩
      rcases h4 with ⟨t, ht, h5, h6⟩ | ⟨h5, h6⟩
      · exact Or.inl ⟨t, by simp [ht], h5, h6⟩
      · refine Or.inr ⟨?_, h6⟩
        intro t ht
        rcases List.mem_cons.mp ht with rfl | ht
        · exact hd
        · exact h5 t ht

/-- What a tagged jet has to be: as it was, but for tag and charge. -/
def TauTagged (pt eta : P4 K → K) (dR : P4 K → P4 K → K) (rmax ptMin etaMax : K)
    (eff : Int → Option (K → K → K)) (particles partons : List (Cand K)) (jet : Cand K) (r : K × K)
    (o : Obj K) : Prop :=
  o = { jet.obj with tautag := o.tautag, charge := o.charge } ∧
  (((∃ t, NearTau pt eta dR rmax ptMin etaMax particles partons jet.obj.mom t ∧
        o.charge = t.obj.charge) ∧
      ∃ f, (eff 15 = some f ∨ eff 15 = none ∧ eff 0 = some f) ∧
        o.tautag = if r.2 ≤ f (pt jet.obj.mom) (eta jet.obj.mom) then 1 else 0) ∨
   ((∀ t, ¬ NearTau pt eta dR rmax ptMin etaMax particles partons jet.obj.mom t) ∧
      o.charge = (if 1 / 2 < r.1 then 1 else -1) ∧
      ∃ f, eff 0 = some f ∧
        o.tautag = if r.2 ≤ f (pt jet.obj.mom) (eta jet.obj.mom) then 1 else 0))

/-- **C152 (part), tau tags.**  If the last daughter of every tau decaying into hadrons is a neutrino, all daughters are
there, and an efficiency for jets of no tau is given: there is one jet for each jet of the input, in
the same order and the same but for charge and tag.  The jet has the charge of a tau decaying into
hadrons, of which the visible momentum is near, if there is one, and the tag where the random number
is within the efficiency for such a jet. -/
theorem C152_tau_partial (pt eta : P4 K → K) (dR : P4 K → P4 K → K) (rmax ptMin etaMax : K)
    (eff : Int → Option (K → K → K)) (particles partons jets : List (Cand K)) (rs : List (K × K))
    (hlen : rs.length = jets.length) (heff : (eff 0).isSome = true)
    (hr : ∀ t ∈ partons, InRange particles t) 
    (hl : ∀ t ∈ partons, HadronicTau pt eta ptMin etaMax particles t → LastNeutrino particles t) :
    ∃ out, tautagging pt eta dR rmax ptMin etaMax eff particles partons jets rs = some out ∧
      out.length = jets.length ∧
      ∀ (i : Nat) (jet : Cand K) (r : K × K), jets[i]? = some jet → rs[i]? = some r →
        ∃ o, out[i]? = some o ∧
          TauTagged pt eta dR rmax ptMin etaMax eff particles partons jet r o := by
  obtain ⟨ts, h1, h2⟩ := taus_eq pt eta ptMin etaMax particles partons hr
  have hvis : ∀ t ∈ ts, 0 ≤ t.obj.d1 ∧ visible particles t = some (visibleMom particles t) := by
    intro t ht
    obtain ⟨h3, h4⟩ := (h2 t).mp ht
    have h0 := h4.2.2.2.1
    exact ⟨h0, visible_eq particles t (hr t h3) h4.1 h0 (hl t h3 h4)⟩
  have hjet : ∀ x : Cand K × K × K, ∃ o, tauJet pt eta dR rmax eff particles ts x = some o ∧
      TauTagged pt eta dR rmax ptMin etaMax eff particles partons x.1 x.2 o := by
    intro x
    obtain ⟨r', h3, h4⟩ := tauMatch_eq dR rmax particles x.1.obj.mom ts
      (0, if 1 / 2 < x.2.1 then 1 else -1) hvis
    simp only [tauJet, h3]
    obtain ⟨g, hg⟩ := Option.isSome_iff_exists.mp heff
    rcases h4 with ⟨t, ht, h5, rfl⟩ | ⟨h5, rfl⟩
    · obtain ⟨h6, h7⟩ := (h2 t).mp ht
      cases he : eff 15 with
      | some f =>
        simp only [effOf, he]
        exact ⟨_, rfl, rfl, Or.inl ⟨⟨t, ⟨h6, h7, h5⟩, rfl⟩, f, Or.inl he, rfl⟩⟩
      | none =>
        simp only [effOf, he, hg]
        exact ⟨_, rfl, rfl, Or.inl ⟨⟨t, ⟨h6, h7, h5⟩, rfl⟩, g, Or.inr ⟨he, hg⟩, rfl⟩⟩
    · simp only [effOf, hg]
      refine ⟨_, rfl, rfl, Or.inr ⟨?_, rfl, g, hg, rfl⟩⟩
      rintro t ⟨h6, h7, h8⟩
      exact h5 t ((h2 t).mpr ⟨h6, h7⟩) h8
  have hmap : ∀ l : List (Cand K × K × K), ∃ out,
      l.mapM (tauJet pt eta dR rmax eff particles ts) = some out ∧ out.length = l.length ∧
      ∀ (i : Nat) (x : Cand K × K × K), l[i]? = some x →
        ∃ o, out[i]? = some o ∧ TauTagged pt eta dR rmax ptMin etaMax eff particles partons x.1 x.2 o := by
    intro l
    induction l with
    | nil => exact ⟨[], rfl, rfl, by simp⟩
    | cons x xs ih =>
      obtain ⟨out, h3, h4, h5⟩ := ih
      obtain ⟨o, h6, h7⟩ := hjet x
      refine ⟨o :: out, by simp [List.mapM_cons, h6, h3], by simp [h4], ?_⟩
      intro i y hy
      cases i with
      | zero =>
        simp only [List.getElem?_cons_zero, Option.some.injEq] at hy
        subst hy
        exact ⟨o, rfl, h7⟩
      | succ i => exact h5 i y (by simpa using hy)
  obtain ⟨out, h3, h4, h5⟩ := hmap (jets.zip rs)
  refine ⟨out, by simp only [tautagging, h1, h3], by simp [h4, hlen], ?_⟩
  intro i jet r hj hrr
  exact h5 i (jet, r) (List.getElem?_zip_eq_some.mpr ⟨hj, hrr⟩)

end

/-! ## Examples -/

/-- A particle with daughters. -/
def exPart (pid charge d1 d2 : Int) (px e : ℚ) : Cand ℚ :=
  .mk 0 ⟨pid, charge, d1, d2, 0, 0, 0, 0, 0, ⟨px, 0, 0, e⟩⟩ []

/-- The distance of the examples: that of the energies. -/
def exR (a b : P4 ℚ) : ℚ := if a.e ≤ b.e then b.e - a.e else a.e - b.e

/-- Jets near taus are always tagged, others never. -/
def exEff : Int → Option (ℚ → ℚ → ℚ)
  | 15 => some fun _ _ => 1
  | 0 => some fun _ _ => -1
  | _ => none

/-- A tau that decays into a pion and a neutrino. -/
def exTau : List (Cand ℚ) := [exPart 15 (-1) 1 2 30 50, exPart (-211) (-1) (-1) (-1) 20 40, exPart 16 0 (-1) (-1) 10 10]

example : (∀ t ∈ exTau, InRange exTau t) ∧ ∀ t ∈ [exTau[0]], LastNeutrino exTau t := by
  constructor
  · simp [exTau, exPart, InRange, Cand.obj]
  · simp [exTau, exPart, LastNeutrino, Cand.obj]

example :
    (tautagging (fun p => p.px) (fun _ => 0) exR 1 1 2 exEff exTau [exTau[0]]
      [exPart 0 0 0 0 20 40, exPart 0 0 0 0 5 90] [(3 / 4, 1 / 2), (3 / 4, 1 / 2)]).map
      (·.map fun o => (o.tautag, o.charge)) = some [(1, -1), (0, 1)] := by decide +kernel

/-- **C152, the last daughter.**  With the pion behind the neutrino, nothing of the tau is seen: the
jet, which has the momentum of the pion, is not tagged, and gets a random charge. -/
theorem C152_last_counterexample :
    let ps := [exPart 15 (-1) 1 2 30 50, exPart 16 0 (-1) (-1) 10 10, exPart (-211) (-1) (-1) (-1) 20 40]
    visibleMom ps ps[0] = ⟨20, 0, 0, 40⟩ ∧ visible ps ps[0] = some ⟨0, 0, 0, 0⟩ ∧
    (tautagging (fun p => p.px) (fun _ => 0) exR 1 1 2 exEff ps [ps[0]]
      [exPart 0 0 0 0 20 40] [(3 / 4, 1 / 2)]).map
      (·.map fun o => (o.tautag, o.charge)) = some [(0, 1)] := by decide +kernel

/-- A b quark at a jet, and an efficiency of one for all: no tag. -/
example :
    (btagging (fun p => p.px) (fun _ => 0) exR 1 1 2 0 (fun _ => some fun _ _ => (1 : ℚ))
      [exPart 5 0 0 0 20 40] [exPart 0 0 0 0 20 40] [1 / 2]).map (·.map Obj.btag) = some [0] := by
  decide +kernel

end Verif.Fads
