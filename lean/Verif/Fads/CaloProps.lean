import Verif.Fads.Calo
import Verif.Fads.GridProps
import Mathlib.Algebra.BigOperators.Group.List.Basic
import Mathlib.Analysis.SpecialFunctions.Log.Basic
import Mathlib.Tactic.Ring

/-!
# C149: towers of a calorimeter
-/

namespace Verif.Fads

/-! ## Packed hits -/

/-- The number of a hit in the cell `(i, j)`. -/
def num (i j f n : Nat) : Nat := (i + 1) * 2 ^ 48 + (j + 1) * 2 ^ 32 + f * 2 ^ 24 + n

theorem pack_eq {i j f n : Nat} (hj : j + 1 < 2 ^ 16) (hf : f < 2 ^ 8) (hn : n < 2 ^ 24) :
    pack (i + 1) (j + 1) f n = num i j f n := by
  unfold pack num
  have e1 : (i + 1) <<< 48 ||| (j + 1) <<< 32 = ((i + 1) * 2 ^ 16 + (j + 1)) <<< 32 := by
    rw [← Nat.shiftLeft_add_eq_or_of_lt (by rw [Nat.shiftLeft_eq]; omega)]
    simp only [Nat.shiftLeft_eq]
    omega
  have e2 : ((i + 1) * 2 ^ 16 + (j + 1)) <<< 32 ||| f <<< 24 =
      (((i + 1) * 2 ^ 16 + (j + 1)) * 2 ^ 8 + f) <<< 24 := by
    rw [← Nat.shiftLeft_add_eq_or_of_lt (by rw [Nat.shiftLeft_eq]; omega)]
    simp only [Nat.shiftLeft_eq]
    omega
  rw [e1, e2, ← Nat.shiftLeft_add_eq_or_of_lt (by omega)]
  simp only [Nat.shiftLeft_eq]
  omega

/-- The number of a tower. -/
def tid (i j : Nat) : Nat := (i + 1) * 2 ^ 16 + (j + 1)

theorem towerId_num {i j f n : Nat} (hf : f < 2 ^ 8) (hn : n < 2 ^ 24) :
    towerId (num i j f n) = tid i j := by
  unfold towerId num tid
  rw [Nat.shiftRight_eq_div_pow]
  omega

theorem flags_num {i j f n : Nat} (hf : f < 2 ^ 8) (hn : n < 2 ^ 24) :
    num i j f n >>> 24 &&& 0xFF = f := by
  rw [show (0xFF : Nat) = 2 ^ 8 - 1 by rfl, Nat.and_two_pow_sub_one_eq_mod,
    Nat.shiftRight_eq_div_pow]
  unfold num
  omega

theorem index_num {i j f n : Nat} (hn : n < 2 ^ 24) : num i j f n &&& 0xFFFFFF = n := by
  rw [show (0xFFFFFF : Nat) = 2 ^ 24 - 1 by rfl, Nat.and_two_pow_sub_one_eq_mod]
  unfold num
  omega

theorem tid_eta {i j : Nat} (hi : i + 1 < 2 ^ 16) (hj : j + 1 < 2 ^ 16) :
    tid i j >>> 16 &&& 0xFFFF = i + 1 := by
  rw [show (0xFFFF : Nat) = 2 ^ 16 - 1 by rfl, Nat.and_two_pow_sub_one_eq_mod,
    Nat.shiftRight_eq_div_pow]
  unfold tid
  omega

theorem tid_phi {i j : Nat} (hj : j + 1 < 2 ^ 16) : tid i j &&& 0xFFFF = j + 1 := by
  rw [show (0xFFFF : Nat) = 2 ^ 16 - 1 by rfl, Nat.and_two_pow_sub_one_eq_mod]
  unfold tid
  omega

/-! ## The map of hits -/

theorem hitsAt_addHit (k h : Nat) (hm : List (Nat × List Nat)) :
    hitsAt k (addHit h hm) = hitsAt k hm ++ if towerId h = k then [h] else [] := by
  induction hm with
  | nil =>
    simp only [addHit, hitsAt]
    split <;> simp
  | cons p m ih =>
    simp only [addHit]
    split
    · next hp =>
      simp only [hitsAt]
      by_cases hk : p.1 = k
      · rw [if_pos hk, if_pos hk, if_pos (hp ▸ hk)]
      · rw [if_neg hk, if_neg hk, if_neg (hp ▸ hk), List.append_nil]
    · next hp =>
      simp only [hitsAt]
      by_cases hk : p.1 = k
      · rw [if_pos hk, if_pos hk, if_neg (fun e => hp (hk.trans e.symm)), List.append_nil]
      · rw [if_neg hk, if_neg hk, ih]

theorem keys_addHit (h : Nat) (hm : List (Nat × List Nat)) :
    (addHit h hm).map Prod.fst =
      if towerId h ∈ hm.map Prod.fst then hm.map Prod.fst else hm.map Prod.fst ++ [towerId h] := by
  induction hm with
  | nil => simp [addHit]
  | cons p m ih =>
    simp only [addHit]
    split
    · next hp => rw [List.map_cons, List.map_cons, if_pos (by rw [hp]; exact List.mem_cons_self)]
    · next hp =>
      rw [List.map_cons, List.map_cons, ih]
      have : towerId h ∈ p.1 :: m.map Prod.fst ↔ towerId h ∈ m.map Prod.fst := by
        rw [List.mem_cons]
        exact ⟨fun e => e.elim (fun e => absurd e.symm hp) id, Or.inr⟩
      split
      · next hm' => rw [if_pos (this.mpr hm')]
      · next hm' => rw [if_neg (fun e => hm' (this.mp e))]; rfl

theorem hits_map (H : List Nat) (hm : List (Nat × List Nat)) (hn : (hm.map Prod.fst).Nodup) :
    let r := H.foldl (fun hm h => addHit h hm) hm
    (r.map Prod.fst).Nodup ∧
      (∀ k, k ∈ r.map Prod.fst ↔ k ∈ hm.map Prod.fst ∨ ∃ h ∈ H, towerId h = k) ∧
      ∀ k, hitsAt k r = hitsAt k hm ++ H.filter (fun h => towerId h = k) := by
  induction H generalizing hm with
  | nil => exact ⟨hn, fun k => by simp, fun k => by simp⟩
  | cons x H ih =>
    have hn' : ((addHit x hm).map Prod.fst).Nodup := by
      rw [keys_addHit]
      split
      · exact hn
      · next hx =>
        rw [List.nodup_append]
        refine ⟨hn, by simp, ?_⟩
        intro a ha b hb
        rw [List.mem_singleton.mp hb]
        exact fun e => hx (e ▸ ha)
    obtain ⟨h1, h2, h3⟩ := ih (addHit x hm) hn'
    refine ⟨h1, fun k => ?_, fun k => ?_⟩
    · refine (h2 k).trans ?_
      rw [keys_addHit]
      simp only [List.mem_cons, exists_eq_or_imp]
      split
      · next hx =>
        constructor
        · rintro (h | h)
          · exact Or.inl h
          · exact Or.inr (Or.inr h)
        · rintro (h | h | h)
          · exact Or.inl h
          · exact Or.inl (h ▸ hx)
          · exact Or.inr h
      · rw [List.mem_append, List.mem_singleton, or_assoc, eq_comm (a := k)]
    · refine (h3 k).trans ?_
      rw [hitsAt_addHit, List.append_assoc]
      congr 1
      rw [List.filter_cons]
      simp only [decide_eq_true_eq]
      split <;> rfl

section

variable {K : Type} [Field K] [LinearOrder K]

instance (bins : List (EtaPhiBin K)) (i j : Nat) (eta phi : K) :
    Decidable (Cell (newGrid bins) i j eta phi) :=
  decidable_of_iff ((newGrid bins).index eta phi = ((i : Int) + 1, (j : Int) + 1, true))
    ⟨fun h => (C148_found_partial bins i j eta phi h).1, C148_index bins i j eta phi⟩

omit [LinearOrder K] in
/-- **C149, fractions.**  A particle and its antiparticle have the fractions given for the
particle, and those given for number 0 when there are none. -/
theorem C149_fractions (m : Int → Option (Frac K)) (n : Nat) (f : Frac K)
    (h : m n = some f ∨ m n = none ∧ m 0 = some f) : fracOf m n = f ∧ fracOf m (-n) = f := by
  have e : ((-(n : Int)).natAbs : Int) = n := by omega
  have e' : (((n : Int)).natAbs : Int) = n := by omega
  rcases h with h | ⟨h, h0⟩
  · simp only [fracOf, e, e', h, and_self]
  · simp only [fracOf, e, e', h, h0, Option.getD_some, and_self]

example : fracOf (K := ℚ) (fun i => if i = 11 then some ⟨1, 0⟩ else none) (-11) = ⟨1, 0⟩ :=
  (C149_fractions _ 11 _ (Or.inl rfl)).2

/-- A particle leaves energy in a cell: it is there, and one of its fractions is not negligible. -/
def Hits (bins : List (EtaPhiBin K)) (m : Int → Option (Frac K)) (i j : Nat) (p : Part K) : Prop :=
  Cell (newGrid bins) i j p.eta p.phi ∧ tooSmall (fracOf m p.pid) = false

instance (bins : List (EtaPhiBin K)) (m : Int → Option (Frac K)) (i j : Nat) (p : Part K) :
    Decidable (Hits bins m i j p) := by unfold Hits; infer_instance

/-- An electron, a positron or a photon. -/
def IsEM (pid : Int) : Prop := pid = 11 ∨ pid = -11 ∨ pid = 22 ∨ pid = -22

instance (pid : Int) : Decidable (IsEM pid) := by unfold IsEM; infer_instance

theorem partFlags_em {pid : Int} (h : IsEM pid) : partFlags pid = 2 := by
  unfold partFlags
  rw [if_pos (by unfold IsEM at h; omega)]

theorem partFlags_not {pid : Int} (h : ¬ IsEM pid) : partFlags pid = 0 := by
  unfold partFlags
  rw [if_neg (by unfold IsEM at h; omega)]

/-- The sizes that fit into the numbers of hits, and no particle on an edge that is taken for a
cell (C148). -/
structure Fits (bins : List (EtaPhiBin K)) (parts tracks : List (Part K)) : Prop where
  eta : (newGrid bins).eta.length ≤ 2 ^ 15
  phi : ∀ e, ((newGrid bins).phis e).length ≤ 2 ^ 16
  nparts : parts.length ≤ 2 ^ 24
  ntracks : tracks.length ≤ 2 ^ 24
  inside : ∀ p ∈ parts ++ tracks, ((newGrid bins).index p.eta p.phi).2.2 = true →
    ∃ i j, Cell (newGrid bins) i j p.eta p.phi

omit [Field K] in
theorem cell_bounds {bins : List (EtaPhiBin K)} {i j : Nat} {eta phi : K}
    (h : Cell (newGrid bins) i j eta phi) (h1 : (newGrid bins).eta.length ≤ 2 ^ 15)
    (h2 : ∀ e, ((newGrid bins).phis e).length ≤ 2 ^ 16) : i + 1 < 2 ^ 15 ∧ j + 1 < 2 ^ 16 := by
  obtain ⟨e0, e, p0, p, _, a2, _, _, _, a6, _, _⟩ := h
  have b1 := (List.getElem?_eq_some_iff.mp a2).1
  have b2 := (List.getElem?_eq_some_iff.mp a6).1
  have := h2 e
  omega

theorem hitOf_some {bins : List (EtaPhiBin K)} {m : Int → Option (Frac K)} {flags : Int → Nat}
    {p : Part K} {n h : Nat} (hlt : n < 2 ^ 24) (hfl : flags p.pid < 2 ^ 8)
    (h1 : (newGrid bins).eta.length ≤ 2 ^ 15) (h2 : ∀ e, ((newGrid bins).phis e).length ≤ 2 ^ 16)
    (hin : ((newGrid bins).index p.eta p.phi).2.2 = true → ∃ i j, Cell (newGrid bins) i j p.eta p.phi) :
    hitOf (newGrid bins) m flags (p, n) = some h ↔
      ∃ i j, Hits bins m i j p ∧ h = num i j (flags p.pid) n := by
  constructor
  · intro hh
    unfold hitOf at hh
    split at hh
    · cases hh
    · next hs =>
      have hin' : ((newGrid bins).index p.eta p.phi).2.2 = true := by
        generalize (newGrid bins).index p.eta p.phi = r at hh ⊢
        obtain ⟨a, b, c⟩ := r
        cases c
        · cases hh
        · rfl
      obtain ⟨i, j, hc⟩ := hin hin'
      obtain ⟨b1, b2⟩ := cell_bounds hc h1 h2
      refine ⟨i, j, ⟨hc, by simpa using hs⟩, ?_⟩
      simp only [C148_index bins i j _ _ hc] at hh
      cases hh
      rw [show ((i : Int) + 1).toNat = i + 1 by omega, show ((j : Int) + 1).toNat = j + 1 by omega]
      exact pack_eq b2 hfl hlt
  · rintro ⟨i, j, ⟨hc, hs⟩, rfl⟩
    obtain ⟨b1, b2⟩ := cell_bounds hc h1 h2
    unfold hitOf
    simp only [hs, Bool.false_eq_true, if_false, C148_index bins i j _ _ hc]
    rw [show ((i : Int) + 1).toNat = i + 1 by omega, show ((j : Int) + 1).toNat = j + 1 by omega,
      pack_eq b2 hfl hlt]

/-- The sorted hits of a cell. -/
def cellHits (bins : List (EtaPhiBin K)) (m : Int → Option (Frac K)) (parts tracks : List (Part K))
    (i j : Nat) : List Nat :=
  ((parts.zipIdx.filter fun x => decide (Hits bins m i j x.1) && !decide (IsEM x.1.pid)).map
      fun x => num i j 0 x.2) ++
    (((tracks.zipIdx.filter fun x => decide (Hits bins m i j x.1)).map fun x => num i j 1 x.2) ++
      (parts.zipIdx.filter fun x => decide (Hits bins m i j x.1) && decide (IsEM x.1.pid)).map
        fun x => num i j 2 x.2)

theorem zipIdx_pairwise {α : Type} (l : List α) (k : Nat) :
    (l.zipIdx k).Pairwise fun a b => a.2 < b.2 := by
  induction l generalizing k with
  | nil => exact List.Pairwise.nil
  | cons x l ih =>
    rw [List.zipIdx_cons]
    refine List.pairwise_cons.mpr ⟨?_, ih (k + 1)⟩
    rintro ⟨y, n⟩ hy
    have := (List.mem_zipIdx hy).1
    show k < n
    omega

theorem zipIdx_lt {α : Type} {l : List α} {x : α × Nat} (h : x ∈ l.zipIdx) :
    x.2 < l.length ∧ l[x.2]? = some x.1 := by
  obtain ⟨y, n⟩ := x
  have h1 := List.mem_zipIdx_iff_getElem?.mp h
  exact ⟨(List.getElem?_eq_some_iff.mp h1).1, h1⟩

omit [Field K] [LinearOrder K] in
theorem strict_seg (l : List (Part K)) (p : Part K × Nat → Bool) (i j f : Nat) :
    Strict ((l.zipIdx.filter p).map fun x => num i j f x.2) := by
  unfold Strict
  rw [List.pairwise_map]
  refine ((zipIdx_pairwise l 0).filter p).imp ?_
  intro a b hab
  unfold num
  omega

theorem cellHits_strict {bins : List (EtaPhiBin K)} {m : Int → Option (Frac K)}
    {parts tracks : List (Part K)} (hf : Fits bins parts tracks) (i j : Nat) :
    Strict (cellHits bins m parts tracks i j) := by
  have hp := hf.nparts
  have ht := hf.ntracks
  have bp : ∀ (q : Part K × Nat → Bool), ∀ x ∈ parts.zipIdx.filter q, x.2 < 2 ^ 24 :=
    fun q x hx => by
      have := (zipIdx_lt (List.mem_filter.mp hx).1).1
      omega
  have bt : ∀ (q : Part K × Nat → Bool), ∀ x ∈ tracks.zipIdx.filter q, x.2 < 2 ^ 24 :=
    fun q x hx => by
      have := (zipIdx_lt (List.mem_filter.mp hx).1).1
      omega
  unfold cellHits Strict
  rw [List.pairwise_append, List.pairwise_append]
  refine ⟨strict_seg .., ⟨strict_seg .., strict_seg .., ?_⟩, ?_⟩
  · intro a ha b hb
    obtain ⟨x, hx, rfl⟩ := List.mem_map.mp ha
    obtain ⟨y, hy, rfl⟩ := List.mem_map.mp hb
    have := bt _ x hx
    show num i j 1 x.2 < num i j 2 y.2
    unfold num
    omega
  · intro a ha b hb
    obtain ⟨x, hx, rfl⟩ := List.mem_map.mp ha
    have := bp _ x hx
    rcases List.mem_append.mp hb with hb | hb
    · obtain ⟨y, hy, rfl⟩ := List.mem_map.mp hb
      show num i j 0 x.2 < num i j 1 y.2
      unfold num
      omega
    · obtain ⟨y, hy, rfl⟩ := List.mem_map.mp hb
      show num i j 0 x.2 < num i j 2 y.2
      unfold num
      omega

theorem num_inj {i j f n i' j' f' n' : Nat} (hj : j + 1 < 2 ^ 16) (hj' : j' + 1 < 2 ^ 16)
    (hf : f < 2 ^ 8) (hf' : f' < 2 ^ 8) (hn : n < 2 ^ 24) (hn' : n' < 2 ^ 24)
    (h : num i j f n = num i' j' f' n') : i = i' ∧ j = j' ∧ f = f' ∧ n = n' := by
  unfold num at h
  omega

theorem tid_inj {i j i' j' : Nat} (hj : j + 1 < 2 ^ 16) (hj' : j' + 1 < 2 ^ 16)
    (h : tid i j = tid i' j') : i = i' ∧ j = j' := by
  unfold tid at h
  omega

omit [Field K] in
theorem cell_unique {bins : List (EtaPhiBin K)} {i j i' j' : Nat} {eta phi : K}
    (h : Cell (newGrid bins) i j eta phi) (h' : Cell (newGrid bins) i' j' eta phi) :
    i = i' ∧ j = j' :=
  (C148_found_partial bins i' j' eta phi (C148_index bins i' j' eta phi h')).2 i j h

theorem partFlags_cases (pid : Int) : partFlags pid = 0 ∨ partFlags pid = 2 := by
  unfold partFlags
  split
  · exact Or.inr rfl
  · exact Or.inl rfl

/-- Where a hit comes from. -/
theorem mem_allHits {bins : List (EtaPhiBin K)} {m : Int → Option (Frac K)}
    {parts tracks : List (Part K)} (hf : Fits bins parts tracks) (h : Nat) :
    h ∈ allHits (newGrid bins) m parts tracks ↔
      (∃ x ∈ parts.zipIdx, ∃ i j, Hits bins m i j x.1 ∧ h = num i j (partFlags x.1.pid) x.2) ∨
      ∃ x ∈ tracks.zipIdx, ∃ i j, Hits bins m i j x.1 ∧ h = num i j 1 x.2 := by
  have hp := hf.nparts
  have ht := hf.ntracks
  unfold allHits
  rw [List.mem_append, List.mem_filterMap, List.mem_filterMap]
  refine or_congr (exists_congr fun x => and_congr_right fun hx => ?_)
    (exists_congr fun x => and_congr_right fun hx => ?_)
  · obtain ⟨h1, h2⟩ := zipIdx_lt hx
    obtain ⟨p, n⟩ := x
    exact hitOf_some (by omega) (by rcases partFlags_cases p.pid with e | e <;> rw [e] <;> decide)
      hf.eta hf.phi (hf.inside p (List.mem_append_left _ (List.mem_of_getElem? h2)))
  · obtain ⟨h1, h2⟩ := zipIdx_lt hx
    obtain ⟨p, n⟩ := x
    exact hitOf_some (flags := fun _ => 1) (by omega) (by decide)
      hf.eta hf.phi (hf.inside p (List.mem_append_right _ (List.mem_of_getElem? h2)))

theorem allHits_nodup {bins : List (EtaPhiBin K)} {m : Int → Option (Frac K)}
    {parts tracks : List (Part K)} (hf : Fits bins parts tracks) :
    (allHits (newGrid bins) m parts tracks).Nodup := by
  have hp := hf.nparts
  have ht := hf.ntracks
  have key : ∀ (l : List (Part K)) (fl : Int → Nat), (∀ p, fl p < 2 ^ 8) → l.length ≤ 2 ^ 24 →
      (∀ p ∈ l, ((newGrid bins).index p.eta p.phi).2.2 = true →
        ∃ i j, Cell (newGrid bins) i j p.eta p.phi) →
      (l.zipIdx.filterMap (hitOf (newGrid bins) m fl)).Nodup := by
    intro l fl hfl hl hin
    unfold List.Nodup
    rw [List.pairwise_filterMap]
    have hpw : l.zipIdx.Pairwise fun a b => a.2 < b.2 ∧ a ∈ l.zipIdx ∧ b ∈ l.zipIdx :=
      (List.pairwise_iff_forall_sublist (R := fun a b => a.2 < b.2 ∧ a ∈ l.zipIdx ∧ b ∈ l.zipIdx)).mpr
        fun {a b} hs => ⟨List.pairwise_iff_forall_sublist.mp (zipIdx_pairwise l 0) hs,
          hs.subset (by simp), hs.subset (by simp)⟩
    refine hpw.imp ?_
    rintro ⟨p, n⟩ ⟨q, k⟩ ⟨hlt, ha, hb⟩ x hx y hy hxy
    obtain ⟨a1, a2⟩ := zipIdx_lt ha
    obtain ⟨b1, b2⟩ := zipIdx_lt hb
    obtain ⟨i, j, ⟨c1, _⟩, e1⟩ := (hitOf_some (by omega) (hfl _) hf.eta hf.phi
      (hin p (List.mem_of_getElem? a2))).mp hx
    obtain ⟨i', j', ⟨c2, _⟩, e2⟩ := (hitOf_some (by omega) (hfl _) hf.eta hf.phi
      (hin q (List.mem_of_getElem? b2))).mp hy
    have := num_inj (cell_bounds c1 hf.eta hf.phi).2 (cell_bounds c2 hf.eta hf.phi).2 (hfl _) (hfl _)
      (show n < 2 ^ 24 by omega) (show k < 2 ^ 24 by omega) (e1.symm.trans (hxy.trans e2))
    exact absurd hlt (by show ¬ n < k; omega)
  unfold allHits
  rw [List.nodup_append]
  refine ⟨key parts partFlags ?_ hp fun p hp => hf.inside p (List.mem_append_left _ hp),
    key tracks (fun _ => 1) (fun _ => by decide) ht fun p hp => hf.inside p (List.mem_append_right _ hp), ?_⟩
  · intro p
    rcases partFlags_cases p with e | e <;> rw [e] <;> decide
  · intro a ha b hb hab
    have ha' := (mem_allHits (m := m) hf a).mp (by unfold allHits; exact List.mem_append_left _ ha)
    obtain ⟨x, hx, hxa⟩ := List.mem_filterMap.mp ha
    obtain ⟨y, hy, hyb⟩ := List.mem_filterMap.mp hb
    obtain ⟨a1, a2⟩ := zipIdx_lt hx
    obtain ⟨b1, b2⟩ := zipIdx_lt hy
    obtain ⟨p, n⟩ := x
    obtain ⟨q, k⟩ := y
    obtain ⟨i, j, ⟨c1, _⟩, e1⟩ := (hitOf_some (by omega)
      (by rcases partFlags_cases p.pid with e | e <;> rw [e] <;> decide) hf.eta hf.phi
      (hf.inside p (List.mem_append_left _ (List.mem_of_getElem? a2)))).mp hxa
    obtain ⟨i', j', ⟨c2, _⟩, e2⟩ := (hitOf_some (flags := fun _ => 1) (by omega) (by decide) hf.eta hf.phi
      (hf.inside q (List.mem_append_right _ (List.mem_of_getElem? b2)))).mp hyb
    have := num_inj (cell_bounds c1 hf.eta hf.phi).2 (cell_bounds c2 hf.eta hf.phi).2
      (by rcases partFlags_cases p.pid with e | e <;> rw [e] <;> decide) (by decide)
      (show n < 2 ^ 24 by omega) (show k < 2 ^ 24 by omega) (e1.symm.trans (hab.trans e2))
    rcases partFlags_cases p.pid with e | e <;> omega

/-- The hits of a cell, sorted. -/
theorem sorted_hits {bins : List (EtaPhiBin K)} {m : Int → Option (Frac K)}
    {parts tracks : List (Part K)} (hf : Fits bins parts tracks) (i j : Nat) (hj : j + 1 < 2 ^ 16) :
    sortL ((allHits (newGrid bins) m parts tracks).filter fun h => towerId h = tid i j) =
      cellHits bins m parts tracks i j := by
  have hp := hf.nparts
  have ht := hf.ntracks
  refine strict_ext (strict_sortL ((allHits_nodup hf).filter _)) (cellHits_strict hf i j) fun h => ?_
  rw [mem_sortL, List.mem_filter, mem_allHits hf]
  simp only [decide_eq_true_eq]
  unfold cellHits
  simp only [List.mem_append, List.mem_map, List.mem_filter, Bool.and_eq_true, decide_eq_true_eq,
    Bool.not_eq_true', decide_eq_false_iff_not]
  constructor
  · rintro ⟨⟨x, hx, i', j', hc, rfl⟩ | ⟨x, hx, i', j', hc, rfl⟩, ht'⟩
    · have hb := zipIdx_lt hx
      rw [towerId_num (by rcases partFlags_cases x.1.pid with e | e <;> rw [e] <;> decide) (by omega)] at ht'
      obtain ⟨rfl, rfl⟩ := tid_inj (cell_bounds hc.1 hf.eta hf.phi).2 hj ht'
      by_cases he : IsEM x.1.pid
      · exact Or.inr (Or.inr ⟨x, ⟨hx, hc, he⟩, by rw [partFlags_em he]⟩)
      · exact Or.inl ⟨x, ⟨hx, hc, he⟩, by rw [partFlags_not he]⟩
    · have hb := zipIdx_lt hx
      rw [towerId_num (by decide) (by omega)] at ht'
      obtain ⟨rfl, rfl⟩ := tid_inj (cell_bounds hc.1 hf.eta hf.phi).2 hj ht'
      exact Or.inr (Or.inl ⟨x, ⟨hx, hc⟩, rfl⟩)
  · rintro (⟨x, ⟨hx, hc, he⟩, rfl⟩ | ⟨x, ⟨hx, hc⟩, rfl⟩ | ⟨x, ⟨hx, hc, he⟩, rfl⟩)
    · have hb := zipIdx_lt hx
      exact ⟨Or.inl ⟨x, hx, i, j, hc, by rw [partFlags_not he]⟩, towerId_num (by decide) (by omega)⟩
    · have hb := zipIdx_lt hx
      exact ⟨Or.inr ⟨x, hx, i, j, hc, rfl⟩, towerId_num (by decide) (by omega)⟩
    · have hb := zipIdx_lt hx
      exact ⟨Or.inl ⟨x, hx, i, j, hc, by rw [partFlags_em he]⟩, towerId_num (by decide) (by omega)⟩

/-! ## Towers -/

/-- One particle added to a tower. -/
def stepPart (m : Int → Option (Frac K)) (sqrt : K → K) (w : Tower K) (p : Part K) : Tower K :=
  { w with
    photonHits := if IsEM p.pid then w.photonHits + 1 else w.photonHits
    ecal := w.ecal.add sqrt (p.e * (fracOf m p.pid).ecal) p.t
    hcal := w.hcal.add sqrt (p.e * (fracOf m p.pid).hcal) p.t
    parts := w.parts ++ [p] }

omit [LinearOrder K] in
theorem stepHits_append (m : Int → Option (Frac K)) (sqrt : K → K) (parts tracks : List (Part K))
    (w w' : Tower K) (a b : List Nat) (h : stepHits m sqrt parts tracks w a = some w') :
    stepHits m sqrt parts tracks w (a ++ b) = stepHits m sqrt parts tracks w' b := by
  induction a generalizing w with
  | nil => cases h; rfl
  | cons x a ih =>
    simp only [stepHits] at h
    rw [List.cons_append, stepHits]
    cases hs : stepHit m sqrt parts tracks w x with
    | none => rw [hs] at h; cases h
    | some w1 => rw [hs] at h; exact ih w1 h

omit [LinearOrder K] in
theorem stepHits_parts (m : Int → Option (Frac K)) (sqrt : K → K) (parts tracks : List (Part K))
    (i j f : Nat) (L : List (Part K × Nat)) (w : Tower K) (hl : parts.length ≤ 2 ^ 24)
    (hL : ∀ x ∈ L, x ∈ parts.zipIdx) (hf : (f = 0 ∧ ∀ x ∈ L, ¬ IsEM x.1.pid) ∨
      (f = 2 ∧ ∀ x ∈ L, IsEM x.1.pid)) :
    stepHits m sqrt parts tracks w (L.map fun x => num i j f x.2) =
      some ((L.map Prod.fst).foldl (stepPart m sqrt) w) := by
  induction L generalizing w with
  | nil => rfl
  | cons x L ih =>
    obtain ⟨h1, h2⟩ := zipIdx_lt (hL x List.mem_cons_self)
    have hn : x.2 < 2 ^ 24 := by omega
    have hs : stepHit m sqrt parts tracks w (num i j f x.2) = some (stepPart m sqrt w x.1) := by
      unfold stepHit stepPart
      rcases hf with ⟨rfl, he⟩ | ⟨rfl, he⟩
      · simp only [flags_num (show (0 : Nat) < 2 ^ 8 by decide) hn, index_num hn, h2]
        rw [if_neg (he x List.mem_cons_self)]
        rfl
      · simp only [flags_num (show (2 : Nat) < 2 ^ 8 by decide) hn, index_num hn, h2]
        rw [if_pos (he x List.mem_cons_self)]
        rfl
    rw [List.map_cons, stepHits, hs, List.map_cons, List.foldl_cons]
    refine ih _ (fun y hy => hL y (List.mem_cons_of_mem _ hy)) ?_
    rcases hf with ⟨e, he⟩ | ⟨e, he⟩
    · exact Or.inl ⟨e, fun y hy => he y (List.mem_cons_of_mem _ hy)⟩
    · exact Or.inr ⟨e, fun y hy => he y (List.mem_cons_of_mem _ hy)⟩

omit [LinearOrder K] in
theorem stepHits_tracks (m : Int → Option (Frac K)) (sqrt : K → K) (parts tracks : List (Part K))
    (i j : Nat) (L : List (Part K × Nat)) (w : Tower K) (hl : tracks.length ≤ 2 ^ 24)
    (hL : ∀ x ∈ L, x ∈ tracks.zipIdx) :
    stepHits m sqrt parts tracks w (L.map fun x => num i j 1 x.2) =
      some { w with trackHits := w.trackHits + L.length } := by
  induction L generalizing w with
  | nil => rfl
  | cons x L ih =>
    obtain ⟨h1, h2⟩ := zipIdx_lt (hL x List.mem_cons_self)
    have hn : x.2 < 2 ^ 24 := by omega
    have hs : stepHit m sqrt parts tracks w (num i j 1 x.2) =
        some { w with trackHits := w.trackHits + 1 } := by
      unfold stepHit
      simp only [flags_num (show (1 : Nat) < 2 ^ 8 by decide) hn, index_num hn, h2]
      rfl
    rw [List.map_cons, stepHits, hs]
    simp only
    rw [ih _ (fun y hy => hL y (List.mem_cons_of_mem _ hy)), List.length_cons]
    simp only [Nat.add_assoc, Nat.add_comm 1]

/-- The energy a particle leaves in the electromagnetic part. -/
def eEM (m : Int → Option (Frac K)) (p : Part K) : K := p.e * (fracOf m p.pid).ecal

/-- The energy a particle leaves in the hadronic part. -/
def eHad (m : Int → Option (Frac K)) (p : Part K) : K := p.e * (fracOf m p.pid).hcal

omit [LinearOrder K] in
theorem foldl_stepPart (m : Int → Option (Frac K)) (sqrt : K → K) (ps : List (Part K)) (w : Tower K) :
    let r := ps.foldl (stepPart m sqrt) w
    r.parts = w.parts ++ ps ∧ r.eta = w.eta ∧ r.phi = w.phi ∧ r.edges = w.edges ∧
      r.trackHits = w.trackHits ∧
      r.photonHits = w.photonHits + (ps.filter fun p => decide (IsEM p.pid)).length ∧
      r.ecal.ene = w.ecal.ene + (ps.map (eEM m)).sum ∧
      r.hcal.ene = w.hcal.ene + (ps.map (eHad m)).sum ∧
      r.ecal.weight = w.ecal.weight + (ps.map fun p => sqrt (eEM m p)).sum ∧
      r.hcal.weight = w.hcal.weight + (ps.map fun p => sqrt (eHad m p)).sum ∧
      r.ecal.time = w.ecal.time + (ps.map fun p => sqrt (eEM m p) * p.t).sum ∧
      r.hcal.time = w.hcal.time + (ps.map fun p => sqrt (eHad m p) * p.t).sum := by
  induction ps generalizing w with
  | nil => simp
  | cons p ps ih =>
    obtain ⟨h1, h2, h3, h4, h5, h6, h7, h8, h9, h10, h11, h12⟩ := ih (stepPart m sqrt w p)
    simp only [List.foldl_cons]
    rw [h1, h2, h3, h4, h5, h6, h7, h8, h9, h10, h11, h12]
    refine ⟨by simp [stepPart], rfl, rfl, rfl, rfl, ?_, ?_, ?_, ?_, ?_, ?_, ?_⟩
    · simp only [stepPart, List.filter_cons, decide_eq_true_eq]
      split
      · simp; omega
      · simp
    all_goals
      simp only [stepPart, Etw.add, eEM, eHad, List.map_cons, List.sum_cons]
      ring

/-- What a tower is to be: the edges of its cell, the particles which hit it (first those which are
not electrons or photons), the numbers of tracks and of electrons and photons, and the sums over its
particles of the energies, of their square roots and of these times the arrival time. -/
structure TowerSpec (bins : List (EtaPhiBin K)) (m : Int → Option (Frac K)) (sqrt : K → K)
    (parts tracks : List (Part K)) (c : Nat × Nat) (w : Tower K) : Prop where
  edges : ∃ e0 e p0 p, (newGrid bins).eta[c.1]? = some e0 ∧ (newGrid bins).eta[c.1 + 1]? = some e ∧
    ((newGrid bins).phis e)[c.2]? = some p0 ∧ ((newGrid bins).phis e)[c.2 + 1]? = some p ∧
    w.edges = [e0, e, p0, p] ∧ w.eta = (e0 + e) / 2 ∧ w.phi = (p0 + p) / 2
  consts : w.parts = (parts.filter fun p => decide (Hits bins m c.1 c.2 p) && !decide (IsEM p.pid)) ++
    parts.filter fun p => decide (Hits bins m c.1 c.2 p) && decide (IsEM p.pid)
  ntracks : w.trackHits = (tracks.filter fun p => decide (Hits bins m c.1 c.2 p)).length
  photons : w.photonHits =
    (parts.filter fun p => decide (Hits bins m c.1 c.2 p) && decide (IsEM p.pid)).length
  em : w.ecal.ene = (w.parts.map fun p => p.e * (fracOf m p.pid).ecal).sum
  had : w.hcal.ene = (w.parts.map fun p => p.e * (fracOf m p.pid).hcal).sum
  emw : w.ecal.weight = (w.parts.map fun p => sqrt (p.e * (fracOf m p.pid).ecal)).sum
  hadw : w.hcal.weight = (w.parts.map fun p => sqrt (p.e * (fracOf m p.pid).hcal)).sum
  emt : w.ecal.time = (w.parts.map fun p => sqrt (p.e * (fracOf m p.pid).ecal) * p.t).sum
  hadt : w.hcal.time = (w.parts.map fun p => sqrt (p.e * (fracOf m p.pid).hcal) * p.t).sum

omit [Field K] [LinearOrder K] in
theorem map_fst_filter (l : List (Part K)) (q : Part K → Bool) (k : Nat) :
    ((l.zipIdx k).filter fun x => q x.1).map Prod.fst = l.filter q := by
  induction l generalizing k with
  | nil => rfl
  | cons x l ih =>
    rw [List.zipIdx_cons, List.filter_cons, List.filter_cons]
    simp only
    split
    · rw [List.map_cons, ih]
    · exact ih (k + 1)

omit [Field K] [LinearOrder K] in
theorem length_filter_zipIdx (l : List (Part K)) (q : Part K → Bool) :
    (l.zipIdx.filter fun x => q x.1).length = (l.filter q).length := by
  rw [← map_fst_filter l q 0, List.length_map]

/-- One tower. -/
theorem towerOf_ok {bins : List (EtaPhiBin K)} {m : Int → Option (Frac K)} (sqrt : K → K)
    {parts tracks : List (Part K)} (hf : Fits bins parts tracks) {i j : Nat} {eta phi : K}
    (hc : Cell (newGrid bins) i j eta phi) :
    ∃ w, towerOf (newGrid bins) m sqrt parts tracks (tid i j, cellHits bins m parts tracks i j) = .ok w ∧
      TowerSpec bins m sqrt parts tracks (i, j) w := by
  obtain ⟨b1, b2⟩ := cell_bounds hc hf.eta hf.phi
  obtain ⟨e0, e, p0, p, h1, h2, h3, h4, h5, h6, h7, h8⟩ := hc
  have hil := (List.getElem?_eq_some_iff.mp h2).1
  have hjl := (List.getElem?_eq_some_iff.mp h6).1
  have hb : (newGrid bins).bin ((i + 1 : Nat) : Int) ((j + 1 : Nat) : Int) =
      some (1 / 2 * (e0 + e), 1 / 2 * (p0 + p), true) := by
    unfold Grid.bin
    rw [if_neg (by omega)]
    simp only [Int.toNat_natCast, Nat.add_sub_cancel, h1, h2, h5, h6]
    rw [if_neg (by omega)]
  let w0 : Tower K := ⟨1 / 2 * (e0 + e), 1 / 2 * (p0 + p), [e0, e, p0, p], ⟨0, 0, 0⟩, ⟨0, 0, 0⟩, 0, 0, []⟩
  have he : emptyTower (newGrid bins) (i + 1) (j + 1) = .ok w0 := by
    unfold emptyTower
    simp only [hb, Nat.add_sub_cancel, h1, h2, h5, h6, w0]
  let ps0 := parts.filter fun p => decide (Hits bins m i j p) && !decide (IsEM p.pid)
  let ps2 := parts.filter fun p => decide (Hits bins m i j p) && decide (IsEM p.pid)
  let ts := tracks.filter fun p => decide (Hits bins m i j p)
  let w1 := ps0.foldl (stepPart m sqrt) w0
  let w2 : Tower K := { w1 with trackHits := w1.trackHits + ts.length }
  let w3 := ps2.foldl (stepPart m sqrt) w2
  have hsteps : stepHits m sqrt parts tracks w0 (cellHits bins m parts tracks i j) = some w3 := by
    unfold cellHits
    have s1 := stepHits_parts m sqrt parts tracks i j 0
      (parts.zipIdx.filter fun x => decide (Hits bins m i j x.1) && !decide (IsEM x.1.pid)) w0 hf.nparts
      (fun x hx => (List.mem_filter.mp hx).1)
      (Or.inl ⟨rfl, fun x hx => by
        have := (List.mem_filter.mp hx).2
        simp only [Bool.and_eq_true, Bool.not_eq_true', decide_eq_false_iff_not] at this
        exact this.2⟩)
    rw [map_fst_filter parts (fun p => decide (Hits bins m i j p) && !decide (IsEM p.pid)) 0] at s1
    rw [stepHits_append _ _ _ _ _ _ _ _ s1]
    have s2 := stepHits_tracks m sqrt parts tracks i j
      (tracks.zipIdx.filter fun x => decide (Hits bins m i j x.1)) w1 hf.ntracks
      (fun x hx => (List.mem_filter.mp hx).1)
    rw [length_filter_zipIdx tracks (fun p => decide (Hits bins m i j p))] at s2
    rw [stepHits_append _ _ _ _ _ _ _ _ s2]
    have s3 := stepHits_parts m sqrt parts tracks i j 2
      (parts.zipIdx.filter fun x => decide (Hits bins m i j x.1) && decide (IsEM x.1.pid)) w2 hf.nparts
      (fun x hx => (List.mem_filter.mp hx).1)
      (Or.inr ⟨rfl, fun x hx => by
        have := (List.mem_filter.mp hx).2
        simp only [Bool.and_eq_true, decide_eq_true_eq] at this
        exact this.2⟩)
    rw [map_fst_filter parts (fun p => decide (Hits bins m i j p) && decide (IsEM p.pid)) 0] at s3
    exact s3
  obtain ⟨a1, a2, a3, a4, a5, a6, a7, a8, a9, a10, a11, a12⟩ := foldl_stepPart m sqrt ps0 w0
  obtain ⟨c1, c2, c3, c4, c5, c6, c7, c8, c9, c10, c11, c12⟩ := foldl_stepPart m sqrt ps2 w2
  have hparts : w3.parts = ps0 ++ ps2 := by
    show (ps2.foldl (stepPart m sqrt) w2).parts = _
    rw [c1]
    show w1.parts ++ ps2 = _
    rw [show w1.parts = _ from a1]
    rfl
  refine ⟨w3, ?_, ?_⟩
  · unfold towerOf
    simp only [tid_eta (show i + 1 < 2 ^ 16 by omega) b2, tid_phi b2, he, hsteps]
  · refine ⟨⟨e0, e, p0, p, h1, h2, h5, h6, ?_, ?_, ?_⟩, hparts, ?_, ?_, ?_, ?_, ?_, ?_, ?_, ?_⟩
    · exact c4.trans a4
    · refine (c2.trans a2).trans ?_
      show 1 / 2 * (e0 + e) = _
      ring
    · refine (c3.trans a3).trans ?_
      show 1 / 2 * (p0 + p) = _
      ring
    · refine c5.trans ?_
      show w1.trackHits + ts.length = ts.length
      rw [show w1.trackHits = 0 from a5, Nat.zero_add]
    · refine c6.trans ?_
      show w1.photonHits + _ = _
      rw [show w1.photonHits = _ from a6]
      have z1 : (ps0.filter fun p => decide (IsEM p.pid)) = [] := by
        rw [List.filter_eq_nil_iff]
        intro q hq
        have := (List.mem_filter.mp hq).2
        simp only [Bool.and_eq_true, Bool.not_eq_true'] at this
        simp [this.2]
      have z2 : (ps2.filter fun p => decide (IsEM p.pid)) = ps2 := by
        rw [List.filter_eq_self]
        intro q hq
        have := (List.mem_filter.mp hq).2
        simp only [Bool.and_eq_true] at this
        exact this.2
      rw [z1, z2]
      show 0 + 0 + ps2.length = ps2.length
      simp
    · rw [hparts, List.map_append, List.sum_append]
      refine c7.trans (congrArg (· + _) (a7.trans ?_))
      show 0 + _ = _
      rw [zero_add]; rfl
    · rw [hparts, List.map_append, List.sum_append]
      refine c8.trans (congrArg (· + _) (a8.trans ?_))
      show 0 + _ = _
      rw [zero_add]; rfl
    · rw [hparts, List.map_append, List.sum_append]
      refine c9.trans (congrArg (· + _) (a9.trans ?_))
      show 0 + _ = _
      rw [zero_add]; rfl
    · rw [hparts, List.map_append, List.sum_append]
      refine c10.trans (congrArg (· + _) (a10.trans ?_))
      show 0 + _ = _
      rw [zero_add]; rfl
    · rw [hparts, List.map_append, List.sum_append]
      refine c11.trans (congrArg (· + _) (a11.trans ?_))
      show 0 + _ = _
      rw [zero_add]; rfl
    · rw [hparts, List.map_append, List.sum_append]
      refine c12.trans (congrArg (· + _) (a12.trans ?_))
      show 0 + _ = _
      rw [zero_add]; rfl

theorem towersOf_ok {g : Grid K} {m : Int → Option (Frac K)} {sqrt : K → K}
    {parts tracks : List (Part K)} {R : Nat × Nat → Tower K → Prop} (xs : List (Nat × List Nat))
    (dec : Nat × List Nat → Nat × Nat)
    (h : ∀ x ∈ xs, ∃ w, towerOf g m sqrt parts tracks x = .ok w ∧ R (dec x) w) :
    ∃ ws, towersOf g m sqrt parts tracks xs = .ok ws ∧ List.Forall₂ R (xs.map dec) ws := by
  induction xs with
  | nil => exact ⟨[], rfl, List.Forall₂.nil⟩
  | cons x xs ih =>
    obtain ⟨w, h1, h2⟩ := h x List.mem_cons_self
    obtain ⟨ws, h3, h4⟩ := ih fun y hy => h y (List.mem_cons_of_mem _ hy)
    refine ⟨w :: ws, ?_, List.Forall₂.cons h2 h4⟩
    simp only [towersOf, h1, h3]

/-- The keys of the map of hits, which a Go program visits in any order. -/
def Visits (bins : List (EtaPhiBin K)) (m : Int → Option (Frac K)) (parts tracks : List (Part K))
    (order : List Nat) : Prop :=
  order.Perm (((allHits (newGrid bins) m parts tracks).foldl (fun hm h => addHit h hm) []).map Prod.fst)

/-- **C149.**  There is one tower for every cell which a particle or a track hits, ordered by eta
and then phi, and it is what it is to be; in whatever order the map is visited. -/
theorem C149_towers_partial (bins : List (EtaPhiBin K)) (m : Int → Option (Frac K)) (sqrt : K → K)
    (parts tracks : List (Part K)) (order : List Nat) (hf : Fits bins parts tracks)
    (ho : Visits bins m parts tracks order) :
    ∃ (cells : List (Nat × Nat)) (ws : List (Tower K)),
      process (newGrid bins) m sqrt parts tracks order = .ok ws ∧
      cells.Pairwise (fun a b => a.1 < b.1 ∨ (a.1 = b.1 ∧ a.2 < b.2)) ∧
      (∀ c, c ∈ cells ↔ ∃ p ∈ parts ++ tracks, Hits bins m c.1 c.2 p) ∧
      List.Forall₂ (TowerSpec bins m sqrt parts tracks) cells ws := by
  have hp := hf.nparts
  have ht := hf.ntracks
  obtain ⟨k1, k2, k3⟩ := hits_map (allHits (newGrid bins) m parts tracks) [] List.nodup_nil
  have hkey : ∀ k, k ∈ sortL order ↔
      ∃ i j, (∃ p ∈ parts ++ tracks, Hits bins m i j p) ∧ k = tid i j := by
    intro k
    rw [mem_sortL, ho.mem_iff, k2]
    simp only [List.map_nil, List.not_mem_nil, false_or]
    constructor
    · rintro ⟨h, hh, rfl⟩
      rcases (mem_allHits hf h).mp hh with ⟨x, hx, i, j, hc, rfl⟩ | ⟨x, hx, i, j, hc, rfl⟩
      · have hb := zipIdx_lt hx
        exact ⟨i, j, ⟨x.1, List.mem_append_left _ (List.mem_of_getElem? hb.2), hc⟩,
          towerId_num (by rcases partFlags_cases x.1.pid with e | e <;> rw [e] <;> decide) (by omega)⟩
      · have hb := zipIdx_lt hx
        exact ⟨i, j, ⟨x.1, List.mem_append_right _ (List.mem_of_getElem? hb.2), hc⟩,
          towerId_num (by decide) (by omega)⟩
    · rintro ⟨i, j, ⟨p, hpm, hc⟩, rfl⟩
      rcases List.mem_append.mp hpm with hpm | hpm
      · obtain ⟨n, hn⟩ := List.getElem?_of_mem hpm
        have hz : (p, n) ∈ parts.zipIdx := List.mem_zipIdx_iff_getElem?.mpr hn
        have hb := zipIdx_lt hz
        exact ⟨_, (mem_allHits hf _).mpr (Or.inl ⟨(p, n), hz, i, j, hc, rfl⟩),
          towerId_num (by rcases partFlags_cases p.pid with e | e <;> rw [e] <;> decide) (by omega)⟩
      · obtain ⟨n, hn⟩ := List.getElem?_of_mem hpm
        have hz : (p, n) ∈ tracks.zipIdx := List.mem_zipIdx_iff_getElem?.mpr hn
        have hb := zipIdx_lt hz
        exact ⟨_, (mem_allHits hf _).mpr (Or.inr ⟨(p, n), hz, i, j, hc, rfl⟩),
          towerId_num (by decide) (by omega)⟩
  let dec : Nat × List Nat → Nat × Nat := fun x => (x.1 / 2 ^ 16 - 1, x.1 % 2 ^ 16 - 1)
  have hdec : ∀ i j l, j + 1 < 2 ^ 16 → dec (tid i j, l) = (i, j) := by
    intro i j l hj
    simp only [dec, tid, Prod.mk.injEq]
    omega
  let xs := sortedHits ((allHits (newGrid bins) m parts tracks).foldl (fun hm h => addHit h hm) []) order
  have hxs : ∀ x ∈ xs, ∃ i j, (∃ p ∈ parts ++ tracks, Hits bins m i j p) ∧
      x = (tid i j, cellHits bins m parts tracks i j) := by
    intro x hx
    obtain ⟨k, hk, rfl⟩ := List.mem_map.mp hx
    obtain ⟨i, j, ⟨p, hpm, hc⟩, rfl⟩ := (hkey k).mp hk
    refine ⟨i, j, ⟨p, hpm, hc⟩, ?_⟩
    rw [k3]
    simp only [hitsAt, List.nil_append]
    rw [sorted_hits hf i j (cell_bounds hc.1 hf.eta hf.phi).2]
  obtain ⟨ws, h1, h2⟩ := towersOf_ok (g := newGrid bins) (m := m) (sqrt := sqrt) (parts := parts)
    (tracks := tracks) (R := TowerSpec bins m sqrt parts tracks) xs dec (by
      intro x hx
      obtain ⟨i, j, ⟨p, hpm, hc⟩, rfl⟩ := hxs x hx
      obtain ⟨w, w1, w2⟩ := towerOf_ok (m := m) sqrt hf hc.1
      exact ⟨w, w1, by rw [hdec i j _ (cell_bounds hc.1 hf.eta hf.phi).2]; exact w2⟩)
  have hstrict : Strict (sortL order) := strict_sortL (ho.nodup_iff.mpr k1)
  have hmap : xs.map dec = (sortL order).map fun k => (k / 2 ^ 16 - 1, k % 2 ^ 16 - 1) := by
    simp only [xs, sortedHits, List.map_map]
    rfl
  refine ⟨xs.map dec, ws, h1, ?_, ?_, h2⟩
  · rw [hmap, List.pairwise_map]
    have hpw : (sortL order).Pairwise fun a b => a < b ∧ a ∈ sortL order ∧ b ∈ sortL order :=
      (List.pairwise_iff_forall_sublist (R := fun a b => a < b ∧ a ∈ sortL order ∧ b ∈ sortL order)).mpr
        fun {a b} hs => ⟨List.pairwise_iff_forall_sublist.mp hstrict hs,
          hs.subset (by simp), hs.subset (by simp)⟩
    refine hpw.imp ?_
    rintro a b ⟨hab, ha, hb⟩
    obtain ⟨i, j, ⟨p, _, hc⟩, rfl⟩ := (hkey a).mp ha
    obtain ⟨i', j', ⟨p', _, hc'⟩, rfl⟩ := (hkey b).mp hb
    have q1 := cell_bounds hc.1 hf.eta hf.phi
    have q2 := cell_bounds hc'.1 hf.eta hf.phi
    unfold tid at hab ⊢
    simp only
    omega
  · intro c
    rw [hmap, List.mem_map]
    constructor
    · rintro ⟨k, hk, rfl⟩
      obtain ⟨i, j, ⟨p, hpm, hc⟩, rfl⟩ := (hkey k).mp hk
      have := hdec i j [] (cell_bounds hc.1 hf.eta hf.phi).2
      simp only [dec] at this
      rw [this]
      exact ⟨p, hpm, hc⟩
    · rintro ⟨p, hpm, hc⟩
      refine ⟨tid c.1 c.2, (hkey _).mpr ⟨c.1, c.2, ⟨p, hpm, hc⟩, rfl⟩, ?_⟩
      have := hdec c.1 c.2 [] (cell_bounds hc.1 hf.eta hf.phi).2
      simp only [dec] at this
      rw [this]

omit [LinearOrder K] in
theorem sum_one (v : K) (p : Part K) (cells : List (Nat × Nat)) (R : Nat × Nat → Part K → Prop)
    [∀ c p, Decidable (R c p)] (hn : cells.Nodup) (hu : ∀ c c' p, R c p → R c' p → c = c') :
    (cells.map fun c => if R c p then v else 0).sum = if ∃ c ∈ cells, R c p then v else 0 := by
  induction cells with
  | nil => simp
  | cons c cells ihc =>
    obtain ⟨n1, n2⟩ := List.nodup_cons.mp hn
    rw [List.map_cons, List.sum_cons, ihc n2]
    by_cases h : R c p
    · have : ¬ ∃ c' ∈ cells, R c' p := fun ⟨c', h1, h2⟩ => n1 (hu c c' p h h2 ▸ h1)
      rw [if_pos h, if_neg this, if_pos ⟨c, List.mem_cons_self, h⟩, add_zero]
    · rw [if_neg h, zero_add]
      have : (∃ c' ∈ c :: cells, R c' p) ↔ ∃ c' ∈ cells, R c' p := by
        simp only [List.mem_cons, exists_eq_or_imp, h, false_or]
      simp only [this]

omit [LinearOrder K] in
theorem sum_by_cell (f : Part K → K) (ps : List (Part K)) (cells : List (Nat × Nat))
    (R : Nat × Nat → Part K → Prop) [∀ c p, Decidable (R c p)] (hn : cells.Nodup)
    (hu : ∀ c c' p, R c p → R c' p → c = c')
    (hc : ∀ p ∈ ps, ∀ c, R c p → c ∈ cells) :
    (cells.map fun c => ((ps.filter fun p => decide (R c p)).map f).sum).sum =
      ((ps.filter fun p => decide (∃ c ∈ cells, R c p)).map f).sum := by
  induction ps with
  | nil => simp
  | cons p ps ih =>
    have ih := ih fun q hq => hc q (List.mem_cons_of_mem _ hq)
    have hsplit : ∀ c, ((List.filter (fun p => decide (R c p)) (p :: ps)).map f).sum =
        (if R c p then f p else 0) + ((ps.filter fun p => decide (R c p)).map f).sum := by
      intro c
      rw [List.filter_cons]
      simp only [decide_eq_true_eq]
      split
      · rw [List.map_cons, List.sum_cons]
      · rw [zero_add]
    have hone : (cells.map fun c => if R c p then f p else 0).sum =
        if ∃ c ∈ cells, R c p then f p else 0 :=
      sum_one (f p) p cells R hn hu
    simp only [hsplit]
    rw [List.sum_map_add, hone, ih, List.filter_cons]
    simp only [decide_eq_true_eq]
    split
    · rw [List.map_cons, List.sum_cons]
    · rw [zero_add]

/-- A particle that hits some cell. -/
def Seen (bins : List (EtaPhiBin K)) (m : Int → Option (Frac K)) (p : Part K) : Prop :=
  ∃ i j, Hits bins m i j p

omit [LinearOrder K] in
theorem sum_split (f : Part K → K) (ps : List (Part K)) (a b : Part K → Bool) :
    ((ps.filter fun p => a p && !b p).map f).sum + ((ps.filter fun p => a p && b p).map f).sum =
      ((ps.filter a).map f).sum := by
  induction ps with
  | nil => simp
  | cons p ps ih =>
    rw [List.filter_cons, List.filter_cons, List.filter_cons]
    cases a p <;> cases b p <;>
      simp only [Bool.false_and, Bool.true_and, Bool.not_true, Bool.not_false, Bool.false_eq_true,
        if_false, if_true, List.map_cons, List.sum_cons]
    · exact ih
    · exact ih
    · rw [← ih]; ring
    · rw [← ih]; ring

open Classical in
/-- **C149, energy.**  No energy is lost and none is counted twice: the energies of all towers, before
they are smeared, add up to what the particles in the calorimeter leave there, in the
electromagnetic and in the hadronic part. -/
theorem C149_energy_partial (bins : List (EtaPhiBin K)) (m : Int → Option (Frac K)) (sqrt : K → K)
    (parts tracks : List (Part K)) (order : List Nat) (hf : Fits bins parts tracks)
    (ho : Visits bins m parts tracks order) :
    ∃ ws, process (newGrid bins) m sqrt parts tracks order = .ok ws ∧
      (ws.map fun w => w.ecal.ene).sum =
        ((parts.filter fun p => decide (Seen bins m p)).map fun p => p.e * (fracOf m p.pid).ecal).sum ∧
      (ws.map fun w => w.hcal.ene).sum =
        ((parts.filter fun p => decide (Seen bins m p)).map fun p => p.e * (fracOf m p.pid).hcal).sum := by
  obtain ⟨cells, ws, h1, h2, h3, h4⟩ := C149_towers_partial bins m sqrt parts tracks order hf ho
  have hn : cells.Nodup := h2.imp fun {a b} h e => by subst e; omega
  have hu : ∀ (c c' : Nat × Nat) p, Hits bins m c.1 c.2 p → Hits bins m c'.1 c'.2 p → c = c' := by
    intro c c' p a b
    obtain ⟨e1, e2⟩ := cell_unique a.1 b.1
    exact Prod.ext e1 e2
  have hseen : ∀ p ∈ parts, (∃ c ∈ cells, Hits bins m c.1 c.2 p) ↔ Seen bins m p := by
    intro p hp
    constructor
    · rintro ⟨c, _, hc⟩
      exact ⟨c.1, c.2, hc⟩
    · rintro ⟨i, j, hc⟩
      exact ⟨(i, j), (h3 (i, j)).mpr ⟨p, List.mem_append_left _ hp, hc⟩, hc⟩
  have key : ∀ (f : Part K → K) (q : Tower K → K),
      (∀ c w, TowerSpec bins m sqrt parts tracks c w → q w = (w.parts.map f).sum) →
      (ws.map q).sum = ((parts.filter fun p => decide (Seen bins m p)).map f).sum := by
    intro f q hq
    have e1 : ws.map q = cells.map fun c =>
        ((parts.filter fun p => decide (Hits bins m c.1 c.2 p)).map f).sum := by
      clear h1 h2 h3 hn hseen
      induction h4 with
      | nil => rfl
      | cons hcw _ ih =>
        rw [List.map_cons, List.map_cons, ih, hq _ _ hcw, hcw.consts, List.map_append, List.sum_append,
          sum_split f parts]
    rw [e1, sum_by_cell f parts cells (fun c p => Hits bins m c.1 c.2 p) hn hu
      (fun p hp c hc => (h3 c).mpr ⟨p, List.mem_append_left _ hp, hc⟩)]
    congr 2
    refine List.filter_congr fun p hp => ?_
    exact decide_eq_decide.mpr (hseen p hp)
  exact ⟨ws, h1, key _ _ fun c w hw => hw.em, key _ _ fun c w hw => hw.had⟩

/-- **C149, photons.**  The photons are the towers with energy that an electron or a photon hits and
no track. -/
theorem C149_photons (bins : List (EtaPhiBin K)) (m : Int → Option (Frac K)) (sqrt : K → K)
    (parts tracks : List (Part K)) (smear : Tower K → K × K) (ws : List (Tower K)) (c : Nat × Nat)
    (w : Tower K) (hw : TowerSpec bins m sqrt parts tracks c w) :
    (w ∈ (outputs smear ws).1 ↔ w ∈ ws ∧ 0 < (smear w).1 + (smear w).2) ∧
      (w ∈ (outputs smear ws).2 ↔ w ∈ (outputs smear ws).1 ∧
        (∃ p ∈ parts, Hits bins m c.1 c.2 p ∧ IsEM p.pid) ∧ ∀ p ∈ tracks, ¬ Hits bins m c.1 c.2 p) := by
  constructor
  · simp only [outputs, List.mem_filter, decide_eq_true_eq]
  · simp only [outputs, List.mem_filter, decide_eq_true_eq, Bool.and_eq_true]
    refine and_congr_right fun _ => and_congr ?_ ?_
    · rw [hw.photons, List.length_pos_iff_exists_mem]
      simp only [List.mem_filter, Bool.and_eq_true, decide_eq_true_eq]
    · rw [hw.ntracks, List.length_eq_zero_iff, List.filter_eq_nil_iff]
      simp only [decide_eq_true_eq]

/-- **Not below the first edge in phi.**  A particle there makes the event fail. -/
theorem C149_low_phi_counterexample (bins : List (EtaPhiBin K)) (m : Int → Option (Frac K))
    (sqrt : K → K) (q : Part K) (i : Nat) (e0 e p0 : K)
    (h0 : tooSmall (fracOf m q.pid) = false) (hi : i + 1 < 2 ^ 16)
    (h1 : (newGrid bins).eta[i]? = some e0) (h2 : (newGrid bins).eta[i + 1]? = some e)
    (h3 : e0 < q.eta) (h4 : q.eta ≤ e) (h5 : ((newGrid bins).phis e)[0]? = some p0)
    (h6 : q.phi < p0) :
    ∃ order, Visits bins m [q] [] order ∧ process (newGrid bins) m sqrt [q] [] order matches .err := by
  obtain ⟨a1, _, ec, a3⟩ := C148_low_phi_counterexample bins i q.eta q.phi e0 e p0 h1 h2 h3 h4 h5 h6
  have hh : allHits (newGrid bins) m [q] [] = [pack (i + 1) 0 (partFlags q.pid) 0] := by
    unfold allHits
    simp only [List.zipIdx_cons, List.zipIdx_nil, List.filterMap_cons, List.filterMap_nil,
      List.append_nil]
    unfold hitOf
    simp only [h0, Bool.false_eq_true, if_false, a1]
    rfl
  have ht : towerId (pack (i + 1) 0 (partFlags q.pid) 0) = (i + 1) * 2 ^ 16 := by
    unfold towerId pack
    rcases partFlags_cases q.pid with hfl | hfl
    · rw [hfl]
      simp only [Nat.zero_shiftLeft, Nat.or_zero]
      simp only [Nat.shiftLeft_eq, Nat.shiftRight_eq_div_pow]
      omega
    · rw [hfl, Nat.zero_shiftLeft, Nat.or_zero, Nat.or_zero,
        ← Nat.shiftLeft_add_eq_or_of_lt (by decide), Nat.shiftRight_eq_div_pow]
      simp only [Nat.shiftLeft_eq]
      omega
  refine ⟨[(i + 1) * 2 ^ 16], ?_, ?_⟩
  · unfold Visits
    rw [hh]
    simp only [List.foldl_cons, List.foldl_nil, addHit, List.map_cons, List.map_nil, ht]
    exact List.Perm.refl _
  · unfold process
    rw [hh]
    simp only [List.foldl_cons, List.foldl_nil, addHit, ht, sortedHits, sortL, insSorted,
      List.map_cons, List.map_nil, towersOf, towerOf]
    have t1 : ((i + 1) * 2 ^ 16) >>> 16 &&& 0xFFFF = i + 1 := by
      rw [show (0xFFFF : Nat) = 2 ^ 16 - 1 by rfl, Nat.and_two_pow_sub_one_eq_mod,
        Nat.shiftRight_eq_div_pow]
      omega
    have t2 : (i + 1) * 2 ^ 16 &&& 0xFFFF = 0 := by
      rw [show (0xFFFF : Nat) = 2 ^ 16 - 1 by rfl, Nat.and_two_pow_sub_one_eq_mod]
      omega
    rw [t1, t2]
    unfold emptyTower
    rw [show ((i + 1 : Nat) : Int) = (i : Int) + 1 by push_cast; rfl, show ((0 : Nat) : Int) = 0 by rfl, a3]

end

/-- **Not with a perfect calorimeter.**  With a resolution of zero, the energy of a tower is not its
energy, but multiplied by the exponential of the random number. -/
theorem C149_resolution_counterexample (mean gauss : ℝ) (h : 0 < mean) :
    lognormal Real.sqrt Real.log Real.exp mean 0 gauss = mean * Real.exp gauss ∧
      (gauss ≠ 0 → lognormal Real.sqrt Real.log Real.exp mean 0 gauss ≠ mean) := by
  have h1 : lognormal Real.sqrt Real.log Real.exp mean 0 gauss = mean * Real.exp gauss := by
    unfold lognormal
    rw [if_neg (not_le.mpr h)]
    simp only [mul_zero, zero_div, add_zero, Real.log_one, Real.sqrt_zero, sub_zero]
    rw [Real.exp_add, Real.exp_log h]
  refine ⟨h1, fun hg he => hg ?_⟩
  rw [h1] at he
  have : Real.exp gauss = 1 := by
    have := mul_left_cancel₀ h.ne' (he.trans (mul_one mean).symm)
    exact this
  exact Real.exp_eq_one_iff gauss |>.mp this

/-- A pion and a photon in one cell, a photon in another, and a track. -/
def exParts : List (Part Rat) := [⟨211, 1 / 2, 1 / 2, 3, 10⟩, ⟨22, 1 / 3, 1 / 4, 3, 4⟩, ⟨22, 3 / 2, 2, 3, 5⟩]

def exTracks : List (Part Rat) := [⟨211, 1 / 2, 1 / 2, 3, 10⟩]

def exFrac (n : Int) : Option (Frac Rat) := if n = 22 then some ⟨1, 0⟩ else if n = 0 then some ⟨0, 1⟩ else none

example : Fits exBins exParts exTracks := by
  refine ⟨by decide +kernel, fun e => ?_, by decide, by decide, ?_⟩
  · have : (newGrid exBins).phi = [(1, [-3, 0, 1, 3]), (0, [-3, 0, 3]), (2, [1, 3])] := by decide +kernel
    unfold Grid.phis lookup
    rw [this]
    simp only [lookup]
    repeat' split
    all_goals simp
  · intro p hp _
    simp only [exParts, exTracks, List.cons_append, List.nil_append, List.mem_cons,
      List.not_mem_nil, or_false] at hp
    rcases hp with rfl | rfl | rfl | rfl
    · exact ⟨0, 1, by decide +kernel⟩
    · exact ⟨0, 1, by decide +kernel⟩
    · exact ⟨1, 0, by decide +kernel⟩
    · exact ⟨0, 1, by decide +kernel⟩

/-- The towers have the energies 4 and 10, and 5 and 0; the second is a photon. -/
example : (match process (newGrid exBins) exFrac id exParts exTracks [tid 1 0, tid 0 1] with
    | .ok ws => (ws.map fun w => (w.ecal.ene, w.hcal.ene, w.trackHits, w.photonHits))
    | _ => []) = [(4, 10, 1, 1), (5, 0, 0, 1)] := by decide +kernel

end Verif.Fads
