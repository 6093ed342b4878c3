import Verif.Fads.SelectProps

/-!
# C151: Isolation
-/

namespace Verif.Fads

/-! ## Specification -/

section

variable {K : Type} [Field K] [LinearOrder K]

/-- What counts against the isolation of track `i`: the transverse momenta of the other tracks near
it that have no constituent in common with it. -/
def around (pt : P4 K → K) (dR : P4 K → P4 K → K) (cf : IsoConf K) (tracks : List (Cand K)) (i : Nat)
    (c : Cand K) : K :=
  ((tracks.zipIdx.filter fun x => decide (x.2 ≠ i) && decide (dR c.obj.mom x.1.obj.mom ≤ cf.deltaRMax) &&
    !((addrsL c.subs).any fun a => (addrsL x.1.subs).contains a)).map fun x => pt x.1.obj.mom).sum

/-- The density of energy at a pseudo-rapidity: that of the last region which contains it. -/
def density (pt : P4 K → K) (rhos : List (Cand K)) (eta : K) : K :=
  match rhos.reverse.find? fun o => decide (o.obj.edge0 ≤ eta) && decide (eta < o.obj.edge1) with
  | some o => pt o.obj.mom
  | none => 0

/-- Track `i` is isolated: the energy around it, without the density times the area of the cone, is
within the limit on its ratio, and on itself if that is asked for. -/
def Isolated (pt eta : P4 K → K) (dR : P4 K → P4 K → K) (pi : K) (cf : IsoConf K)
    (rhos tracks : List (Cand K)) (i : Nat) (c : Cand K) : Prop :=
  let s := around pt dR cf tracks i c -
    density pt rhos (max (eta c.obj.mom) (-eta c.obj.mom)) * (cf.deltaRMax ^ 2) * pi
  s / pt c.obj.mom ≤ cf.ptRatioMax ∧ (cf.usePtSum = true → s ≤ cf.ptSumMax)

/-! ## Proofs -/

omit [LinearOrder K] in
theorem foldl_if_sum (f : Cand K → K) (p : Cand K → Prop) [DecidablePred p] :
    ∀ (l : List (Cand K)) (s : K), l.foldl (fun s o => if p o then s + f o else s) s =
      s + ((l.filter fun o => decide (p o)).map f).sum
  | [], s => by simp
  | o :: os, s => by
    rw [List.foldl_cons, foldl_if_sum f p os]
    by_cases h : p o
    · rw [if_pos h, List.filter_cons_of_pos (by simpa using h)]
      simp [add_assoc]
    · rw [if_neg h, List.filter_cons_of_neg (by simpa using h)]

theorem isoRho_eq (pt : P4 K → K) (rhos : List (Cand K)) (eta : K) :
    isoRho pt rhos eta = density pt rhos eta := by
  have h : ∀ l : List (Cand K), isoRho pt l.reverse eta =
      density pt l.reverse eta := by
    intro l
    induction l with
    | nil => rfl
    | cons o os ih =>
      simp only [isoRho, density, List.reverse_cons, List.foldl_append, List.foldl_cons,
        List.foldl_nil, List.reverse_append, List.reverse_nil, List.nil_append, List.reverse_reverse,
        List.cons_append, List.find?_cons]
      by_cases hp : o.obj.edge0 ≤ eta ∧ eta < o.obj.edge1
      · rw [if_pos hp]
        simp [hp.1, hp.2]
      · rw [if_neg hp]
        have : (decide (o.obj.edge0 ≤ eta) && decide (eta < o.obj.edge1)) = false := by
          rw [Bool.eq_false_iff]
          simpa using hp
        rw [this]
        simpa [isoRho, density] using ih
  simpa using h rhos.reverse

omit [Field K] [LinearOrder K] in
theorem addrs_copyAt (c : Cand K) (a : Nat) : addrs (c.copyAt a) = a :: addrsL c.subs := by
  cases c; rfl

omit [Field K] [LinearOrder K] in
theorem obj_copyAt (c : Cand K) (a : Nat) : (c.copyAt a).obj = c.obj := by
  cases c; rfl

omit [Field K] [LinearOrder K] in
/-- Two slots overlap if they are the same or share a constituent. -/
theorem overlaps_slots (c o : Cand K) (base i j : Nat) (hc : ∀ a ∈ addrsL c.subs, a < base)
    (ho : ∀ a ∈ addrsL o.subs, a < base) :
    (c.copyAt (base + i)).overlaps (o.copyAt (base + j)) = false ↔
      j ≠ i ∧ ((addrsL c.subs).any fun a => (addrsL o.subs).contains a) = false := by
  rw [Bool.eq_false_iff, Ne, overlaps_iff, Bool.eq_false_iff, Ne]
  have e : (((addrsL c.subs).any fun a => (addrsL o.subs).contains a) = true) ↔
      ∃ a, a ∈ addrsL c.subs ∧ a ∈ addrsL o.subs := by simp
  rw [ne_eq ((addrsL c.subs).any _), e]
  simp only [Common, addrs_copyAt, List.mem_cons]
  constructor
  · intro h
    refine ⟨fun e => h ⟨base + i, Or.inl rfl, Or.inl (by rw [e])⟩, ?_⟩
    rintro ⟨a, h1, h2⟩
    exact h ⟨a, Or.inr h1, Or.inr h2⟩
  · rintro ⟨h1, h2⟩ ⟨a, h3 | h3, h4 | h4⟩
    · omega
    · have := ho a h4
      omega
    · have := hc a h3
      omega
    · exact h2 ⟨a, h3, h4⟩

theorem isoSum_eq (pt : P4 K → K) (dR : P4 K → P4 K → K) (cf : IsoConf K) (tracks : List (Cand K))
    (base i : Nat) (c : Cand K) (hc : c ∈ tracks) (hnew : ∀ o ∈ tracks, ∀ a ∈ addrsL o.subs, a < base) :
    isoSum pt dR cf (tracks.zipIdx.map fun x => x.1.copyAt (base + x.2)) (c.copyAt (base + i)) =
      around pt dR cf tracks i c := by
  simp only [isoSum]
  rw [foldl_if_sum (fun o => pt o.obj.mom)
    (fun o => dR (c.copyAt (base + i)).obj.mom o.obj.mom ≤ cf.deltaRMax ∧
      (c.copyAt (base + i)).overlaps o = false), zero_add, List.filter_map, List.map_map]
  simp only [around]
  congr 1
  rw [List.filter_congr (q := fun x => decide (x.2 ≠ i) &&
    decide (dR c.obj.mom x.1.obj.mom ≤ cf.deltaRMax) &&
    !((addrsL c.subs).any fun a => (addrsL x.1.subs).contains a))]
  · apply List.map_congr_left
    intro x _
    simp [obj_copyAt]
  · intro x hx
    have hx' : x.1 ∈ tracks := by
      have := List.mem_zipIdx (x := x.1) (i := x.2) (k := 0) (by simpa using hx)
      rw [this.2.2]
      exact List.getElem_mem _
    rw [Bool.eq_iff_iff]
    simp only [Function.comp, decide_eq_true_eq, obj_copyAt, Bool.and_eq_true, Bool.not_eq_true',
      overlaps_slots c x.1 base i x.2 (hnew c hc) (hnew _ hx')]
    tauto

theorem isoKeep_iff (pt eta : P4 K → K) (dR : P4 K → P4 K → K) (pi : K) (cf : IsoConf K) [IsStrictOrderedRing K]
    (rhos tracks : List (Cand K)) (base i : Nat) (c : Cand K) (hc : c ∈ tracks)
    (hnew : ∀ o ∈ tracks, ∀ a ∈ addrsL o.subs, a < base) :
    isoKeep pt eta dR pi cf rhos (tracks.zipIdx.map fun x => x.1.copyAt (base + x.2))
      (c.copyAt (base + i)) = true ↔ Isolated pt eta dR pi cf rhos tracks i c := by
  have habs : (if eta c.obj.mom < 0 then -eta c.obj.mom else eta c.obj.mom) =
      max (eta c.obj.mom) (-eta c.obj.mom) := by
    split_ifs with h
    · rw [max_eq_right]
      exact le_trans h.le (by simpa using h.le)
    · have h := not_lt.mp h
      rw [max_eq_left]
      exact le_trans (by simpa using h) h
  simp only [isoKeep, isoSum_eq pt dR cf tracks base i c hc hnew, isoRho_eq, obj_copyAt, habs,
    Isolated, pow_two, Bool.not_eq_true', Bool.or_eq_false_iff, Bool.and_eq_false_iff,
    decide_eq_false_iff_not, not_lt]
  constructor
  · rintro ⟨h1 | h1, h2⟩
    · exact ⟨h2, fun h => by rw [h1] at h; cases h⟩
    · exact ⟨h2, fun _ => h1⟩
  · rintro ⟨h1, h2⟩
    refine ⟨?_, h1⟩
    cases hu : cf.usePtSum
    · exact Or.inl rfl
    · exact Or.inr (h2 hu)

omit [Field K] in
theorem isoInput_all (pt : P4 K → K) (cf : IsoConf K) (base : Nat) (tracks : List (Cand K))
    (hpt : ∀ c ∈ tracks, cf.ptMin ≤ pt c.obj.mom) :
    isoInput pt cf base tracks = tracks.zipIdx.map fun x => x.1.copyAt (base + x.2) := by
  simp only [isoInput]
  rw [List.filter_eq_self.mpr]
  intro c hc
  simpa using hpt c hc

/-- **C151 (part).**  The output should hold the candidates that are isolated among the tracks.  It
does if candidates and tracks are one and the same collection, in which all have the transverse
momentum asked for. -/
theorem C151_isolation_partial [IsStrictOrderedRing K] (pt eta : P4 K → K) (dR : P4 K → P4 K → K)
    (pi : K) (cf : IsoConf K) (base : Nat) (tracks rhos : List (Cand K))
    (hpt : ∀ c ∈ tracks, cf.ptMin ≤ pt c.obj.mom)
    (hnew : ∀ o ∈ tracks, ∀ a ∈ addrsL o.subs, a < base) :
    ∃ (out : List (Cand K)) (kept : List (Cand K × Nat)),
      isolation pt eta dR pi cf base tracks tracks rhos = some out ∧
      out.map Cand.obj = kept.map (fun x => x.1.obj) ∧ kept.Sublist tracks.zipIdx ∧
      ∀ (i : Nat) (c : Cand K), tracks[i]? = some c →
        ((c, i) ∈ kept ↔ Isolated pt eta dR pi cf rhos tracks i c) := by
  classical
  refine ⟨(tracks.zipIdx.map fun x => x.1.copyAt (base + x.2)).filter (isoKeep pt eta dR pi cf rhos
      (tracks.zipIdx.map fun x => x.1.copyAt (base + x.2))),
    tracks.zipIdx.filter fun x => decide (Isolated pt eta dR pi cf rhos tracks x.2 x.1),
    ?_, ?_, List.filter_sublist, ?_⟩
  · simp only [isolation, isoInput_all pt cf base tracks hpt]
    split_ifs with h1 h2
    · rw [h1]; rfl
    · simp at h2
    · rw [List.take_of_length_le (by simp)]
  · rw [List.filter_map, List.map_map]
    rw [List.filter_congr (q := fun x => decide (Isolated pt eta dR pi cf rhos tracks x.2 x.1))]
    · apply List.map_congr_left
      intro x _
      simp [obj_copyAt]
    · intro x hx
      have hx' : x.1 ∈ tracks := by
        have := List.mem_zipIdx (x := x.1) (i := x.2) (k := 0) (by simpa using hx)
        rw [this.2.2]
        exact List.getElem_mem _
      rw [Bool.eq_iff_iff, decide_eq_true_eq]
      exact isoKeep_iff pt eta dR pi cf rhos tracks base x.2 x.1 hx' hnew
  · intro i c h
    have hm : (c, i) ∈ tracks.zipIdx := List.mem_zipIdx_iff_getElem?.mpr h
    simp [hm]

omit [Field K] in
theorem mem_isoInput {pt : P4 K → K} {cf : IsoConf K} {base : Nat} {tracks : List (Cand K)}
    {c : Cand K} (h : c ∈ isoInput pt cf base tracks) : ∃ t ∈ tracks, t.obj = c.obj := by
  simp only [isoInput, List.mem_map] at h
  obtain ⟨x, hx, rfl⟩ := h
  have := List.mem_zipIdx (x := x.1) (i := x.2) (k := 0) (by simpa using hx)
  refine ⟨x.1, ?_, (obj_copyAt _ _).symm⟩
  have hm : x.1 ∈ tracks.filter fun c => !decide (pt c.obj.mom < cf.ptMin) := by
    rw [this.2.2]
    exact List.getElem_mem _
  exact (List.mem_filter.mp hm).1

/-- **C151, what comes out.**  Whatever the candidates are, what comes out are tracks: a candidate
that is none of the tracks is never in the output, isolated or not. -/
theorem C151_tracks_counterexample (pt eta : P4 K → K) (dR : P4 K → P4 K → K) (pi : K)
    (cf : IsoConf K) (base : Nat) (candidates isolations rhos out : List (Cand K))
    (h : isolation pt eta dR pi cf base candidates isolations rhos = some out) :
    ∀ o ∈ out, ∃ t ∈ isolations, t.obj = o.obj := by
  intro o ho
  simp only [isolation] at h
  split_ifs at h with h1 h2
  · simp only [Option.some.injEq] at h
    subst h
    simp at ho
  · simp only [Option.some.injEq] at h
    subst h
    exact mem_isoInput (List.mem_of_mem_take (List.mem_filter.mp ho).1)

/-- **C151, many candidates.**  With more candidates than tracks of the transverse momentum asked
for, of which there are some, the task panics. -/
theorem C151_panic_counterexample (pt eta : P4 K → K) (dR : P4 K → P4 K → K) (pi : K)
    (cf : IsoConf K) (base : Nat) (candidates isolations rhos : List (Cand K))
    (h0 : ∃ t ∈ isolations, cf.ptMin ≤ pt t.obj.mom)
    (h1 : (isolations.filter fun t => decide (cf.ptMin ≤ pt t.obj.mom)).length < candidates.length) :
    isolation pt eta dR pi cf base candidates isolations rhos = none := by
  have he : (fun c : Cand K => !decide (pt c.obj.mom < cf.ptMin)) =
      fun t => decide (cf.ptMin ≤ pt t.obj.mom) := by
    funext c
    rw [Bool.eq_iff_iff]
    simp
  have hl : (isoInput pt cf base isolations).length =
      (isolations.filter fun t => decide (cf.ptMin ≤ pt t.obj.mom)).length := by
    simp [isoInput, he]
  simp only [isolation]
  rw [if_neg, if_pos (by omega)]
  intro h
  rw [h] at hl
  obtain ⟨t, ht, hp⟩ := h0
  have : t ∈ isolations.filter fun t => decide (cf.ptMin ≤ pt t.obj.mom) := by
    simp [ht, hp]
  have := List.length_pos_of_mem this
  simp only [List.length_nil] at hl
  omega

/-- **C151, no tracks.**  Without tracks of that transverse momentum nothing is around any candidate,
yet all of them are dropped. -/
theorem C151_alone_counterexample (pt eta : P4 K → K) (dR : P4 K → P4 K → K) (pi : K)
    (cf : IsoConf K) (base : Nat) (candidates isolations rhos : List (Cand K))
    (h0 : ∀ t ∈ isolations, pt t.obj.mom < cf.ptMin) :
    isolation pt eta dR pi cf base candidates isolations rhos = some [] := by
  have : isoInput pt cf base isolations = [] := by
    simp only [isoInput]
    rw [List.filter_eq_nil_iff.mpr]
    · rfl
    · intro c hc
      simpa using h0 c hc
  simp only [isolation]
  rw [if_pos this]

end

/-! ## Examples -/

/-- Cones of half a unit in the transverse momentum, for the examples. -/
def exIso : IsoConf ℚ := ⟨1 / 2, 1 / 10, 5, false, 1 / 2⟩

/-- Three tracks: two close to each other, of which one is much harder, and one alone. -/
def exIsoTracks : List (Cand ℚ) := [exCand 1 100 100 [], exCand 2 1 (100 + 1 / 4) [], exCand 3 2 7 []]

/-- The distance of the examples. -/
def exDist (a b : P4 ℚ) : ℚ := if a.e ≤ b.e then b.e - a.e else a.e - b.e

example : (∀ c ∈ exIsoTracks, exIso.ptMin ≤ c.obj.mom.px) ∧
    ∀ o ∈ exIsoTracks, ∀ a ∈ addrsL o.subs, a < 10 := by decide +kernel

example : (isolation (fun p => p.px) (fun _ => 0) exDist 3 exIso 10 exIsoTracks exIsoTracks []).map
    (·.map fun c => c.obj.mom.px) = some [100, 2] := by decide +kernel

/-- Tracks made of a common constituent do not count against each other. -/
example : (isolation (fun p => p.px) (fun _ => 0) exDist 3 exIso 10
    [exCand 1 1 1 [exCand 5 1 1 []], exCand 2 1 1 [exCand 5 1 1 []], exCand 3 1 2 []]
    [exCand 1 1 1 [exCand 5 1 1 []], exCand 2 1 1 [exCand 5 1 1 []], exCand 3 1 2 []] []).map
    (·.map fun c => c.obj.mom.e) = some [1, 1, 2] := by decide +kernel

/-- A muon among three tracks: the first track comes out in its place.  With four muons the task
panics, and with tracks that are all too soft the muon is lost. -/
example :
    (isolation (fun p => p.px) (fun _ => 0) exDist 3 exIso 10 [exCand 9 30 40 []] exIsoTracks []).map
      (·.map fun c => c.obj.mom.px) = some [100] ∧
    (isolation (fun p => p.px) (fun _ => 0) exDist 3 exIso 10
      [exCand 6 1 1 [], exCand 7 1 1 [], exCand 8 1 1 [], exCand 9 1 1 []] exIsoTracks []).isNone = true ∧
    (isolation (fun p => p.px) (fun _ => 0) exDist 3 exIso 10 [exCand 9 30 40 []]
      [exCand 1 (1 / 4) 1 []] []).map (·.length) = some 0 := by decide +kernel

end Verif.Fads
