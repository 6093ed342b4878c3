import Verif.FastJet.Model

/-!
# Lemmas about the clustering

The invariant of the loop of the clustering.
-/

namespace Verif.FastJet

variable {J F : Type}

/-! ## Lists -/

theorem perm_getElem_eraseIdx {α : Type} : ∀ (l : List α) (i : Nat) (x : α), l[i]? = some x →
    l.Perm (x :: l.eraseIdx i)
  | [], i, x, h => by simp at h
  | a :: l, 0, x, h => by simp at h; subst h; simp
  | a :: l, i + 1, x, h => by
    simp only [List.getElem?_cons_succ] at h
    have := perm_getElem_eraseIdx l i x h
    simp only [List.eraseIdx_cons_succ]
    exact (this.cons a).trans (List.Perm.swap _ _ _)

theorem set_eraseIdx {α : Type} : ∀ (l : List α) (i : Nat) (y : α),
    (l.set i y).eraseIdx i = l.eraseIdx i
  | [], i, y => by simp
  | a :: l, 0, y => by simp
  | a :: l, i + 1, y => by simp [set_eraseIdx l i y]

theorem set_perm {α : Type} (l : List α) (i : Nat) (y : α) (hi : i < l.length) :
    (l.set i y).Perm (y :: l.eraseIdx i) := by
  have := perm_getElem_eraseIdx (l.set i y) i y (by simp [hi])
  rwa [set_eraseIdx] at this

theorem set_last_perm {α : Type} (l : List α) (i : Nat) (x d : α) (h : l[i]? = some x) :
    l.Perm (x :: (l.set i (l.getLast?.getD d)).dropLast) := by
  have hi : i < l.length := by
    rcases Nat.lt_or_ge i l.length with h' | h'
    · exact h'
    · rw [List.getElem?_eq_none h'] at h; simp at h
  have hne : l ≠ [] := by intro e; simp [e] at hi
  obtain ⟨ini, last, rfl⟩ : ∃ ini last, l = ini ++ [last] :=
    ⟨l.dropLast, l.getLast hne, (List.dropLast_concat_getLast hne).symm⟩
  simp only [List.getLast?_append, List.getLast?_singleton, Option.some_or, Option.getD_some]
  by_cases hii : i < ini.length
  · rw [List.set_append_left _ _ hii, List.dropLast_append_of_ne_nil (by simp)]
    simp only [List.dropLast_singleton, List.append_nil]
    rw [List.getElem?_append_left hii] at h
    have h1 := perm_getElem_eraseIdx ini i x h
    have h2 := set_perm ini i last hii
    have h3 : (ini ++ [last]).Perm (last :: ini) := List.perm_append_comm
    refine h3.trans ?_
    refine (h1.cons last).trans ?_
    refine (List.Perm.swap _ _ _).trans ?_
    exact (h2.symm).cons x
  · have hie : i = ini.length := by simp at hi; omega
    subst hie
    have hx : last = x := by simpa using h
    subst hx
    rw [List.set_append_right _ _ (Nat.le_refl _)]
    simp only [Nat.sub_self, List.set_cons_zero, List.dropLast_concat]
    exact List.perm_append_comm

theorem pair_perm (l : List Nat) (ii jj x y k : Nat) (hx : l[ii]? = some x)
    (hy : l[jj]? = some y) (hij : ii ≠ jj) (hk : k ∉ l) :
    ∃ rest, l.Perm (x :: y :: rest) ∧
      (((l.set ii k).set jj ((l.set ii k).getLast?.getD 0)).dropLast).Perm (k :: rest) := by
  have hi : ii < l.length := by
    rcases Nat.lt_or_ge ii l.length with h' | h'
    · exact h'
    · rw [List.getElem?_eq_none h'] at hx; simp at hx
  have h1 := perm_getElem_eraseIdx l ii x hx
  have h2 := set_perm l ii k hi
  have hy' : (l.set ii k)[jj]? = some y := by
    rw [List.getElem?_set_ne hij]; exact hy
  have h3 := set_last_perm (l.set ii k) jj y 0 hy'
  have hyk : y ≠ k := by
    intro e; subst e
    exact hk (List.mem_of_getElem? hy)
  have h4 := h2.symm.trans h3
  have hmem : y ∈ l.eraseIdx ii := by
    have : y ∈ k :: l.eraseIdx ii := h4.symm.subset (List.mem_cons_self ..)
    rcases List.mem_cons.1 this with e | e
    · exact absurd e hyk
    · exact e
  obtain ⟨rest, hr⟩ : ∃ rest, (l.eraseIdx ii).Perm (y :: rest) :=
    ⟨_, List.perm_cons_erase hmem⟩
  refine ⟨rest, h1.trans (hr.cons x), ?_⟩
  have h5 : (k :: y :: rest).Perm _ := (hr.symm.cons k).trans h4
  have h6 := (List.Perm.swap k y rest).trans h5
  exact ((List.perm_cons y).1 h6).symm

theorem mapM_some_length {α β : Type} (f : α → Option β) : ∀ (l : List α) (r : List β),
    l.mapM f = some r → r.length = l.length
  | [], r, h => by simp at h; simp [h]
  | a :: l, r, h => by
    simp only [List.mapM_cons] at h
    cases ha : f a with
    | none => simp [ha] at h
    | some b =>
      cases hl : l.mapM f with
      | none => simp [ha, hl] at h
      | some r' =>
        simp [ha, hl] at h
        subst h
        simp [mapM_some_length f l r' hl]

theorem mapM_some_get {α β : Type} (f : α → Option β) : ∀ (l : List α) (r : List β),
    l.mapM f = some r → ∀ (i : Nat) a, l[i]? = some a → ∃ b, f a = some b ∧ r[i]? = some b
  | [], r, h, i, a, hi => by simp at hi
  | x :: l, r, h, i, a, hi => by
    simp only [List.mapM_cons] at h
    cases ha : f x with
    | none => simp [ha] at h
    | some b =>
      cases hl : l.mapM f with
      | none => simp [ha, hl] at h
      | some r' =>
        simp [ha, hl] at h
        subst h
        cases i with
        | zero => simp at hi; subst hi; exact ⟨b, ha, by simp⟩
        | succ i =>
          simp only [List.getElem?_cons_succ] at hi ⊢
          exact mapM_some_get f l r' hl i a hi

theorem mapM_of_forall {α β : Type} (f : α → Option β) : ∀ (l : List α),
    (∀ a ∈ l, ∃ b, f a = some b) → ∃ r, l.mapM f = some r
  | [], _ => ⟨[], by simp⟩
  | a :: l, h => by
    obtain ⟨b, hb⟩ := h a (by simp)
    obtain ⟨r, hr⟩ := mapM_of_forall f l (fun x hx => h x (by simp [hx]))
    exact ⟨b :: r, by simp [hb, hr]⟩

theorem mapM_rel {α β : Type} (f : α → Option β) : ∀ (l : List α) (r : List β),
    l.mapM f = some r → r = l.filterMap f
  | [], r, h => by simp at h; simp [h]
  | a :: l, r, h => by
    simp only [List.mapM_cons] at h
    cases ha : f a with
    | none => simp [ha] at h
    | some b =>
      cases hl : l.mapM f with
      | none => simp [ha, hl] at h
      | some r' =>
        simp [ha, hl] at h
        subst h
        simp [ha, mapM_rel f l r' hl]

/-! ## The selection -/

theorem beamMin_spec (lt : F → F → Bool) (sc : List F) : ∀ (ys : List F) (i : Nat) (r : F × Nat),
    (∀ (k : Nat) y, ys[k]? = some y → sc[i + k]? = some y) → sc[r.2]? = some r.1 →
    sc[(beamMin lt i r ys).2]? = some (beamMin lt i r ys).1
  | [], _, _, _, h => h
  | y :: ys, i, r, hs, h => by
    simp only [beamMin]
    apply beamMin_spec lt sc ys
    · intro k z hz
      have := hs (k + 1) z (by simpa using hz)
      rwa [show i + (k + 1) = i + 1 + k by omega] at this
    · split
      · simpa using hs 0 y (by simp)
      · exact h

/-- What a selection has to satisfy: the distance is that of the selected jet to the beam, or that
of the selected pair. -/
def Sel (A : Alg J F) (js : List J) (r : F × Nat × Option Nat) : Prop :=
  (r.2.2 = none ∧ ∃ x, js[r.2.1]? = some x ∧ r.1 = A.scale x) ∨
  (∃ j x y, r.2.2 = some j ∧ r.2.1 < j ∧ js[r.2.1]? = some x ∧ js[j]? = some y ∧
    r.1 = A.dist x y)

theorem rowMin_spec (A : Alg J F) (all : List J) (i : Nat) (x : J) (hx : all[i]? = some x) :
    ∀ (ys : List J) (j : Nat) (r : F × Nat × Option Nat), i < j →
    (∀ (k : Nat) y, ys[k]? = some y → all[j + k]? = some y) → Sel A all r →
    Sel A all (rowMin A i x j r ys)
  | [], _, _, _, _, h => h
  | y :: ys, j, r, hj, hs, h => by
    simp only [rowMin]
    apply rowMin_spec A all i x hx ys (j + 1) _ (by omega)
    · intro k z hz
      have := hs (k + 1) z (by simpa using hz)
      rwa [show j + (k + 1) = j + 1 + k by omega] at this
    · split
      · right
        exact ⟨j, x, y, rfl, hj, hx, by simpa using hs 0 y (by simp), rfl⟩
      · exact h

theorem pairMin_spec (A : Alg J F) (all : List J) : ∀ (xs : List J) (i : Nat)
    (r : F × Nat × Option Nat),
    (∀ (k : Nat) y, xs[k]? = some y → all[i + k]? = some y) → Sel A all r →
    Sel A all (pairMin A i r xs)
  | [], _, _, _, h => h
  | x :: xs, i, r, hs, h => by
    simp only [pairMin]
    have hs' : ∀ (k : Nat) y, xs[k]? = some y → all[i + 1 + k]? = some y := by
      intro k z hz
      have := hs (k + 1) z (by simpa using hz)
      rwa [show i + (k + 1) = i + 1 + k by omega] at this
    apply pairMin_spec A all xs (i + 1) _ hs'
    exact rowMin_spec A all i x (by simpa using hs 0 x (by simp)) xs (i + 1) r (by omega) hs' h

theorem pick_spec (A : Alg J F) (js : List J) (r : F × Nat × Option Nat)
    (h : pick A js = some r) : Sel A js r := by
  cases js with
  | nil => simp [pick] at h
  | cons x xs =>
    simp only [pick, Option.some.injEq] at h
    subst h
    apply pairMin_spec A (x :: xs) (x :: xs) 0
    · intro k y hy; simpa using hy
    · left
      refine ⟨rfl, ?_⟩
      have := beamMin_spec A.lt ((x :: xs).map A.scale) ((x :: xs).map A.scale) 0 (A.scale x, 0)
        (by intro k y hy; simpa using hy) (by simp)
      rw [List.getElem?_map] at this
      cases hx : (x :: xs)[(beamMin A.lt 0 (A.scale x, 0) ((x :: xs).map A.scale)).2]? with
      | none => rw [hx] at this; simp at this
      | some z =>
        rw [hx] at this
        simp only [Option.map_some, Option.some.injEq] at this
        exact ⟨z, rfl, this.symm⟩

theorem pick_ne_nil (A : Alg J F) (js : List J) (h : js ≠ []) : ∃ r, pick A js = some r := by
  cases js with
  | nil => exact absurd rfl h
  | cons x xs => exact ⟨_, rfl⟩

/-! ## The steps -/

/-- A step is one of two: a pair of active jets is recombined, or one is combined with the
beam. -/
theorem step_cases (A : Alg J F) (cs : CS J F) (act : List Nat) (cs' : CS J F) (act' : List Nat)
    (h : step A cs act = some (cs', act')) (hlt : ∀ k ∈ act, k < cs.jets.length) :
    (∃ i j x y rest k l, act.Perm (i :: j :: rest) ∧ act'.Perm (cs.jets.length :: rest) ∧
        cs.jets[i]? = some x ∧ cs.jets[j]? = some y ∧ A.recombine x.1 y.1 = some k ∧
        cs.hist.getLast? = some l ∧
        cs' = { cs with
          jets := cs.jets ++ [(k, cs.hist.length)]
          hist := cs.hist ++ [⟨(min x.2 y.2 : Nat), (max x.2 y.2 : Nat), cs.jets.length,
            A.dist x.1 y.1, A.fmax (A.dist x.1 y.1) l.maxdij⟩] }) ∨
    (∃ i x l, act.Perm (i :: act') ∧ cs.jets[i]? = some x ∧ cs.hist.getLast? = some l ∧
        cs' = { cs with
          hist := cs.hist ++ [⟨x.2, beamJetIndex, invalidIndex, A.scale x.1,
            A.fmax (A.scale x.1) l.maxdij⟩] }) := by
  simp only [step] at h
  cases hjs : act.mapM (fun k => (cs.jets[k]?).map (·.1)) with
  | none => rw [hjs] at h; simp at h
  | some js =>
    rw [hjs] at h
    dsimp only at h
    cases hp : pick A js with
    | none => rw [hp] at h; simp at h
    | some r =>
      rw [hp] at h
      have hsel := pick_spec A js r hp
      have hlen := mapM_some_length _ _ _ hjs
      obtain ⟨y, ii, jj⟩ := r
      have get : ∀ (m : Nat) z, js[m]? = some z → ∃ i x, act[m]? = some i ∧ cs.jets[i]? = some x ∧
          x.1 = z := by
        intro m z hz
        have hm : m < act.length := by
          rw [← hlen]
          rcases Nat.lt_or_ge m js.length with h' | h'
          · exact h'
          · rw [List.getElem?_eq_none h'] at hz; simp at hz
        obtain ⟨b, hb, hb'⟩ := mapM_some_get _ _ _ hjs m act[m] (List.getElem?_eq_getElem hm)
        rw [hz] at hb'
        simp only [Option.some.injEq] at hb'
        subst hb'
        cases hx : cs.jets[act[m]]? with
        | none => rw [hx] at hb; simp at hb
        | some x =>
          rw [hx] at hb
          simp at hb
          exact ⟨act[m], x, List.getElem?_eq_getElem hm, hx, hb⟩
      rcases hsel with ⟨hn, x, hx, hy⟩ | ⟨j, x, z, hj, hlt', hx, hz, hy⟩
      · -- the beam
        dsimp only at hn hx hy
        subst hn
        obtain ⟨i, x', hi, hx', e⟩ := get _ _ hx
        subst e
        right
        dsimp only at h
        rw [hi] at h
        dsimp only at h
        simp only [ibStep, hx', addStep] at h
        cases hl : cs.hist.getLast? with
        | none => rw [hl] at h; simp at h
        | some l =>
          rw [hl] at h
          simp only [Option.map_some, Option.some.injEq, Prod.mk.injEq] at h
          refine ⟨i, x', l, ?_, hx', rfl, ?_⟩
          · rw [← h.2]; exact set_last_perm act ii i 0 hi
          · rw [← h.1, hy]
      · dsimp only at hj hlt' hx hz hy
        subst hj
        obtain ⟨i, x', hi, hx', e⟩ := get _ _ hx
        obtain ⟨j', z', hj', hz', e'⟩ := get _ _ hz
        subst e e'
        left
        dsimp only at h
        rw [hi, hj'] at h
        dsimp only at h
        simp only [ijStep, hx', hz', addStep] at h
        cases hk : A.recombine x'.1 z'.1 with
        | none => rw [hk] at h; simp at h
        | some k =>
          rw [hk] at h
          cases hl : cs.hist.getLast? with
          | none => rw [hl] at h; simp at h
          | some l =>
            rw [hl] at h
            simp only [Option.some.injEq, Prod.mk.injEq] at h
            obtain ⟨rest, hr1, hr2⟩ := pair_perm act ii j i j' cs.jets.length hi hj' (by omega)
              (fun hm => Nat.lt_irrefl _ (hlt _ hm))
            refine ⟨i, j', x', z', rest, k, l, hr1, ?_, hx', hz', hk, rfl, ?_⟩
            · rw [← h.2]; exact hr2
            · rw [← h.1, hy]

/-- An invariant of the steps is one of the loop. -/
theorem loop_inv (A : Alg J F) (P : CS J F → List Nat → Prop)
    (hP : ∀ cs act cs' act', P cs act → step A cs act = some (cs', act') → P cs' act') :
    ∀ (n : Nat) cs act cs' act', P cs act → loop A n cs act = some (cs', act') → P cs' act'
  | 0, cs, act, cs', act', h, hl => by
    simp only [loop, Option.some.injEq, Prod.mk.injEq] at hl
    rw [← hl.1, ← hl.2]; exact h
  | n + 1, cs, act, cs', act', h, hl => by
    simp only [loop] at hl
    cases hs : step A cs act with
    | none => rw [hs] at hl; simp at hl
    | some r =>
      rw [hs] at hl
      exact loop_inv A P hP n r.1 r.2 cs' act' (hP _ _ _ _ h hs) hl

theorem loop_split (A : Alg J F) : ∀ (a b : Nat) cs act r, loop A (a + b) cs act = some r →
    ∃ m, loop A a cs act = some m ∧ loop A b m.1 m.2 = some r
  | 0, b, cs, act, r, h => ⟨(cs, act), rfl, by simpa using h⟩
  | a + 1, b, cs, act, r, h => by
    rw [show a + 1 + b = (a + b) + 1 by omega] at h
    simp only [loop] at h ⊢
    cases hs : step A cs act with
    | none => rw [hs] at h; simp at h
    | some q =>
      rw [hs] at h
      exact loop_split A a b q.1 q.2 r h

/-! ## The invariant -/

/-- A history element with a jet that knows it. -/
def Good (cs : CS J F) (a : Nat) : Prop := ∃ x, cs.jetOf (a : Int) = some x ∧ x.2 = a

/-- The history index of an active jet. -/
def hix (cs : CS J F) (k : Nat) : Nat := ((cs.jets[k]?).map (·.2)).getD 0

/-- The leaves under an element. -/
def lv (G : List (List Nat)) (i : Nat) : List Nat := (G[i]?).getD []

/-- The leaves under the jets combined with the beam. -/
def beamLeaves (hist : List (Hist F)) (G : List (List Nat)) : List Nat :=
  (hist.zip G).flatMap fun p => if p.1.parent2 = beamJetIndex then p.2 else []

/-- The invariant of the clustering of `n` particles.  `G` are the leaves under each history
element. -/
structure Inv (n : Nat) (cs : CS J F) (act : List Nat) (G : List (List Nat)) : Prop where
  len : G.length = cs.hist.length
  initn : cs.initn = n
  total : act.length + cs.hist.length = 2 * n
  nle : n ≤ cs.hist.length
  jinv : ∀ (k : Nat) x, cs.jets[k]? = some x → ∃ h, cs.hist[x.2]? = some h ∧ h.jet = k
  leaf : ∀ (i : Nat), i < n → ∃ h x, cs.hist[i]? = some h ∧ h.parent1 = inexistentParent ∧
    h.parent2 = inexistentParent ∧ h.jet = i ∧ cs.jets[i]? = some x ∧ x.2 = i ∧ G[i]? = some [i]
  node : ∀ (i : Nat) h, n ≤ i → cs.hist[i]? = some h →
    (∃ a, a < i ∧ h.parent1 = (a : Int) ∧ h.parent2 = beamJetIndex ∧ Good cs a ∧
      G[i]? = some (lv G a)) ∨
    (∃ a b, a < b ∧ b < i ∧ h.parent1 = (a : Int) ∧ h.parent2 = (b : Int) ∧ Good cs a ∧
      Good cs b ∧ Good cs i ∧ (G[i]? = some (lv G a ++ lv G b)))
  actlt : ∀ k ∈ act, k < cs.jets.length
  nodup : act.Nodup
  part : (act.flatMap (fun k => lv G (hix cs k)) ++ beamLeaves cs.hist G).Perm (List.range n)

theorem getElem?_lt {α : Type} {l : List α} {i : Nat} {x : α} (h : l[i]? = some x) :
    i < l.length := by
  rcases Nat.lt_or_ge i l.length with h' | h'
  · exact h'
  · rw [List.getElem?_eq_none h'] at h; simp at h

theorem getElem?_append_some {α : Type} {l : List α} (l' : List α) {i : Nat} {x : α}
    (h : l[i]? = some x) : (l ++ l')[i]? = some x := by
  rw [List.getElem?_append_left (getElem?_lt h)]; exact h

theorem at?_append {α : Type} {l : List α} (l' : List α) {i : Int} {x : α}
    (h : at? l i = some x) : at? (l ++ l') i = some x := by
  simp only [at?] at h ⊢
  split at h
  · rename_i hi; rw [if_pos hi]; exact getElem?_append_some l' h
  · simp at h

theorem jetOf_append (cs : CS J F) (js : List (J × Nat)) (hs : List (Hist F)) (i : Int)
    (x : J × Nat) (h : cs.jetOf i = some x) :
    ({ cs with jets := cs.jets ++ js, hist := cs.hist ++ hs } : CS J F).jetOf i = some x := by
  simp only [CS.jetOf] at h ⊢
  cases hh : at? cs.hist i with
  | none => rw [hh] at h; simp at h
  | some a =>
    rw [hh] at h
    rw [at?_append hs hh]
    exact at?_append js h

theorem Good_append (cs : CS J F) (js : List (J × Nat)) (hs : List (Hist F)) (a : Nat)
    (h : Good cs a) :
    Good ({ cs with jets := cs.jets ++ js, hist := cs.hist ++ hs } : CS J F) a := by
  obtain ⟨x, hx, he⟩ := h
  exact ⟨x, jetOf_append cs js hs _ x hx, he⟩

theorem lv_append (G G' : List (List Nat)) (i : Nat) (h : i < G.length) :
    lv (G ++ G') i = lv G i := by
  simp only [lv]; rw [List.getElem?_append_left h]

theorem hix_append (cs : CS J F) (js : List (J × Nat)) (hs : List (Hist F)) (k : Nat)
    (h : k < cs.jets.length) :
    hix ({ cs with jets := cs.jets ++ js, hist := cs.hist ++ hs } : CS J F) k = hix cs k := by
  simp only [hix]; rw [List.getElem?_append_left h]

theorem beamLeaves_append (hist hs : List (Hist F)) (G G' : List (List Nat))
    (h : hist.length = G.length) :
    beamLeaves (hist ++ hs) (G ++ G') = beamLeaves hist G ++ beamLeaves hs G' := by
  simp only [beamLeaves]; rw [List.zip_append h, List.flatMap_append]

namespace Inv

variable {n : Nat} {cs : CS J F} {act : List Nat} {G : List (List Nat)}

theorem perm (I : Inv n cs act G) {act' : List Nat} (h : act.Perm act') : Inv n cs act' G where
  len := I.len
  initn := I.initn
  total := by rw [← h.length_eq]; exact I.total
  nle := I.nle
  jinv := I.jinv
  leaf := I.leaf
  node := I.node
  actlt := fun k hk => I.actlt k (h.mem_iff.2 hk)
  nodup := h.nodup_iff.1 I.nodup
  part := ((h.flatMap_right _).symm.append_right _).trans I.part

theorem good (I : Inv n cs act G) {k : Nat} {x : J × Nat} (hx : cs.jets[k]? = some x) :
    Good cs x.2 := by
  obtain ⟨h, hh, hj⟩ := I.jinv k x hx
  refine ⟨x, ?_, rfl⟩
  simp only [CS.jetOf, at?]
  simp only [Int.natCast_nonneg, if_pos, Int.toNat_natCast, hh, hj, hx]

theorem hidx_inj (I : Inv n cs act G) {k k' : Nat} {x x' : J × Nat} (hx : cs.jets[k]? = some x)
    (hx' : cs.jets[k']? = some x') (e : x.2 = x'.2) : k = k' := by
  obtain ⟨h, hh, hj⟩ := I.jinv k x hx
  obtain ⟨h', hh', hj'⟩ := I.jinv k' x' hx'
  rw [e, hh'] at hh
  simp only [Option.some.injEq] at hh
  subst hh
  rw [hj] at hj'
  exact Int.ofNat.inj hj'

theorem beam (I : Inv n cs act G) {i : Nat} {rest : List Nat} {x : J × Nat} (d m : F)
    (hp : act.Perm (i :: rest)) (hx : cs.jets[i]? = some x) :
    Inv n { cs with hist := cs.hist ++ [⟨x.2, beamJetIndex, invalidIndex, d, m⟩] } rest
      (G ++ [lv G x.2]) := by
  have I' := I.perm hp
  obtain ⟨h0, hh0, hj0⟩ := I.jinv i x hx
  have hxl : x.2 < cs.hist.length := getElem?_lt hh0
  have e : ({ cs with hist := cs.hist ++ [⟨x.2, beamJetIndex, invalidIndex, d, m⟩] } : CS J F) =
      { cs with jets := cs.jets ++ [],
                hist := cs.hist ++ [⟨x.2, beamJetIndex, invalidIndex, d, m⟩] } := by simp
  constructor
  · simp [I.len]
  · exact I.initn
  · have := I'.total; simp at this ⊢; omega
  · have := I.nle; simp; omega
  · intro k y hy
    obtain ⟨h, hh, hj⟩ := I.jinv k y hy
    exact ⟨h, getElem?_append_some _ hh, hj⟩
  · intro i hi
    obtain ⟨h, y, a, b, c, d, e, f, g⟩ := I.leaf i hi
    exact ⟨h, y, getElem?_append_some _ a, b, c, d, e, f, getElem?_append_some _ g⟩
  · intro k h hk hh
    by_cases hkl : k < cs.hist.length
    · dsimp only at hh
      rw [List.getElem?_append_left hkl] at hh
      rcases I.node k h hk hh with ⟨a, ha, p1, p2, g, ge⟩ | ⟨a, b, hab, hb, p1, p2, g1, g2, g3, ge⟩
      · left
        refine ⟨a, ha, p1, p2, ?_, ?_⟩
        · rw [e]; exact Good_append _ _ _ _ g
        · rw [lv_append _ _ _ (by rw [I.len]; omega)]; exact getElem?_append_some _ ge
      · right
        refine ⟨a, b, hab, hb, p1, p2, ?_, ?_, ?_, ?_⟩
        · rw [e]; exact Good_append _ _ _ _ g1
        · rw [e]; exact Good_append _ _ _ _ g2
        · rw [e]; exact Good_append _ _ _ _ g3
        · rw [lv_append _ _ _ (by rw [I.len]; omega), lv_append _ _ _ (by rw [I.len]; omega)]
          exact getElem?_append_some _ ge
    · have hke : k = cs.hist.length := by
        have := getElem?_lt hh; simp at this; omega
      subst hke
      simp at hh
      subst hh
      left
      refine ⟨x.2, hxl, rfl, rfl, ?_, ?_⟩
      · rw [e]; exact Good_append _ _ _ _ (I.good hx)
      · rw [lv_append _ _ _ (by rw [I.len]; exact hxl), ← I.len]; simp
  · intro k hk; exact I'.actlt k (by simp [hk])
  · exact (List.nodup_cons.1 I'.nodup).2
  · have hpart := I'.part
    rw [beamLeaves_append _ _ _ _ I.len.symm]
    have h1 : beamLeaves [(⟨x.2, beamJetIndex, invalidIndex, d, m⟩ : Hist F)] [lv G x.2] =
        lv G x.2 := by simp [beamLeaves]
    rw [h1]
    have h2 : rest.flatMap (fun k => lv (G ++ [lv G x.2]) (hix
        ({ cs with hist := cs.hist ++ [⟨x.2, beamJetIndex, invalidIndex, d, m⟩] } : CS J F) k)) =
        rest.flatMap (fun k => lv G (hix cs k)) := by
      simp only [List.flatMap_def]
      congr 1
      apply List.map_congr_left
      intro k hk
      have hk' : k < cs.jets.length := I'.actlt k (by simp [hk])
      have : hix cs k < G.length := by
        simp only [hix, List.getElem?_eq_getElem hk', Option.map_some, Option.getD_some, I.len]
        obtain ⟨h, hh, _⟩ := I.jinv k _ (List.getElem?_eq_getElem hk')
        exact getElem?_lt hh
      exact lv_append _ _ _ this
    rw [h2]
    have h3 : hix cs i = x.2 := by simp [hix, hx]
    simp only [List.flatMap_cons, h3] at hpart
    refine List.Perm.trans ?_ hpart
    rw [← List.append_assoc]
    refine List.perm_append_comm.trans ?_
    rw [← List.append_assoc]

theorem pair (I : Inv n cs act G) {i j : Nat} {rest act' : List Nat} {x y : J × Nat} (k : J)
    (d m : F) (hp : act.Perm (i :: j :: rest)) (hp' : act'.Perm (cs.jets.length :: rest))
    (hx : cs.jets[i]? = some x) (hy : cs.jets[j]? = some y) :
    Inv n { cs with
        jets := cs.jets ++ [(k, cs.hist.length)]
        hist := cs.hist ++ [⟨(min x.2 y.2 : Nat), (max x.2 y.2 : Nat), cs.jets.length, d, m⟩] }
      act' (G ++ [lv G (min x.2 y.2) ++ lv G (max x.2 y.2)]) := by
  have I' := I.perm hp
  refine Inv.perm ?_ hp'.symm
  have hij : i ≠ j := by
    intro e
    have := I'.nodup
    simp [e] at this
  have hxy : x.2 ≠ y.2 := fun e => hij (I.hidx_inj hx hy e)
  have hxl : x.2 < cs.hist.length := by
    obtain ⟨h, hh, _⟩ := I.jinv i x hx; exact getElem?_lt hh
  have hyl : y.2 < cs.hist.length := by
    obtain ⟨h, hh, _⟩ := I.jinv j y hy; exact getElem?_lt hh
  have gmin : Good cs (min x.2 y.2) := by
    rcases Nat.le_total x.2 y.2 with h | h
    · rw [Nat.min_eq_left h]; exact I.good hx
    · rw [Nat.min_eq_right h]; exact I.good hy
  have gmax : Good cs (max x.2 y.2) := by
    rcases Nat.le_total x.2 y.2 with h | h
    · rw [Nat.max_eq_right h]; exact I.good hy
    · rw [Nat.max_eq_left h]; exact I.good hx
  constructor
  · simp [I.len]
  · exact I.initn
  · have := I'.total; simp at this ⊢; omega
  · have := I.nle; simp; omega
  · intro q z hz
    dsimp only at hz ⊢
    by_cases hql : q < cs.jets.length
    · rw [List.getElem?_append_left hql] at hz
      obtain ⟨h, hh, hj⟩ := I.jinv q z hz
      exact ⟨h, getElem?_append_some _ hh, hj⟩
    · have hqe : q = cs.jets.length := by
        have := getElem?_lt hz; simp at this; omega
      subst hqe
      simp at hz
      subst hz
      exact ⟨⟨(min x.2 y.2 : Nat), (max x.2 y.2 : Nat), cs.jets.length, d, m⟩, by simp, rfl⟩
  · intro i hi
    obtain ⟨h, z, a, b, c, d, e, f, g⟩ := I.leaf i hi
    exact ⟨h, z, getElem?_append_some _ a, b, c, d, getElem?_append_some _ e, f,
      getElem?_append_some _ g⟩
  · intro q h hq hh
    by_cases hql : q < cs.hist.length
    · dsimp only at hh
      rw [List.getElem?_append_left hql] at hh
      rcases I.node q h hq hh with ⟨a, ha, p1, p2, g, ge⟩ | ⟨a, b, hab, hb, p1, p2, g1, g2, g3, ge⟩
      · left
        refine ⟨a, ha, p1, p2, Good_append _ _ _ _ g, ?_⟩
        rw [lv_append _ _ _ (by rw [I.len]; omega)]; exact getElem?_append_some _ ge
      · right
        refine ⟨a, b, hab, hb, p1, p2, Good_append _ _ _ _ g1, Good_append _ _ _ _ g2,
          Good_append _ _ _ _ g3, ?_⟩
        rw [lv_append _ _ _ (by rw [I.len]; omega), lv_append _ _ _ (by rw [I.len]; omega)]
        exact getElem?_append_some _ ge
    · have hqe : q = cs.hist.length := by
        have := getElem?_lt hh; simp at this; omega
      subst hqe
      simp at hh
      subst hh
      right
      refine ⟨min x.2 y.2, max x.2 y.2, by omega, by omega, rfl, rfl,
        Good_append _ _ _ _ gmin, Good_append _ _ _ _ gmax, ?_, ?_⟩
      · refine ⟨(k, cs.hist.length), ?_, rfl⟩
        simp [CS.jetOf, at?]
      · rw [lv_append _ _ _ (by rw [I.len]; omega), lv_append _ _ _ (by rw [I.len]; omega),
          ← I.len]
        simp
  · intro q hq
    dsimp only
    simp only [List.length_append, List.length_cons, List.length_nil]
    rcases List.mem_cons.1 hq with e | e
    · omega
    · have := I'.actlt q (by simp [e]); omega
  · refine List.nodup_cons.2 ⟨?_, ?_⟩
    · intro hm
      exact Nat.lt_irrefl _ (I'.actlt _ (by simp [hm]))
    · exact (List.nodup_cons.1 (List.nodup_cons.1 I'.nodup).2).2
  · have hpart := I'.part
    rw [beamLeaves_append _ _ _ _ I.len.symm]
    have h1 : beamLeaves [(⟨(min x.2 y.2 : Nat), (max x.2 y.2 : Nat), cs.jets.length, d, m⟩ :
        Hist F)] [lv G (min x.2 y.2) ++ lv G (max x.2 y.2)] = [] := by
      simp only [beamLeaves, List.zip_cons_cons, List.zip_nil_left, List.flatMap_cons,
        List.flatMap_nil, List.append_nil, beamJetIndex]
      have : ¬ ((max x.2 y.2 : Nat) : Int) = -1 := by omega
      simp only [this, if_false]
    rw [h1, List.append_nil]
    have h2 : rest.flatMap (fun q => lv (G ++ [lv G (min x.2 y.2) ++ lv G (max x.2 y.2)]) (hix
        ({ cs with
          jets := cs.jets ++ [(k, cs.hist.length)]
          hist := cs.hist ++ [⟨(min x.2 y.2 : Nat), (max x.2 y.2 : Nat), cs.jets.length, d, m⟩] }
          : CS J F) q)) =
        rest.flatMap (fun k => lv G (hix cs k)) := by
      simp only [List.flatMap_def]
      congr 1
      apply List.map_congr_left
      intro k hk
      have hk' : k < cs.jets.length := I'.actlt k (by simp [hk])
      have : hix cs k < G.length := by
        simp only [hix, List.getElem?_eq_getElem hk', Option.map_some, Option.getD_some, I.len]
        obtain ⟨h, hh, _⟩ := I.jinv k _ (List.getElem?_eq_getElem hk')
        exact getElem?_lt hh
      rw [hix_append _ _ _ _ hk']
      exact lv_append _ _ _ this
    have h4 : lv (G ++ [lv G (min x.2 y.2) ++ lv G (max x.2 y.2)]) (hix
        ({ cs with
          jets := cs.jets ++ [(k, cs.hist.length)]
          hist := cs.hist ++ [⟨(min x.2 y.2 : Nat), (max x.2 y.2 : Nat), cs.jets.length, d, m⟩] }
          : CS J F) cs.jets.length) = lv G (min x.2 y.2) ++ lv G (max x.2 y.2) := by
      simp only [hix, lv, List.getElem?_concat_length, Option.map_some, Option.getD_some, ← I.len]
    simp only [List.flatMap_cons, h4, h2]
    have h3 : hix cs i = x.2 := by simp [hix, hx]
    have h3' : hix cs j = y.2 := by simp [hix, hy]
    simp only [List.flatMap_cons, h3, h3'] at hpart
    refine List.Perm.trans ?_ hpart
    rw [← List.append_assoc (lv G x.2)]
    refine List.Perm.append_right _ (List.Perm.append_right _ ?_)
    rcases Nat.le_total x.2 y.2 with h | h
    · rw [Nat.min_eq_left h, Nat.max_eq_right h]
    · rw [Nat.min_eq_right h, Nat.max_eq_left h]; exact List.perm_append_comm

theorem step (A : Alg J F) (I : Inv n cs act G) {cs' : CS J F} {act' : List Nat}
    (h : FastJet.step A cs act = some (cs', act')) : ∃ g, Inv n cs' act' (G ++ [g]) := by
  rcases step_cases A cs act cs' act' h I.actlt with
    ⟨i, j, x, y, rest, k, l, hp, hp', hx, hy, _, _, rfl⟩ | ⟨i, x, l, hp, hx, _, rfl⟩
  · exact ⟨_, I.pair k _ _ hp hp' hx hy⟩
  · exact ⟨_, I.beam _ _ hp hx⟩

theorem loop (A : Alg J F) (I : Inv n cs act G) {m : Nat} {cs' : CS J F} {act' : List Nat}
    (h : FastJet.loop A m cs act = some (cs', act')) : ∃ G', Inv n cs' act' (G ++ G') :=
  loop_inv A (fun cs act => ∃ G', Inv n cs act (G ++ G'))
    (fun _ _ _ _ ⟨G1, I⟩ h => by
      obtain ⟨g, I'⟩ := I.step A h
      exact ⟨G1 ++ [g], by rw [← List.append_assoc]; exact I'⟩) m cs act cs' act'
    ⟨[], by simpa using I⟩ h

end Inv

/-! ## The start -/

theorem initJets_spec (A : Alg J F) : ∀ (js : List J) (i : Nat) (l : List (J × Nat)),
    initJets A i js = some l →
    ∃ ps, js.mapM A.preprocess = some ps ∧ l = ps.zipIdx i ∧ ps.length = js.length
  | [], i, l, h => by
    simp [initJets] at h; exact ⟨[], by simp, by simp [h], rfl⟩
  | j :: js, i, l, h => by
    simp only [initJets] at h
    cases hj : A.preprocess j with
    | none => rw [hj] at h; simp at h
    | some j' =>
      rw [hj] at h
      dsimp only at h
      cases hr : initJets A (i + 1) js with
      | none => rw [hr] at h; simp at h
      | some r =>
        rw [hr] at h
        simp at h
        obtain ⟨ps, h1, h2, h3⟩ := initJets_spec A js (i + 1) r hr
        exact ⟨j' :: ps, by simp [hj, h1], by rw [← h, h2]; rfl, by simp [h3]⟩

theorem flatMap_singleton_range (n : Nat) (f : Nat → List Nat) (h : ∀ k, k < n → f k = [k]) :
    (List.range n).flatMap f = List.range n := by
  rw [List.flatMap_def]
  have : (List.range n).map f = (List.range n).map (fun k => [k]) := by
    apply List.map_congr_left
    intro k hk; exact h k (List.mem_range.1 hk)
  rw [this, ← List.flatMap_def]
  simp

theorem init_inv (A : Alg J F) (js : List J) (cs : CS J F) (h : init A js = some cs) :
    ∃ ps, js.mapM A.preprocess = some ps ∧ cs.jets = ps.zipIdx ∧ ps.length = js.length ∧
      ∃ G, Inv js.length cs (List.range js.length) G := by
  simp only [init] at h
  cases hi : initJets A 0 js with
  | none => rw [hi] at h; simp at h
  | some l =>
    rw [hi] at h
    simp only [Option.map_some, Option.some.injEq] at h
    obtain ⟨ps, h1, h2, h3⟩ := initJets_spec A js 0 l hi
    subst h
    refine ⟨ps, h1, h2, h3, (List.range js.length).map (fun i => [i]), ?_⟩
    have hl : l.length = js.length := by rw [h2]; simp [h3]
    have hget : ∀ (k : Nat) x, l[k]? = some x → x.2 = k ∧ k < js.length := by
      intro k x hx
      have hk := getElem?_lt hx
      rw [h2] at hx
      simp [List.getElem?_zipIdx] at hx
      obtain ⟨a, ha, rfl⟩ := hx
      exact ⟨rfl, by omega⟩
    constructor
    · simp
    · rfl
    · simp; omega
    · simp
    · intro k x hx
      obtain ⟨e, hk⟩ := hget k x hx
      rw [e]
      exact ⟨_, by simp [hk]; rfl, rfl⟩
    · intro i hi'
      have hil : i < l.length := by omega
      refine ⟨⟨inexistentParent, inexistentParent, i, A.zero, A.zero⟩, l[i], by simp [hi'], rfl, rfl,
        rfl, List.getElem?_eq_getElem hil, (hget i _ (List.getElem?_eq_getElem hil)).1,
        by simp [hi']⟩
    · intro i h hi' hh
      have := getElem?_lt hh
      simp at this
      omega
    · intro k hk
      have := List.mem_range.1 hk
      dsimp only; omega
    · exact List.nodup_range
    · have hb : beamLeaves ((List.range js.length).map fun (i : Nat) =>
          (⟨inexistentParent, inexistentParent, (i : Int), A.zero, A.zero⟩ : Hist F))
          ((List.range js.length).map (fun i => [i])) = [] := by
        simp only [beamLeaves]
        apply List.flatMap_eq_nil_iff.2
        intro p hp
        have := (List.of_mem_zip (a := p.1) (b := p.2) hp).1
        simp only [List.mem_map] at this
        obtain ⟨i, _, e⟩ := this
        rw [← e]
        simp [beamJetIndex, inexistentParent]
      dsimp only
      rw [hb, List.append_nil]
      rw [flatMap_singleton_range]
      intro k hk
      have hkl : k < l.length := by omega
      have e : ∀ (h : List (Hist F)) (n : Nat), hix (CS.mk l h n) k = k := by
        intro h n
        simp only [hix, List.getElem?_eq_getElem hkl, Option.map_some, Option.getD_some]
        exact (hget k _ (List.getElem?_eq_getElem hkl)).1
      rw [e]
      simp [lv, hk]

/-! ## What the loop leaves alone -/

theorem step_prefix (A : Alg J F) (cs : CS J F) (act : List Nat) (cs' : CS J F) (act' : List Nat)
    (h : step A cs act = some (cs', act')) (hlt : ∀ k ∈ act, k < cs.jets.length) :
    ∃ js e, cs' = { cs with jets := cs.jets ++ js, hist := cs.hist ++ [e] } := by
  rcases step_cases A cs act cs' act' h hlt with
    ⟨i, j, x, y, rest, k, l, hp, hp', hx, hy, _, _, rfl⟩ | ⟨i, x, l, hp, hx, _, rfl⟩
  · exact ⟨_, _, rfl⟩
  · exact ⟨[], _, by rw [List.append_nil]⟩

theorem loop_prefix (A : Alg J F) (n : Nat) : ∀ (m : Nat) (cs : CS J F) act G cs' act',
    Inv n cs act G → loop A m cs act = some (cs', act') →
    ∃ js hs, cs' = { cs with jets := cs.jets ++ js, hist := cs.hist ++ hs } ∧ hs.length = m
  | 0, cs, act, G, cs', act', _, h => by
    simp only [loop, Option.some.injEq, Prod.mk.injEq] at h
    exact ⟨[], [], by simp [h.1], rfl⟩
  | m + 1, cs, act, G, cs', act', I, h => by
    simp only [loop] at h
    cases hs : step A cs act with
    | none => rw [hs] at h; simp at h
    | some r =>
      obtain ⟨cs1, act1⟩ := r
      rw [hs] at h
      obtain ⟨g, I1⟩ := I.step A hs
      obtain ⟨js, e, e1⟩ := step_prefix A cs act cs1 act1 hs I.actlt
      obtain ⟨js', hs', e2, hl⟩ := loop_prefix A n m cs1 act1 _ cs' act' I1 h
      refine ⟨js ++ js', e :: hs', ?_, by simp [hl]⟩
      rw [e2, e1]
      simp

/-- The clustering from the start to the end. -/
theorem new_spec (A : Alg J F) (js : List J) (cs : CS J F) (h : newClusterSequence A js = some cs) :
    ∃ ps cs0 G0, js.mapM A.preprocess = some ps ∧ ps.length = js.length ∧ cs0.jets = ps.zipIdx ∧
      init A js = some cs0 ∧
      Inv js.length cs0 (List.range js.length) G0 ∧
      loop A js.length cs0 (List.range js.length) = some (cs, []) := by
  simp only [newClusterSequence] at h
  cases hi : init A js with
  | none => rw [hi] at h; simp at h
  | some cs0 =>
    rw [hi] at h
    dsimp only at h
    obtain ⟨ps, h1, h2, h3, G, I⟩ := init_inv A js cs0 hi
    cases hl : loop A js.length cs0 (List.range js.length) with
    | none => rw [hl] at h; simp at h
    | some r =>
      obtain ⟨cs1, act⟩ := r
      rw [hl] at h
      simp only [Option.map_some, Option.some.injEq] at h
      subst h
      refine ⟨ps, cs0, G, h1, h3, h2, rfl, I, ?_⟩
      obtain ⟨G', I'⟩ := I.loop A hl
      obtain ⟨js', hs, e, hlen⟩ := loop_prefix A _ _ _ _ _ _ _ I hl
      have t := I'.total
      have t0 := I.total
      rw [e] at t
      simp at t t0
      have : act = [] := List.eq_nil_of_length_eq_zero (by omega)
      rw [hl, this]

end Verif.FastJet
