import Verif.Riofs.NestedProps

/-!
# Putting objects and making directories by path (C126)
-/

namespace Verif.Riofs

variable {O : Type}

/-! ### Changing a directory below -/

theorem holds_setDir {ks : Keys O} (h : WF ks) {c cy s} (hh : Holds ks c cy (.dir s)) (sub : Keys O) (x : List UInt8)
    (cy' : Int) (n : Node O) :
    Holds (setDir ks c sub) x cy' n ↔ (x ≠ c ∧ Holds ks x cy' n) ∨ (x = c ∧ cy' = cy ∧ n = .dir sub) := by
  obtain ⟨k, hk, hn, hc, ho⟩ := hh
  have huniq := (h.one k hk s ho).2
  have hkf : k ∈ ks.filter (fun k => decide (k.name = c)) := List.mem_filter.mpr ⟨hk, by simpa using hn⟩
  have hne : ks.filter (fun k => decide (k.name = c)) ≠ [] := by
    intro e
    rw [e] at hkf
    simp at hkf
  obtain ⟨m, e, hm, _⟩ := maxCycle_some _ hne
  have hm' := List.mem_filter.mp hm
  have hmk : m = k := huniq m hm'.1 (by rw [hn]; simpa using hm'.2)
  subst hmk
  have hset : setDir ks c sub = ks.map (fun k' => if k'.name = c ∧ k'.cycle = m.cycle then { k' with obj := .dir sub } else k') := by
    unfold setDir
    rw [e]
  rw [hset]
  constructor
  · rintro ⟨k', hk', hn', hc', ho'⟩
    obtain ⟨k0, hk0, rfl⟩ := List.mem_map.mp hk'
    by_cases hx : k0.name = c
    · have := huniq k0 hk0 (by rw [hx, hn])
      subst this
      rw [if_pos ⟨hn, rfl⟩] at hn' hc' ho'
      simp only at hn' hc' ho'
      exact Or.inr ⟨by rw [← hn', hn], by rw [← hc', hc], ho'.symm⟩
    · rw [if_neg (fun h => hx h.1)] at hn' hc' ho'
      exact Or.inl ⟨by rw [← hn']; exact hx, k0, hk0, hn', hc', ho'⟩
  · rintro (⟨hx, k0, hk0, hn0, hc0, ho0⟩ | ⟨rfl, rfl, rfl⟩)
    · exact ⟨k0, List.mem_map.mpr ⟨k0, hk0, by rw [if_neg (fun h => hx (by rw [← hn0]; exact h.1))]⟩, hn0, hc0, ho0⟩
    · exact ⟨{ m with obj := .dir sub }, List.mem_map.mpr ⟨m, hk, by rw [if_pos ⟨hn, rfl⟩]⟩, hn, hc, rfl⟩

theorem wf_setDir {ks : Keys O} (h : WF ks) {c cy s} (hh : Holds ks c cy (.dir s)) {sub : Keys O} (hs : WF sub) :
    WF (setDir ks c sub) := by
  obtain ⟨k, hk, hn, hc, ho⟩ := hh
  have huniq := (h.one k hk s ho).2
  have hkf : k ∈ ks.filter (fun k => decide (k.name = c)) := List.mem_filter.mpr ⟨hk, by simpa using hn⟩
  have hne : ks.filter (fun k => decide (k.name = c)) ≠ [] := by
    intro e
    rw [e] at hkf
    simp at hkf
  obtain ⟨m, e, hm, _⟩ := maxCycle_some _ hne
  have hm' := List.mem_filter.mp hm
  have hmk : m = k := huniq m hm'.1 (by rw [hn]; simpa using hm'.2)
  subst hmk
  have hset : setDir ks c sub = ks.map (fun k' => if k'.name = c ∧ k'.cycle = m.cycle then { k' with obj := .dir sub } else k') := by
    unfold setDir
    rw [e]
  rw [hset]
  have fname : ∀ k' : DKey (Node O), (if k'.name = c ∧ k'.cycle = m.cycle then { k' with obj := .dir sub } else k').name = k'.name := by
    intro k'; split <;> rfl
  have fcyc : ∀ k' : DKey (Node O), (if k'.name = c ∧ k'.cycle = m.cycle then { k' with obj := .dir sub } else k').cycle = k'.cycle := by
    intro k'; split <;> rfl
  have fcls : ∀ k' : DKey (Node O), (if k'.name = c ∧ k'.cycle = m.cycle then { k' with obj := .dir sub } else k').cls = k'.cls := by
    intro k'; split <;> rfl
  -- a key that holds a directory afterwards held one before
  have hdir : ∀ k0 ∈ ks, ∀ d, (if k0.name = c ∧ k0.cycle = m.cycle then { k0 with obj := Node.dir sub } else k0).obj = .dir d →
      (k0 = m ∧ d = sub) ∨ k0.obj = .dir d := by
    intro k0 hk0 d hd
    by_cases hx : k0.name = c ∧ k0.cycle = m.cycle
    · rw [if_pos hx] at hd
      injection hd with hd
      exact Or.inl ⟨huniq k0 hk0 (by rw [hx.1, hn]), hd.symm⟩
    · rw [if_neg hx] at hd
      exact Or.inr hd
  refine .mk ⟨?_, ?_⟩ ?_ ?_ ?_
  · rw [List.pairwise_map]
    refine h.dist.1.imp ?_
    intro a b hab
    rw [fname, fname, fcyc, fcyc]
    exact hab
  · intro k' hk'
    obtain ⟨k0, hk0, rfl⟩ := List.mem_map.mp hk'
    rw [fcyc]
    exact h.dist.2 k0 hk0
  · intro k' hk'
    obtain ⟨k0, hk0, rfl⟩ := List.mem_map.mp hk'
    rw [fname]
    exact h.names k0 hk0
  · intro k' hk' d hd
    obtain ⟨k0, hk0, rfl⟩ := List.mem_map.mp hk'
    have hone : k0.cls = dirClass ∧ ∀ k'' ∈ ks, k''.name = k0.name → k'' = k0 := by
      rcases hdir k0 hk0 d hd with ⟨rfl, _⟩ | h0
      · exact h.one _ hk0 s ho
      · exact h.one _ hk0 d h0
    refine ⟨by rw [fcls]; exact hone.1, ?_⟩
    intro k'' hk'' hnn
    obtain ⟨k1, hk1, rfl⟩ := List.mem_map.mp hk''
    rw [fname, fname] at hnn
    rw [hone.2 k1 hk1 hnn]
  · intro k' hk' d hd
    obtain ⟨k0, hk0, rfl⟩ := List.mem_map.mp hk'
    rcases hdir k0 hk0 d hd with ⟨_, rfl⟩ | h0
    · exact hs
    · exact h.sub _ hk0 d h0

theorem updAt_spec {ks : Keys O} (h : WF ks) {p d} (hd : DirAt ks p d) (hp : ∀ x ∈ p, Good x)
    (f : Keys O → Out (Keys O)) {d' : Keys O} (hf : f d = .ok d') (hw : WF d') :
    ∃ ks', updAt f p ks = .ok ks' ∧ WF ks' ∧ (∀ r e, DirAt ks' (p ++ r) e ↔ DirAt d' r e) ∧
      (∀ q, ¬ p <+: q → (IsDir ks' q ↔ IsDir ks q) ∧
        ∀ name cy o, HeldAt ks' q name cy (.obj o) ↔ HeldAt ks q name cy (.obj o)) := by
  induction hd with
  | here ks =>
    refine ⟨d', hf, hw, fun r e => Iff.rfl, ?_⟩
    intro q hq
    exact absurd (List.nil_prefix) hq
  | @down ks c cy sub cs d hh hd ih =>
    obtain ⟨sub', e1, w1, f1, f2⟩ := ih (h.holds_sub hh) (fun z hz => hp z (by simp [hz])) hf
    have hc := (hp c (by simp)).2.2
    refine ⟨setDir ks c sub', ?_, wf_setDir h hh w1, ?_, ?_⟩
    · simp only [updAt, (get_dir h hc).mpr ⟨cy, hh⟩, e1, Out.map]
    · intro r e
      rw [List.cons_append, DirAt.cons_iff, ← f1]
      constructor
      · rintro ⟨cy', s'', h1, h2⟩
        rcases (holds_setDir h hh sub' c cy' _).mp h1 with ⟨hx, _⟩ | ⟨_, _, h3⟩
        · exact absurd rfl hx
        · injection h3 with h3
          rw [← h3]; exact h2
      · intro h2
        exact ⟨cy, sub', (holds_setDir h hh sub' c cy _).mpr (Or.inr ⟨rfl, rfl, rfl⟩), h2⟩
    · intro q hq
      cases q with
      | nil =>
        refine ⟨⟨fun _ => ⟨_, .here _⟩, fun _ => ⟨_, .here _⟩⟩, ?_⟩
        intro name cy' o
        unfold HeldAt
        simp only [DirAt.nil_iff, exists_eq_left]
        rw [holds_setDir h hh]
        constructor
        · rintro (⟨_, h1⟩ | ⟨_, _, h1⟩)
          · exact h1
          · cases h1
        · intro h1
          left
          refine ⟨?_, h1⟩
          rintro rfl
          have := (h.uniq hh h1).2
          cases this
      | cons x qs =>
        by_cases hx : x = c
        · subst hx
          have hq' : ¬ cs <+: qs := fun hh => hq (by rw [List.cons_prefix_cons]; exact ⟨rfl, hh⟩)
          obtain ⟨g1, g2⟩ := f2 qs hq'
          have down' : ∀ e, DirAt (setDir ks x sub') (x :: qs) e ↔ DirAt sub' qs e := by
            intro e
            rw [DirAt.cons_iff]
            constructor
            · rintro ⟨cy', s'', h1, h2⟩
              rcases (holds_setDir h hh sub' x cy' _).mp h1 with ⟨hx, _⟩ | ⟨_, _, h3⟩
              · exact absurd rfl hx
              · injection h3 with h3
                rw [← h3]; exact h2
            · intro h2
              exact ⟨cy, sub', (holds_setDir h hh sub' x cy _).mpr (Or.inr ⟨rfl, rfl, rfl⟩), h2⟩
          have down0 : ∀ e, DirAt ks (x :: qs) e ↔ DirAt sub qs e := by
            intro e
            rw [DirAt.cons_iff]
            constructor
            · rintro ⟨cy', s'', h1, h2⟩
              have := (h.uniq hh h1).2
              injection this with this
              rw [← this]; exact h2
            · intro h2
              exact ⟨cy, sub, hh, h2⟩
          constructor
          · unfold IsDir at g1 ⊢
            simp only [down', down0]
            exact g1
          · intro name cy' o
            have := g2 name cy' o
            unfold HeldAt at this ⊢
            simp only [down', down0]
            exact this
        · have same : ∀ e, DirAt (setDir ks c sub') (x :: qs) e ↔ DirAt ks (x :: qs) e := by
            intro e
            rw [DirAt.cons_iff, DirAt.cons_iff]
            constructor
            · rintro ⟨cy', s'', h1, h2⟩
              rcases (holds_setDir h hh sub' x cy' _).mp h1 with ⟨_, h3⟩ | ⟨h3, _⟩
              · exact ⟨cy', s'', h3, h2⟩
              · exact absurd h3 hx
            · rintro ⟨cy', s'', h1, h2⟩
              exact ⟨cy', s'', (holds_setDir h hh sub' x cy' _).mpr (Or.inl ⟨hx, h1⟩), h2⟩
          unfold IsDir HeldAt
          simp only [same, true_and]
          intros
          trivial

/-! ### Making directories -/

/-- `ks'` is `ks` with directories at the paths `S` added: it has the same objects. -/
def MoreDirs (ks ks' : Keys O) (S : List (List UInt8) → Prop) : Prop :=
  WF ks' ∧ (∀ q, IsDir ks' q ↔ IsDir ks q ∨ S q) ∧
  ∀ q name cy o, HeldAt ks' q name cy (.obj o) ↔ HeldAt ks q name cy (.obj o)

theorem wf_snoc {ks : Keys O} (h : WF ks) {k : DKey (Node O)} (hd : Distinct (ks ++ [k])) (hn : Good k.name)
    (hk : (∃ o, k.obj = .obj o) ∧ (∀ k' ∈ ks, k'.name = k.name → k'.cls ≠ dirClass) ∨
      (∃ s, k.obj = .dir s ∧ WF s) ∧ k.cls = dirClass ∧ ∀ k' ∈ ks, k'.name ≠ k.name) : WF (ks ++ [k]) := by
  refine .mk hd ?_ ?_ ?_
  · intro k' hk'
    rcases List.mem_append.mp hk' with h1 | h1
    · exact h.names k' h1
    · rw [List.mem_singleton.mp h1]; exact hn
  · intro k1 h1 d hd1
    rcases List.mem_append.mp h1 with h1 | h1
    · have ho := h.one k1 h1 d hd1
      refine ⟨ho.1, ?_⟩
      intro k2 h2 hnn
      rcases List.mem_append.mp h2 with h2 | h2
      · exact ho.2 k2 h2 hnn
      · rw [List.mem_singleton.mp h2] at hnn
        rcases hk with ⟨_, hk⟩ | ⟨_, _, hk⟩
        · exact absurd ho.1 (hk k1 h1 hnn.symm)
        · exact absurd hnn.symm (hk k1 h1)
    · have hk1 := List.mem_singleton.mp h1
      subst hk1
      rcases hk with ⟨⟨o, e⟩, _⟩ | ⟨_, hc, hk⟩
      · rw [e] at hd1; cases hd1
      · refine ⟨hc, ?_⟩
        intro k2 h2 hnn
        rcases List.mem_append.mp h2 with h2 | h2
        · exact absurd hnn (hk k2 h2)
        · exact List.mem_singleton.mp h2
  · intro k1 h1 d hd1
    rcases List.mem_append.mp h1 with h1 | h1
    · exact h.sub k1 h1 d hd1
    · have hk1 := List.mem_singleton.mp h1
      subst hk1
      rcases hk with ⟨⟨o, e⟩, _⟩ | ⟨⟨s, e, hs⟩, _⟩
      · rw [e] at hd1; cases hd1
      · rw [e] at hd1
        injection hd1 with hd1
        rw [← hd1]; exact hs

theorem holds_snoc {Obj : Type} (ks : List (DKey Obj)) (k : DKey Obj) (x : List UInt8) (cy : Int) (n : Obj) :
    Holds (ks ++ [k]) x cy n ↔ Holds ks x cy n ∨ (k.name = x ∧ k.cycle = cy ∧ k.obj = n) := by
  unfold Holds
  simp only [List.mem_append, List.mem_singleton, or_and_right, exists_or, exists_eq_left]

theorem mkdir1_spec {d : Keys O} (h : WF d) {c} (hc : Good c) (hno : ∀ cy n, ¬ Holds d c cy n) :
    ∃ d', mkdir1 d c = .ok d' ∧ WF d' ∧
      ∀ x cy n, Holds d' x cy n ↔ Holds d x cy n ∨ (x = c ∧ cy = 1 ∧ n = .dir []) := by
  have hno' : ∀ k ∈ d, k.name ≠ c := fun k hk e => hno k.cycle k.obj ⟨k, hk, e, rfl, rfl⟩
  refine ⟨d ++ [⟨c, 1, dirClass, .dir []⟩], ?_, ?_, ?_⟩
  · unfold mkdir1
    rw [(get_noKey d c hc.2.2).mpr hno]
    simp [hc.2.1]
  · refine wf_snoc h ⟨?_, ?_⟩ hc (Or.inr ⟨⟨[], rfl, WF.nil⟩, rfl, hno'⟩)
    · rw [List.pairwise_append]
      refine ⟨h.dist.1, by simp, ?_⟩
      intro a ha b hb
      rw [List.mem_singleton.mp hb]
      exact fun hh => hno' a ha hh.1
    · intro k hk
      rcases List.mem_append.mp hk with h1 | h1
      · exact h.dist.2 k h1
      · rw [List.mem_singleton.mp h1]; simp
  · intro x cy n
    rw [holds_snoc]
    constructor
    · rintro (h1 | ⟨rfl, rfl, rfl⟩)
      · exact Or.inl h1
      · exact Or.inr ⟨rfl, rfl, rfl⟩
    · rintro (h1 | ⟨rfl, rfl, rfl⟩)
      · exact Or.inl h1
      · exact Or.inr ⟨rfl, rfl, rfl⟩

/-- The effect on the whole of a new directory `c` in the directory at `p`. -/
theorem updAt_mkdir {ks : Keys O} (h : WF ks) {p d} (hd : DirAt ks p d) (hp : ∀ x ∈ p, Good x) {c} (hc : Good c)
    (hno : ∀ cy n, ¬ Holds d c cy n) :
    ∃ ks', updAt (fun d => mkdir1 d c) p ks = .ok ks' ∧ MoreDirs ks ks' (fun q => q = p ++ [c]) := by
  obtain ⟨d', e1, w1, h1⟩ := mkdir1_spec (hd.wf h) hc hno
  obtain ⟨ks', e2, w2, f1, f2⟩ := updAt_spec h hd hp (fun d => mkdir1 d c) e1 w1
  have base : ∀ r e, DirAt ks (p ++ r) e ↔ DirAt d r e := by
    intro r e
    rw [DirAt.append_iff]
    constructor
    · rintro ⟨d2, g1, g2⟩
      rw [hd.unique h g1]; exact g2
    · intro g; exact ⟨d, hd, g⟩
  have hdirs : ∀ r, r ≠ [] → ∀ e, DirAt d' r e ↔ DirAt d r e ∨ (r = [c] ∧ e = []) := by
    intro r hr e
    cases r with
    | nil => exact absurd rfl hr
    | cons x r =>
      rw [DirAt.cons_iff, DirAt.cons_iff]
      constructor
      · rintro ⟨cy, s, g1, g2⟩
        rcases (h1 x cy _).mp g1 with g1 | ⟨rfl, rfl, g3⟩
        · exact Or.inl ⟨cy, s, g1, g2⟩
        · injection g3 with g3
          subst g3
          cases r with
          | nil => exact Or.inr ⟨rfl, DirAt.nil_iff.mp g2⟩
          | cons y r =>
            obtain ⟨_, _, ⟨k, hk, _⟩, _⟩ := DirAt.cons_iff.mp g2
            simp at hk
      · rintro (⟨cy, s, g1, g2⟩ | ⟨g1, rfl⟩)
        · exact ⟨cy, s, (h1 x cy _).mpr (Or.inl g1), g2⟩
        · injection g1 with g1 g2
          subst g1 g2
          exact ⟨1, [], (h1 _ 1 _).mpr (Or.inr ⟨rfl, rfl, rfl⟩), .here _⟩
  refine ⟨ks', e2, w2, ?_, ?_⟩
  · intro q
    by_cases hq : p <+: q
    · obtain ⟨r, rfl⟩ := hq
      unfold IsDir
      simp only [f1, base]
      by_cases hr : r = []
      · subst hr
        exact ⟨fun _ => Or.inl ⟨d, .here d⟩, fun _ => ⟨d', .here d'⟩⟩
      · simp only [hdirs r hr]
        constructor
        · rintro ⟨e, g | ⟨rfl, _⟩⟩
          · exact Or.inl ⟨e, g⟩
          · exact Or.inr rfl
        · rintro (⟨e, g⟩ | g)
          · exact ⟨e, Or.inl g⟩
          · have : r = [c] := List.append_cancel_left g
            exact ⟨[], Or.inr ⟨this, rfl⟩⟩
    · rw [(f2 q hq).1]
      constructor
      · exact Or.inl
      · rintro (g | rfl)
        · exact g
        · exact absurd ⟨[c], rfl⟩ hq
  · intro q name cy o
    by_cases hq : p <+: q
    · obtain ⟨r, rfl⟩ := hq
      unfold HeldAt
      simp only [f1, base]
      by_cases hr : r = []
      · subst hr
        simp only [DirAt.nil_iff, exists_eq_left]
        rw [h1]
        constructor
        · rintro (g | ⟨_, _, g⟩)
          · exact g
          · cases g
        · exact Or.inl
      · simp only [hdirs r hr]
        constructor
        · rintro ⟨e, g | ⟨_, rfl⟩, g2⟩
          · exact ⟨e, g, g2⟩
          · obtain ⟨k, hk, _⟩ := g2
            simp at hk
        · rintro ⟨e, g, g2⟩
          exact ⟨e, Or.inl g, g2⟩
    · exact (f2 q hq).2 name cy o

theorem trimRight_join (p : List (List UInt8)) (h : p ≠ []) (hg : ∀ x ∈ p, Good x) :
    trimRight (joinPath p ++ [47]) = joinPath p := by
  obtain ⟨q, c, rfl⟩ : ∃ q c, p = q ++ [c] := ⟨p.dropLast, p.getLast h, (List.dropLast_concat_getLast h).symm⟩
  obtain ⟨hc1, hc2, _⟩ := hg c (by simp)
  obtain ⟨s, b, rfl⟩ : ∃ s b, c = s ++ [b] := ⟨c.dropLast, c.getLast hc1, (List.dropLast_concat_getLast hc1).symm⟩
  have hb : b ≠ 47 := by
    rintro rfl
    simp at hc2
  obtain ⟨t, ht⟩ : ∃ t, joinPath (q ++ [s ++ [b]]) = t ++ [b] := by
    by_cases hq : q = []
    · subst hq; exact ⟨s, rfl⟩
    · rw [joinPath_snoc q _ hq]
      exact ⟨joinPath q ++ 47 :: s, by simp⟩
  rw [ht]
  unfold trimRight
  simp [hb]

theorem pathSplit_join (p : List (List UInt8)) (c : List UInt8) (h : p ≠ []) (hc : (47 : UInt8) ∉ c) :
    pathSplit (joinPath (p ++ [c])) = (joinPath p ++ [47], c) := by
  rw [joinPath_snoc p c h]
  have hr : ∀ b ∈ c.reverse, (decide (b ≠ 47)) = true := by
    intro b hb
    simp only [decide_eq_true_eq]
    rintro rfl
    exact hc (List.mem_reverse.mp hb)
  have e : (joinPath p ++ 47 :: c).reverse = c.reverse ++ 47 :: (joinPath p).reverse := by simp
  unfold pathSplit
  rw [e, List.dropWhile_append_of_pos hr, List.takeWhile_append_of_pos hr]
  simp

theorem pathSplit_one (c : List UInt8) (hc : (47 : UInt8) ∉ c) : pathSplit c = ([], c) := by
  have hr : ∀ b ∈ c.reverse, (decide (b ≠ 47)) = true := by
    intro b hb
    simp only [decide_eq_true_eq]
    rintro rfl
    exact hc (List.mem_reverse.mp hb)
  unfold pathSplit
  have h1 := List.dropWhile_append_of_pos (l₂ := []) hr
  have h2 := List.takeWhile_append_of_pos (l₂ := []) hr
  simp only [List.append_nil, List.dropWhile_nil, List.takeWhile_nil] at h1 h2
  rw [h1, h2]
  simp

theorem MoreDirs.refl {ks : Keys O} (h : WF ks) {S} (hS : ∀ q, S q → IsDir ks q) : MoreDirs ks ks S :=
  ⟨h, fun q => ⟨Or.inl, fun g => g.elim id (hS q)⟩, fun _ _ _ _ => Iff.rfl⟩

theorem MoreDirs.trans {ks ks1 ks2 : Keys O} {S T U} (h1 : MoreDirs ks ks1 S) (h2 : MoreDirs ks1 ks2 T)
    (hU : ∀ q, U q ↔ S q ∨ T q ∨ (U q ∧ IsDir ks q)) : MoreDirs ks ks2 U := by
  refine ⟨h2.1, ?_, fun q name cy o => (h2.2.2 q name cy o).trans (h1.2.2 q name cy o)⟩
  intro q
  rw [h2.2.1, h1.2.1, hU q]
  constructor
  · rintro ((g | g) | g)
    · exact Or.inl g
    · exact Or.inr (Or.inl g)
    · exact Or.inr (Or.inr (Or.inl g))
  · rintro (g | g | g | g)
    · exact Or.inl (Or.inl g)
    · exact Or.inl (Or.inr g)
    · exact Or.inr g
    · exact Or.inl (Or.inl g.2)

theorem MoreDirs.isObj {ks ks' : Keys O} {S} (h : MoreDirs ks ks' S) (p : List (List UInt8)) : IsObj ks' p ↔ IsObj ks p := by
  unfold IsObj
  simp only [h.2.2]

/-- Directory, object or nothing at a name in the directory at `p`. -/
theorem get_three {ks : Keys O} (h : WF ks) {p d} (hd : DirAt ks p d) {c} (hc : Good c) :
    (∃ s, get d c = .found (.dir s) ∧ DirAt ks (p ++ [c]) s) ∨ (∃ o, get d c = .found (.obj o) ∧ IsObj ks (p ++ [c])) ∨
    (get d c = .noKey ∧ ∀ cy n, ¬ Holds d c cy n) := by
  cases e : get d c with
  | found n =>
    obtain ⟨cy, g, _⟩ := (get_bare d (hd.wf h).dist c hc.2.2 n).mp e
    cases n with
    | dir s => exact Or.inl ⟨s, rfl, DirAt.append_iff.mpr ⟨d, hd, .down g (.here s)⟩⟩
    | obj o => exact Or.inr (Or.inl ⟨o, rfl, p, c, cy, o, rfl, d, hd, g⟩)
  | noKey => exact Or.inr (Or.inr ⟨rfl, (get_noKey d c hc.2.2).mp e⟩)
  | panic => exact absurd e (get_noPanic d c hc.2.2)

theorem mkStep_spec {ks : Keys O} (h : WF ks) {p} (hd : IsDir ks p) (hp : ∀ x ∈ p, Good x) {c} (hc : Good c)
    (hno : ¬ IsObj ks (p ++ [c])) :
    ∃ ks', mkStep ks (joinPath (p ++ [c])) = .ok ks' ∧ MoreDirs ks ks' (fun q => q = p ++ [c]) := by
  obtain ⟨d, hd⟩ := hd
  have hg : ∀ x ∈ p ++ [c], Good x := by
    intro x hx
    rcases List.mem_append.mp hx with hx | hx
    · exact hp x hx
    · rw [List.mem_singleton.mp hx]; exact hc
  have e0 : rget ks (joinPath (p ++ [c])) = ofGet (get d c) := by
    rw [rget_path ks _ (by simp) hg, walkdir_dir h hd hp, get_9999 d c hc.2.2]
  rcases get_three h hd hc with ⟨s, e, hs⟩ | ⟨o, e, ho⟩ | ⟨e, hn⟩
  · refine ⟨ks, ?_, MoreDirs.refl h (fun q hq => by rw [hq]; exact ⟨s, hs⟩)⟩
    unfold mkStep
    rw [e0, e]
    rfl
  · exact absurd ho hno
  · obtain ⟨ks', e2, m⟩ := updAt_mkdir h hd hp hc hn
    refine ⟨ks', ?_, m⟩
    unfold mkStep
    rw [e0, e]
    simp only [ofGet]
    by_cases hpe : p = []
    · subst hpe
      have e3 : pathSplit (joinPath ([] ++ [c])) = ([], c) := pathSplit_one c hc.2.1
      rw [e3]
      simp only [trimRight, List.reverse_nil, List.dropWhile_nil]
      rw [show rget ks [] = .ok (.dir ks) by simp [rget]]
      simp only [show comps [] = [] by simp [comps]]
      exact e2
    · rw [pathSplit_join p c hpe hc.2.1]
      simp only [trimRight_join p hpe hp]
      rw [rget_dir h hd hp]
      simp only [comps_joinPath p hp]
      exact e2

theorem mkLoop_spec (ps : List (List UInt8)) {ks : Keys O} (h : WF ks) {p} (hd : IsDir ks p) (hp : ∀ x ∈ p, Good x)
    (hps : ∀ x ∈ ps, Good x) (hno : ∀ r, r <+: ps → r ≠ [] → ¬ IsObj ks (p ++ r)) :
    ∃ ks', mkLoop p ps ks = .ok ks' ∧ MoreDirs ks ks' (fun q => q <+: p ++ ps) := by
  induction ps generalizing ks p with
  | nil =>
    refine ⟨ks, rfl, MoreDirs.refl h ?_⟩
    intro q hq
    rw [List.append_nil] at hq
    exact hd.prefix hq
  | cons c ps ih =>
    obtain ⟨ks1, e1, m1⟩ := mkStep_spec h hd hp (hps c (by simp)) (hno [c] ⟨ps, rfl⟩ (by simp))
    have hp1 : ∀ x ∈ p ++ [c], Good x := by
      intro x hx
      rcases List.mem_append.mp hx with hx | hx
      · exact hp x hx
      · rw [List.mem_singleton.mp hx]; exact hps c (by simp)
    obtain ⟨ks2, e2, m2⟩ := ih m1.1 ((m1.2.1 _).mpr (Or.inr rfl)) hp1 (fun x hx => hps x (by simp [hx]))
      (fun r hr hr0 ho => by
        rw [m1.isObj] at ho
        refine hno (c :: r) ?_ (by simp) (by simpa using ho)
        rw [List.cons_prefix_cons]
        exact ⟨rfl, hr⟩)
    refine ⟨ks2, ?_, m1.trans m2 ?_⟩
    · simp only [mkLoop, e1, Out.bind]
      exact e2
    · intro q
      rw [List.append_assoc, List.singleton_append]
      constructor
      · intro g; exact Or.inr (Or.inl g)
      · rintro (rfl | g | g)
        · exact ⟨ps, by simp⟩
        · exact g
        · exact g.1

/-- **C126** (making directories): if nothing at the path or on the way to it is an object,
`riofs.Dir(f).Mkdir("a/b/c")` succeeds, also if some or all of the directories exist; afterwards the
directories are those from before and a, a/b, a/b/c; every object, of every cycle, in every directory is
what it was. -/
theorem C126_mkdir {ks : Keys O} (h : WF ks) (p : List (List UInt8)) (hne : p ≠ []) (hp : ∀ x ∈ p, Good x)
    (hno : ∀ r, r <+: p → r ≠ [] → ¬ IsObj ks r) :
    ∃ ks', rmkdir ks (joinPath p) = .ok ks' ∧ MoreDirs ks ks' (fun q => q <+: p) := by
  obtain ⟨q, c, rfl⟩ : ∃ q c, p = q ++ [c] := ⟨p.dropLast, p.getLast hne, (List.dropLast_concat_getLast hne).symm⟩
  have hq : ∀ x ∈ q, Good x := fun x hx => hp x (by simp [hx])
  have hc := hp c (by simp)
  have hplain := joinPath_plain _ hne hp
  -- what `rmkdir` does if the lookup gives an error
  have rest : (rget ks (joinPath (q ++ [c])) = .noKey ∨ rget ks (joinPath (q ++ [c])) = .err) →
      ∃ ks', rmkdir ks (joinPath (q ++ [c])) = .ok ks' ∧ MoreDirs ks ks' (fun r => r <+: q ++ [c]) := by
    intro he
    by_cases hq0 : q = []
    · subst hq0
      have hn : ∀ cy n, ¬ Holds ks c cy n := by
        rcases get_three h (.here ks) hc with ⟨s, e, hs⟩ | ⟨o, e, ho⟩ | ⟨e, hn⟩
        · rw [rget_dir h hs hp] at he
          rcases he with he | he <;> cases he
        · exact absurd ho (hno _ (List.prefix_refl _) (by simp))
        · exact hn
      obtain ⟨ks', e2, m⟩ := updAt_mkdir h (.here ks) hq hc hn
      refine ⟨ks', ?_, m.1, ?_, m.2.2⟩
      · unfold rmkdir
        rw [if_neg hplain]
        have e3 : splitOn 47 (joinPath ([] ++ [c])) = [] ++ [c] := splitOn_joinPath _ hne hp
        have e4 : joinPath ([] ++ [c]) = c := rfl
        simp only [updAt] at e2
        rcases he with he | he <;> rw [he] <;> simp only [e3] <;>
          rw [if_pos (by rfl), e4] <;> exact e2
      · intro r
        rw [m.2.1]
        constructor
        · rintro (g | rfl)
          · exact Or.inl g
          · exact Or.inr (List.prefix_refl _)
        · rintro (g | ⟨t, g⟩)
          · exact Or.inl g
          · cases r with
            | nil => exact Or.inl ⟨ks, .here ks⟩
            | cons x r =>
              simp only [List.nil_append, List.cons_append, List.cons.injEq, List.append_eq_nil_iff] at g
              obtain ⟨rfl, rfl, _⟩ := g
              exact Or.inr rfl
    · obtain ⟨ks', e2, m⟩ := mkLoop_spec (q ++ [c]) h ⟨ks, .here ks⟩ (p := []) (by simp) hp (by simpa using hno)
      simp only [List.nil_append] at m
      obtain ⟨d, hd⟩ := (m.2.1 (q ++ [c])).mpr (Or.inr (List.prefix_refl _))
      refine ⟨ks', ?_, m⟩
      unfold rmkdir
      rw [if_neg hplain]
      have hlen : ¬ (splitOn 47 (joinPath (q ++ [c]))).length = 1 := by
        rw [splitOn_joinPath _ hne hp]
        have : q.length ≠ 0 := fun hh => hq0 (List.eq_nil_of_length_eq_zero hh)
        simp [hq0]
      have tail : (mkLoop [] (splitOn 47 (joinPath (q ++ [c]))) ks).bind (fun ks' =>
          match rget ks' (joinPath (q ++ [c])) with
          | .ok (.dir _) => .ok ks'
          | .ok (.obj _) => .err
          | .noKey => .noKey
          | .err => .err
          | .panic => .panic) = .ok ks' := by
        rw [splitOn_joinPath _ hne hp, e2]
        simp only [Out.bind]
        rw [rget_dir m.1 hd hp]
      rcases he with he | he <;> rw [he] <;> simp only [] <;> rw [if_neg hlen] <;> exact tail
  by_cases hd : IsDir ks q
  · obtain ⟨d, hd⟩ := hd
    rcases get_three h hd hc with ⟨s, e, hs⟩ | ⟨o, e, ho⟩ | ⟨e, hn⟩
    · refine ⟨ks, ?_, MoreDirs.refl h (fun r hr => IsDir.prefix ⟨s, hs⟩ hr)⟩
      unfold rmkdir
      rw [if_neg hplain, rget_dir h hs hp]
    · exact absurd ho (hno _ (List.prefix_refl _) (by simp))
    · apply rest
      left
      rw [rget_path ks _ hne hp, walkdir_dir h hd hq, get_9999 d c hc.2.2, e]
      rfl
  · apply rest
    rw [rget_path ks _ hne hp]
    exact walkdir_none h hq hd 9999 c

/-! ### Putting -/

theorem put1_spec {d : Keys O} (h : WF d) (name objName cls keyCls : List UInt8) (o : O) (hn : Good name)
    (hcls : ∀ k ∈ d, k.name = name → k.cls = cls) (hdc : cls ≠ dirClass)
    (hmax : ∀ k ∈ d, k.name = name → k.cycle < 32767) :
    ∃ d' c, put1 name objName cls keyCls o d = .ok d' ∧ WF d' ∧ (∀ c' n', Holds d name c' n' → c' < c) ∧
      (∀ x cy n, Holds d' x cy n ↔ Holds d x cy n ∨ (x = name ∧ cy = c ∧ n = .obj o)) := by
  obtain ⟨d', c, e, hdist, hnext, _, hh, _⟩ :=
    C11_put_get_partial d h.dist name objName cls keyCls (.obj o) hn.1 hn.2.2 hn.2.1 hcls hmax
  refine ⟨d', c, by unfold put1; rw [e], ?_, hnext, hh⟩
  have : ∃ k : DKey (Node O), d' = d ++ [k] ∧ k.name = name ∧ k.obj = .obj o := by
    unfold put at e
    rw [if_neg hn.2.1] at e
    simp only [hn.1, if_false] at e
    obtain ⟨m, _, e2⟩ := Option.bind_eq_some_iff.mp e
    injection e2 with e2
    exact ⟨_, e2.symm, rfl, rfl⟩
  obtain ⟨k, rfl, hkn, hko⟩ := this
  refine wf_snoc h hdist (by rw [hkn]; exact hn) (Or.inl ⟨⟨o, hko⟩, ?_⟩)
  intro k' hk' hnn
  rw [hcls k' hk' (by rw [hnn, hkn])]
  exact hdc

/-- **C126** (putting): if nothing on the way is an object, and the name is not a directory and its
existing objects are of the class of the new one (and fewer than 32767 cycles are used),
`riofs.Dir(f).Put("a/b/name", obj)` succeeds; afterwards the file holds, in every directory and under every
name and cycle, exactly what it held before and the new object under a cycle above all others of its
name; the directories are those from before and a, a/b. -/
theorem C126_put {ks : Keys O} (h : WF ks) (p : List (List UInt8)) (name objName cls keyCls : List UInt8) (o : O)
    (hp : ∀ x ∈ p, Good x) (hn : Good name) (hno : ∀ r, r <+: p → r ≠ [] → ¬ IsObj ks r) (hdc : cls ≠ dirClass)
    (hcls : ∀ d, DirAt ks p d → ∀ k ∈ d, k.name = name → k.cls = cls ∧ k.cycle < 32767) :
    ∃ ks' c, rput ks (joinPath (p ++ [name])) objName cls keyCls o = .ok ks' ∧ WF ks' ∧
      (∀ c' n', HeldAt ks p name c' n' → c' < c) ∧
      (∀ q x cy v, HeldAt ks' q x cy (.obj v) ↔ HeldAt ks q x cy (.obj v) ∨ (q = p ∧ x = name ∧ cy = c ∧ v = o)) ∧
      (∀ q, IsDir ks' q ↔ IsDir ks q ∨ q <+: p) := by
  -- the effect of the update in a file with a directory at `p`
  have upd : ∀ ks1 : Keys O, WF ks1 → ∀ d, DirAt ks1 p d → (∀ k ∈ d, k.name = name → k.cls = cls ∧ k.cycle < 32767) →
      ∃ ks' c, updAt (put1 name objName cls keyCls o) p ks1 = .ok ks' ∧ WF ks' ∧
        (∀ c' n', Holds d name c' n' → c' < c) ∧
        (∀ q x cy v, HeldAt ks' q x cy (.obj v) ↔ HeldAt ks1 q x cy (.obj v) ∨ (q = p ∧ x = name ∧ cy = c ∧ v = o)) ∧
        (∀ q, IsDir ks' q ↔ IsDir ks1 q) := by
    intro ks1 h1 d hd hk
    obtain ⟨d', c, e1, w1, hnext, hh⟩ := put1_spec (hd.wf h1) name objName cls keyCls o hn
      (fun k hk' hkn => (hk k hk' hkn).1) hdc (fun k hk' hkn => (hk k hk' hkn).2)
    obtain ⟨ks', e2, w2, f1, f2⟩ := updAt_spec h1 hd hp _ e1 w1
    have base : ∀ r e, DirAt ks1 (p ++ r) e ↔ DirAt d r e := by
      intro r e
      rw [DirAt.append_iff]
      constructor
      · rintro ⟨d2, g1, g2⟩
        rw [hd.unique h1 g1]; exact g2
      · intro g; exact ⟨d, hd, g⟩
    have hdirs : ∀ r, r ≠ [] → ∀ e, DirAt d' r e ↔ DirAt d r e := by
      intro r hr e
      cases r with
      | nil => exact absurd rfl hr
      | cons x r =>
        rw [DirAt.cons_iff, DirAt.cons_iff]
        constructor
        · rintro ⟨cy, s, g1, g2⟩
          rcases (hh x cy _).mp g1 with g1 | ⟨_, _, g3⟩
          · exact ⟨cy, s, g1, g2⟩
          · cases g3
        · rintro ⟨cy, s, g1, g2⟩
          exact ⟨cy, s, (hh x cy _).mpr (Or.inl g1), g2⟩
    refine ⟨ks', c, e2, w2, hnext, ?_, ?_⟩
    · intro q x cy v
      by_cases hq : p <+: q
      · obtain ⟨r, rfl⟩ := hq
        unfold HeldAt
        simp only [f1, base]
        by_cases hr : r = []
        · subst hr
          simp only [DirAt.nil_iff, exists_eq_left, List.append_nil, true_and]
          rw [hh]
          constructor
          · rintro (g | ⟨g1, g2, g3⟩)
            · exact Or.inl g
            · injection g3 with g3
              exact Or.inr ⟨g1, g2, g3⟩
          · rintro (g | ⟨g1, g2, g3⟩)
            · exact Or.inl g
            · exact Or.inr ⟨g1, g2, by rw [g3]⟩
        · simp only [hdirs r hr]
          constructor
          · exact Or.inl
          · rintro (g | ⟨g, _⟩)
            · exact g
            · exact absurd (by simpa using g) hr
      · rw [(f2 q hq).2]
        constructor
        · exact Or.inl
        · rintro (g | ⟨rfl, _⟩)
          · exact g
          · exact absurd (List.prefix_refl _) hq
    · intro q
      by_cases hq : p <+: q
      · obtain ⟨r, rfl⟩ := hq
        unfold IsDir
        simp only [f1, base]
        by_cases hr : r = []
        · subst hr
          exact ⟨fun _ => ⟨d, .here d⟩, fun _ => ⟨d', .here d'⟩⟩
        · simp only [hdirs r hr]
      · exact (f2 q hq).1
  by_cases hp0 : p = []
  · subst hp0
    obtain ⟨ks', c, e, w, h1, h2, h3⟩ := upd ks h ks (.here ks) (hcls ks (.here ks))
    refine ⟨ks', c, ?_, w, ?_, h2, ?_⟩
    · unfold rput
      have e3 : pathSplit (joinPath ([] ++ [name])) = ([], name) := pathSplit_one name hn.2.1
      rw [e3]
      simp only [trimRight, List.reverse_nil, List.dropWhile_nil, if_true]
      exact e
    · rintro c' n' ⟨d, hd, g⟩
      rw [DirAt.nil_iff.mp hd] at g
      exact h1 c' n' g
    · intro q
      rw [h3]
      constructor
      · exact Or.inl
      · rintro (g | g)
        · exact g
        · rw [List.prefix_nil.mp g]
          exact ⟨ks, .here ks⟩
  · obtain ⟨ks1, e1, m1⟩ := C126_mkdir h p hp0 hp hno
    obtain ⟨d1, hd1⟩ := (m1.2.1 p).mpr (Or.inr (List.prefix_refl p))
    -- what is in the directory under the name is what was there
    have hcase : (ks1 = ks) ∨ (¬ IsDir ks p ∧ ∀ k ∈ d1, False) := by
      by_cases hd : IsDir ks p
      · left
        obtain ⟨d, hd⟩ := hd
        have : rmkdir ks (joinPath p) = .ok ks := by
          unfold rmkdir
          rw [if_neg (joinPath_plain p hp0 hp), rget_dir h hd hp]
        rw [this] at e1
        injection e1 with e1
        exact e1.symm
      · right
        refine ⟨hd, ?_⟩
        intro k hk
        cases ho : k.obj with
        | obj v =>
          obtain ⟨d, g, _⟩ := (m1.2.2 p k.name k.cycle v).mp ⟨d1, hd1, k, hk, rfl, rfl, ho⟩
          exact hd ⟨d, g⟩
        | dir s =>
          have : IsDir ks1 (p ++ [k.name]) :=
            ⟨s, DirAt.append_iff.mpr ⟨d1, hd1, .down ⟨k, hk, rfl, rfl, ho⟩ (.here s)⟩⟩
          rcases (m1.2.1 _).mp this with g | g
          · exact hd (g.prefix ⟨_, rfl⟩)
          · have := g.length_le
            simp at this
            omega
    have hkeep : ∀ k ∈ d1, k.name = name → k.cls = cls ∧ k.cycle < 32767 := by
      intro k hk hkn
      rcases hcase with rfl | ⟨_, g⟩
      · exact hcls d1 hd1 k hk hkn
      · exact (g k hk).elim
    obtain ⟨ks', c, e, w, h1, h2, h3⟩ := upd ks1 m1.1 d1 hd1 hkeep
    refine ⟨ks', c, ?_, w, ?_, ?_, ?_⟩
    · unfold rput
      rw [pathSplit_join p name hp0 hn.2.1]
      simp only [trimRight_join p hp0 hp]
      obtain ⟨b, s, eb, _⟩ := joinPath_head p hp0 hp
      rw [if_neg (by rw [eb]; simp), e1]
      simp only [Out.bind, comps_joinPath p hp]
      exact e
    · rintro c' n' ⟨d, hd, g⟩
      rcases hcase with rfl | ⟨g2, _⟩
      · rw [hd.unique h hd1] at g
        exact h1 c' n' g
      · exact absurd ⟨d, hd⟩ g2
    · intro q x cy v
      rw [h2, m1.2.2]
    · intro q
      rw [h3, m1.2.1]

/-! ### What is refused -/

theorem walkdir_obj {ks : Keys O} (h : WF ks) {p d} (hd : DirAt ks p d) (hp : ∀ x ∈ p, Good x) (cy : Int)
    {x : List UInt8} {o : O} (hx : get d x = .found (.obj o)) (c : List UInt8) (cs : List (List UInt8)) :
    walkdir cy (p ++ x :: c :: cs) ks = .err := by
  induction hd with
  | here ks => simp only [List.nil_append, walkdir, hx]
  | @down ks y cy' sub ys d hh hd ih =>
    have hy := (hp y (by simp)).2.2
    have e : get ks y = .found (.dir sub) := (get_dir h hy).mpr ⟨_, hh⟩
    have := ih (h.holds_sub hh) (fun z hz => hp z (by simp [hz])) hx
    cases ys with
    | nil =>
      simp only [List.nil_append] at this
      simp only [List.cons_append, List.nil_append, walkdir, e]
      simp only [walkdir] at this
      exact this
    | cons z zs =>
      simp only [List.cons_append] at this ⊢
      simp only [walkdir, e]
      exact this

theorem IsObj.get {ks : Keys O} (h : WF ks) {p x} (ho : IsObj ks (p ++ [x])) (hx : Good x) :
    ∃ d o, DirAt ks p d ∧ Verif.Riofs.get d x = .found (.obj o) := by
  obtain ⟨q, name, cy, o, e, d, hd, hh⟩ := ho
  obtain ⟨rfl, e2⟩ := List.append_inj' e rfl
  injection e2 with e2
  subst e2
  rcases get_three h hd hx with ⟨s, e, hs⟩ | ⟨o', e, _⟩ | ⟨e, hn⟩
  · exact absurd ⟨p, x, cy, o, rfl, d, hd, hh⟩ (IsDir.not_obj h ⟨s, hs⟩)
  · exact ⟨d, o', hd, e⟩
  · exact absurd hh (hn cy _)

theorem mkLoop_obj (ps : List (List UInt8)) {ks : Keys O} (h : WF ks) {p} (hd : IsDir ks p) (hp : ∀ x ∈ p, Good x)
    (hps : ∀ x ∈ ps, Good x) {r} (hr : r <+: ps) (hr1 : r ≠ ps) (ho : IsObj ks (p ++ r)) (hr0 : r ≠ []) :
    mkLoop p ps ks = .err := by
  induction ps generalizing p r with
  | nil => exact absurd (List.prefix_nil.mp hr) hr0
  | cons c ps ih =>
    obtain ⟨d, hd⟩ := hd
    have hc := hps c (by simp)
    have hp1 : ∀ x ∈ p ++ [c], Good x := by
      intro x hx
      rcases List.mem_append.mp hx with hx | hx
      · exact hp x hx
      · rw [List.mem_singleton.mp hx]; exact hc
    have e0 : rget ks (joinPath (p ++ [c])) = ofGet (get d c) := by
      rw [rget_path ks _ (by simp) hp1, walkdir_dir h hd hp, get_9999 d c hc.2.2]
    obtain ⟨t, ht⟩ := hr
    cases r with
    | nil => exact absurd rfl hr0
    | cons c' r =>
      injection ht with h1 h2
      subst h1
      by_cases hrn : r = []
      · subst hrn
        obtain ⟨d', o, hd', eg⟩ := ho.get h hc
        have := hd.unique h hd'
        subst this
        have es : mkStep ks (joinPath (p ++ [c'])) = .ok ks := by
          unfold mkStep
          rw [e0, eg]
          rfl
        cases ps with
        | nil => exact absurd rfl hr1
        | cons y ys =>
          have hy := hps y (by simp)
          have hg2 : ∀ x ∈ p ++ [c'] ++ [y], Good x := by
            intro x hx
            rcases List.mem_append.mp hx with hx | hx
            · exact hp1 x hx
            · rw [List.mem_singleton.mp hx]; exact hy
          have e2 : rget ks (joinPath (p ++ [c'] ++ [y])) = .err := by
            rw [rget_path ks _ (by simp) hg2]
            have := walkdir_obj h hd hp 9999 eg y []
            simpa using this
          simp only [mkLoop, es, Out.bind]
          have : mkStep ks (joinPath (p ++ [c'] ++ [y])) = .err := by
            unfold mkStep
            rw [e2]
          rw [this]
      · -- the object is further below: `c'` is a directory
        have hdc : IsDir ks (p ++ [c']) := by
          obtain ⟨q, x, cy, o, e, d2, hd2, _⟩ := ho
          obtain ⟨r', z, rfl⟩ : ∃ r' z, r = r' ++ [z] := ⟨r.dropLast, r.getLast hrn, (List.dropLast_concat_getLast hrn).symm⟩
          have e' : (p ++ c' :: r') ++ [z] = q ++ [x] := by
            rw [← e]
            simp
          obtain ⟨rfl, _⟩ := List.append_inj' e' rfl
          have : IsDir ks (p ++ c' :: r') := ⟨d2, hd2⟩
          exact this.prefix ⟨r', by simp⟩
        obtain ⟨s, hs⟩ := hdc
        have es : mkStep ks (joinPath (p ++ [c'])) = .ok ks := by
          unfold mkStep
          rw [rget_dir h hs hp1]
        simp only [mkLoop, es, Out.bind]
        refine ih ⟨s, hs⟩ hp1 (fun x hx => hps x (by simp [hx])) (r := r) ⟨t, h2⟩ ?_ (by simpa using ho) hrn
        intro e
        exact hr1 (by rw [e])

/-- **C126** (what is refused): if something on the way (before the last name) is an object, `Mkdir` and
`Put` return an error and change nothing; so does `Put` if the name is a directory or has objects of
another class. -/
theorem C126_refused {ks : Keys O} (h : WF ks) (p : List (List UInt8)) (hp : ∀ x ∈ p, Good x) :
    (∀ r, r <+: p → r ≠ p → IsObj ks r → rmkdir ks (joinPath p) = .err ∧
      ∀ name objName cls keyCls o, Good name → rput ks (joinPath (p ++ [name])) objName cls keyCls o = .err) ∧
    (∀ d, DirAt ks p d → ∀ name objName cls keyCls o, Good name → (∃ k ∈ d, k.name = name ∧ k.cls ≠ cls) →
      rput ks (joinPath (p ++ [name])) objName cls keyCls o = .err) := by
  constructor
  · intro r hr hr1 ho
    have hr0 : r ≠ [] := by
      rintro rfl
      obtain ⟨q, x, _, _, e, _⟩ := ho
      simp at e
    have hne : p ≠ [] := by
      rintro rfl
      exact hr0 (List.prefix_nil.mp hr)
    have hnd : ¬ IsDir ks p := fun hd => IsDir.not_obj h (hd.prefix hr) ho
    have key : rmkdir ks (joinPath p) = .err := by
      obtain ⟨q, c, rfl⟩ : ∃ q c, p = q ++ [c] := ⟨p.dropLast, p.getLast hne, (List.dropLast_concat_getLast hne).symm⟩
      have hrq : r <+: q := by
        rcases List.prefix_concat_iff.mp hr with e | e
        · exact absurd e hr1
        · exact e
      have hq : ∀ x ∈ q, Good x := fun x hx => hp x (by simp [hx])
      have hndq : ¬ IsDir ks q := fun hd => IsDir.not_obj h (hd.prefix hrq) ho
      have hq0 : q ≠ [] := by
        rintro rfl
        exact hr0 (List.prefix_nil.mp hrq)
      have hlen : ¬ (splitOn 47 (joinPath (q ++ [c]))).length = 1 := by
        rw [splitOn_joinPath _ hne hp]
        simp [hq0]
      have hl : mkLoop [] (splitOn 47 (joinPath (q ++ [c]))) ks = .err := by
        rw [splitOn_joinPath _ hne hp]
        exact mkLoop_obj (q ++ [c]) h ⟨ks, .here ks⟩ (p := []) (by simp) hp hr hr1 (by simpa using ho) hr0
      have he := walkdir_none h hq hndq 9999 c
      rw [← rget_path ks _ hne hp] at he
      unfold rmkdir
      rw [if_neg (joinPath_plain _ hne hp)]
      rcases he with he | he <;> rw [he] <;> simp only [] <;> rw [if_neg hlen, hl] <;> rfl
    refine ⟨key, ?_⟩
    intro name objName cls keyCls o hn
    unfold rput
    rw [pathSplit_join p name hne hn.2.1]
    simp only [trimRight_join p hne hp]
    obtain ⟨b, s, eb, _⟩ := joinPath_head p hne hp
    rw [if_neg (by rw [eb]; simp), key]
    rfl
  · intro d hd name objName cls keyCls o hn ⟨k, hk, hkn, hkc⟩
    have hscan : ∀ (l : Keys O) (c : Int), k ∈ l → scanCycle name cls l c = none := by
      intro l
      induction l with
      | nil => intro c hk; simp at hk
      | cons a l ih =>
        intro c hk
        simp only [scanCycle]
        by_cases ha : a.name = name
        · rw [if_neg (fun hh => hh ha)]
          by_cases hac : a.cls = cls
          · rw [if_neg (fun hh => hh hac)]
            rcases List.mem_cons.mp hk with rfl | hk
            · exact absurd hac hkc
            · exact ih _ hk
          · rw [if_pos hac]
        · rw [if_pos ha]
          rcases List.mem_cons.mp hk with rfl | hk
          · exact absurd hkn ha
          · exact ih _ hk
    have hput : put1 name objName cls keyCls o d = .err := by
      unfold put1 put
      rw [if_neg hn.2.1]
      simp only [hn.1, if_false, hscan d 0 hk, Option.bind_none]
    have hupd : ∀ {ks d : Keys O} {p}, DirAt ks p d → WF ks → (∀ x ∈ p, Good x) → put1 name objName cls keyCls o d = .err →
        updAt (put1 name objName cls keyCls o) p ks = .err := by
      intro ks d p hd
      induction hd with
      | here ks => intro _ _ e; exact e
      | @down ks c cy sub cs d hh hd ih =>
        intro h hp e
        simp only [updAt, (get_dir h (hp c (by simp)).2.2).mpr ⟨cy, hh⟩]
        rw [ih (h.holds_sub hh) (fun z hz => hp z (by simp [hz])) e]
        rfl
    by_cases hp0 : p = []
    · subst hp0
      unfold rput
      have e3 : pathSplit (joinPath ([] ++ [name])) = ([], name) := pathSplit_one name hn.2.1
      rw [e3]
      simp only [trimRight, List.reverse_nil, List.dropWhile_nil, if_true]
      rw [DirAt.nil_iff.mp hd] at hput
      exact hput
    · have e1 : rmkdir ks (joinPath p) = .ok ks := by
        unfold rmkdir
        rw [if_neg (joinPath_plain p hp0 hp), rget_dir h hd hp]
      unfold rput
      rw [pathSplit_join p name hp0 hn.2.1]
      simp only [trimRight_join p hp0 hp]
      obtain ⟨b, s, eb, _⟩ := joinPath_head p hp0 hp
      rw [if_neg (by rw [eb]; simp), e1]
      simp only [Out.bind, comps_joinPath p hp]
      exact hupd hd h hp hput

/-- Making a directory where there is an object, or putting below an object, panics instead of
returning the error: for all files. -/
theorem C126_object_counterexample {ks : Keys O} (h : WF ks) (p : List (List UInt8)) (hp : ∀ x ∈ p, Good x)
    (ho : IsObj ks p) (name objName cls keyCls : List UInt8) (o : O) (hn : Good name) :
    rmkdir ks (joinPath p) = .panic ∧ rput ks (joinPath (p ++ [name])) objName cls keyCls o = .panic := by
  have hne : p ≠ [] := by
    rintro rfl
    obtain ⟨q, x, _, _, e, _⟩ := ho
    simp at e
  have key : rmkdir ks (joinPath p) = .panic := by
    obtain ⟨q, c, rfl⟩ : ∃ q c, p = q ++ [c] := ⟨p.dropLast, p.getLast hne, (List.dropLast_concat_getLast hne).symm⟩
    have hc := hp c (by simp)
    obtain ⟨d, v, hd, e⟩ := ho.get h hc
    unfold rmkdir
    rw [if_neg (joinPath_plain _ hne hp), rget_path ks _ hne hp, walkdir_dir h hd (fun x hx => hp x (by simp [hx])),
      get_9999 d c hc.2.2, e]
    rfl
  refine ⟨key, ?_⟩
  unfold rput
  rw [pathSplit_join p name hne hn.2.1]
  simp only [trimRight_join p hne hp]
  obtain ⟨b, s, eb, _⟩ := joinPath_head p hne hp
  rw [if_neg (by rw [eb]; simp), key]
  rfl

/-! ### A file, and further cases the code does not handle -/

/-- "a" -/
def nA : List UInt8 := [97]
/-- "b" -/
def nB : List UInt8 := [98]
/-- "x" -/
def nX : List UInt8 := [120]
/-- "TObj" -/
def cObj : List UInt8 := [84, 79, 98, 106]

/-- A file with two cycles of a/x and with b at the top. -/
def exFile : Keys Nat :=
  [⟨nA, 1, dirClass, .dir [⟨nX, 1, cObj, .obj 10⟩, ⟨nX, 2, cObj, .obj 11⟩]⟩, ⟨nB, 1, cObj, .obj 20⟩]

theorem good_ex : Good nA ∧ Good nB ∧ Good nX := by
  refine ⟨⟨?_, ?_, ?_⟩, ⟨?_, ?_, ?_⟩, ⟨?_, ?_, ?_⟩⟩ <;> decide

theorem wf_ex : WF exFile := by
  have sub : WF ([⟨nX, 1, cObj, .obj 10⟩, ⟨nX, 2, cObj, .obj 11⟩] : Keys Nat) := by
    refine .mk ⟨by simp, by simp⟩ ?_ ?_ ?_
    · intro k hk
      simp only [List.mem_cons, List.not_mem_nil, or_false] at hk
      rcases hk with rfl | rfl <;> exact good_ex.2.2
    · intro k hk d hd
      simp only [List.mem_cons, List.not_mem_nil, or_false] at hk
      rcases hk with rfl | rfl <;> cases hd
    · intro k hk d hd
      simp only [List.mem_cons, List.not_mem_nil, or_false] at hk
      rcases hk with rfl | rfl <;> cases hd
  refine .mk ⟨by simp [exFile, nA, nB], by simp [exFile]⟩ ?_ ?_ ?_
  · intro k hk
    simp only [exFile, List.mem_cons, List.not_mem_nil, or_false] at hk
    rcases hk with rfl | rfl
    · exact good_ex.1
    · exact good_ex.2.1
  · intro k hk d hd
    simp only [exFile, List.mem_cons, List.not_mem_nil, or_false] at hk
    rcases hk with rfl | rfl
    · refine ⟨rfl, ?_⟩
      intro k' hk' hn
      simp only [exFile, List.mem_cons, List.not_mem_nil, or_false] at hk'
      rcases hk' with rfl | rfl
      · rfl
      · simp [nA, nB] at hn
    · cases hd
  · intro k hk d hd
    simp only [exFile, List.mem_cons, List.not_mem_nil, or_false] at hk
    rcases hk with rfl | rfl
    · injection hd with hd
      rw [← hd]
      exact sub
    · cases hd

/-- The number held by an object; for the examples. -/
def Out.num : Out (Node Nat) → Option Nat
  | .ok (.obj o) => some o
  | _ => none

/-- In the file, "a/x" is the second cycle, "a/x;1" the first; putting to a/b/x makes a/b and leaves a/x;
nothing can be put below "b", which makes `Put` panic. -/
example : (rget exFile (joinPath [nA, nX])).num = some 11 ∧ (rget exFile (joinPath [nA, nX] ++ 59 :: intEnc 1)).num = some 10 ∧
    (match rput exFile (joinPath [nA, nB, nX]) [] cObj cObj 30 with
     | .ok ks => (rget ks (joinPath [nA, nB, nX])).num = some 30 ∧ (rget ks (joinPath [nA, nX])).num = some 11
     | _ => False) ∧
    (match rput exFile (joinPath [nB, nX]) [] cObj cObj 30 with | .panic => True | _ => False) := by
  refine ⟨by decide, by decide, ?_, trivial⟩
  exact ⟨by decide, by decide⟩

/-- The hypotheses of `C126_put` are met by this file and the path a/b/x. -/
example : WF exFile ∧ (∀ x ∈ [nA, nB], Good x) ∧ (∀ r, r <+: [nA, nB] → r ≠ [] → ¬ IsObj exFile r) ∧ cObj ≠ dirClass := by
  refine ⟨wf_ex, ?_, ?_, by decide⟩
  · intro x hx
    simp only [List.mem_cons, List.not_mem_nil, or_false] at hx
    rcases hx with rfl | rfl
    · exact good_ex.1
    · exact good_ex.2.1
  · intro r hr h0 ho
    have hd : IsDir exFile [nA] := ⟨_, .down ⟨_, List.mem_cons_self, rfl, rfl, rfl⟩ (.here _)⟩
    obtain ⟨q, x, cy, o, rfl, d, hd2, k, hk, hn, hc, hob⟩ := ho
    obtain ⟨t, ht⟩ := hr
    cases q with
    | nil =>
      have hx : x = nA := by
        simp only [List.nil_append, List.cons_append, List.cons.injEq] at ht
        exact ht.1
      subst hx
      exact IsDir.not_obj wf_ex hd ⟨[], nA, cy, o, rfl, d, hd2, k, hk, hn, hc, hob⟩
    | cons y q =>
      have hlen := congrArg List.length ht
      simp only [List.length_append, List.length_cons, List.length_nil] at hlen
      have hq : q = [] := List.eq_nil_of_length_eq_zero (by omega)
      have htn : t = [] := List.eq_nil_of_length_eq_zero (by omega)
      subst hq htn
      simp only [List.cons_append, List.nil_append, List.cons.injEq] at ht
      obtain ⟨rfl, rfl, _⟩ := ht
      obtain ⟨cy', s, hh, h2⟩ := DirAt.cons_iff.mp hd2
      rw [DirAt.nil_iff.mp h2] at hk
      obtain ⟨k', hk', hn', _, ho'⟩ := hh
      simp only [exFile, List.mem_cons, List.not_mem_nil, or_false] at hk'
      rcases hk' with rfl | rfl
      · injection ho' with ho'
        rw [← ho'] at hk
        simp only [List.mem_cons, List.not_mem_nil, or_false] at hk
        rcases hk with rfl | rfl <;> simp [nX, nB] at hn
      · cases ho'

/-- `Put("/x", …)` at the top is refused although `Put("/a/x", …)` is not and `Get("/x")` would find it. -/
theorem C126_leading_slash_counterexample :
    (match rput exFile (47 :: nX) [] cObj cObj 30 with | .err => True | _ => False) ∧
    (match rput exFile (47 :: joinPath [nA, nX]) [] cObj cObj 30 with
     | .ok ks => (rget ks (47 :: joinPath [nA, nX])).num = some 30
     | _ => False) := by
  refine ⟨trivial, ?_⟩
  show _ = _
  decide

/-- A doubled slash: `Mkdir("a//b")` returns an error, but the loop before has made the directory a/b and a
directory with an empty name in a. -/
theorem C126_double_slash_counterexample :
    (match rmkdir exFile [97, 47, 47, 98] with | .noKey => True | _ => False) ∧
    (match mkLoop [] (splitOn 47 [97, 47, 47, 98]) exFile with
     | .ok ks => IsDir ks [nA, []] ∧ IsDir ks [nA, nB]
     | _ => False) := by
  refine ⟨trivial, ⟨[], ?_⟩, ⟨[], ?_⟩⟩
  · exact .down ⟨_, List.mem_cons_self, rfl, rfl, rfl⟩
      (.down ⟨_, List.mem_append_left _ (List.mem_append_right _ List.mem_cons_self), rfl, rfl, rfl⟩ (.here _))
  · exact .down ⟨_, List.mem_cons_self, rfl, rfl, rfl⟩
      (.down ⟨_, List.mem_append_right _ List.mem_cons_self, rfl, rfl, rfl⟩ (.here _))

/-- A cycle given for a directory on the way: "a;1/x" silently gives the directory "a" itself. -/
theorem C126_middle_cycle_counterexample {ks sub : Keys O} (h : WF ks) (cy : Int) (hh : Holds ks nA cy (.dir sub)) :
    rget ks ([97, 59, 49, 47, 120]) = .ok (.dir sub) := by
  have e1 : decodeNameCycle [97, 59, 49, 47, 120] = some (nA, 9999) := by decide
  have e2 : splitOn 47 (trimPrefix nA) = [nA] := by decide
  unfold rget
  rw [if_neg (by simp), e1]
  simp only
  rw [e2]
  have := walkdir_dir h (.here ks) (by simp) 9999 nA
  simp only [List.nil_append] at this
  rw [this, get_9999 ks nA good_ex.1.2.2, (get_dir h good_ex.1.2.2).mpr ⟨cy, hh⟩]
  rfl

end Verif.Riofs
