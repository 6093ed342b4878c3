import Verif.Riofs.NestedPut

/-!
# Walking through a file (C127)
-/

namespace Verif.Riofs

variable {O : Type}

/-! ### Specification -/

/-- The path `p` leads to `n`: to the directory itself, or to the highest cycle of the last name. -/
def Reaches (ks : Keys O) (p : List (List UInt8)) (n : Node O) : Prop :=
  (p = [] ∧ n = .dir ks) ∨ ∃ q x d, p = q ++ [x] ∧ DirAt ks q d ∧ Latest d x n

/-- None of the directories above `p` is skipped by the function (`base` is the path of `ks`). -/
def Open (fn : Visit O → Verdict) (base : List (List UInt8)) (ks : Keys O) (p : List (List UInt8)) : Prop :=
  ∀ q d, q <+: p → q ≠ p → DirAt ks q d → fn (base ++ q, some (.dir d)) = .go

/-- What a walk from `ks` at `base` has to do if the function never returns an error but `SkipDir`. -/
def WalkOK (fn : Visit O → Verdict) (base : List (List UInt8)) (ks : Keys O) (res : List (Visit O) × Verdict) : Prop :=
  res.2 ≠ .stop ∧
  (∀ v, v ∈ res.1 ↔ ∃ p m, v = (base ++ p, some m) ∧ Reaches ks p m ∧ Open fn base ks p) ∧
  res.1.Pairwise (fun a b => ¬ b.1 <+: a.1)

/-! ### Kept cycles -/

theorem kept_go (ks : Keys O) (name : List UInt8) (acc : Option Int) :
    let r := ks.foldl (fun acc k =>
      if k.name = name then
        match acc with
        | some c => if k.cycle < c then some c else some k.cycle
        | none => some k.cycle
      else acc) acc
    (r = none ↔ acc = none ∧ ∀ k ∈ ks, k.name ≠ name) ∧
    ∀ c, r = some c → (acc = some c ∨ ∃ k ∈ ks, k.name = name ∧ k.cycle = c) ∧
      (∀ c', acc = some c' → c' ≤ c) ∧ ∀ k ∈ ks, k.name = name → k.cycle ≤ c := by
  induction ks generalizing acc with
  | nil =>
    simp only [List.foldl_nil, List.not_mem_nil, false_implies, implies_true, and_true, true_and]
    intro c hc
    refine ⟨Or.inl hc, ?_⟩
    intro c' hc'
    rw [hc] at hc'
    injection hc' with hc'
    omega
  | cons k ks ih =>
    simp only [List.foldl_cons]
    have := ih (if k.name = name then
        match acc with
        | some c => if k.cycle < c then some c else some k.cycle
        | none => some k.cycle
      else acc)
    simp only at this
    obtain ⟨h1, h2⟩ := this
    by_cases hk : k.name = name
    · simp only [hk, if_true] at h1 h2 ⊢
      cases acc with
      | none =>
        simp only [reduceCtorEq, false_and, iff_false] at h1
        refine ⟨⟨fun e => absurd e h1, fun e => absurd hk (e.2 k (by simp))⟩, ?_⟩
        intro c hc
        obtain ⟨g1, g2, g3⟩ := h2 c hc
        refine ⟨Or.inr ?_, by simp, ?_⟩
        · rcases g1 with g1 | ⟨k', hk', g⟩
          · injection g1 with g1
            exact ⟨k, by simp, hk, g1⟩
          · exact ⟨k', by simp [hk'], g⟩
        · intro k' hk' hn
          rcases List.mem_cons.mp hk' with rfl | hk'
          · exact g2 _ rfl
          · exact g3 k' hk' hn
      | some a =>
        by_cases hlt : k.cycle < a
        · simp only [hlt, if_true, reduceCtorEq, false_and, iff_false] at h1 h2 ⊢
          refine ⟨h1, ?_⟩
          intro c hc
          obtain ⟨g1, g2, g3⟩ := h2 c hc
          refine ⟨?_, g2, ?_⟩
          · rcases g1 with g1 | ⟨k', hk', g⟩
            · exact Or.inl g1
            · exact Or.inr ⟨k', by simp [hk'], g⟩
          · intro k' hk' hn
            rcases List.mem_cons.mp hk' with rfl | hk'
            · have := g2 a rfl
              omega
            · exact g3 k' hk' hn
        · simp only [hlt, if_false, reduceCtorEq, false_and, iff_false] at h1 h2 ⊢
          refine ⟨h1, ?_⟩
          intro c hc
          obtain ⟨g1, g2, g3⟩ := h2 c hc
          have g4 := g2 _ rfl
          refine ⟨Or.inr ?_, ?_, ?_⟩
          · rcases g1 with g1 | ⟨k', hk', g⟩
            · injection g1 with g1
              exact ⟨k, by simp, hk, g1⟩
            · exact ⟨k', by simp [hk'], g⟩
          · intro c' hc'
            injection hc' with hc'
            omega
          · intro k' hk' hn
            rcases List.mem_cons.mp hk' with rfl | hk'
            · exact g4
            · exact g3 k' hk' hn
    · simp only [hk, if_false] at h1 h2 ⊢
      refine ⟨?_, ?_⟩
      · rw [h1]
        constructor
        · rintro ⟨g1, g2⟩
          refine ⟨g1, ?_⟩
          intro k' hk' hn
          rcases List.mem_cons.mp hk' with rfl | hk'
          · exact hk hn
          · exact g2 k' hk' hn
        · rintro ⟨g1, g2⟩
          exact ⟨g1, fun k' hk' => g2 k' (by simp [hk'])⟩
      · intro c hc
        obtain ⟨g1, g2, g3⟩ := h2 c hc
        refine ⟨?_, g2, ?_⟩
        · rcases g1 with g1 | ⟨k', hk', g⟩
          · exact Or.inl g1
          · exact Or.inr ⟨k', by simp [hk'], g⟩
        · intro k' hk' hn
          rcases List.mem_cons.mp hk' with rfl | hk'
          · exact absurd hn hk
          · exact g3 k' hk' hn

/-- A key is kept exactly if no key of its name has a higher cycle. -/
theorem kept_iff {ks : Keys O} {k : DKey (Node O)} (hk : k ∈ ks) :
    some k.cycle = keptCycle ks k.name ↔ ∀ k' ∈ ks, k'.name = k.name → k'.cycle ≤ k.cycle := by
  obtain ⟨h1, h2⟩ := kept_go ks k.name none
  constructor
  · intro e
    exact (h2 k.cycle e.symm).2.2
  · intro h
    unfold keptCycle
    cases e : (ks.foldl (fun acc k' =>
      if k'.name = k.name then
        match acc with
        | some c => if k'.cycle < c then some c else some k'.cycle
        | none => some k'.cycle
      else acc) none) with
    | none => exact absurd rfl ((h1.mp e).2 k hk)
    | some c =>
      obtain ⟨g1, _, g3⟩ := h2 c e
      have a := g3 k hk rfl
      rcases g1 with g1 | ⟨k', hk', hn, hc⟩
      · cases g1
      · have b := h k' hk' hn
        have : k.cycle = c := by omega
        rw [this]

theorem kept_latest {ks : Keys O} {k : DKey (Node O)} (hk : k ∈ ks) (h : some k.cycle = keptCycle ks k.name) :
    Latest ks k.name k.obj := by
  refine ⟨k.cycle, ⟨k, hk, rfl, rfl, rfl⟩, ?_⟩
  rintro c' n' ⟨k', hk', hn, rfl, _⟩
  exact (kept_iff hk).mp h k' hk' hn

theorem latest_kept {ks : Keys O} {c n} (h : Latest ks c n) :
    ∃ k ∈ ks, k.name = c ∧ k.obj = n ∧ some k.cycle = keptCycle ks k.name := by
  obtain ⟨cy, ⟨k, hk, hn, hc, ho⟩, hmax⟩ := h
  refine ⟨k, hk, hn, ho, (kept_iff hk).mpr ?_⟩
  intro k' hk' hn'
  rw [hc]
  exact hmax k'.cycle k'.obj ⟨k', hk', by rw [hn', hn], rfl, rfl⟩

theorem get_kept {ks : Keys O} (h : WF ks) {k : DKey (Node O)} (hk : k ∈ ks) (hkept : some k.cycle = keptCycle ks k.name) :
    get ks k.name = .found k.obj :=
  (get_bare ks h.dist k.name (h.names k hk).2.2 k.obj).mpr (kept_latest hk hkept)

/-! ### The walk -/

theorem walkKeys_eq (fn : Visit O → Verdict) (w : List (List UInt8) → Node O → List (Visit O) × Verdict)
    (path : List (List UInt8)) (all l : Keys O)
    (hw : ∀ k ∈ l, some k.cycle = keptCycle all k.name → get all k.name = .found k.obj ∧ (w (path ++ [k.name]) k.obj).2 ≠ .stop) :
    walkKeys fn w path all l =
      ((l.filter (fun k => decide (some k.cycle = keptCycle all k.name))).flatMap (fun k => (w (path ++ [k.name]) k.obj).1), .go) := by
  induction l with
  | nil => rfl
  | cons k l ih =>
    have hl := ih (fun k' hk' => hw k' (by simp [hk']))
    by_cases hk : some k.cycle = keptCycle all k.name
    · obtain ⟨h1, h2⟩ := hw k (by simp) hk
      have hv : visitKey fn w path all k = w (path ++ [k.name]) k.obj := by
        simp only [visitKey, h1]
      rw [walkKeys, if_neg (fun hh => hh hk), hv, if_neg h2, List.filter_cons_of_pos (by simpa using hk), List.flatMap_cons, hl]
    · rw [walkKeys, if_pos hk, hl, List.filter_cons_of_neg (by simpa using hk)]

theorem reaches_cons {ks : Keys O} (h : WF ks) {c p m} :
    Reaches ks (c :: p) m ↔ (∃ o, p = [] ∧ m = .obj o ∧ Latest ks c (.obj o)) ∨
      ∃ cy d, Holds ks c cy (.dir d) ∧ Reaches d p m := by
  constructor
  · rintro (⟨e, _⟩ | ⟨q, x, d, e, hd, hl⟩)
    · cases e
    · cases q with
      | nil =>
        simp only [List.nil_append, List.cons.injEq] at e
        obtain ⟨rfl, rfl⟩ := e
        rw [DirAt.nil_iff.mp hd] at hl
        cases m with
        | obj o => exact Or.inl ⟨o, rfl, rfl, hl⟩
        | dir s =>
          obtain ⟨cy, hh, _⟩ := hl
          exact Or.inr ⟨cy, s, hh, Or.inl ⟨rfl, rfl⟩⟩
      | cons y q =>
        simp only [List.cons_append, List.cons.injEq] at e
        obtain ⟨rfl, rfl⟩ := e
        obtain ⟨cy, s, hh, h2⟩ := DirAt.cons_iff.mp hd
        exact Or.inr ⟨cy, s, hh, Or.inr ⟨q, x, d, rfl, h2, hl⟩⟩
  · rintro (⟨o, rfl, rfl, hl⟩ | ⟨cy, d, hh, h2⟩)
    · exact Or.inr ⟨[], c, ks, rfl, .here ks, hl⟩
    · rcases h2 with ⟨rfl, rfl⟩ | ⟨q, x, d', rfl, hd, hl⟩
      · refine Or.inr ⟨[], c, ks, rfl, .here ks, cy, hh, ?_⟩
        intro c' n' h'
        rw [(h.uniq hh h').1]
        exact Int.le_refl _
      · exact Or.inr ⟨c :: q, x, d', rfl, .down hh hd, hl⟩

theorem open_cons {fn : Visit O → Verdict} {base} {ks : Keys O} {c p} (hg : fn (base, some (.dir ks)) = .go) :
    Open fn base ks (c :: p) ↔ ∀ cy d, Holds ks c cy (.dir d) → Open fn (base ++ [c]) d p := by
  constructor
  · intro ho cy d hh q e hq hne hd
    have := ho (c :: q) e (by rw [List.cons_prefix_cons]; exact ⟨rfl, hq⟩) (by simpa using hne) (.down hh hd)
    simpa using this
  · intro ho q d hq hne hd
    cases q with
    | nil =>
      rw [DirAt.nil_iff.mp hd]
      simpa using hg
    | cons y q =>
      rw [List.cons_prefix_cons] at hq
      obtain ⟨rfl, hq⟩ := hq
      obtain ⟨cy, s, hh, h2⟩ := DirAt.cons_iff.mp hd
      have := ho cy s hh q d hq (by simpa using hne) h2
      simpa using this

theorem open_nil {fn : Visit O → Verdict} {base} {ks : Keys O} : Open fn base ks [] := by
  intro q d hq hne
  exact absurd (List.prefix_nil.mp hq) hne

theorem forall_bound {α : Type} (l : List α) (P : α → Nat → Prop) (h : ∀ a ∈ l, ∃ F, ∀ g, F ≤ g → P a g) :
    ∃ F, ∀ a ∈ l, ∀ g, F ≤ g → P a g := by
  induction l with
  | nil => exact ⟨0, by simp⟩
  | cons a l ih =>
    obtain ⟨F1, h1⟩ := h a (by simp)
    obtain ⟨F2, h2⟩ := ih (fun b hb => h b (by simp [hb]))
    refine ⟨F1 + F2, ?_⟩
    intro b hb g hg
    rcases List.mem_cons.mp hb with rfl | hb
    · exact h1 g (by omega)
    · exact h2 b hb g (by omega)

/-- The paths in a walk lie below its base. -/
theorem WalkOK.below {fn : Visit O → Verdict} {base} {ks : Keys O} {res} (h : WalkOK fn base ks res) {v} (hv : v ∈ res.1) :
    base <+: v.1 := by
  obtain ⟨p, m, rfl, _⟩ := (h.2.1 v).mp hv
  exact ⟨p, rfl⟩

theorem walk_ok {ks : Keys O} (h : WF ks) : ∃ F, ∀ g, F ≤ g → ∀ (fn : Visit O → Verdict), (∀ v, fn v ≠ .stop) →
    ∀ base, WalkOK fn base ks (walk fn g base (.dir ks)) := by
  induction h with
  | @mk ks dist names one sub ih =>
    have h : WF ks := .mk dist names one sub
    have hb : ∃ F, ∀ k ∈ ks, ∀ g, F ≤ g → ∀ d, k.obj = Node.dir d → ∀ (fn : Visit O → Verdict), (∀ v, fn v ≠ .stop) →
        ∀ base, WalkOK fn base d (walk fn g base (.dir d)) := by
      apply forall_bound
      intro k hk
      cases ho : k.obj with
      | obj o => exact ⟨0, fun g _ d hd => by cases hd⟩
      | dir d =>
        obtain ⟨F, hF⟩ := ih k hk d ho
        refine ⟨F, fun g hg d' hd' => ?_⟩
        injection hd' with hd'
        subst hd'
        exact hF g hg
    obtain ⟨F, hF⟩ := hb
    refine ⟨F + 2, ?_⟩
    intro g hg fn hfn base
    obtain ⟨g, rfl⟩ : ∃ g', g = g' + 2 := ⟨g - 2, by omega⟩
    cases hf : fn (base, some (.dir ks)) with
    | stop => exact absurd hf (hfn _)
    | skip =>
      have e : walk fn (g + 2) base (.dir ks) = ([(base, some (.dir ks))], .skip) := by
        simp only [walk, hf]
      rw [e]
      refine ⟨by simp, ?_, by simp⟩
      intro v
      simp only [List.mem_singleton]
      constructor
      · rintro rfl
        exact ⟨[], .dir ks, by simp, Or.inl ⟨rfl, rfl⟩, open_nil⟩
      · rintro ⟨p, m, rfl, hr, ho⟩
        cases p with
        | nil =>
          rcases hr with ⟨_, rfl⟩ | ⟨q, x, d, e, _⟩
          · simp
          · simp at e
        | cons c p =>
          have := ho [] ks List.nil_prefix (by simp) (.here ks)
          rw [List.append_nil, hf] at this
          cases this
    | go =>
      have hw : ∀ k ∈ ks, some k.cycle = keptCycle ks k.name →
          get ks k.name = .found k.obj ∧ (walk fn (g + 1) (base ++ [k.name]) k.obj).2 ≠ .stop := by
        intro k hk hkept
        refine ⟨get_kept h hk hkept, ?_⟩
        cases ho : k.obj with
        | obj o => simp only [walk]; exact hfn _
        | dir d => exact (hF k hk (g + 1) (by omega) d ho fn hfn (base ++ [k.name])).1
      have e : walk fn (g + 2) base (.dir ks) =
          ((base, some (.dir ks)) :: (ks.filter (fun k => decide (some k.cycle = keptCycle ks k.name))).flatMap
            (fun k => (walk fn (g + 1) (base ++ [k.name]) k.obj).1), .go) := by
        rw [walk, hf]
        simp only [walkKeys_eq fn (walk fn (g + 1)) base ks ks hw]
      rw [e]
      -- what one key contributes
      have block : ∀ k ∈ ks, ∀ v, v ∈ (walk fn (g + 1) (base ++ [k.name]) k.obj).1 → base ++ [k.name] <+: v.1 := by
        intro k hk v hv
        cases ho : k.obj with
        | obj o =>
          rw [ho] at hv
          simp only [walk, List.mem_singleton] at hv
          rw [hv]
          exact List.prefix_refl _
        | dir d =>
          rw [ho] at hv
          exact (hF k hk (g + 1) (by omega) d ho fn hfn (base ++ [k.name])).below hv
      have blockp : ∀ k ∈ ks, ((walk fn (g + 1) (base ++ [k.name]) k.obj).1).Pairwise (fun a b => ¬ b.1 <+: a.1) := by
        intro k hk
        cases ho : k.obj with
        | obj o => simp [walk]
        | dir d => exact (hF k hk (g + 1) (by omega) d ho fn hfn (base ++ [k.name])).2.2
      refine ⟨by simp, ?_, ?_⟩
      · intro v
        simp only [List.mem_cons, List.mem_flatMap, List.mem_filter, decide_eq_true_eq]
        constructor
        · rintro (rfl | ⟨k, ⟨hk, hkept⟩, hv⟩)
          · exact ⟨[], .dir ks, by simp, Or.inl ⟨rfl, rfl⟩, open_nil⟩
          · cases ho : k.obj with
            | obj o =>
              rw [ho] at hv
              simp only [walk, List.mem_singleton] at hv
              refine ⟨[k.name], .obj o, hv, ?_, ?_⟩
              · rw [reaches_cons h]
                have := kept_latest hk hkept
                rw [ho] at this
                exact Or.inl ⟨o, rfl, rfl, this⟩
              · rw [open_cons hf]
                exact fun _ _ _ => open_nil
            | dir d =>
              rw [ho] at hv
              have hok := hF k hk (g + 1) (by omega) d ho fn hfn (base ++ [k.name])
              obtain ⟨p, m, e, hr, hop⟩ := (hok.2.1 v).mp hv
              have hh : Holds ks k.name k.cycle (.dir d) := ⟨k, hk, rfl, rfl, ho⟩
              refine ⟨k.name :: p, m, by rw [e]; simp, ?_, ?_⟩
              · rw [reaches_cons h]
                exact Or.inr ⟨k.cycle, d, hh, hr⟩
              · rw [open_cons hf]
                intro cy d' hh'
                have := (h.uniq hh hh').2
                injection this with this
                rw [this]; exact hop
        · rintro ⟨p, m, rfl, hr, hop⟩
          cases p with
          | nil =>
            left
            rcases hr with ⟨_, rfl⟩ | ⟨q, x, d, e, _⟩
            · simp
            · simp at e
          | cons c p =>
            right
            rw [reaches_cons h] at hr
            rcases hr with ⟨o, rfl, rfl, hl⟩ | ⟨cy, d, hh, hr⟩
            · obtain ⟨k, hk, hn, ho, hkept⟩ := latest_kept hl
              refine ⟨k, ⟨hk, hkept⟩, ?_⟩
              rw [ho, hn]
              simp [walk]
            · obtain ⟨k, hk, hn, hc, ho⟩ := hh
              have hkept : some k.cycle = keptCycle ks k.name := by
                rw [kept_iff hk]
                intro k' hk' hn'
                rw [(h.one k hk d ho).2 k' hk' hn']
                exact Int.le_refl _
              refine ⟨k, ⟨hk, hkept⟩, ?_⟩
              rw [ho]
              have hok := hF k hk (g + 1) (by omega) d ho fn hfn (base ++ [k.name])
              rw [hok.2.1]
              refine ⟨p, m, by rw [hn]; simp, hr, ?_⟩
              rw [open_cons hf] at hop
              rw [hn]
              exact hop cy d ⟨k, hk, hn, hc, ho⟩
      · rw [List.pairwise_cons]
        constructor
        · intro v hv
          obtain ⟨k, hk, hv⟩ := List.mem_flatMap.mp hv
          have hk' := (List.mem_filter.mp hk).1
          intro hp
          have a := (block k hk' v hv).length_le
          have b := hp.length_le
          simp only [List.length_append, List.length_cons, List.length_nil] at a
          simp only at b
          omega
        · rw [List.flatMap_def, List.pairwise_flatten]
          constructor
          · intro l hl
            obtain ⟨k, hk, rfl⟩ := List.mem_map.mp hl
            exact blockp k (List.mem_filter.mp hk).1
          · rw [List.pairwise_map, List.pairwise_filter]
            have hd := List.Pairwise.and_mem.mp dist.1
            refine hd.imp ?_
            rintro a b ⟨ha, hb, hab⟩ hka hkb x hx y hy hp
            have hx' := block a ha x hx
            have hy' := (block b hb y hy).trans hp
            have : base ++ [a.name] = base ++ [b.name] := by
              rcases List.prefix_or_prefix_of_prefix hx' hy' with g | g
              · exact g.eq_of_length (by simp)
              · exact (g.eq_of_length (by simp)).symm
            have hn : a.name = b.name := by
              have := List.append_cancel_left this
              injection this
            refine hab ⟨hn, ?_⟩
            have ka := (kept_iff ha).mp (by simpa using hka) b hb hn.symm
            have kb := (kept_iff hb).mp (by simpa using hkb) a ha hn
            omega

/-- **C127** (walking): if the function never returns an error (but possibly `SkipDir`), `Walk` calls it for
the file itself, every directory and the highest cycle of every object, and nothing else, except what lies
in a directory for which it returned `SkipDir`; for each once, and for a directory before what is in it; and
`Walk` returns nil. -/
theorem C127_walk {ks : Keys O} (h : WF ks) : ∃ F, ∀ g, F ≤ g → ∀ (fn : Visit O → Verdict), (∀ v, fn v ≠ .stop) →
    (walkTop fn g ks).2 = true ∧
    (∀ v, v ∈ (walkTop fn g ks).1 ↔ ∃ p m, v = (p, some m) ∧ Reaches ks p m ∧
      ∀ q d, q <+: p → q ≠ p → DirAt ks q d → fn (q, some (.dir d)) = .go) ∧
    (walkTop fn g ks).1.Pairwise (fun a b => ¬ b.1 <+: a.1) := by
  obtain ⟨F, hF⟩ := walk_ok h
  refine ⟨F, fun g hg fn hfn => ?_⟩
  have := hF g hg fn hfn []
  refine ⟨?_, ?_, this.2.2⟩
  · unfold walkTop
    simpa using this.1
  · intro v
    have h2 := this.2.1 v
    simp only [List.nil_append, Open] at h2
    exact h2

/-- The error of the function ends the walk. -/
def StopOK (fn : Visit O → Verdict) (res : List (Visit O) × Verdict) : Prop :=
  (res.2 = .stop → ∃ vs v, res.1 = vs ++ [v] ∧ fn v = .stop ∧ ∀ u ∈ vs, fn u ≠ .stop) ∧
  (res.2 ≠ .stop → ∀ u ∈ res.1, fn u ≠ .stop)

theorem walkKeys_stop (fn : Visit O → Verdict) (w : List (List UInt8) → Node O → List (Visit O) × Verdict)
    (path : List (List UInt8)) (all l : Keys O)
    (hw : ∀ k ∈ l, ∀ n, get all k.name = .found n → StopOK fn (w (path ++ [k.name]) n)) :
    StopOK fn (walkKeys fn w path all l) := by
  induction l with
  | nil =>
    refine ⟨?_, ?_⟩
    · intro e
      simp only [walkKeys] at e
      cases e
    · intro _ u hu
      simp [walkKeys] at hu
  | cons k l ih =>
    have hl := ih (fun k' hk' => hw k' (by simp [hk']))
    rw [walkKeys]
    split
    · exact hl
    · have hone : StopOK fn (visitKey fn w path all k) := by
        have alone : StopOK fn ([(path ++ [k.name], none)], fn (path ++ [k.name], none)) :=
          ⟨fun e => ⟨[], _, rfl, e, by simp⟩, fun e u hu => by rw [List.mem_singleton.mp hu]; exact e⟩
        unfold visitKey
        cases e : get all k.name with
        | found n => exact hw k (by simp) n e
        | noKey => exact alone
        | panic => exact alone
      split
      · exact hone
      · rename_i hv
        have hvs := hone.2 hv
        constructor
        · intro e
          obtain ⟨vs', u, e1, e2, e3⟩ := hl.1 e
          refine ⟨(visitKey fn w path all k).1 ++ vs', u, ?_, e2, ?_⟩
          · simp only at e1 ⊢
            rw [e1]; simp
          · intro x hx
            rcases List.mem_append.mp hx with hx | hx
            · exact hvs x hx
            · exact e3 x hx
        · intro e x hx
          rcases List.mem_append.mp hx with hx | hx
          · exact hvs x hx
          · exact hl.2 e x hx

theorem walk_stop {ks : Keys O} (h : WF ks) : ∃ F, ∀ g, F ≤ g → ∀ (fn : Visit O → Verdict) base,
    StopOK fn (walk fn g base (.dir ks)) := by
  induction h with
  | @mk ks dist names one sub ih =>
    have h : WF ks := .mk dist names one sub
    have hb : ∃ F, ∀ k ∈ ks, ∀ g, F ≤ g → ∀ d, k.obj = Node.dir d → ∀ (fn : Visit O → Verdict) base,
        StopOK fn (walk fn g base (.dir d)) := by
      apply forall_bound
      intro k hk
      cases ho : k.obj with
      | obj o => exact ⟨0, fun g _ d hd => by cases hd⟩
      | dir d =>
        obtain ⟨F, hF⟩ := ih k hk d ho
        refine ⟨F, fun g hg d' hd' => ?_⟩
        injection hd' with hd'
        subst hd'
        exact hF g hg
    obtain ⟨F, hF⟩ := hb
    refine ⟨F + 2, ?_⟩
    intro g hg fn base
    obtain ⟨g, rfl⟩ : ∃ g', g = g' + 2 := ⟨g - 2, by omega⟩
    have hw : ∀ k ∈ ks, ∀ n, get ks k.name = .found n → StopOK fn (walk fn (g + 1) (base ++ [k.name]) n) := by
      intro k hk n hn
      cases n with
      | obj o =>
        simp only [walk]
        exact ⟨fun e => ⟨[], _, rfl, e, by simp⟩, fun e u hu => by rw [List.mem_singleton.mp hu]; exact e⟩
      | dir d =>
        obtain ⟨cy, k', hk', hn', _, ho'⟩ := (get_dir h (h.names k hk).2.2).mp hn
        exact hF k' hk' (g + 1) (by omega) d ho' fn (base ++ [k.name])
    have hkeys := walkKeys_stop fn (walk fn (g + 1)) base ks ks hw
    rw [walk]
    cases hf : fn (base, some (.dir ks)) with
    | go =>
      simp only
      constructor
      · intro e
        obtain ⟨vs, v, e1, e2, e3⟩ := hkeys.1 e
        refine ⟨(base, some (.dir ks)) :: vs, v, by rw [e1]; rfl, e2, ?_⟩
        intro u hu
        rcases List.mem_cons.mp hu with rfl | hu
        · rw [hf]; simp
        · exact e3 u hu
      · intro e u hu
        rcases List.mem_cons.mp hu with rfl | hu
        · rw [hf]; simp
        · exact hkeys.2 e u hu
    | skip =>
      refine ⟨fun e => (by cases e), ?_⟩
      intro _ u hu
      rw [List.mem_singleton.mp hu, hf]
      simp
    | stop =>
      exact ⟨fun _ => ⟨[], _, rfl, hf, by simp⟩, fun e => absurd rfl e⟩

/-- **C127** (errors while walking): `Walk` returns an error exactly if the function returned one; then that
was its last call. -/
theorem C127_walk_error {ks : Keys O} (h : WF ks) : ∃ F, ∀ g, F ≤ g → ∀ (fn : Visit O → Verdict),
    ((walkTop fn g ks).2 = false → ∃ vs v, (walkTop fn g ks).1 = vs ++ [v] ∧ fn v = .stop ∧ ∀ u ∈ vs, fn u ≠ .stop) ∧
    ((walkTop fn g ks).2 = true → ∀ u ∈ (walkTop fn g ks).1, fn u ≠ .stop) := by
  obtain ⟨F, hF⟩ := walk_stop h
  refine ⟨F, fun g hg fn => ?_⟩
  have := hF g hg fn []
  unfold walkTop
  constructor
  · intro e
    exact this.1 (by simpa using e)
  · intro e
    exact this.2 (by simpa using e)

/-- The walk through the example file; and with a function that skips "a". -/
example :
    ((walkTop (fun _ => Verdict.go) 5 exFile).1.map (·.1) = [[], [nA], [nA, nX], [nB]]) ∧
    ((walkTop (fun v => if v.1 = [nA] then Verdict.skip else .go) 5 exFile).1.map (·.1) = [[], [nA], [nB]]) := by
  decide

/-- The documentation of `WalkFunc` says that `SkipDir` returned for an object skips the remaining keys of
the directory. It does not: the remaining key "x" of "a" is visited. -/
theorem C127_skip_object_counterexample :
    let ks : Keys Nat := [⟨nA, 1, dirClass, .dir [⟨nB, 1, cObj, .obj 1⟩, ⟨nX, 1, cObj, .obj 2⟩]⟩]
    ((walkTop (fun v => if v.1 = [nA, nB] then Verdict.skip else .go) 5 ks).1.map (·.1) = [[], [nA], [nA, nB], [nA, nX]]) := by
  decide

end Verif.Riofs
