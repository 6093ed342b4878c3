import Verif.Riofs.NestedWalk

/-!
# More on nested directories: leading slashes, objects under new names (C126)
-/

namespace Verif.Riofs

variable {O : Type}

theorem scanCycle_fresh {Obj : Type} (name cls : List UInt8) (ks : List (DKey Obj)) (h : ∀ k ∈ ks, k.name ≠ name) (c : Int) :
    scanCycle name cls ks c = some c := by
  induction ks with
  | nil => rfl
  | cons k ks ih =>
    unfold scanCycle
    rw [if_pos (h k (by simp))]
    exact ih (fun k' hk' => h k' (by simp [hk']))

theorem put1_fresh {d : Keys O} (h : WF d) (name objName cls keyCls : List UInt8) (o : O) (hn : Good name)
    (hno : ∀ cy n, ¬ Holds d name cy n) :
    ∃ d', put1 name objName cls keyCls o d = .ok d' ∧ WF d' ∧
      (∀ x cy n, Holds d' x cy n ↔ Holds d x cy n ∨ (x = name ∧ cy = 1 ∧ n = .obj o)) := by
  have hno' : ∀ k ∈ d, k.name ≠ name := fun k hk e => hno k.cycle k.obj ⟨k, hk, e, rfl, rfl⟩
  refine ⟨d ++ [⟨name, 1, keyCls, .obj o⟩], ?_, ?_, ?_⟩
  · unfold put1 put
    rw [if_neg hn.2.1]
    simp only [hn.1, if_false]
    rw [scanCycle_fresh name cls d hno']
    rfl
  · apply wf_snoc h
    · refine ⟨?_, ?_⟩
      · rw [List.pairwise_append]
        refine ⟨h.dist.1, by simp, ?_⟩
        intro a ha b hb
        rw [List.mem_singleton.mp hb]
        rintro ⟨e, _⟩
        exact hno' a ha e
      · intro k hk
        rcases List.mem_append.mp hk with hk | hk
        · exact h.dist.2 k hk
        · rw [List.mem_singleton.mp hk]
          simp
    · exact hn
    · left
      exact ⟨⟨o, rfl⟩, fun k' hk' e => absurd e (hno' k' hk')⟩
  · intro x cy n
    rw [holds_snoc]
    constructor
    · rintro (g | ⟨g1, g2, g3⟩)
      · exact Or.inl g
      · exact Or.inr ⟨g1.symm, g2.symm, g3.symm⟩
    · rintro (g | ⟨g1, g2, g3⟩)
      · exact Or.inl g
      · exact Or.inr ⟨g1.symm, g2.symm, g3.symm⟩

/-- An object under a new name in the directory at `p`. -/
theorem updAt_put_fresh {ks : Keys O} (h : WF ks) {p d} (hd : DirAt ks p d) (hp : ∀ x ∈ p, Good x)
    (name objName cls keyCls : List UInt8) (o : O) (hn : Good name) (hno : ∀ cy n, ¬ Holds d name cy n) :
    ∃ ks', updAt (put1 name objName cls keyCls o) p ks = .ok ks' ∧ WF ks' ∧
      (∀ q x cy v, HeldAt ks' q x cy (.obj v) ↔ HeldAt ks q x cy (.obj v) ∨ (q = p ∧ x = name ∧ cy = 1 ∧ v = o)) ∧
      (∀ q, IsDir ks' q ↔ IsDir ks q) := by
  obtain ⟨d', e1, w1, hh⟩ := put1_fresh (hd.wf h) name objName cls keyCls o hn hno
  obtain ⟨ks', e2, w2, f1, f2⟩ := updAt_spec h hd hp _ e1 w1
  have base : ∀ r e, DirAt ks (p ++ r) e ↔ DirAt d r e := by
    intro r e
    rw [DirAt.append_iff]
    constructor
    · rintro ⟨d2, g1, g2⟩
      rw [hd.unique h g1]; exact g2
    · intro g; exact ⟨d, hd, g⟩
  have hdirs : ∀ r, r ≠ [] → ∀ e, DirAt d' r e ↔ DirAt d r e := by
    intro r hr e
    cases r with
    | nil => exact absurd rfl hr
    | cons x r =>
      rw [DirAt.cons_iff, DirAt.cons_iff]
      constructor
      · rintro ⟨cy, s, g1, g2⟩
        rcases (hh x cy _).mp g1 with g1 | ⟨_, _, g3⟩
        · exact ⟨cy, s, g1, g2⟩
        · cases g3
      · rintro ⟨cy, s, g1, g2⟩
        exact ⟨cy, s, (hh x cy _).mpr (Or.inl g1), g2⟩
  refine ⟨ks', e2, w2, ?_, ?_⟩
  · intro q x cy v
    by_cases hq : p <+: q
    · obtain ⟨r, rfl⟩ := hq
      unfold HeldAt
      simp only [f1, base]
      by_cases hr : r = []
      · subst hr
        simp only [DirAt.nil_iff, exists_eq_left, List.append_nil, true_and]
        rw [hh]
        constructor
        · rintro (g | ⟨g1, g2, g3⟩)
          · exact Or.inl g
          · injection g3 with g3
            exact Or.inr ⟨g1, g2, g3⟩
        · rintro (g | ⟨g1, g2, g3⟩)
          · exact Or.inl g
          · exact Or.inr ⟨g1, g2, by rw [g3]⟩
      · simp only [hdirs r hr]
        constructor
        · exact Or.inl
        · rintro (g | ⟨g, _⟩)
          · exact g
          · exact absurd (by simpa using g) hr
    · rw [(f2 q hq).2]
      constructor
      · exact Or.inl
      · rintro (g | ⟨rfl, _⟩)
        · exact g
        · exact absurd (List.prefix_refl _) hq
  · intro q
    by_cases hq : p <+: q
    · obtain ⟨r, rfl⟩ := hq
      unfold IsDir
      simp only [f1, base]
      by_cases hr : r = []
      · subst hr
        exact ⟨fun _ => ⟨d, .here d⟩, fun _ => ⟨d', .here d'⟩⟩
      · simp only [hdirs r hr]
    · exact (f2 q hq).1

/-! ### A leading slash -/

theorem rget_slash (ks : Keys O) (p : List (List UInt8)) (hg : ∀ x ∈ p, Good x) :
    rget ks (47 :: joinPath p) = rget ks (joinPath p) := by
  by_cases hp : p = []
  · subst hp
    simp [rget, joinPath]
  · have h59 := joinPath_semi p hg
    have h1 : decodeNameCycle (joinPath p) = some (joinPath p, 9999) := by
      unfold decodeNameCycle; rw [splitOn_no_sep _ _ h59]
    have h2 : decodeNameCycle (47 :: joinPath p) = some (47 :: joinPath p, 9999) := by
      unfold decodeNameCycle; rw [splitOn_no_sep _ _ (by simp [h59])]
    obtain ⟨b, s, e, hb⟩ := joinPath_head p hp hg
    have hne : ¬ (47 :: joinPath p = [] ∨ 47 :: joinPath p = [47]) := by
      rw [e]; simp
    unfold rget
    rw [if_neg hne, if_neg (joinPath_plain p hp hg), h1, h2]
    simp only
    rw [trimPrefix_joinPath p hp hg]
    simp [trimPrefix]

theorem comps_slash (p : List (List UInt8)) (hg : ∀ x ∈ p, Good x) : comps (47 :: joinPath p) = p := by
  by_cases hp : p = []
  · subst hp
    simp [comps, joinPath]
  · obtain ⟨b, s, e, hb⟩ := joinPath_head p hp hg
    have hne : ¬ (47 :: joinPath p = [] ∨ 47 :: joinPath p = [47]) := by
      rw [e]; simp
    unfold comps
    rw [if_neg hne]
    simp only [trimPrefix, if_true]
    exact splitOn_joinPath p hp hg

/-- The directory part of "/a/b/c", as `Put` and `Mkdir` take it. -/
theorem split_slash (p : List (List UInt8)) (hg : ∀ x ∈ p, Good x) (c : List UInt8) (hc : Good c) :
    (pathSplit (47 :: joinPath (p ++ [c]))).2 = c ∧
    trimRight (pathSplit (47 :: joinPath (p ++ [c]))).1 = (if p = [] then [] else 47 :: joinPath p) := by
  have hr : ∀ b ∈ c.reverse, (decide (b ≠ 47)) = true := by
    intro b hb
    simp only [decide_eq_true_eq]
    rintro rfl
    exact hc.2.1 (List.mem_reverse.mp hb)
  by_cases hp : p = []
  · subst hp
    have e : (47 :: joinPath ([] ++ [c])).reverse = c.reverse ++ [47] := by simp [joinPath]
    unfold pathSplit
    rw [e, List.dropWhile_append_of_pos hr, List.takeWhile_append_of_pos hr]
    simp [trimRight]
  · have e : (47 :: joinPath (p ++ [c])).reverse = c.reverse ++ (47 :: (joinPath p).reverse ++ [47]) := by
      rw [joinPath_snoc p c hp]; simp
    unfold pathSplit
    rw [e, List.dropWhile_append_of_pos hr, List.takeWhile_append_of_pos hr]
    have e2 : List.dropWhile (fun b => decide (b ≠ 47)) (47 :: (joinPath p).reverse ++ [47]) = 47 :: (joinPath p).reverse ++ [47] := by
      simp
    have e3 : List.takeWhile (fun b => decide (b ≠ 47)) (47 :: (joinPath p).reverse ++ [47]) = [] := by
      simp
    rw [e2, e3]
    refine ⟨by simp, ?_⟩
    rw [if_neg hp]
    -- trimming the slash
    obtain ⟨q, x, rfl⟩ : ∃ q x, p = q ++ [x] := ⟨p.dropLast, p.getLast hp, (List.dropLast_concat_getLast hp).symm⟩
    obtain ⟨hx1, hx2, _⟩ := hg x (by simp)
    obtain ⟨s, b, rfl⟩ : ∃ s b, x = s ++ [b] := ⟨x.dropLast, x.getLast hx1, (List.dropLast_concat_getLast hx1).symm⟩
    have hb : b ≠ 47 := by
      rintro rfl
      simp at hx2
    obtain ⟨t, ht⟩ : ∃ t, joinPath (q ++ [s ++ [b]]) = t ++ [b] := by
      by_cases hq : q = []
      · subst hq
        exact ⟨s, by simp [joinPath]⟩
      · rw [joinPath_snoc q _ hq]
        exact ⟨joinPath q ++ 47 :: s, by simp⟩
    rw [ht]
    unfold trimRight
    simp [List.dropWhile, hb]

theorem mkStep_slash (ks : Keys O) (p : List (List UInt8)) (hg : ∀ x ∈ p, Good x) (c : List UInt8) (hc : Good c) :
    mkStep ks (47 :: joinPath (p ++ [c])) = mkStep ks (joinPath (p ++ [c])) := by
  have hg' : ∀ x ∈ p ++ [c], Good x := by
    intro x hx
    rcases List.mem_append.mp hx with hx | hx
    · exact hg x hx
    · rw [List.mem_singleton.mp hx]; exact hc
  obtain ⟨e1, e2⟩ := split_slash p hg c hc
  have e3 : (pathSplit (joinPath (p ++ [c]))).2 = c ∧ trimRight (pathSplit (joinPath (p ++ [c]))).1 = joinPath p := by
    by_cases hp : p = []
    · subst hp
      have := pathSplit_one c hc.2.1
      simp only [List.nil_append, joinPath]
      rw [this]
      exact ⟨rfl, rfl⟩
    · rw [pathSplit_join p c hp hc.2.1]
      exact ⟨rfl, trimRight_join p hp hg⟩
  unfold mkStep
  rw [rget_slash ks _ hg', e1, e2, e3.1, e3.2]
  by_cases hp : p = []
  · subst hp
    simp [joinPath]
  · rw [if_neg hp, rget_slash ks p hg, comps_slash p hg, comps_joinPath p hg]

theorem mkLoop_slash (ps : List (List UInt8)) (hps : ∀ x ∈ ps, Good x) (done : List (List UInt8)) (hd : ∀ x ∈ done, Good x)
    (ks : Keys O) : mkLoop ([] :: done) ps ks = mkLoop done ps ks := by
  induction ps generalizing done ks with
  | nil => rfl
  | cons c ps ih =>
    have hc := hps c (by simp)
    have hd' : ∀ x ∈ done ++ [c], Good x := by
      intro x hx
      rcases List.mem_append.mp hx with hx | hx
      · exact hd x hx
      · rw [List.mem_singleton.mp hx]; exact hc
    have e : joinPath ([] :: done ++ [c]) = 47 :: joinPath (done ++ [c]) := by
      cases done with
      | nil => rfl
      | cons x done => rfl
    unfold mkLoop
    rw [e, mkStep_slash ks done hd c hc]
    congr 1
    funext ks'
    exact ih (fun x hx => hps x (by simp [hx])) (done ++ [c]) hd' ks'

/-- **C126** (making directories, with a leading slash): `Mkdir("/a/b/c")` does what `Mkdir("a/b/c")` does. -/
theorem C126_mkdir_slash {ks : Keys O} (h : WF ks) (p : List (List UInt8)) (hne : p ≠ []) (hp : ∀ x ∈ p, Good x)
    (hno : ∀ r, r <+: p → r ≠ [] → ¬ IsObj ks r) :
    ∃ ks', rmkdir ks (47 :: joinPath p) = .ok ks' ∧ MoreDirs ks ks' (fun q => q <+: p) := by
  obtain ⟨b, s, eb, hb⟩ := joinPath_head p hne hp
  have hplain : ¬ (47 :: joinPath p = [] ∨ 47 :: joinPath p = [47]) := by
    rw [eb]; simp
  by_cases hd : IsDir ks p
  · obtain ⟨d, hd⟩ := hd
    refine ⟨ks, ?_, MoreDirs.refl h (fun q hq => IsDir.prefix ⟨d, hd⟩ hq)⟩
    unfold rmkdir
    rw [if_neg hplain, rget_slash ks p hp, rget_dir h hd hp]
  · obtain ⟨ks', e1, m1⟩ := mkLoop_spec p h ⟨ks, .here ks⟩ (by simp) hp (by simpa using hno)
    simp only [List.nil_append] at m1
    have hsplit : splitOn 47 (47 :: joinPath p) = [] :: p := by
      have := splitOn_append 47 [] (joinPath p) (by simp)
      simp only [List.nil_append] at this
      rw [this, splitOn_joinPath p hne hp]
    have hloop : mkLoop [] ([] :: p) ks = .ok ks' := by
      unfold mkLoop
      have : mkStep ks (joinPath ([] ++ [[]])) = .ok ks := by
        simp [mkStep, joinPath, rget]
      rw [this]
      simp only [Out.bind, List.nil_append]
      rw [mkLoop_slash p hp [] (by simp) ks]
      exact e1
    obtain ⟨d, hd'⟩ := (m1.2.1 p).mpr (Or.inr (List.prefix_refl p))
    have hlen : ([] :: p).length ≠ 1 := by
      cases p with
      | nil => exact absurd rfl hne
      | cons x p => simp
    refine ⟨ks', ?_, m1⟩
    unfold rmkdir
    rw [if_neg hplain, hsplit, if_neg hlen, hloop]
    simp only [Out.bind]
    rw [rget_slash ks' p hp, rget_dir m1.1 hd' hp]
    -- the first lookup
    have hno' : ∀ n, rget ks (joinPath p) ≠ .ok n ∧ rget ks (joinPath p) ≠ .panic := by
      intro n
      obtain ⟨q, c, rfl⟩ : ∃ q c, p = q ++ [c] := ⟨p.dropLast, p.getLast hne, (List.dropLast_concat_getLast hne).symm⟩
      have hq : ∀ x ∈ q, Good x := fun x hx => hp x (by simp [hx])
      have hc := hp c (by simp)
      have hget := C126_get h q c hq hc
      refine ⟨?_, hget.2.2.2.2.2.2⟩
      intro e
      obtain ⟨d, hdq, cy, hh, _⟩ := (hget.1 n).mp e
      cases n with
      | dir s => exact hd ⟨s, DirAt.append_iff.mpr ⟨d, hdq, .down hh (.here s)⟩⟩
      | obj o => exact hno _ (List.prefix_refl _) hne ⟨q, c, cy, o, rfl, d, hdq, hh⟩
    rw [rget_slash ks p hp]
    cases e : rget ks (joinPath p) with
    | ok n => exact absurd e (hno' n).1
    | panic => exact absurd e (hno' (.dir [])).2
    | noKey => rfl
    | err => rfl

/-- Putting an object under a new name into an existing directory, by a path with a leading slash. -/
theorem rput_slash_fresh {ks : Keys O} (h : WF ks) {p d} (hne : p ≠ []) (hd : DirAt ks p d) (hp : ∀ x ∈ p, Good x)
    (name objName cls keyCls : List UInt8) (o : O) (hn : Good name) :
    rput ks (47 :: joinPath (p ++ [name])) objName cls keyCls o = updAt (put1 name objName cls keyCls o) p ks := by
  obtain ⟨e1, e2⟩ := split_slash p hp name hn
  rw [if_neg hne] at e2
  obtain ⟨b, s, eb, hb⟩ := joinPath_head p hne hp
  have hplain : ¬ (47 :: joinPath p = [] ∨ 47 :: joinPath p = [47]) := by
    rw [eb]; simp
  unfold rput
  rw [e2, if_neg (by simp), e1, comps_slash p hp]
  have : rmkdir ks (47 :: joinPath p) = .ok ks := by
    unfold rmkdir
    rw [if_neg hplain, rget_slash ks p hp, rget_dir h hd hp]
  rw [this]
  rfl

/-- **C126** (putting, with a leading slash and no directory): `Put("/name", obj)` is refused, for all files. -/
theorem C126_top_slash_counterexample (ks : Keys O) (name objName cls keyCls : List UInt8) (o : O) (hn : Good name) :
    rput ks (47 :: name) objName cls keyCls o = .err := by
  obtain ⟨e1, e2⟩ := split_slash [] (by simp) name hn
  simp only [List.nil_append, joinPath, if_true] at e1 e2
  unfold rput
  rw [if_pos e2]
  unfold put1 put
  simp

/-- **C126** (making one directory): `Mkdir` of a directory itself, without `riofs.Dir`, makes a new directory
under a name that is not used and returns an error for a name that is. -/
theorem C126_mkdir_direct {ks : Keys O} (h : WF ks) (name : List UInt8) (hn : Good name) :
    (∀ cy n, Holds ks name cy n → mkdir1 ks name = .err) ∧
    ((∀ cy n, ¬ Holds ks name cy n) → ∃ ks', mkdir1 ks name = .ok ks' ∧ MoreDirs ks ks' (fun q => q = [name])) := by
  constructor
  · intro cy n hh
    unfold mkdir1
    cases e : get ks name with
    | found m => rfl
    | panic => exact absurd e (get_noPanic ks name hn.2.2)
    | noKey => exact absurd hh ((get_noKey ks name hn.2.2).mp e cy n)
  · intro hno
    have := updAt_mkdir h (.here ks) (by simp) hn hno
    simpa [updAt] using this

example : (match mkdir1 exFile nB with | .err => True | _ => False) ∧ (match mkdir1 exFile nX with | .ok ks => IsDir ks [nX] | _ => False) := by
  refine ⟨trivial, [], .down ⟨_, List.mem_append_right _ List.mem_cons_self, rfl, rfl, rfl⟩ (.here _)⟩

end Verif.Riofs
