import Verif.Xrootd.Copy

/-!
# xrd-cp makes an image of what is on the server (C169)
-/

namespace Verif.Xrootd.Copy

/-! ## Specification -/

/-- The entries of a directory. -/
inductive In : Name → Node → Ents → Prop
  | head (name : Name) (n : Node) (es : Ents) : In name n (.cons name n es)
  | tail {name : Name} {n : Node} {es : Ents} (name' : Name) (n' : Node) (h : In name n es) : In name n (.cons name' n' es)

/-- What is there under a path: a file with its content, or a directory (`none`). -/
inductive Has : Node → Path → Option (List UInt8) → Prop
  | file (d : List UInt8) : Has (.file d) [] (some d)
  | dir (es : Ents) : Has (.dir es) [] none
  | sub {es : Ents} {name : Name} {n : Node} {p : Path} {e : Option (List UInt8)} (h : In name n es) (hn : Has n p e) :
      Has (.dir es) (name :: p) e

/-- There is only one thing under every path. -/
def Unique (n : Node) : Prop := ∀ p e e', Has n p e → Has n p e' → e = e'

/-- A directory is there, and all those above it. -/
def DirAt (l : Loc) (p : Path) : Prop := ∀ k, l (p.take k) = some none

/-- `s'` has below `root` what `n` has, and elsewhere what `s` has. -/
structure Image (n : Node) (root : Path) (s s' : St) : Prop where
  same : ∀ p e, Has n p e → s'.loc (root ++ p) = some e
  rest : ∀ q, (∀ p e, q = root ++ p → ¬ Has n p e) → s'.loc q = s.loc q
  out : s'.out = s.out
  closed : s'.closed = s.closed

/-! ## Directories -/

theorem mkdir_one (l : Loc) (root : Path) (base : Name) (hr : DirAt l root) (hb : isFile (l (root ++ [base])) = false) :
    ∃ l', mkdirAll (root ++ [base]) l = some l' ∧ (∀ q, l' q = if q = root ++ [base] then some none else l q) ∧
      DirAt l' (root ++ [base]) := by
  have htake : ∀ k, k ≤ root.length → (root ++ [base]).take k = root.take k := fun k hk => List.take_append_of_le_length hk
  have hany : ((List.range ((root ++ [base]).length + 1)).any fun k => isFile (l ((root ++ [base]).take k))) = false := by
    rw [List.any_eq_false]
    intro k _
    by_cases hk : k ≤ root.length
    · rw [htake k hk, hr k]; simp [isFile]
    · rw [List.take_of_length_le (by simp; omega), hb]; simp
  have hl : ∀ q, (if q = (root ++ [base]).take q.length ∧ l q = none then some none else l q) =
      if q = root ++ [base] then some none else l q := by
    intro q
    by_cases hq : q = root ++ [base]
    · rw [if_pos hq]
      split
      · rfl
      · rename_i hc
        subst hq
        rw [List.take_length] at hc
        cases h : l (root ++ [base]) with
        | none => exact absurd ⟨rfl, h⟩ hc
        | some x => cases x with
          | none => rfl
          | some d => rw [h] at hb; cases hb
    · rw [if_neg hq, if_neg]
      rintro ⟨h1, h2⟩
      by_cases hk : q.length ≤ root.length
      · rw [htake _ hk] at h1
        rw [h1, hr] at h2
        cases h2
      · rw [List.take_of_length_le (by simp; omega)] at h1
        exact hq h1
  refine ⟨fun q => if q = root ++ [base] then some none else l q, ?_, fun q => rfl, ?_⟩
  · unfold mkdirAll
    rw [if_neg (by rw [hany]; simp)]
    simp only [hl]
  · intro k
    simp only
    split
    · rfl
    · rename_i hc
      by_cases hk : k ≤ root.length
      · rw [htake k hk]; exact hr k
      · exact absurd (List.take_of_length_le (by simp; omega)) hc

/-- What listing the sources does: the jobs are the files, and the directories are made. -/
structure Listed (has : Path → Option (List UInt8) → Prop) (root : Path) (l : Loc) (js : List Job) (l' : Loc) : Prop where
  sound : ∀ j ∈ js, ∃ p, j.dst = root ++ p ∧ has p (some j.data)
  complete : ∀ p d, has p (some d) → ∃ j ∈ js, j.dst = root ++ p ∧ j.data = d
  dirs : ∀ p, has p none → l' (root ++ p) = some none
  rest : ∀ q, l' q = l q ∨ (l' q = some none ∧ ∃ p, q = root ++ p ∧ has p none)
  keep : ∀ q, l q = some none → l' q = some none

/-- Below the entries of a directory. -/
def HasIn (es : Ents) (p : Path) (e : Option (List UInt8)) : Prop :=
  ∃ name n q, p = name :: q ∧ In name n es ∧ Has n q e

mutual

theorem addDir_spec (root : Path) (base : Name) (n : Node) (l : Loc) (hr : DirAt l root)
    (hf : ∀ p, isFile (l (root ++ base :: p)) = false) :
    ∃ js l', addDir true root base n l = (some js, l') ∧ Listed (Has n) (root ++ [base]) l js l' := by
  cases n with
  | file d =>
    refine ⟨_, _, rfl, ?_, ?_, ?_, fun q => .inl rfl, fun q h => h⟩
    · intro j hj
      rw [List.mem_singleton] at hj
      subst hj
      exact ⟨[], by simp, .file d⟩
    · intro p d' h
      cases h
      exact ⟨_, List.mem_singleton.2 rfl, by simp, rfl⟩
    · intro p h
      cases h
  | dir es =>
    obtain ⟨l1, h1, h2, h3⟩ := mkdir_one l root base hr (hf [])
    obtain ⟨js, l', h4, h5⟩ := addAll_spec (root ++ [base]) es l1 h3 (by
      intro name p
      rw [h2]
      split
      · rfl
      · have := hf (name :: p)
        simpa using this)
    refine ⟨js, l', ?_, ?_, ?_, ?_, ?_, ?_⟩
    · simp [addDir, h1, h4]
    · intro j hj
      obtain ⟨p, e1, name, n, q, rfl, hi, hn⟩ := h5.sound j hj
      exact ⟨_, e1, .sub hi hn⟩
    · intro p d h
      cases h with
      | sub hi hn => exact h5.complete _ _ ⟨_, _, _, rfl, hi, hn⟩
    · intro p h
      cases h with
      | dir => rw [List.append_nil]; exact h5.keep _ (by rw [h2]; simp)
      | sub hi hn => exact h5.dirs _ ⟨_, _, _, rfl, hi, hn⟩
    · intro q
      rcases h5.rest q with h | ⟨h, p, e1, name, n, q', rfl, hi, hn⟩
      · rw [h2] at h
        by_cases hq : q = root ++ [base]
        · rw [if_pos hq] at h
          exact .inr ⟨h, [], by simpa using hq, .dir es⟩
        · rw [if_neg hq] at h
          exact .inl h
      · exact .inr ⟨h, _, e1, .sub hi hn⟩
    · intro q h
      refine h5.keep q ?_
      rw [h2]
      split
      · rfl
      · exact h

theorem addAll_spec (root : Path) (es : Ents) (l : Loc) (hr : DirAt l root)
    (hf : ∀ name p, isFile (l (root ++ name :: p)) = false) :
    ∃ js l', addAll true root es l = (some js, l') ∧ Listed (HasIn es) root l js l' := by
  cases es with
  | nil =>
    refine ⟨[], l, rfl, by simp, ?_, ?_, fun q => .inl rfl, fun q h => h⟩
    · rintro p d ⟨name, n, q, rfl, hi, -⟩
      cases hi
    · rintro p ⟨name, n, q, rfl, hi, -⟩
      cases hi
  | cons name n es =>
    obtain ⟨js, l1, h1, h2⟩ := addDir_spec root name n l hr (hf name)
    have hr1 : DirAt l1 root := fun k => h2.keep _ (hr k)
    obtain ⟨js', l2, h3, h4⟩ := addAll_spec root es l1 hr1 (by
      intro m p
      rcases h2.rest (root ++ m :: p) with h | ⟨h, -⟩
      · rw [h]; exact hf m p
      · rw [h]; rfl)
    refine ⟨js ++ js', l2, by simp [addAll, h1, h3], ?_, ?_, ?_, ?_, fun q h => h4.keep q (h2.keep q h)⟩
    · intro j hj
      rcases List.mem_append.1 hj with hj | hj
      · obtain ⟨p, e1, hn⟩ := h2.sound j hj
        exact ⟨name :: p, by rw [e1]; simp, name, n, p, rfl, .head _ _ _, hn⟩
      · obtain ⟨p, e1, m, n', q, e2, hi, hn⟩ := h4.sound j hj
        exact ⟨p, e1, m, n', q, e2, .tail _ _ hi, hn⟩
    · rintro p d ⟨m, n', q, rfl, hi, hn⟩
      cases hi with
      | head =>
        obtain ⟨j, hj, e1, e2⟩ := h2.complete q d hn
        exact ⟨j, List.mem_append_left _ hj, by rw [e1]; simp, e2⟩
      | tail _ _ hi =>
        obtain ⟨j, hj, e1, e2⟩ := h4.complete _ d ⟨m, n', q, rfl, hi, hn⟩
        exact ⟨j, List.mem_append_right _ hj, e1, e2⟩
    · rintro p ⟨m, n', q, rfl, hi, hn⟩
      cases hi with
      | head =>
        have := h2.dirs q hn
        exact h4.keep _ (by simpa using this)
      | tail _ _ hi => exact h4.dirs _ ⟨m, n', q, rfl, hi, hn⟩
    · intro q
      rcases h4.rest q with h | ⟨h, p, e1, m, n', q', rfl, hi, hn⟩
      · rcases h2.rest q with h' | ⟨h', p, e1, hn⟩
        · exact .inl (by rw [h, h'])
        · exact .inr ⟨by rw [h, h'], name :: p, by rw [e1]; simp, name, n, p, rfl, .head _ _ _, hn⟩
      · exact .inr ⟨h, _, e1, m, n', q', rfl, .tail _ _ hi, hn⟩

end

/-! ## Files -/

theorem runJobs_spec (js : List Job) (s : St) (h1 : ∀ j ∈ js, j.dst ≠ [[45]] ∧ j.dst ≠ [])
    (h2 : ∀ j ∈ js, s.loc j.dst ≠ some none) (h3 : ∀ j ∈ js, s.loc j.dst.dropLast = some none)
    (h4 : ∀ j ∈ js, ∀ j' ∈ js, j.dst = j'.dst → j.data = j'.data) :
    ∃ s', runJobs js s = (s', true) ∧ (∀ j ∈ js, s'.loc j.dst = some (some j.data)) ∧
      (∀ q, (∀ j ∈ js, j.dst ≠ q) → s'.loc q = s.loc q) ∧ s'.out = s.out ∧ s'.closed = s.closed := by
  induction js generalizing s with
  | nil => exact ⟨s, rfl, by simp, fun _ _ => rfl, rfl, rfl⟩
  | cons j js ih =>
    have hj := List.mem_cons_self (a := j) (l := js)
    have hne : ∀ x ∈ j :: js, x.dst.dropLast ≠ j.dst := by
      intro x hx hc
      exact h2 j hj (hc ▸ h3 x hx)
    obtain ⟨s', e1, e2, e3, e4, e5⟩ := ih { s with loc := fun q => if q = j.dst then some (some j.data) else s.loc q }
      (fun x hx => h1 x (List.mem_cons_of_mem _ hx))
      (by
        intro x hx
        simp only
        split
        · simp
        · exact h2 x (List.mem_cons_of_mem _ hx))
      (by
        intro x hx
        simp only
        rw [if_neg (hne x (List.mem_cons_of_mem _ hx))]
        exact h3 x (List.mem_cons_of_mem _ hx))
      (fun x hx y hy => h4 x (List.mem_cons_of_mem _ hx) y (List.mem_cons_of_mem _ hy))
    refine ⟨s', ?_, ?_, ?_, e4, e5⟩
    · have hrun : runJob j s = some { s with loc := fun q => if q = j.dst then some (some j.data) else s.loc q } := by
        unfold runJob create
        rw [if_neg (h1 j hj).1, if_neg (h1 j hj).2, if_neg]
        · rfl
        · rintro (h | h)
          · exact h2 j hj h
          · exact h (h3 j hj)
      rw [runJobs, hrun]
      exact e1
    · intro x hx
      rcases List.mem_cons.1 hx with rfl | hx
      · by_cases hc : ∃ y ∈ js, y.dst = x.dst
        · obtain ⟨y, hy, hyx⟩ := hc
          rw [← hyx, e2 y hy, h4 y (List.mem_cons_of_mem _ hy) x (List.mem_cons_self ..) hyx]
        · rw [e3 x.dst (fun y hy h => hc ⟨y, hy, h⟩)]
          simp
      · exact e2 x hx
    · intro q hq
      rw [e3 q (fun y hy => hq y (List.mem_cons_of_mem _ hy))]
      simp only
      rw [if_neg (fun h => hq j hj h.symm)]

/-- From the list of jobs to the copy. -/
theorem finish_spec (has : Path → Option (List UInt8) → Prop) (hu : ∀ p e e', has p e → has p e' → e = e')
    (hpar : ∀ p d, has p (some d) → p ≠ [] → has p.dropLast none) (root : Path) (l l1 : Loc) (js : List Job) (s : St)
    (hl : Listed has root l1 js l) (hnone : ∀ p d, has p (some d) → l1 (root ++ p) ≠ some none)
    (hroot : (∃ d, has [] (some d)) → l root.dropLast = some none)
    (h1 : ∀ p d, has p (some d) → root ++ p ≠ [[45]] ∧ root ++ p ≠ []) :
    ∃ s', finish s (some js, l) = (s', true) ∧ (∀ p e, has p e → s'.loc (root ++ p) = some e) ∧
      (∀ q, (∀ p e, q = root ++ p → ¬ has p e) → s'.loc q = l1 q) ∧ s'.out = s.out ∧ s'.closed = s.closed := by
  obtain ⟨s', e1, e2, e3, e4, e5⟩ := runJobs_spec js { s with loc := l }
    (by
      intro j hj
      obtain ⟨p, e, hp⟩ := hl.sound j hj
      rw [e]; exact h1 p _ hp)
    (by
      intro j hj hc
      obtain ⟨p, e, hp⟩ := hl.sound j hj
      rw [e] at hc
      rcases hl.rest (root ++ p) with h | ⟨h, p', e', hp'⟩
      · have hc : l (root ++ p) = some none := hc
        rw [h] at hc
        exact hnone p _ hp hc
      · have := List.append_cancel_left e'
        subst this
        have := hu _ _ _ hp hp'
        cases this)
    (by
      intro j hj
      obtain ⟨p, e, hp⟩ := hl.sound j hj
      rw [e]
      by_cases hp0 : p = []
      · subst hp0
        rw [List.append_nil]
        exact hroot ⟨_, hp⟩
      · rw [List.dropLast_append_of_ne_nil hp0]
        exact hl.dirs _ (hpar p _ hp hp0))
    (by
      intro j hj j' hj' hd
      obtain ⟨p, e, hp⟩ := hl.sound j hj
      obtain ⟨p', e', hp'⟩ := hl.sound j' hj'
      rw [e, e'] at hd
      have := List.append_cancel_left hd
      subst this
      exact Option.some.inj (hu _ _ _ hp hp'))
  refine ⟨s', e1, ?_, ?_, e4, e5⟩
  · intro p e hp
    cases e with
    | some d =>
      obtain ⟨j, hj, h1, h2⟩ := hl.complete p d hp
      rw [← h1, ← h2]; exact e2 j hj
    | none =>
      rw [e3 _ (by
        intro j hj hc
        obtain ⟨p', e', hp'⟩ := hl.sound j hj
        rw [e'] at hc
        have := List.append_cancel_left hc
        subst this
        have := hu _ _ _ hp hp'
        cases this)]
      exact hl.dirs p hp
  · intro q hq
    rw [e3 q (by
      intro j hj hc
      obtain ⟨p', e', hp'⟩ := hl.sound j hj
      exact hq p' _ (by rw [← e', hc]) hp')]
    rcases hl.rest q with h | ⟨-, p, e, hp⟩
    · exact h
    · exact absurd hp (hq p _ e)

theorem Has.parent {n : Node} {p : Path} {e : Option (List UInt8)} (h : Has n p e) : p ≠ [] → Has n p.dropLast none := by
  induction h with
  | file d => intro h; exact absurd rfl h
  | dir es => intro h; exact absurd rfl h
  | @sub es name n p e hi hn ih =>
    intro _
    cases p with
    | nil => exact .dir es
    | cons x p =>
      rw [List.dropLast_cons_of_ne_nil (by simp)]
      exact .sub hi (ih (by simp))

theorem copy_into (dst : Path) (base : Name) (n : Node) (s : St) (hd : s.loc dst = some none) :
    copy true dst base n s = finish s (addDir true dst base n s.loc) := by
  cases n with
  | file d => simp only [copy, hd, addDir]
  | dir es => simp only [copy, hd]

theorem DirAt.self {l : Loc} {p : Path} (h : DirAt l p) : l p = some none := by
  have := h p.length
  rwa [List.take_length] at this

/-- **C169** (part): a file, or with `-r` a directory with all that is below it, is copied into an existing directory under its own name, if
there is nothing of that name; all else stays as it was. Missing: a file called `-` copied into the current directory, see
the counterexample. -/
theorem C169_into_partial (dst : Path) (base : Name) (n : Node) (s : St) (hu : Unique n) (hd : DirAt s.loc dst)
    (hfree : ∀ p, s.loc (dst ++ base :: p) = none) (hdash : dst = [] → base ≠ [45]) :
    ∃ s', copy true dst base n s = (s', true) ∧ Image n (dst ++ [base]) s s' := by
  obtain ⟨js, l', h1, h2⟩ := addDir_spec dst base n s.loc hd (fun p => by rw [hfree]; rfl)
  obtain ⟨s', e1, e2, e3, e4, e5⟩ := finish_spec (Has n) hu (fun p d h hp => h.parent hp) (dst ++ [base]) l' s.loc js s h2
    (by
      intro p d _
      have := hfree p
      rw [List.append_assoc, List.singleton_append, this]; simp)
    (by
      intro _
      rw [List.dropLast_concat]
      exact h2.keep _ hd.self)
    (by
      intro p d _
      refine ⟨?_, by simp⟩
      intro hc
      have hl := congrArg List.length hc
      simp only [List.length_append, List.length_singleton] at hl
      have h0 : dst = [] := List.length_eq_zero_iff.1 (by omega)
      have h5 : p = [] := List.length_eq_zero_iff.1 (by omega)
      subst h0 h5
      simp only [List.nil_append, List.append_nil, List.cons.injEq, and_true] at hc
      exact hdash rfl hc)
  refine ⟨s', ?_, e2, e3, e4, e5⟩
  rw [copy_into dst base n s hd.self, h1, e1]

/-- **C169** (several sources): several files and directories, with different names, are all copied into an existing directory. -/
theorem C169_all_partial (dst : Path) (xs : List (Name × Node)) (s : St) (hnd : (xs.map (·.1)).Nodup)
    (hu : ∀ x ∈ xs, Unique x.2) (hd : DirAt s.loc dst) (hfree : ∀ x ∈ xs, ∀ p, s.loc (dst ++ x.1 :: p) = none)
    (hdash : dst = [] → ∀ x ∈ xs, x.1 ≠ [45]) :
    ∃ s', copies true dst xs s = (s', true) ∧
      (∀ x ∈ xs, ∀ p e, Has x.2 p e → s'.loc (dst ++ x.1 :: p) = some e) ∧
      (∀ q, (∀ x ∈ xs, ∀ p e, q = dst ++ x.1 :: p → ¬ Has x.2 p e) → s'.loc q = s.loc q) := by
  induction xs generalizing s with
  | nil => exact ⟨s, rfl, by simp, fun _ _ => rfl⟩
  | cons x xs ih =>
    rw [List.map_cons, List.nodup_cons] at hnd
    obtain ⟨s1, h1, h2⟩ := C169_into_partial dst x.1 x.2 s (hu x (List.mem_cons_self ..)) hd
      (hfree x (List.mem_cons_self ..)) (fun h => hdash h x (List.mem_cons_self ..))
    have hne : ∀ y ∈ xs, ∀ p p', dst ++ y.1 :: p ≠ dst ++ [x.1] ++ p' := by
      intro y hy p p' hc
      rw [List.append_assoc] at hc
      have := List.append_cancel_left hc
      simp only [List.singleton_append, List.cons.injEq] at this
      exact hnd.1 (List.mem_map.2 ⟨y, hy, this.1⟩)
    obtain ⟨s', h3, h4, h5⟩ := ih s1 hnd.2 (fun y hy => hu y (List.mem_cons_of_mem _ hy))
      (by
        intro k
        rw [h2.rest _ (by
          intro p e hc
          have := congrArg List.length hc
          simp at this
          omega)]
        exact hd k)
      (by
        intro y hy p
        rw [h2.rest _ (fun p' e hc => absurd hc (hne y hy p p'))]
        exact hfree y (List.mem_cons_of_mem _ hy) p)
      (fun h y hy => hdash h y (List.mem_cons_of_mem _ hy))
    refine ⟨s', by simp only [copies, h1, h3], ?_, ?_⟩
    · intro y hy p e hp
      rcases List.mem_cons.1 hy with rfl | hy
      · rw [h5 _ (by
          intro z hz p' e' hc
          refine absurd hc.symm ?_
          have := hne z hz p' p
          simpa using this)]
        have := h2.same p e hp
        simpa using this
      · exact h4 y hy p e hp
    · intro q hq
      rw [h5 q (fun y hy => hq y (List.mem_cons_of_mem _ hy)), h2.rest q]
      intro p e hc
      exact hq x (List.mem_cons_self ..) p e (by rw [hc]; simp)

/-- **C169** (new directory): if the destination of a directory is not there, it is made, and gets what the directory has. -/
theorem C169_new (dst : Path) (base : Name) (es : Ents) (s : St) (hu : Unique (.dir es))
    (hd : ∀ k, isFile (s.loc (dst.take k)) = false) (hfree : ∀ p, s.loc (dst ++ p) = none) (hne : dst ≠ []) :
    ∃ s', copy true dst base (.dir es) s = (s', true) ∧
      (∀ p e, Has (.dir es) p e → s'.loc (dst ++ p) = some e) ∧
      (∀ q, (∀ p e, q = dst ++ p → ¬ Has (.dir es) p e) → q ≠ dst.take q.length → s'.loc q = s.loc q) ∧
      s'.out = s.out := by
  have hdst : s.loc dst = none := by simpa using hfree []
  have hmk : mkdirAll dst s.loc = some fun q => if q = dst.take q.length ∧ s.loc q = none then some none else s.loc q := by
    unfold mkdirAll
    rw [if_neg]
    simp [hd]
  have hnot : ∀ x : Name, ∀ p, ¬ (dst ++ x :: p = dst.take (dst ++ x :: p).length) := by
    intro x p hc
    have := congrArg List.length hc
    simp at this
  have hD : DirAt (fun q => if q = dst.take q.length ∧ s.loc q = none then some none else s.loc q) dst := by
    intro k
    simp only
    split
    · rfl
    · rename_i hc
      have h1 : dst.take k = dst.take (dst.take k).length := by
        rw [List.length_take]
        by_cases hk : k ≤ dst.length
        · rw [Nat.min_eq_left hk]
        · rw [Nat.min_eq_right (by omega), List.take_of_length_le (by omega), List.take_length]
      have h2 := hd k
      cases h : s.loc (dst.take k) with
      | none => exact absurd ⟨h1, h⟩ hc
      | some x => cases x with
        | none => rfl
        | some d => rw [h] at h2; cases h2
  obtain ⟨js, l', h1, h2⟩ := addAll_spec dst es _ hD (by
    intro name p
    rw [if_neg (fun h => hnot name p h.1), hfree]
    rfl)
  have h3 : Listed (Has (.dir es)) dst (fun q => if q = dst.take q.length ∧ s.loc q = none then some none else s.loc q) js l' := by
    refine ⟨?_, ?_, ?_, ?_, h2.keep⟩
    · intro j hj
      obtain ⟨p, e1, name, n, q, rfl, hi, hn⟩ := h2.sound j hj
      exact ⟨_, e1, .sub hi hn⟩
    · intro p d h
      cases h with
      | sub hi hn => exact h2.complete _ _ ⟨_, _, _, rfl, hi, hn⟩
    · intro p h
      cases h with
      | dir => rw [List.append_nil]; exact h2.keep _ hD.self
      | sub hi hn => exact h2.dirs _ ⟨_, _, _, rfl, hi, hn⟩
    · intro q
      rcases h2.rest q with h | ⟨h, p, e1, name, n, q', rfl, hi, hn⟩
      · exact .inl h
      · exact .inr ⟨h, _, e1, .sub hi hn⟩
  obtain ⟨s', e1, e2, e3, e4, -⟩ := finish_spec (Has (.dir es)) hu (fun p d h hp => h.parent hp) dst l' _ js s h3
    (by
      intro p d h
      cases h with
      | @sub _ name _ p _ hi hn =>
        rw [if_neg (fun h => hnot name p h.1), hfree]
        simp)
    (by rintro ⟨d, h⟩; cases h)
    (by
      intro p d h
      cases h with
      | @sub _ name _ p _ hi hn =>
        refine ⟨?_, by simp⟩
        intro hc
        have hl := congrArg List.length hc
        have : 0 < dst.length := List.length_pos_iff.2 hne
        simp at hl
        omega)
  refine ⟨s', ?_, e2, ?_, e4⟩
  · simp only [copy, hdst, hmk, h1, e1]
  · intro q hq hp
    rw [e3 q hq, if_neg (fun h => hp h.1)]

/-- **C169** (one file): to a name that is not a directory, in a directory, or to the standard output. -/
theorem C169_file (dst : Path) (base : Name) (d : List UInt8) (s : St) (recursive : Bool) (hn : s.loc dst ≠ some none) :
    (dst ≠ [[45]] → dst ≠ [] → s.loc dst.dropLast = some none →
      ∃ s', copy recursive dst base (.file d) s = (s', true) ∧ s'.loc dst = some (some d) ∧
        (∀ q, q ≠ dst → s'.loc q = s.loc q) ∧ s'.out = s.out) ∧
    (dst = [[45]] → s.closed = false →
      ∃ s', copy recursive dst base (.file d) s = (s', true) ∧ s'.loc = s.loc ∧ s'.out = s.out ++ d) := by
  have hc : copy recursive dst base (.file d) s = finish s (some [⟨base, dst, d⟩], s.loc) := by
    simp only [copy]
  rw [hc]
  constructor
  · intro h1 h2 h3
    obtain ⟨s', e1, e2, e3, e4, -⟩ := runJobs_spec [⟨base, dst, d⟩] s (by simp [h1, h2]) (by simpa using hn)
      (by simpa using h3) (by simp)
    exact ⟨s', e1, e2 _ (List.mem_singleton.2 rfl), fun q hq => e3 q (by simpa [eq_comm] using hq), e4⟩
  · intro h1 h2
    subst h1
    simp [finish, runJobs, runJob, onStdout, h2]

/-- **C169** (without `-r`): a directory is not copied into a directory; there is an error, and no file is touched. -/
theorem C169_refused (dst : Path) (base : Name) (es : Ents) (s : St) (hd : s.loc dst = some none) :
    copy false dst base (.dir es) s = (s, false) := by
  simp only [copy, hd, addDir, finish]
  rfl

/-! ## Examples and counterexamples -/

/-- Only the current directory and the directory `d` are there. -/
def loc0 : Loc := fun p => if p = [] ∨ p = [[100]] then some none else none

def st0 : St := ⟨loc0, [], false⟩

/-- A directory with the file `a` and a directory `s` with the file `b`. -/
def tree0 : Node := .dir (.cons [97] (.file [1]) (.cons [115] (.dir (.cons [98] (.file [2, 3]) .nil)) .nil))

-- The hypotheses of `C169_into_partial` hold, and the tree is copied.
example : DirAt loc0 [[100]] ∧ (∀ p, loc0 ([[100]] ++ [120] :: p) = none) ∧ Has tree0 [[115], [98]] (some [2, 3]) ∧
    (copy true [[100]] [120] tree0 st0).2 = true ∧
    (copy true [[100]] [120] tree0 st0).1.loc [[100], [120], [115], [98]] = some (some [2, 3]) := by
  refine ⟨?_, ?_, ?_, by decide, by decide⟩
  · intro k
    cases k with
    | zero => rfl
    | succ k => simp [loc0]
  · intro p; rfl
  · exact .sub (.tail _ _ (.head _ _ _)) (.sub (.head _ _ _) (.file _))

-- A tree with different names has one thing under every path.
example : Unique (.dir (.cons [97] (.file [1]) (.cons [98] (.file [2]) .nil))) := by
  intro p e e' h h'
  cases h with
  | dir => cases h'; rfl
  | sub hi hn =>
    cases h' with
    | sub hi' hn' =>
      cases hi with
      | head =>
        cases hn
        cases hi' with
        | head => cases hn'; rfl
        | tail _ _ h => cases h with
          | tail _ _ h => cases h
      | tail _ _ h => cases h with
        | head =>
          cases hn
          cases hi' with
          | tail _ _ h => cases h with
            | head => cases hn'; rfl
            | tail _ _ h => cases h
        | tail _ _ h => cases h

/-- **C169** fails for a file called `-` copied into the current directory: its content goes to the standard output. -/
theorem C169_dash_counterexample :
    (copy true [] [45] (.file [7]) st0).2 = true ∧ (copy true [] [45] (.file [7]) st0).1.loc [[45]] = none ∧
    (copy true [] [45] (.file [7]) st0).1.out = [7] := by
  decide

/-- A directory copied onto a file: nothing happens, and there is no error. -/
theorem C169_onto_counterexample (recursive : Bool) (dst : Path) (base : Name) (es : Ents) (d : List UInt8) (s : St)
    (h : s.loc dst = some (some d)) : copy recursive dst base (.dir es) s = (s, true) := by
  simp only [copy, h, finish, runJobs]

/-- Several files copied to a name that is not there: each replaces the one before, and there is no error. -/
theorem C169_several_counterexample :
    (copies false [[110]] [([97], .file [1]), ([98], .file [2])] st0).2 = true ∧
    (copies false [[110]] [([97], .file [1]), ([98], .file [2])] st0).1.loc [[110]] = some (some [2]) := by
  decide

/-- Without `-r`, the files of a directory are copied all the same if the destination is not there. -/
theorem C169_norec_counterexample :
    (copy false [[110]] [120] (.dir (.cons [97] (.file [1]) .nil)) st0).2 = true ∧
    (copy false [[110]] [120] (.dir (.cons [97] (.file [1]) .nil)) st0).1.loc [[110], [97]] = some (some [1]) := by
  decide

/-- Two files to the standard output: the first one closes it. -/
theorem C169_stdout_counterexample :
    (copies false [[45]] [([97], .file [1]), ([98], .file [2])] st0).2 = false ∧
    (copies false [[45]] [([97], .file [1]), ([98], .file [2])] st0).1.out = [1] := by
  decide

end Verif.Xrootd.Copy
