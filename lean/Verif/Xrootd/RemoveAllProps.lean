import Verif.Xrootd.RemoveAll

/-!
# A directory of a server is removed with all it has (C181)
-/

namespace Verif.Xrootd.RemoveAll

/-! ## Specification -/

mutual
/-- The paths of what a tree has. -/
def paths (p : List String) : Tree → List (List String)
  | .file => [p]
  | .dir es => p :: pathsL p es
def pathsL (p : List String) : Forest → List (List String)
  | .nil => []
  | .cons n t es => paths (p ++ [n]) t ++ pathsL p es
end

mutual
/-- The requests of one who removes a tree from the leaves up, and never fails. -/
def requests (p : List String) : Tree → List Req
  | .file => [(.stat, p), (.rmFile, p)]
  | .dir es => (.stat, p) :: (.list, p) :: (requestsL p es ++ [(.rmDir, p)])
def requestsL (p : List String) : Forest → List Req
  | .nil => []
  | .cons n t es => requests (p ++ [n]) t ++ requestsL p es
end

/-- The paths that requests remove. -/
def removes (rs : List Req) : List (List String) :=
  (rs.filter fun r => r.1 == .rmFile || r.1 == .rmDir).map (·.2)

/-- The paths of what may be there. -/
def pathsO (p : List String) : Option Tree → List (List String)
  | none => []
  | some t => paths p t

/-! ## Proofs -/

theorem removes_append (a b : List Req) : removes (a ++ b) = removes a ++ removes b := by
  unfold removes
  rw [List.filter_append, List.map_append]

/-- What holds of removing: the error is the first request that fails, and what was and what remains differ by what the requests
before it removed. -/
def Good (fails : Req → Bool) (rs : List Req) (before after : List (List String)) (err : Option Req) : Prop :=
  err = rs.find? fails ∧ (after ++ removes (rs.takeWhile fun r => !fails r)).Perm before

theorem good_append {fails : Req → Bool} {rs rs' : List Req} {b b' a a' : List (List String)} {e e' : Option Req}
    (h : Good fails rs b a e) (h' : Good fails rs' b' a' e') :
    (e = none → Good fails (rs ++ rs') (b ++ b') (a ++ a') e') ∧ (∀ r, e = some r → Good fails (rs ++ rs') (b ++ b') (a ++ b') e) := by
  obtain ⟨h1, h2⟩ := h
  obtain ⟨h1', h2'⟩ := h'
  constructor
  · intro he
    rw [he] at h1
    have hall : ∀ r ∈ rs, (!fails r) = true := by
      intro r hr
      have := List.find?_eq_none.mp h1.symm r hr
      simpa using this
    have ht : (rs ++ rs').takeWhile (fun r => !fails r) = rs ++ rs'.takeWhile fun r => !fails r := List.takeWhile_append_of_pos hall
    have ht' : rs.takeWhile (fun r => !fails r) = rs := by
      have := List.takeWhile_append_of_pos (l₂ := []) hall
      simpa using this
    refine ⟨by rw [List.find?_append, ← h1, Option.none_or]; exact h1', ?_⟩
    rw [ht, removes_append]
    rw [ht'] at h2
    have p1 : (a ++ a' ++ (removes rs ++ removes (rs'.takeWhile fun r => !fails r))).Perm
        ((a ++ removes rs) ++ (a' ++ removes (rs'.takeWhile fun r => !fails r))) := by
      rw [List.append_assoc, List.append_assoc]
      refine List.Perm.append_left a ?_
      rw [← List.append_assoc, ← List.append_assoc]
      exact List.perm_append_comm.append_right _
    exact p1.trans (h2.append h2')
  · intro r he
    rw [he] at h1
    have hmem := List.mem_of_find?_eq_some h1.symm
    have hf := List.find?_some h1.symm
    have ht : (rs ++ rs').takeWhile (fun r => !fails r) = rs.takeWhile fun r => !fails r := by
      clear h1 h2 h1' h2' he
      induction rs with
      | nil => cases hmem
      | cons q rs ih =>
        rw [List.cons_append, List.takeWhile_cons, List.takeWhile_cons]
        split
        · rename_i hq
          rcases List.mem_cons.mp hmem with rfl | hm
          · rw [hf] at hq; cases hq
          · rw [ih hm]
        · rfl
    refine ⟨by rw [he, List.find?_append, ← h1]; rfl, ?_⟩
    rw [ht]
    have p1 : (a ++ b' ++ removes (rs.takeWhile fun r => !fails r)).Perm ((a ++ removes (rs.takeWhile fun r => !fails r)) ++ b') := by
      rw [List.append_assoc, List.append_assoc]
      exact List.Perm.append_left a List.perm_append_comm
    exact p1.trans (h2.append_right b')

mutual
theorem remove_good (fails : Req → Bool) (p : List String) (t : Tree) :
    Good fails (requests p t) (paths p t) (pathsO p (remove fails p t).1) (remove fails p t).2 ∧
      ((remove fails p t).1 = none ↔ (remove fails p t).2 = none) := by
  cases t with
  | file =>
    rw [remove, requests, paths]
    by_cases h1 : fails (.stat, p) = true
    · rw [if_pos h1]
      refine ⟨⟨by rw [List.find?_cons_of_pos h1], ?_⟩, by simp⟩
      rw [List.takeWhile_cons_of_neg (by simp [h1])]
      exact .refl _
    · rw [if_neg h1]
      by_cases h2 : fails (.rmFile, p) = true
      · rw [if_pos h2]
        refine ⟨⟨by rw [List.find?_cons_of_neg h1, List.find?_cons_of_pos h2], ?_⟩, by simp⟩
        rw [List.takeWhile_cons_of_pos (by simp [h1]), List.takeWhile_cons_of_neg (by simp [h2])]
        exact .refl _
      · rw [if_neg h2]
        refine ⟨⟨by rw [List.find?_cons_of_neg h1, List.find?_cons_of_neg h2]; rfl, ?_⟩, by simp⟩
        rw [List.takeWhile_cons_of_pos (by simp [h1]), List.takeWhile_cons_of_pos (by simp [h2])]
        exact .refl _
  | dir es =>
    obtain ⟨hg, hn⟩ := entries_good fails p es
    rw [remove, requests, paths]
    by_cases h1 : fails (.stat, p) = true
    · rw [if_pos h1]
      refine ⟨⟨by rw [List.find?_cons_of_pos h1], ?_⟩, by simp⟩
      rw [List.takeWhile_cons_of_neg (by simp [h1]), pathsO, paths]
      exact List.Perm.of_eq (List.append_nil _)
    · rw [if_neg h1]
      by_cases h2 : fails (.list, p) = true
      · rw [if_pos h2]
        refine ⟨⟨by rw [List.find?_cons_of_neg h1, List.find?_cons_of_pos h2], ?_⟩, by simp⟩
        rw [List.takeWhile_cons_of_pos (by simp [h1]), List.takeWhile_cons_of_neg (by simp [h2]), pathsO, paths]
        exact List.Perm.of_eq (List.append_nil _)
      · rw [if_neg h2, Good, List.find?_cons_of_neg h1, List.find?_cons_of_neg h2,
          List.takeWhile_cons_of_pos (by simp [h1]), List.takeWhile_cons_of_pos (by simp [h2])]
        have hskip : ∀ rs, removes ((.stat, p) :: (.list, p) :: rs) = removes rs := fun rs => rfl
        rw [hskip]
        generalize removeEntries fails p es = q at hg hn
        obtain ⟨es', e⟩ := q
        cases e with
        | some r =>
          have h := (good_append hg (rs' := []) (b' := []) (a' := []) (e' := none) ⟨rfl, .refl _⟩).2 r rfl
          obtain ⟨g1, g2⟩ := h
          simp only [List.append_nil] at g1 g2
          have hmem := List.mem_of_find?_eq_some g1.symm
          have hf := List.find?_some g1.symm
          have ht : (requestsL p es ++ [(Op.rmDir, p)]).takeWhile (fun r => !fails r) = (requestsL p es).takeWhile fun r => !fails r := by
            clear hg hn g1 g2
            generalize requestsL p es = rs at hmem
            induction rs with
            | nil => cases hmem
            | cons q rs ih =>
              rw [List.cons_append, List.takeWhile_cons, List.takeWhile_cons]
              split
              · rename_i hq
                rcases List.mem_cons.mp hmem with rfl | hm
                · rw [hf] at hq; cases hq
                · rw [ih hm]
              · rfl
          refine ⟨⟨?_, ?_⟩, by simp⟩
          · simp only
            rw [List.find?_append, ← g1]
            rfl
          · rw [ht]
            simp only [pathsO, paths, List.cons_append]
            exact g2.cons p
        | none =>
          obtain ⟨g1, g2⟩ := hg
          have hes : es' = .nil := hn rfl
          simp only at g1 g2
          subst hes
          have hall : ∀ r ∈ requestsL p es, (!fails r) = true := by
            intro r hr
            have := List.find?_eq_none.mp g1.symm r hr
            simpa using this
          have ht' : (requestsL p es).takeWhile (fun r => !fails r) = requestsL p es := by
            have := List.takeWhile_append_of_pos (l₂ := []) hall
            simpa using this
          rw [ht', pathsL, List.nil_append] at g2
          simp only
          rw [List.find?_append, ← g1, Option.none_or, List.takeWhile_append_of_pos hall, removes_append]
          by_cases h3 : fails (.rmDir, p) = true
          · rw [if_pos h3, List.find?_cons_of_pos h3, List.takeWhile_cons_of_neg (by simp [h3])]
            refine ⟨⟨rfl, ?_⟩, by simp⟩
            simp only [pathsO, paths, pathsL]
            rw [show removes [] = [] from rfl, List.append_nil]
            exact g2.cons p
          · rw [if_neg h3, List.find?_cons_of_neg h3, List.takeWhile_cons_of_pos (by simp [h3])]
            refine ⟨⟨rfl, ?_⟩, by simp⟩
            simp only [pathsO, List.nil_append]
            show (removes (requestsL p es) ++ [p]).Perm _
            exact List.perm_append_comm.trans (g2.cons p)
theorem entries_good (fails : Req → Bool) (p : List String) (es : Forest) :
    Good fails (requestsL p es) (pathsL p es) (pathsL p (removeEntries fails p es).1) (removeEntries fails p es).2 ∧
      ((removeEntries fails p es).2 = none → (removeEntries fails p es).1 = .nil) := by
  cases es with
  | nil => exact ⟨⟨rfl, .refl _⟩, fun _ => rfl⟩
  | cons n t es =>
    obtain ⟨hg, hiff⟩ := remove_good fails (p ++ [n]) t
    obtain ⟨hg', hn'⟩ := entries_good fails p es
    have h := good_append hg hg'
    rw [removeEntries, requestsL, pathsL]
    generalize remove fails (p ++ [n]) t = q at hg hiff h
    obtain ⟨o, e⟩ := q
    cases o with
    | none =>
      cases e with
      | none => exact ⟨h.1 rfl, hn'⟩
      | some r => exact absurd (hiff.mp rfl) (Option.some_ne_none _)
    | some t' =>
      cases e with
      | none => exact absurd (hiff.mpr rfl) (Option.some_ne_none _)
      | some r =>
        refine ⟨?_, fun hc => absurd hc (Option.some_ne_none _)⟩
        simp only [pathsL]
        exact h.2 r rfl
end

/-- **C181** (first error): of the requests that remove a tree from the leaves up, the first that fails is the error, and there is
no error if none fails. -/
theorem C181_first (fails : Req → Bool) (p : List String) (t : Tree) :
    (removeAll fails p (some t)).2 = (requests p t).find? fails := (remove_good fails p t).1.1

/-- **C181** (removed): what was there is what remains and what the requests before the first that fails removed. -/
theorem C181_removed (fails : Req → Bool) (p : List String) (t : Tree) :
    (pathsO p (removeAll fails p (some t)).1 ++ removes ((requests p t).takeWhile fun r => !fails r)).Perm (paths p t) :=
  (remove_good fails p t).1.2

/-- **C181** (all): there is no error if and only if nothing remains. -/
theorem C181_all (fails : Req → Bool) (p : List String) (t : Tree) :
    (removeAll fails p (some t)).2 = none ↔ (removeAll fails p (some t)).1 = none := (remove_good fails p t).2.symm

mutual
theorem requests_below (p : List String) (t : Tree) : ∀ r ∈ requests p t, ∃ q, r.2 = p ++ q := by
  cases t with
  | file =>
    intro r hr
    simp only [requests, List.mem_cons, List.not_mem_nil, or_false] at hr
    rcases hr with rfl | rfl <;> exact ⟨[], (List.append_nil p).symm⟩
  | dir es =>
    intro r hr
    simp only [requests, List.mem_cons, List.mem_append, List.not_mem_nil, or_false] at hr
    rcases hr with rfl | rfl | hr | rfl
    · exact ⟨[], (List.append_nil p).symm⟩
    · exact ⟨[], (List.append_nil p).symm⟩
    · exact requestsL_below p es r hr
    · exact ⟨[], (List.append_nil p).symm⟩
theorem requestsL_below (p : List String) (es : Forest) : ∀ r ∈ requestsL p es, ∃ q, r.2 = p ++ q := by
  cases es with
  | nil => intro r hr; cases hr
  | cons n t es =>
    intro r hr
    rcases List.mem_append.mp hr with hr | hr
    · obtain ⟨q, hq⟩ := requests_below (p ++ [n]) t r hr
      exact ⟨n :: q, by rw [hq, List.append_assoc]; rfl⟩
    · exact requestsL_below p es r hr
end

/-- **C181** (below): nothing is removed that is not the path or below it. -/
theorem C181_below (fails : Req → Bool) (p : List String) (t : Tree) :
    ∀ d ∈ removes ((requests p t).takeWhile fun r => !fails r), ∃ q, d = p ++ q := by
  intro d hd
  obtain ⟨r, hr, rfl⟩ := List.mem_map.mp hd
  exact requests_below p t r ((List.takeWhile_sublist _).subset (List.mem_filter.mp hr).1)

/-! ## Counterexamples and examples -/

/-- A directory of two files. -/
def two : Tree := .dir (.cons "a" .file (.cons "b" .file .nil))

/-- The first file cannot be removed: the second, that could be, is not removed. -/
theorem C181_everything_counterexample : ∃ fails : Req → Bool, fails (.stat, ["d", "b"]) = false ∧ fails (.rmFile, ["d", "b"]) = false ∧
    ["d", "b"] ∈ pathsO ["d"] (removeAll fails ["d"] (some two)).1 :=
  ⟨fun r => r == (.rmFile, ["d", "a"]), by decide, by decide, by decide⟩

/-- The path does not exist: an error. -/
theorem C181_missing_counterexample : (removeAll (fun _ => false) ["d"] none).2 ≠ none := by decide

example : removeAll (fun _ => false) ["d"] (some two) = (none, none) := rfl

example : (removeAll (fun r => r == (.rmFile, ["d", "b"])) ["d"] (some two)).2 = some (.rmFile, ["d", "b"]) ∧
    pathsO ["d"] (removeAll (fun r => r == (.rmFile, ["d", "b"])) ["d"] (some two)).1 = [["d"], ["d", "b"]] := by decide

end Verif.Xrootd.RemoveAll
