import Verif.Xrootd.Shutdown

/-!
# The end of a server (C189)
-/

namespace Verif.Xrootd.Shutdown

/-! ## Specification -/

def isRegister : Ev → Bool
  | .register _ => true
  | _ => false

def isServe : Ev → Bool
  | .serve _ => true
  | _ => false

/-- The first error there is. -/
def first {E : Type} : List (Option E) → Option E
  | [] => none
  | some e :: _ => some e
  | none :: es => first es

/-! ## Proofs -/

theorem run_append (es es' : List Ev) : ∀ s, run s (es ++ es') = (run s es).bind fun s' => run s' es' := by
  induction es with
  | nil => intro s; rfl
  | cons e es ih =>
    intro s
    simp only [List.cons_append, run]
    cases step s e with
    | none => rfl
    | some s1 => exact ih s1

/-- What a step keeps of the state of connections. -/
theorem conns_step {s s' : St} {e : Ev} (he : isRegister e = false) (hc : ∀ c ∈ s.active, c ∉ s.copen) (h : step s e = some s') :
    ∀ c ∈ s'.active, c ∉ s'.copen := by
  cases e with
  | register c => cases he
  | serve l => simp only [step] at h; split at h <;> cases h; exact hc
  | accept l c =>
    simp only [step] at h
    split at h
    · rename_i hn
      cases h
      intro x hx hx'
      rcases List.mem_cons.mp hx' with rfl | hx'
      · exact hn.2.2.2.2 hx
      · exact hc x hx hx'
    · cases h
  | finish c =>
    simp only [step] at h
    split at h
    · cases h
      intro x hx hx'
      exact hc x (List.mem_filter.mp hx).1 (List.mem_filter.mp hx').1
    · cases h
  | flag => simp only [step] at h; split at h <;> cases h; exact hc
  | closeListeners => simp only [step] at h; split at h <;> cases h; exact hc
  | closeConns =>
    simp only [step] at h
    split at h
    · cases h
      intro x hx hx'
      exact hc x hx (List.mem_filter.mp hx').1
    · cases h

theorem conns_run (es : List Ev) : ∀ {s s' : St}, (∀ e ∈ es, isRegister e = false) → (∀ c ∈ s.active, c ∉ s.copen) → run s es = some s' →
    ∀ c ∈ s'.active, c ∉ s'.copen := by
  induction es with
  | nil => intro s s' _ hc h; cases h; exact hc
  | cons e es ih =>
    intro s s' he hc h
    simp only [run] at h
    cases hs : step s e with
    | none => rw [hs] at h; cases h
    | some s1 =>
      rw [hs] at h
      exact ih (fun e' h' => he e' (List.mem_cons_of_mem _ h')) (conns_step (he e List.mem_cons_self) hc hs) h

/-- **C189** (connections): after `Shutdown` no active connection is open, unless one is registered after it. -/
theorem C189_connections_partial (es es' : List Ev) (s : St) (he : ∀ e ∈ es', isRegister e = false)
    (h : run init (es ++ .closeConns :: es') = some s) : ∀ c ∈ s.active, c ∉ s.copen := by
  rw [run_append] at h
  cases h1 : run init es with
  | none => rw [h1] at h; cases h
  | some s1 =>
    rw [h1] at h
    simp only [Option.bind_some, run] at h
    cases h2 : step s1 .closeConns with
    | none => rw [h2] at h; cases h
    | some s2 =>
      rw [h2] at h
      refine conns_run es' he ?_ h
      simp only [step] at h2
      split at h2
      · cases h2
        intro c hc hc'
        have := (List.mem_filter.mp hc').2
        exact (of_decide_eq_true this) hc
      · cases h2

theorem list_step {s s' : St} {e : Ev} (he : isServe e = false) (hc : ∀ l ∈ s.listeners, l ∉ s.lopen) (h : step s e = some s') :
    ∀ l ∈ s'.listeners, l ∉ s'.lopen := by
  cases e with
  | serve l => cases he
  | accept l c => simp only [step] at h; split at h <;> cases h; exact hc
  | register c => simp only [step] at h; split at h <;> cases h; exact hc
  | finish c => simp only [step] at h; split at h <;> cases h; exact hc
  | flag => simp only [step] at h; split at h <;> cases h; exact hc
  | closeListeners =>
    simp only [step] at h
    split at h
    · cases h
      exact fun x hx hx' => hc x hx (List.mem_filter.mp hx').1
    · cases h
  | closeConns => simp only [step] at h; split at h <;> cases h; exact hc

theorem list_run (es : List Ev) : ∀ {s s' : St}, (∀ e ∈ es, isServe e = false) → (∀ l ∈ s.listeners, l ∉ s.lopen) → run s es = some s' →
    (∀ l ∈ s'.listeners, l ∉ s'.lopen) ∧ ∀ pre e post, es = pre ++ e :: post → ∀ l c, e ≠ .accept l c := by
  induction es with
  | nil =>
    intro s s' _ hc h
    cases h
    exact ⟨hc, fun pre e post h => by cases pre <;> cases h⟩
  | cons e es ih =>
    intro s s' he hc h
    simp only [run] at h
    cases hs : step s e with
    | none => rw [hs] at h; cases h
    | some s1 =>
      rw [hs] at h
      obtain ⟨h1, h2⟩ := ih (fun e' h' => he e' (List.mem_cons_of_mem _ h')) (list_step (he e List.mem_cons_self) hc hs) h
      refine ⟨h1, fun pre e' post hp l c hac => ?_⟩
      cases pre with
      | nil =>
        simp only [List.nil_append, List.cons.injEq] at hp
        rw [hp.1, hac] at hs
        simp only [step] at hs
        split at hs
        · rename_i hcond
          exact hc l hcond.2.1 hcond.1
        · cases hs
      | cons x pre =>
        simp only [List.cons_append, List.cons.injEq] at hp
        exact h2 pre e' post hp.2 l c hac

/-- **C189** (listeners): once `Shutdown` has closed the listeners, they stay closed and accept nothing, unless `Serve` is called again. -/
theorem C189_listeners_partial (es es' : List Ev) (s : St) (he : ∀ e ∈ es', isServe e = false)
    (h : run init (es ++ .closeListeners :: es') = some s) :
    (∀ l ∈ s.listeners, l ∉ s.lopen) ∧ ∀ l c, Ev.accept l c ∉ es' := by
  rw [run_append] at h
  cases h1 : run init es with
  | none => rw [h1] at h; cases h
  | some s1 =>
    rw [h1] at h
    simp only [Option.bind_some, run] at h
    cases h2 : step s1 .closeListeners with
    | none => rw [h2] at h; cases h
    | some s2 =>
      rw [h2] at h
      obtain ⟨ha, hb⟩ := list_run es' he (by
        simp only [step] at h2
        split at h2
        · cases h2
          intro l hl hl'
          exact (of_decide_eq_true (List.mem_filter.mp hl').2) hl
        · cases h2) h
      refine ⟨ha, fun l c hm => ?_⟩
      obtain ⟨pre, post, hp⟩ := List.append_of_mem hm
      exact hb pre _ post hp l c rfl

theorem closed_step {s s' : St} {e : Ev} (hc : s.closed = true) (h : step s e = some s') : s'.closed = true := by
  cases e <;> simp only [step] at h <;> split at h <;> cases h <;> first | exact hc | rfl

theorem closed_run (es : List Ev) : ∀ {s s' : St}, s.closed = true → run s es = some s' → s'.closed = true := by
  induction es with
  | nil => intro s s' hc h; cases h; exact hc
  | cons e es ih =>
    intro s s' hc h
    simp only [run] at h
    cases hs : step s e with
    | none => rw [hs] at h; cases h
    | some s1 => rw [hs] at h; exact ih (closed_step hc hs) h

theorem not_closed_step {s s' : St} {e : Ev} (he : e ≠ .flag) (hc : s.closed = false) (h : step s e = some s') : s'.closed = false := by
  cases e <;> simp only [step] at h <;> split at h <;> cases h <;> first | exact hc | exact absurd rfl he

theorem not_closed_run (es : List Ev) : ∀ {s s' : St}, Ev.flag ∉ es → s.closed = false → run s es = some s' → s'.closed = false := by
  induction es with
  | nil => intro s s' _ hc h; cases h; exact hc
  | cons e es ih =>
    intro s s' he hc h
    simp only [run] at h
    cases hs : step s e with
    | none => rw [hs] at h; cases h
    | some s1 =>
      rw [hs] at h
      exact ih (fun h' => he (List.mem_cons_of_mem _ h')) (not_closed_step (fun h' => he (h' ▸ List.mem_cons_self)) hc hs) h

/-- **C189** (result): `Serve` returns the error of a closed server if and only if `Shutdown` was called before its listener failed, and
else the error of the listener. -/
theorem C189_serve_error {E : Type} (closedErr err : E) (es : List Ev) (s : St) (h : run init es = some s) :
    (Ev.flag ∈ es → serveErr closedErr s err = closedErr) ∧ (Ev.flag ∉ es → serveErr closedErr s err = err) := by
  unfold serveErr
  constructor
  · intro hm
    obtain ⟨pre, post, rfl⟩ := List.append_of_mem hm
    rw [run_append] at h
    cases h1 : run init pre with
    | none => rw [h1] at h; cases h
    | some s1 =>
      rw [h1] at h
      simp only [Option.bind_some, run] at h
      cases h2 : step s1 .flag with
      | none => rw [h2] at h; cases h
      | some s2 =>
        rw [h2] at h
        have : s2.closed = true := by
          simp only [step] at h2
          split at h2 <;> cases h2
          rfl
        rw [if_pos (closed_run post this h)]
  · intro hm
    have := not_closed_run es hm rfl h
    rw [if_neg (by rw [this]; exact fun h => by cases h)]

theorem keepFirst_some {E : Type} (e : E) (l : List (Option E)) : keepFirst (some e) l = some e := by
  induction l with
  | nil => rfl
  | cons x l ih => cases x <;> simp only [keepFirst, ih]

theorem keepFirst_none {E : Type} (l : List (Option E)) : keepFirst none l = first l := by
  induction l with
  | nil => rfl
  | cons x l ih =>
    cases x with
    | none => simp only [keepFirst, first, ih]
    | some e => simp only [keepFirst, first, keepFirst_some]

theorem first_append {E : Type} (l l' : List (Option E)) : first (l ++ l') = (first l).or (first l') := by
  induction l with
  | nil => rfl
  | cons x l ih =>
    cases x with
    | none => exact ih
    | some e => rfl

/-- **C189** (first error): the error of `Shutdown` is the first one of the listeners and the connections. -/
theorem C189_first_error {E : Type} (ls cs : List (Option E)) : shutdownErr ls cs = first (ls ++ cs) := by
  unfold shutdownErr
  rw [keepFirst_none, first_append]
  cases first ls with
  | none => exact keepFirst_none cs
  | some e => exact keepFirst_some e cs

/-! ## Counterexamples and example -/

/-- A connection accepted before `Shutdown` and registered after it is handled, and stays open. -/
theorem C189_late_counterexample : ∃ s, run init [.serve 1, .accept 1 5, .flag, .closeListeners, .closeConns, .register 5] = some s ∧
    s.pc = .done ∧ 5 ∈ s.active ∧ 5 ∈ s.copen := ⟨_, rfl, by decide, by decide, by decide⟩

/-- A server that was shut down can be used again: the listener is not closed, and its connections are handled. -/
theorem C189_again_counterexample : ∃ s, run init [.flag, .closeListeners, .closeConns, .serve 1, .accept 1 5, .register 5] = some s ∧
    s.closed = true ∧ 1 ∈ s.lopen ∧ 5 ∈ s.active ∧ 5 ∈ s.copen := ⟨_, rfl, by decide, by decide, by decide, by decide⟩

example : run init [.serve 1, .accept 1 5, .register 5, .accept 1 6, .register 6, .finish 5, .flag, .closeListeners, .closeConns]
    = some ⟨true, [1], [6], [], [], [], .done⟩ := by decide

example : shutdownErr [none, some 3] [some 4, none] = some 3 := rfl

end Verif.Xrootd.Shutdown
