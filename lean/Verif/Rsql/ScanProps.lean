import Verif.Rsql.Scan

/-!
# Scanning the rows of a query (C197)
-/

namespace Verif.Rsql.Scan

section
variable {S V E : Type} [DecidableEq E]

/-! ## Specification -/

/-- The state after the function was called with every value in order. -/
def after (f : S → V → S × Option E) (s : S) (vs : List V) : S := vs.foldl (fun s v => (f s v).1) s

/-- No call with these values, in this order, returns an error. -/
def Quiet (f : S → V → S × Option E) (s : S) (vs : List V) : Prop :=
  ∀ pre v post, vs = pre ++ v :: post → (f (after f s pre) v).2 = none

/-! ## Proofs -/

omit [DecidableEq E] in
theorem quiet_cons {f : S → V → S × Option E} {s : S} {v : V} {vs : List V} (h : Quiet f s (v :: vs)) :
    (f s v).2 = none ∧ Quiet f (f s v).1 vs :=
  ⟨h [] v vs rfl, fun pre w post e => h (v :: pre) w post (by rw [e]; rfl)⟩

theorem loop_quiet (eof : E) (f : S → V → S × Option E) (last : Option E) (rest : List (Except E V)) :
    ∀ (vs : List V) (s : S), Quiet f s vs → loop eof f last s (vs.map .ok ++ rest) = loop eof f last (after f s vs) rest := by
  intro vs
  induction vs with
  | nil => intro s _; rfl
  | cons v vs ih =>
    intro s h
    obtain ⟨h1, h2⟩ := quiet_cons h
    have e : f s v = ((f s v).1, none) := by rw [← h1]
    rw [List.map_cons, List.cons_append, loop, e]
    exact ih _ h2

/-- A function that can be used. -/
def Good (k : Kind) : Prop := k.isNil = false ∧ k.isFunc = true ∧ k.returnsError = true

theorem scan_good (eof bad : E) (k : Kind) (hk : Good k) (rows : List (Except E V)) (last : Option E) (f : S → V → S × Option E) (s : S) :
    scan eof bad k (.ok (rows, last)) f s = loop eof f last s rows := by
  obtain ⟨h1, h2, h3⟩ := hk
  unfold scan
  rw [h1, h2, h3]
  rfl

/-- **C197** (all rows): if nothing fails the function is called with every row in order, and there is no error; reaching the end of the
data is none. -/
theorem C197_all (eof bad : E) (k : Kind) (hk : Good k) (vs : List V) (last : Option E) (hl : last = none ∨ last = some eof)
    (f : S → V → S × Option E) (s : S) (hq : Quiet f s vs) :
    scan eof bad k (.ok (vs.map .ok, last)) f s = (after f s vs, none) := by
  rw [scan_good eof bad k hk]
  have := loop_quiet eof f last [] vs s hq
  rw [List.append_nil] at this
  rw [this, loop]
  rcases hl with rfl | rfl
  · simp
  · rw [if_pos rfl]

/-- **C197** (stops): an error of the function ends the scan: it was called with the rows up to that one, and its error is returned,
whatever it is and whatever comes after. -/
theorem C197_stops (eof bad : E) (k : Kind) (hk : Good k) (pre : List V) (v : V) (post : List (Except E V)) (last : Option E)
    (f : S → V → S × Option E) (s : S) (hq : Quiet f s pre) (e : E) (he : (f (after f s pre) v).2 = some e) :
    scan eof bad k (.ok (pre.map .ok ++ .ok v :: post, last)) f s = (after f s (pre ++ [v]), some e) := by
  rw [scan_good eof bad k hk, loop_quiet eof f last _ pre s hq]
  have h : f (after f s pre) v = ((f (after f s pre) v).1, some e) := by rw [← he]
  rw [loop, h]
  simp only [after, List.foldl_append, List.foldl_cons, List.foldl_nil]

/-- **C197** (bad row): so does a row that cannot be converted; the function is not called with it. -/
theorem C197_bad_row (eof bad : E) (k : Kind) (hk : Good k) (pre : List V) (e : E) (post : List (Except E V)) (last : Option E)
    (f : S → V → S × Option E) (s : S) (hq : Quiet f s pre) :
    scan eof bad k (.ok (pre.map .ok ++ .error e :: post, last)) f s = (after f s pre, some e) := by
  rw [scan_good eof bad k hk, loop_quiet eof f last _ pre s hq]
  rfl

/-- **C197** (bad end): an error of reading, other than the end of the data, is returned after the rows read before it. -/
theorem C197_bad_end (eof bad : E) (k : Kind) (hk : Good k) (vs : List V) (e : E) (he : e ≠ eof)
    (f : S → V → S × Option E) (s : S) (hq : Quiet f s vs) :
    scan eof bad k (.ok (vs.map .ok, some e)) f s = (after f s vs, some e) := by
  rw [scan_good eof bad k hk]
  have := loop_quiet eof f (some e) [] vs s hq
  rw [List.append_nil] at this
  rw [this, loop, if_neg (fun h => he (Option.some.inj h))]

/-- **C197** (refused): what is not a function as needed is refused, and a query that fails calls nothing. -/
theorem C197_refused (eof bad : E) (k : Kind) (q : Except E (List (Except E V) × Option E)) (f : S → V → S × Option E) (s : S) :
    (¬ Good k → scan eof bad k q f s = (s, some bad)) ∧ ∀ e, Good k → scan eof bad k (.error e) f s = (s, some e) := by
  obtain ⟨a, b, c⟩ := k
  constructor
  · intro h
    unfold scan
    cases a <;> cases b <;> cases c <;> first | rfl | exact absurd ⟨rfl, rfl, rfl⟩ h
  · rintro e ⟨h1, h2, h3⟩
    simp only at h1 h2 h3
    subst h1 h2 h3
    rfl

omit [DecidableEq E] in
theorem after_map {T : Type} (g : T → V → T) (t : T) (vs : List V) : after (fun t v => (g t v, (none : Option E))) t vs = vs.foldl g t := rfl

/-- **C197** (histograms): a histogram is filled with every value once and in order; one that is made has the range of all of them. -/
theorem C197_histogram {H R : Type} (eof bad : E) (vs : List V) (last : Option E) (hl : last = none ∨ last = some eof) (start : R)
    (widen : R → V → R) (make : R → H) (fill : H → V → H) (h : Option H) :
    scanH eof bad (.ok (vs.map .ok, last)) start widen make fill h
      = (some (vs.foldl fill (h.getD (make (vs.foldl widen start)))), none) := by
  have hk : Good ⟨false, true, true⟩ := ⟨rfl, rfl, rfl⟩
  unfold scanH
  cases h with
  | some h =>
    simp only [C197_all eof bad _ hk vs last hl (fun h v => (fill h v, none)) h (fun _ _ _ _ => rfl), after_map]
    rfl
  | none =>
    simp only [C197_all eof bad _ hk vs last hl (fun r v => (widen r v, none)) start (fun _ _ _ _ => rfl), after_map,
      C197_all eof bad _ hk vs last hl (fun h v => (fill h v, none)) _ (fun _ _ _ _ => rfl)]
    rfl

/-- **C197** (no histogram): none is made if a row cannot be converted; one that was given is filled with the rows before it. -/
theorem C197_no_histogram {H R : Type} (eof bad : E) (pre : List V) (e : E) (post : List (Except E V)) (last : Option E) (start : R)
    (widen : R → V → R) (make : R → H) (fill : H → V → H) (h : Option H) :
    scanH eof bad (.ok (pre.map .ok ++ .error e :: post, last)) start widen make fill h = (h.map (pre.foldl fill), some e) := by
  have hk : Good ⟨false, true, true⟩ := ⟨rfl, rfl, rfl⟩
  unfold scanH
  cases h with
  | some h =>
    simp only [C197_bad_row eof bad _ hk pre e post last (fun h v => (fill h v, none)) h (fun _ _ _ _ => rfl), after_map]
    rfl
  | none =>
    simp only [C197_bad_row eof bad _ hk pre e post last (fun r v => (widen r v, none)) start (fun _ _ _ _ => rfl)]
    rfl

end

/-! ## Examples -/

example : Good ⟨false, true, true⟩ := ⟨rfl, rfl, rfl⟩

example : scan 0 9 ⟨false, true, true⟩ (.ok ([.ok 1, .ok 2, .ok 3], some 0)) (fun (s : List Nat) v => (s ++ [v], none)) []
    = ([1, 2, 3], none) := by decide

example : scan 0 9 ⟨false, true, true⟩ (.ok ([.ok 1, .ok 2, .ok 3], some 0)) (fun (s : List Nat) v => (s ++ [v], if v = 2 then some 0 else none)) []
    = ([1, 2], some 0) := by decide

end Verif.Rsql.Scan
