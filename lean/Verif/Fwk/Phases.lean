/-!
# The phases of an application (fwk/app.go, fwk/runner.go, fwk/fsm)

`C` are the components: services and tasks.
-/

namespace Verif.Fwk

variable {C : Type}

/-- fwk/fsm/fsm.go:13-23 (`Undefined`). -/
inductive Fsm
  | undefined
  | configuring
  | configured
  | starting
  | started
  | running
  | stopping
  | stopped
  | offline
deriving DecidableEq, Repr

/-- The numbers of the states, by which they are compared. -/
def Fsm.num : Fsm → Nat
  | undefined => 0
  | configuring => 1
  | configured => 2
  | starting => 3
  | started => 4
  | running => 5
  | stopping => 6
  | stopped => 7
  | offline => 8

/-- What the application calls: a method of a component, or the event loop. -/
inductive Call (C : Type)
  | configure (c : C)
  | start (c : C)
  | loop
  | stop (c : C)
deriving DecidableEq, Repr

/-- The part of `appmgr` (fwk/app.go:21-38 (`appmgr`)) which matters here. `stream` is the task which is the
input stream, if there is one, and `istream` whether it has been taken from the list of tasks; `nctx` are the numbers of
contexts made for tasks and services; `alive` is false after `shutdown`, when the maps and services are `nil`. -/
structure App (C : Type) where
  fsm : Fsm
  svcs : List C
  tsks : List C
  stream : Option C
  nctx : Nat × Nat
  alive : Bool
deriving DecidableEq

/-- The result of an operation: it failed with an error, or not, or it panicked. -/
inductive Res
  | ok
  | err
  | panic
deriving DecidableEq, Repr

/-- Calls a method of each component, in order, until one fails. `ok` says which succeed. -/
def callAll (f : C → Call C) (ok : Call C → Bool) : List C → List (Call C) × Bool
  | [] => ([], true)
  | c :: cs => if ok (f c) then let r := callAll f ok cs; (f c :: r.1, r.2) else ([f c], false)

/-- fwk/app.go:417-487 (`configure`). Components which are not a `Configurer` are taken as having a method which does
nothing. `printDataFlow` dereferences `app.dflow`. -/
def App.configure (a : App C) (ok : Call C → Bool) : App C × List (Call C) × Res :=
  let r := callAll .configure ok (a.svcs ++ a.tsks)
  if r.2 then
    if a.alive then ({ a with fsm := .configured, nctx := (a.tsks.length, a.svcs.length) }, r.1, .ok)
    else ({ a with fsm := .configuring }, r.1, .panic)
  else ({ a with fsm := .configuring }, r.1, .err)

/-- Calls a method of each component with its context: a component added after `configure` has none
(fwk/app.go:489-511 (`start`): `app.ctxs[1][i]` and `app.ctxs[0][i]`). -/
def callCtx (f : C → Call C) (ok : Call C → Bool) (nctx : Nat) (cs : List C) : List (Call C) × Res :=
  let r := callAll f ok (cs.take nctx)
  if r.2 then (r.1, if cs.length ≤ nctx then .ok else .panic) else (r.1, .err)

/-- fwk/app.go:489-511 (`start`). -/
def App.start (a : App C) (ok : Call C → Bool) : App C × List (Call C) × Res :=
  let r := callCtx .start ok a.nctx.2 a.svcs
  match r.2 with
  | .ok =>
    let r' := callCtx .start ok a.nctx.1 a.tsks
    match r'.2 with
    | .ok => ({ a with fsm := .started }, r.1 ++ r'.1, .ok)
    | x => ({ a with fsm := .starting }, r.1 ++ r'.1, x)
  | x => ({ a with fsm := .starting }, r.1, x)

/-- fwk/app.go:513-530 (`run`): the event loop, see Verif/Fwk/Run.lean. The input stream is taken from the list of
tasks, fwk/app.go:707-747 (`startInputStream`), `isIn` says which one it is (more than one is an error); the keys of
`app.dflow` are needed. -/
def App.run (a : App C) (isIn : C → Bool) (ok : Call C → Bool) : App C × List (Call C) × Res :=
  let a := { a with fsm := .running }
  if a.alive then
    match a.tsks.filter isIn with
    | [] => (a, [.loop], if ok .loop then .ok else .err)
    | [c] => ({ a with tsks := a.tsks.filter (!isIn ·), stream := some c }, [.loop], if ok .loop then .ok else .err)
    | _ => (a, [], .err)
  else (a, [], .panic)

/-- fwk/app.go:773-801 (`stop`). The built-in stream which is used when there is no input stream is left out. -/
def App.stop (a : App C) (ok : Call C → Bool) : App C × List (Call C) × Res :=
  let r := callAll .stop ok a.stream.toList
  if r.2 then
    let r1 := callCtx .stop ok a.nctx.1 a.tsks
    match r1.2 with
    | .ok =>
      let r2 := callCtx .stop ok a.nctx.2 a.svcs
      match r2.2 with
      | .ok => ({ a with fsm := .stopped }, r.1 ++ r1.1 ++ r2.1, .ok)
      | x => ({ a with fsm := .stopping }, r.1 ++ r1.1 ++ r2.1, x)
    | x => ({ a with fsm := .stopping }, r.1 ++ r1.1, x)
  else ({ a with fsm := .stopping }, r.1, .err)

/-- fwk/app.go:803-816 (`shutdown`). -/
def App.shutdown (a : App C) : App C :=
  { a with svcs := [], tsks := [], fsm := .offline, alive := false }

/-- An operation followed by another one, if it succeeded. -/
def andThen (s : App C × List (Call C) × Res) (k : App C → App C × List (Call C) × Res) : App C × List (Call C) × Res :=
  if s.2.2 = .ok then let t := k s.1; (t.1, s.2.1 ++ t.2.1, t.2.2) else s

/-- fwk/app.go:344-411 (`Run`): the phases one after the other, up to the first failure. The end of the
input is not a failure (it is counted as success of the event loop here). -/
def App.runAll (a : App C) (isIn : C → Bool) (ok : Call C → Bool) : App C × List (Call C) × Res :=
  let s := andThen (a, [], .ok) fun a => if a.fsm = .undefined then a.configure ok else (a, [], .ok)
  let s := andThen s fun a => if a.fsm = .configured then a.start ok else (a, [], .ok)
  let s := andThen s fun a => if a.fsm = .started then a.run isIn ok else (a, [], .ok)
  let s := andThen s fun a => if a.fsm = .running then a.stop ok else (a, [], .ok)
  andThen s fun a => (if a.fsm = .stopped then a.shutdown else a, [], .ok)

/-! ## The whole application -/

theorem callAll_prefix (f : C → Call C) (ok : Call C → Bool) : ∀ cs : List C, ∃ rest, (callAll f ok cs).1 ++ rest = cs.map f
  | [] => ⟨[], rfl⟩
  | c :: cs => by
    obtain ⟨rest, h⟩ := callAll_prefix f ok cs
    simp only [callAll]
    split
    · exact ⟨rest, by simp [h]⟩
    · exact ⟨cs.map f, by simp⟩

theorem callAll_all (f : C → Call C) (ok : Call C → Bool) : ∀ cs : List C, (callAll f ok cs).2 = true →
    (callAll f ok cs).1 = cs.map f
  | [], _ => rfl
  | c :: cs, h => by
    simp only [callAll] at h ⊢
    split at h
    · rename_i hc
      rw [if_pos hc]
      simp [callAll_all f ok cs h]
    · cases h

theorem callAll_ok (f : C → Call C) (ok : Call C → Bool) : ∀ cs : List C, (callAll f ok cs).2 = true ↔ ∀ c ∈ cs, ok (f c) = true
  | [] => by simp [callAll]
  | c :: cs => by
    simp only [callAll, List.mem_cons, forall_eq_or_imp]
    split
    · rename_i hc
      rw [callAll_ok f ok cs]
      simp [hc]
    · rename_i hc
      simp [hc]

/-- What an application is to do: configure all components, the services first; start them, run the event loop, stop
the input stream, the other tasks and the services. -/
def wholeRun (isIn : C → Bool) (svcs tsks : List C) : List (Call C) :=
  (svcs ++ tsks).map .configure ++ (svcs ++ tsks).map .start ++ [.loop] ++
    (tsks.filter isIn ++ tsks.filter (!isIn ·) ++ svcs).map .stop

theorem callCtx_enough (f : C → Call C) (ok : Call C → Bool) (cs : List C) (k : Nat) (h : cs.length ≤ k) :
    callCtx f ok k cs = ((callAll f ok cs).1, if (callAll f ok cs).2 then .ok else .err) := by
  unfold callCtx
  simp only [List.take_of_length_le h, h, if_true]
  split <;> rfl

/-- The calls `log` with the result `res` are an execution of the calls `full` up to the first which fails. -/
structure Done (ok : Call C → Bool) (full log : List (Call C)) (res : Res) : Prop where
  pre : ∃ rest, log ++ rest = full
  all : res = .ok → log = full
  iff : res = .ok ↔ ∀ c ∈ full, ok c = true
  noPanic : res ≠ .panic
  last : res ≠ .ok → ∃ l c, log = l ++ [c] ∧ ok c = false ∧ ∀ d ∈ l, ok d = true

theorem Done.nil (ok : Call C → Bool) : Done ok [] [] .ok := ⟨⟨[], rfl⟩, fun _ => rfl, by simp, by simp, by simp⟩

theorem Done.callAll (f : C → Call C) (ok : Call C → Bool) (cs : List C) :
    Done ok (cs.map f) (callAll f ok cs).1 (if (callAll f ok cs).2 then .ok else .err) := by
  refine ⟨callAll_prefix f ok cs, ?_, ?_, ?_, ?_⟩
  · intro h
    split at h
    · rename_i hc; exact callAll_all f ok cs hc
    · cases h
  · rw [show (∀ c ∈ cs.map f, ok c = true) ↔ ∀ c ∈ cs, ok (f c) = true by simp, ← callAll_ok]
    split
    · rename_i h; simp [h]
    · rename_i h; simp [h]
  · split <;> simp
  · intro h
    have hf : (Fwk.callAll f ok cs).2 = false := by
      cases hc : (Fwk.callAll f ok cs).2 with
      | true => rw [hc] at h; exact absurd rfl h
      | false => rfl
    clear h
    induction cs with
    | nil => simp [Fwk.callAll] at hf
    | cons c cs ih =>
      simp only [Fwk.callAll] at hf ⊢
      split at hf
      · rename_i hc
        rw [if_pos hc]
        obtain ⟨l, x, h1, h2, h3⟩ := ih hf
        refine ⟨f c :: l, x, by simp [h1], h2, ?_⟩
        intro d hd
        rcases List.mem_cons.mp hd with rfl | hd
        · exact hc
        · exact h3 d hd
      · rename_i hc
        rw [if_neg hc]
        exact ⟨[], f c, rfl, by simpa using hc, by simp⟩

theorem Done.append {ok : Call C → Bool} {full full' log log' : List (Call C)} {res res' : Res} (h : Done ok full log res)
    (h' : res = .ok → Done ok full' log' res') :
    Done ok (full ++ full') (if res = .ok then log ++ log' else log) (if res = .ok then res' else res) := by
  by_cases hr : res = .ok
  · simp only [hr, if_true]
    have d := h' hr
    have hlog := h.all hr
    subst hlog
    refine ⟨?_, ?_, ?_, d.noPanic, ?_⟩
    · obtain ⟨rest, hrest⟩ := d.pre
      exact ⟨rest, by rw [← hrest, List.append_assoc]⟩
    · intro hres; rw [d.all hres]
    · rw [d.iff]
      have := h.iff.mp hr
      simp only [List.mem_append]
      exact ⟨fun h2 c hc => hc.elim (this c) (h2 c), fun h2 c hc => h2 c (Or.inr hc)⟩
    · intro hres
      obtain ⟨l, c, h1, h2, h3⟩ := d.last hres
      refine ⟨log ++ l, c, by rw [h1, List.append_assoc], h2, ?_⟩
      intro x hx
      rcases List.mem_append.mp hx with hx | hx
      · exact h.iff.mp hr x hx
      · exact h3 x hx
  · simp only [hr, if_false]
    refine ⟨?_, fun h2 => absurd h2 hr, ⟨fun h2 => absurd h2 hr, ?_⟩, h.noPanic, fun _ => h.last hr⟩
    · obtain ⟨rest, hrest⟩ := h.pre
      exact ⟨rest ++ full', by rw [← hrest, List.append_assoc]⟩
    · intro h2
      exact absurd (h.iff.mpr fun c hc => h2 c (List.mem_append_left _ hc)) hr

/-- An operation executes `full`, and if it succeeds the application is then as `post` says. -/
structure Does (ok : Call C → Bool) (full : List (Call C)) (post : App C → Prop) (s : App C × List (Call C) × Res) : Prop where
  done : Done ok full s.2.1 s.2.2
  post : s.2.2 = .ok → post s.1

theorem Does.andThen {ok : Call C → Bool} {full full' : List (Call C)} {post post' : App C → Prop} {s : App C × List (Call C) × Res}
    {k : App C → App C × List (Call C) × Res} (h : Does ok full post s) (h' : ∀ a, post a → Does ok full' post' (k a)) :
    Does ok (full ++ full') post' (andThen s k) := by
  have d := h.done.append (full' := full') (log' := (k s.1).2.1) (res' := (k s.1).2.2) (fun hr => (h' s.1 (h.post hr)).done)
  unfold Fwk.andThen
  by_cases hr : s.2.2 = .ok
  · simp only [hr, if_true] at d ⊢
    exact ⟨d, (h' s.1 (h.post hr)).post⟩
  · simp only [hr, if_false] at d ⊢
    exact ⟨d, fun h2 => absurd h2 hr⟩

theorem configure_does (a : App C) (ok : Call C → Bool) (ha : a.alive = true) :
    Does ok ((a.svcs ++ a.tsks).map .configure)
      (fun b => b = { a with fsm := .configured, nctx := (a.tsks.length, a.svcs.length) }) (a.configure ok) := by
  have d := Done.callAll Call.configure ok (a.svcs ++ a.tsks)
  unfold App.configure
  cases hc : (callAll Call.configure ok (a.svcs ++ a.tsks)).2 with
  | true =>
    rw [hc] at d
    simp only [hc, if_true, ha] at d ⊢
    exact ⟨d, fun _ => rfl⟩
  | false =>
    rw [hc] at d
    simp only [hc, Bool.false_eq_true, if_false] at d ⊢
    exact ⟨d, fun h => by cases h⟩

theorem start_does (a : App C) (ok : Call C → Bool) (h1 : a.svcs.length ≤ a.nctx.2) (h2 : a.tsks.length ≤ a.nctx.1) :
    Does ok ((a.svcs ++ a.tsks).map .start) (fun b => b = { a with fsm := .started }) (a.start ok) := by
  have d1 := Done.callAll Call.start ok a.svcs
  have d2 := Done.callAll Call.start ok a.tsks
  have d := d1.append (fun _ => d2)
  unfold App.start
  rw [callCtx_enough _ _ _ _ h1, callCtx_enough _ _ _ _ h2, List.map_append]
  cases hc : (callAll Call.start ok a.svcs).2 with
  | true =>
    rw [hc] at d
    simp only [if_true] at d ⊢
    cases hc' : (callAll Call.start ok a.tsks).2 with
    | true =>
      rw [hc'] at d
      simp only [if_true] at d ⊢
      exact ⟨d, fun _ => rfl⟩
    | false =>
      rw [hc'] at d
      simp only [Bool.false_eq_true, if_false] at d ⊢
      exact ⟨d, fun h => by cases h⟩
  | false =>
    rw [hc] at d
    simp only [Bool.false_eq_true, if_false, reduceCtorEq] at d ⊢
    exact ⟨d, fun h => by cases h⟩

theorem run_does (a : App C) (isIn : C → Bool) (ok : Call C → Bool) (ha : a.alive = true) (h1 : (a.tsks.filter isIn).length ≤ 1)
    (hs : a.stream = none) :
    Does ok [.loop] (fun b => b.fsm = .running ∧ b.svcs = a.svcs ∧ b.nctx = a.nctx ∧ b.alive = true ∧
      b.stream.toList = a.tsks.filter isIn ∧ b.tsks = a.tsks.filter (!isIn ·)) (a.run isIn ok) := by
  have dl : Done ok [Call.loop] [Call.loop] (if ok Call.loop then Res.ok else .err) := by
    refine ⟨⟨[], rfl⟩, fun _ => rfl, ?_, ?_, ?_⟩
    · by_cases h : ok .loop = true <;> simp [h]
    · split <;> simp
    · intro h
      refine ⟨[], .loop, rfl, ?_, by simp⟩
      cases hl : ok Call.loop with
      | true => rw [hl] at h; exact absurd rfl h
      | false => rfl
  unfold App.run
  simp only [ha, if_true]
  match hf : a.tsks.filter isIn with
  | [] =>
    refine ⟨dl, fun _ => ⟨rfl, rfl, rfl, rfl, by simp [hs], ?_⟩⟩
    symm
    show List.filter (fun x => !isIn x) a.tsks = a.tsks
    rw [List.filter_eq_self]
    intro x hx
    have := List.filter_eq_nil_iff.mp hf x hx
    simpa using this
  | [c] => exact ⟨dl, fun _ => ⟨rfl, rfl, rfl, rfl, rfl, rfl⟩⟩
  | _ :: _ :: _ => rw [hf] at h1; simp at h1

theorem stop_does (a : App C) (ok : Call C → Bool) (h1 : a.svcs.length ≤ a.nctx.2) (h2 : a.tsks.length ≤ a.nctx.1) :
    Does ok ((a.stream.toList ++ a.tsks ++ a.svcs).map .stop) (fun b => b = { a with fsm := .stopped }) (a.stop ok) := by
  have d0 := Done.callAll Call.stop ok a.stream.toList
  have d1 := Done.callAll Call.stop ok a.tsks
  have d2 := Done.callAll Call.stop ok a.svcs
  have d := (d0.append (fun _ => d1)).append (fun _ => d2)
  unfold App.stop
  rw [callCtx_enough _ _ _ _ h1, callCtx_enough _ _ _ _ h2, List.map_append, List.map_append]
  cases hc : (callAll Call.stop ok a.stream.toList).2 with
  | false =>
    rw [hc] at d
    simp only [hc, Bool.false_eq_true, if_false, reduceCtorEq] at d ⊢
    exact ⟨d, fun h => by cases h⟩
  | true =>
    rw [hc] at d
    simp only [hc, if_true] at d ⊢
    cases hc' : (callAll Call.stop ok a.tsks).2 with
    | false =>
      rw [hc'] at d
      simp only [Bool.false_eq_true, if_false, reduceCtorEq] at d ⊢
      exact ⟨d, fun h => by cases h⟩
    | true =>
      rw [hc'] at d
      simp only [if_true] at d ⊢
      cases hc'' : (callAll Call.stop ok a.svcs).2 with
      | false =>
        rw [hc''] at d
        simp only [Bool.false_eq_true, if_false] at d ⊢
        exact ⟨d, fun h => by cases h⟩
      | true =>
        rw [hc''] at d
        simp only [if_true] at d ⊢
        exact ⟨d, fun _ => rfl⟩

/-- C75: `Run` of an application with at most one input stream calls the methods of the components in the documented order,
each phase being completed before the next begins, and stops at the first failure: what it calls is a prefix of
the whole sequence, ending with the first call which fails; it is the whole sequence, and no error is
returned, if and only if no call fails. It does not panic. -/
theorem C75_run (svcs tsks : List C) (isIn : C → Bool) (h1 : (tsks.filter isIn).length ≤ 1) (ok : Call C → Bool)
    (r : App C × List (Call C) × Res) (hr : r = (App.mk .undefined svcs tsks none (0, 0) true).runAll isIn ok) :
    (∃ rest, r.2.1 ++ rest = wholeRun isIn svcs tsks) ∧
    (r.2.2 = .ok → r.2.1 = wholeRun isIn svcs tsks ∧ r.1.fsm = .offline) ∧
    (r.2.2 = .ok ↔ ∀ c ∈ wholeRun isIn svcs tsks, ok c = true) ∧
    (r.2.2 ≠ .ok → ∃ l c, r.2.1 = l ++ [c] ∧ ok c = false ∧ ∀ d ∈ l, ok d = true) ∧ r.2.2 ≠ .panic := by
  have key : Does ok (wholeRun isIn svcs tsks) (fun b => b.fsm = .offline) r := by
    rw [hr]
    unfold App.runAll
    have e : wholeRun isIn svcs tsks = ((((([] : List (Call C)) ++ (svcs ++ tsks).map .configure) ++ (svcs ++ tsks).map .start) ++ [.loop]) ++
        (tsks.filter isIn ++ tsks.filter (!isIn ·) ++ svcs).map .stop) ++ [] := by
      simp only [wholeRun, List.nil_append, List.append_nil]
    rw [e]
    refine Does.andThen (post := fun b => b.fsm = .stopped) (Does.andThen (post := fun b => b.fsm = .running ∧ b.svcs = svcs ∧
      b.nctx = (tsks.length, svcs.length) ∧ b.alive = true ∧ b.stream.toList = tsks.filter isIn ∧ b.tsks = tsks.filter (!isIn ·))
      (Does.andThen (post := fun b => b = ⟨.started, svcs, tsks, none, (tsks.length, svcs.length), true⟩)
      (Does.andThen (post := fun b => b = ⟨.configured, svcs, tsks, none, (tsks.length, svcs.length), true⟩)
      (Does.andThen (post := fun b => b = ⟨.undefined, svcs, tsks, none, (0, 0), true⟩) ⟨Done.nil ok, fun _ => rfl⟩ ?_) ?_) ?_) ?_) ?_
    · rintro a rfl
      simp only [if_true]
      exact configure_does ⟨.undefined, svcs, tsks, none, (0, 0), true⟩ ok rfl
    · rintro a rfl
      simp only [if_true]
      exact start_does ⟨.configured, svcs, tsks, none, (tsks.length, svcs.length), true⟩ ok (Nat.le_refl _) (Nat.le_refl _)
    · rintro a rfl
      simp only [if_true]
      exact run_does ⟨.started, svcs, tsks, none, (tsks.length, svcs.length), true⟩ isIn ok rfl h1 rfl
    · rintro a ⟨h2, h3, h4, h5, h6, h7⟩
      simp only [h2, if_true]
      rw [← h6, ← h7, ← h3]
      have := stop_does a ok (by rw [h3, h4]; exact Nat.le_refl _) (by rw [h7, h4]; exact List.length_filter_le _ _)
      exact ⟨this.done, fun hk => by rw [this.post hk]⟩
    · intro a ha
      simp only [ha, if_true]
      exact ⟨Done.nil ok, fun _ => rfl⟩
  exact ⟨key.done.pre, fun h => ⟨key.done.all h, key.post h⟩, key.done.iff, key.done.last, key.done.noPanic⟩

/-- An application with a service, an input stream and a task; stopping the task fails. -/
example : (App.mk .undefined ["store"] ["in", "tsk"] none (0, 0) true).runAll (· == "in") (· ≠ .stop "tsk") =
    (⟨.stopping, ["store"], ["tsk"], some "in", (2, 1), true⟩,
      [.configure "store", .configure "in", .configure "tsk", .start "store", .start "in", .start "tsk", .loop, .stop "in", .stop "tsk"],
      .err) := by decide

/-- C75: when the event loop fails, the tasks and services are not stopped: streams are not closed, histograms are not
saved. -/
theorem C75_not_stopped_counterexample :
    ((App.mk .undefined ["store"] ["tsk"] none (0, 0) true).runAll (fun _ => false) (· ≠ .loop)).2 =
      ([.configure "store", .configure "tsk", .start "store", .start "tsk", .loop], .err) := by decide

/-! ## Scripted applications -/

/-- The calls of a script, fwk/runner.go:25-117 (`Configure`), and those which add a component. -/
inductive Op (C : Type)
  | addSvc (c : C)
  | addTask (c : C)
  | configure
  | start
  | run
  | stop
  | shutdown
deriving DecidableEq, Repr

/-- The outcome of a call: refused because of the state of the application, or executed with a result. -/
inductive Out
  | refused
  | done (r : Res)
deriving DecidableEq, Repr

/-- fwk/app.go:151-156 (`AddTask`), fwk/app.go:192-197 (`AddSvc`) and fwk/runner.go:25-117 (`Configure`, `Start`, `Run`, `Stop`,
`Shutdown`). After a shutdown adding a component writes to a `nil` map. The argument of `Run`, the number of
events, is not used. -/
def App.script (a : App C) (isIn : C → Bool) (ok : Call C → Bool) : Op C → App C × List (Call C) × Out
  | .addSvc c => ({ a with svcs := a.svcs ++ [c] }, [], .done (if a.alive then .ok else .panic))
  | .addTask c => ({ a with tsks := a.tsks ++ [c] }, [], .done (if a.alive then .ok else .panic))
  | .configure => let r := a.configure ok; (r.1, r.2.1, .done r.2.2)
  | .start =>
    if a.fsm.num < Fsm.configured.num then (a, [], .refused)
    else let r := a.start ok; (r.1, r.2.1, .done r.2.2)
  | .run =>
    if a.fsm.num < Fsm.started.num then (a, [], .refused)
    else let r := a.run isIn ok; (r.1, r.2.1, .done r.2.2)
  | .stop =>
    if a.fsm.num < Fsm.running.num then (a, [], .refused)
    else let r := a.stop ok; (r.1, r.2.1, .done r.2.2)
  | .shutdown =>
    if a.fsm.num < Fsm.stopped.num then (a, [], .refused)
    else (a.shutdown, [], .done .ok)

/-- A script: each call with what its components do. The history is built with the last call first. -/
def App.session (isIn : C → Bool) : List (Op C × (Call C → Bool)) → App C × List (Op C × Out) → App C × List (Op C × Out)
  | [], s => s
  | (op, ok) :: rest, (a, hist) =>
    let r := a.script isIn ok op
    App.session isIn rest (r.1, (op, r.2.2) :: hist)

/-- The calls which change the phase, as they are seen from outside: the last one first, without those which were
refused or which add a component. -/
def phases : List (Op C × Out) → List (Op C × Res)
  | [] => []
  | (.addSvc _, _) :: h => phases h
  | (.addTask _, _) :: h => phases h
  | (op, .done r) :: h => (op, r) :: phases h
  | (_, .refused) :: h => phases h

/-- The application is configured: the last `Configure` succeeded. -/
def IsConfigured : List (Op C × Res) → Prop
  | [] => False
  | (.configure, r) :: _ => r = .ok
  | _ :: h => IsConfigured h

/-- The application is started: since the last `Configure`, the last `Start` succeeded. -/
def IsStarted : List (Op C × Res) → Prop
  | [] => False
  | (.configure, _) :: _ => False
  | (.start, r) :: _ => r = .ok
  | _ :: h => IsStarted h

/-- There was a `Run` (even one that failed) since the last `Configure` or `Start`. -/
def WasRun : List (Op C × Res) → Prop
  | [] => False
  | (.configure, _) :: _ => False
  | (.start, _) :: _ => False
  | (.run, _) :: _ => True
  | _ :: h => WasRun h

/-- Since the last `Configure`, `Start` or `Run` there was a `Stop`, and the last one succeeded; or the application was
shut down. -/
def IsStopped : List (Op C × Res) → Prop
  | [] => False
  | (.stop, r) :: _ => r = .ok
  | (.shutdown, _) :: _ => True
  | _ => False

/-- The state of the application says what its history is. -/
structure FsmInv (a : App C) (h : List (Op C × Res)) : Prop where
  conf : Fsm.configured.num ≤ a.fsm.num ↔ IsConfigured h
  start : Fsm.started.num ≤ a.fsm.num ↔ IsStarted h
  run : Fsm.running.num ≤ a.fsm.num ↔ WasRun h
  stop : Fsm.stopped.num ≤ a.fsm.num ↔ IsStopped h

theorem configure_fsm (a : App C) (ok : Call C → Bool) :
    ((a.configure ok).1.fsm = .configured ∧ (a.configure ok).2.2 = .ok) ∨
    ((a.configure ok).1.fsm = .configuring ∧ (a.configure ok).2.2 ≠ .ok) := by
  unfold App.configure
  dsimp only
  split
  · split <;> simp
  · simp

theorem start_fsm (a : App C) (ok : Call C → Bool) :
    ((a.start ok).1.fsm = .started ∧ (a.start ok).2.2 = .ok) ∨ ((a.start ok).1.fsm = .starting ∧ (a.start ok).2.2 ≠ .ok) := by
  unfold App.start
  dsimp only
  split
  · split
    · simp
    · rename_i h; right; exact ⟨rfl, h⟩
  · rename_i h; right; exact ⟨rfl, h⟩

theorem run_fsm (a : App C) (isIn : C → Bool) (ok : Call C → Bool) : (a.run isIn ok).1.fsm = .running := by
  unfold App.run
  dsimp only
  split
  · split <;> rfl
  · rfl

theorem stop_fsm (a : App C) (ok : Call C → Bool) :
    ((a.stop ok).1.fsm = .stopped ∧ (a.stop ok).2.2 = .ok) ∨ ((a.stop ok).1.fsm = .stopping ∧ (a.stop ok).2.2 ≠ .ok) := by
  unfold App.stop
  dsimp only
  split
  · split
    · split
      · simp
      · rename_i h; right; exact ⟨rfl, h⟩
    · rename_i h; right; exact ⟨rfl, h⟩
  · simp

theorem FsmInv.script {a : App C} {hist : List (Op C × Out)} (h : FsmInv a (phases hist)) (isIn : C → Bool) (ok : Call C → Bool)
    (op : Op C) : FsmInv (a.script isIn ok op).1 (phases ((op, (a.script isIn ok op).2.2) :: hist)) := by
  obtain ⟨h1, h2, h3, h4⟩ := h
  cases op with
  | addSvc c => exact ⟨h1, h2, h3, h4⟩
  | addTask c => exact ⟨h1, h2, h3, h4⟩
  | configure =>
    simp only [App.script, phases]
    rcases configure_fsm a ok with ⟨e1, e2⟩ | ⟨e1, e2⟩
    · constructor <;> simp [e1, e2, Fsm.num, IsConfigured, IsStarted, WasRun, IsStopped]
    · constructor <;> simp [e1, e2, Fsm.num, IsConfigured, IsStarted, WasRun, IsStopped]
  | start =>
    simp only [App.script]
    split
    · simp only [phases]; exact ⟨h1, h2, h3, h4⟩
    · rename_i hlt
      have hc := h1.mp (Nat.le_of_not_lt hlt)
      simp only [phases]
      rcases start_fsm a ok with ⟨e1, e2⟩ | ⟨e1, e2⟩
      · constructor <;> simp [e1, e2, Fsm.num, IsConfigured, IsStarted, WasRun, IsStopped, hc]
      · constructor <;> simp [e1, e2, Fsm.num, IsConfigured, IsStarted, WasRun, IsStopped, hc]
  | run =>
    simp only [App.script]
    split
    · simp only [phases]; exact ⟨h1, h2, h3, h4⟩
    · rename_i hlt
      have hle := Nat.le_of_not_lt hlt
      have hs := h2.mp hle
      have hc := h1.mp (Nat.le_trans (by decide) hle)
      simp only [phases]
      constructor <;> simp [run_fsm, Fsm.num, IsConfigured, IsStarted, WasRun, IsStopped, hc, hs]
  | stop =>
    simp only [App.script]
    split
    · simp only [phases]; exact ⟨h1, h2, h3, h4⟩
    · rename_i hlt
      have hle := Nat.le_of_not_lt hlt
      have hr := h3.mp hle
      have hs := h2.mp (Nat.le_trans (by decide) hle)
      have hc := h1.mp (Nat.le_trans (by decide) hle)
      simp only [phases]
      rcases stop_fsm a ok with ⟨e1, e2⟩ | ⟨e1, e2⟩
      · constructor <;> simp [e1, e2, Fsm.num, IsConfigured, IsStarted, WasRun, IsStopped, hc, hs, hr]
      · constructor <;> simp [e1, e2, Fsm.num, IsConfigured, IsStarted, WasRun, IsStopped, hc, hs, hr]
  | shutdown =>
    simp only [App.script]
    split
    · simp only [phases]; exact ⟨h1, h2, h3, h4⟩
    · rename_i hlt
      have hle := Nat.le_of_not_lt hlt
      have hr := h3.mp (Nat.le_trans (by decide) hle)
      have hs := h2.mp (Nat.le_trans (by decide) hle)
      have hc := h1.mp (Nat.le_trans (by decide) hle)
      simp only [phases]
      constructor <;> simp [App.shutdown, Fsm.num, IsConfigured, IsStarted, WasRun, IsStopped, hc, hs, hr]

theorem FsmInv.session (isIn : C → Bool) : ∀ (ops : List (Op C × (Call C → Bool))) {a : App C} {hist : List (Op C × Out)},
    FsmInv a (phases hist) → FsmInv (App.session isIn ops (a, hist)).1 (phases (App.session isIn ops (a, hist)).2)
  | [], _, _, h => h
  | (op, ok) :: rest, _, _, h => FsmInv.session isIn rest (h.script isIn ok op)

/-- C75: in a script, `Start` is accepted exactly if the application is configured, `Run` exactly if it is started, `Stop`
exactly if it has run since, and `Shutdown` exactly if it is stopped (or was already shut down). This holds after every sequence
of calls, whatever failed. -/
theorem C75_script_order (svcs tsks : List C) (isIn : C → Bool) (ops : List (Op C × (Call C → Bool))) (ok : Call C → Bool)
    (a : App C) (hist : List (Op C × Out))
    (hs : App.session isIn ops (⟨.undefined, svcs, tsks, none, (0, 0), true⟩, []) = (a, hist)) :
    ((a.script isIn ok .start).2.2 ≠ .refused ↔ IsConfigured (phases hist)) ∧
    ((a.script isIn ok .run).2.2 ≠ .refused ↔ IsStarted (phases hist)) ∧
    ((a.script isIn ok .stop).2.2 ≠ .refused ↔ WasRun (phases hist)) ∧
    ((a.script isIn ok .shutdown).2.2 ≠ .refused ↔ IsStopped (phases hist)) := by
  have h0 : FsmInv (⟨.undefined, svcs, tsks, none, (0, 0), true⟩ : App C) (phases []) := by
    constructor <;> simp [phases, Fsm.num, IsConfigured, IsStarted, WasRun, IsStopped]
  have h := FsmInv.session isIn ops h0
  rw [hs] at h
  obtain ⟨h1, h2, h3, h4⟩ := h
  have key : ∀ (x : Nat) (r : App C × List (Call C) × Out) (b : App C), r.2.2 ≠ .refused →
      ((if a.fsm.num < x then (b, ([] : List (Call C)), Out.refused) else r).2.2 ≠ .refused ↔ x ≤ a.fsm.num) := by
    intro x r b hr
    split
    · rename_i hlt; simp; omega
    · rename_i hlt; simp only [hr, ne_eq, not_false_eq_true, true_iff]; omega
  refine ⟨?_, ?_, ?_, ?_⟩
  · rw [← h1]; exact key _ _ _ (by simp)
  · rw [← h2]; exact key _ _ _ (by simp)
  · rw [← h3]; exact key _ _ _ (by simp)
  · rw [← h4]; exact key _ _ _ (by simp)

/-- A script with a failing `Start`. -/
example : (App.session (fun _ => false) [(.start, fun _ => true), (.configure, fun _ => true), (.start, (· ≠ .start "t")),
      (.run, fun _ => true), (.start, fun _ => true), (.run, fun _ => true), (.shutdown, fun _ => true), (.stop, fun _ => true)]
      (⟨.undefined, ["s"], ["t"], none, (0, 0), true⟩, [])).2.map Prod.snd =
    [.done .ok, .refused, .done .ok, .done .ok, .refused, .done .err, .done .ok, .refused] := by decide

/-- C75: a phase can be entered again: tasks are started twice, and the events are run after the tasks were stopped. -/
theorem C75_again_counterexample :
    (App.session (fun _ => false) [(.configure, fun _ => true), (.start, fun _ => true), (.start, fun _ => true), (.run, fun _ => true),
      (.stop, fun _ => true), (.run, fun _ => true)]
      (⟨.undefined, ["s"], ["t"], none, (0, 0), true⟩, [])).2.map Prod.snd =
    [.done .ok, .done .ok, .done .ok, .done .ok, .done .ok, .done .ok] := by decide

/-- C75: after a shutdown, `Start` is accepted, and `Run` then panics; a task which is added after `Configure` makes `Start`
panic. -/
theorem C75_panic_counterexample :
    (App.session (fun _ => false) [(.configure, fun _ => true), (.start, fun _ => true), (.run, fun _ => true), (.stop, fun _ => true),
      (.shutdown, fun _ => true), (.start, fun _ => true), (.run, fun _ => true)]
      (⟨.undefined, ["s"], ["t"], none, (0, 0), true⟩, [])).2.head? = some (.run, .done .panic) ∧
    (App.session (fun _ => false) [(.configure, fun _ => true), (.addTask "u", fun _ => true), (.start, fun _ => true)]
      (⟨.undefined, ["s"], ["t"], none, (0, 0), true⟩, [])).2.head? = some (.start, .done .panic) := by decide

/-- C75: the input stream takes part in the first `Run` only: in a second one the events come from nowhere. -/
theorem C75_second_run_counterexample :
    let a := (App.session (· == "in") [(.configure, fun _ => true), (.start, fun _ => true), (.run, fun _ => true)]
      (⟨.undefined, ["s"], ["in", "t"], none, (0, 0), true⟩, [])).1
    "in" ∉ a.tsks ∧ (a.script (· == "in") (fun _ => true) .run).2 = ([.loop], .done .ok) := by decide

end Verif.Fwk
