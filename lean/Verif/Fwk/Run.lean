import Mathlib.Algebra.BigOperators.Fin
import Mathlib.Data.Finset.Card

/-!
# The event loop (fwk/app.go, fwk/worker.go)

One goroutine reads the events from the input stream and queues them, `n` workers take them from the queue and
process them, and the goroutine which called `Run` collects the errors and waits for the workers.
-/

namespace Verif.Fwk

variable {E : Type}

/-- The result of `Process` of the input stream: an event, the end of the input (`io.EOF`), or an error. -/
inductive Inp (E : Type)
  | ok
  | eof
  | fail (e : E)

/-- The goroutine of fwk/app.go:640-675 (goroutine of runConcurrent): about to read event `i`; about to send it to
the workers; about to send an error; about to close the queue; ended. `reset` of the new store of an event
returns no error, as the store has no keys yet. -/
inductive PSt (E : Type)
  | read (i : Nat)
  | send (i : Nat)
  | report (e : E)
  | closing
  | ended
deriving DecidableEq

/-- A worker, fwk/worker.go:57-75 (`worker.run`): waiting for an event; processing event `i`; about to send an
error (fwk/worker.go:77-128 (`runTask`)); about to say that it is done; ended. -/
inductive WSt (E : Type)
  | idle
  | busy (i : Nat)
  | failing (e : E)
  | leaving
  | gone
deriving DecidableEq

/-- The state of `runConcurrent`, fwk/app.go:610-705. `queue` and `closed` are the channel `ctrl.evts`; `err`
and `ndone` the variables of the loop; `ret` is the result once the function has returned. `log` is not part
of the program: it records the events which have been processed, with their results. -/
structure RunSt (n : Nat) (E : Type) where
  prod : PSt E
  queue : List Nat
  closed : Bool
  work : Fin n → WSt E
  err : Option E
  ndone : Nat
  ret : Option (Option E)
  log : List (Nat × Option E)

/-- What can happen. `ctrl.errc` and `ctrl.done` have no buffer: sending and receiving happen together. The
context of the run is cancelled only when `runConcurrent` returns; it plays no role before. `finish w r` is the
end of the event processed by `w` (see Verif/Fwk/EventProps.lean). -/
inductive RunEv (n : Nat) (E : Type)
  | read
  | push
  | perr
  | close
  | pop (w : Fin n)
  | drained (w : Fin n)
  | finish (w : Fin n) (r : Option E)
  | werr (w : Fin n)
  | done (w : Fin n)

def RunSt.setWork {n : Nat} (σ : RunSt n E) (w : Fin n) (s : WSt E) : RunSt n E :=
  { σ with work := fun j => if j = w then s else σ.work j }

/-- fwk/app.go:681-688 (in runConcurrent): only the first error is recorded (`eworker != nil && err == nil`). -/
def RunSt.record {n : Nat} (σ : RunSt n E) (e : E) : RunSt n E :=
  { σ with err := some (σ.err.getD e) }

/-- fwk/app.go:643-672 (in runConcurrent): the next event is read. `max` is `app.evtmax`. -/
def RunSt.read {n : Nat} (src : Nat → Inp E) (max : Nat) (σ : RunSt n E) : Option (RunSt n E) :=
  match σ.prod with
  | .read i =>
    if i < max then
      match src i with
      | .ok => some { σ with prod := .send i }
      | .eof => some { σ with prod := .closing }
      | .fail e => some { σ with prod := .report e }
    else some { σ with prod := .closing }
  | _ => none

/-- fwk/app.go:672 (`ctrl.evts <- ctx`): the channel has room for `2*app.nprocs` events. -/
def RunSt.push {n : Nat} (σ : RunSt n E) : Option (RunSt n E) :=
  match σ.prod with
  | .send i => if σ.queue.length < 2 * n then some { σ with prod := .read (i + 1), queue := σ.queue ++ [i] } else none
  | _ => none

/-- The steps of the program. -/
def RunSt.exec {n : Nat} (src : Nat → Inp E) (max : Nat) (σ : RunSt n E) : RunEv n E → Option (RunSt n E)
  | .read => σ.read src max
  | .push => σ.push
  | .perr =>
    match σ.prod, σ.ret with
    | .report e, none => some { σ.record e with prod := .closing }
    | _, _ => none
  | .close =>
    match σ.prod with
    | .closing => some { σ with prod := .ended, closed := true }
    | _ => none
  | .pop w =>
    match σ.work w, σ.queue with
    | .idle, i :: q => some ({ σ with queue := q }.setWork w (.busy i))
    | _, _ => none
  | .drained w =>
    match σ.work w, σ.queue, σ.closed with
    | .idle, [], true => some (σ.setWork w .leaving)
    | _, _, _ => none
  | .finish w r =>
    match σ.work w with
    | .busy i =>
      match r with
      | none => some ({ σ with log := σ.log ++ [(i, none)] }.setWork w .idle)
      | some e => some ({ σ with log := σ.log ++ [(i, some e)] }.setWork w (.failing e))
    | _ => none
  | .werr w =>
    match σ.work w, σ.ret with
    | .failing e, none => some ((σ.record e).setWork w .idle)
    | _, _ => none
  | .done w =>
    match σ.work w, σ.ret with
    | .leaving, none =>
      if σ.ndone + 1 = n then some ({ σ with ndone := σ.ndone + 1, ret := some σ.err }.setWork w .gone)
      else some ({ σ with ndone := σ.ndone + 1 }.setWork w .gone)
    | _, _ => none

def RunSt.run {n : Nat} (src : Nat → Inp E) (max : Nat) (σ : RunSt n E) : List (RunEv n E) → Option (RunSt n E)
  | [] => some σ
  | e :: es => (σ.exec src max e).bind fun σ' => σ'.run src max es

/-- The start of `runConcurrent`, fwk/app.go:635-678. -/
def RunSt.start (n : Nat) (E : Type) : RunSt n E := ⟨.read 0, [], false, fun _ => .idle, none, 0, none, []⟩

/-! ## What is specified -/

/-- The input has `m` events: all reads up to `m` give an event, and then the limit is reached, or the next
read gives none. -/
def Supplies (src : Nat → Inp E) (max m : Nat) : Prop :=
  m ≤ max ∧ (∀ i < m, src i = .ok) ∧ (m = max ∨ src m ≠ .ok)

/-- An error which occurred: of the input stream, or of an event. -/
def Occurred (src : Nat → Inp E) (max m : Nat) (log : List (Nat × Option E)) (e : E) : Prop :=
  (m < max ∧ src m = .fail e) ∨ ∃ i, (i, some e) ∈ log

/-! ## The invariant -/

/-- What the producer knows about the input, when `p` events have been queued. -/
def PSt.Knows (src : Nat → Inp E) (max p : Nat) : PSt E → Prop
  | .read i => i = p ∧ i ≤ max
  | .send i => i = p ∧ i < max ∧ src i = .ok
  | .report e => p < max ∧ src p = .fail e
  | .closing => p = max ∨ p < max ∧ src p ≠ .ok
  | .ended => p = max ∨ p < max ∧ src p ≠ .ok

def WSt.isGone : WSt E → Bool
  | .gone => true
  | _ => false

def RunSt.left {n : Nat} (σ : RunSt n E) : Finset (Fin n) := Finset.univ.filter fun w => (σ.work w).isGone

/-- The invariant; `p` events have been queued so far. -/
structure RunInv {n : Nat} (src : Nat → Inp E) (max p : Nat) (σ : RunSt n E) : Prop where
  knows : σ.prod.Knows src max p
  before : p ≤ max ∧ ∀ i < p, src i = .ok
  closed : σ.closed = true ↔ σ.prod = .ended
  place : ∀ i, (i ∈ σ.log.map Prod.fst ∨ (∃ w, σ.work w = .busy i) ∨ i ∈ σ.queue) ↔ i < p
  logNodup : (σ.log.map Prod.fst).Nodup
  queueNodup : σ.queue.Nodup
  logQueue : ∀ i, i ∈ σ.log.map Prod.fst → i ∉ σ.queue
  busyOne : ∀ i w w', σ.work w = .busy i → σ.work w' = .busy i → w = w'
  busyLog : ∀ i w, σ.work w = .busy i → i ∉ σ.log.map Prod.fst ∧ i ∉ σ.queue
  drained : ∀ w, σ.work w = .leaving ∨ σ.work w = .gone → σ.closed = true ∧ σ.queue = []
  errFrom : ∀ e, σ.err = some e → Occurred src max p σ.log e
  errKept : ∀ i e, (i, some e) ∈ σ.log → σ.err ≠ none ∨ ∃ w, σ.work w = .failing e
  inpKept : ∀ e, p < max → src p = .fail e → σ.err ≠ none ∨ σ.prod = .report e ∨ σ.prod = .read p
  failFrom : ∀ w e, σ.work w = .failing e → ∃ i, (i, some e) ∈ σ.log
  count : σ.ndone = σ.left.card
  ret : ∀ r, σ.ret = some r → r = σ.err ∧ σ.ndone = n
  more : σ.ret = none → n ≠ 0 → σ.ndone < n

theorem setWork_work {n : Nat} (σ : RunSt n E) (w j : Fin n) (s : WSt E) :
    (σ.setWork w s).work j = if j = w then s else σ.work j := rfl

theorem left_eq {n : Nat} {σ τ : RunSt n E} (h : ∀ j, (τ.work j).isGone = (σ.work j).isGone) : τ.left = σ.left := by
  ext j
  unfold RunSt.left
  rw [Finset.mem_filter, Finset.mem_filter, h]

theorem left_gone {n : Nat} {σ τ : RunSt n E} {w : Fin n} (h : (σ.work w).isGone = false)
    (hτ : ∀ j, τ.work j = if j = w then .gone else σ.work j) : τ.left.card = σ.left.card + 1 := by
  have : τ.left = insert w σ.left := by
    ext j
    unfold RunSt.left
    rw [Finset.mem_insert, Finset.mem_filter, Finset.mem_filter, hτ]
    by_cases hj : j = w
    · subst hj; simp [WSt.isGone]
    · simp [hj]
  rw [this, Finset.card_insert_of_notMem]
  simp [RunSt.left, h]

theorem Occurred.mono {src : Nat → Inp E} {max m : Nat} {log : List (Nat × Option E)} {e : E} (h : Occurred src max m log e)
    (x : List (Nat × Option E)) : Occurred src max m (log ++ x) e := by
  rcases h with h | ⟨i, h⟩
  · exact Or.inl h
  · exact Or.inr ⟨i, List.mem_append_left _ h⟩

/-- Only the producer moves; it neither queues an event nor closes the queue. -/
theorem RunInv.prodStep {n : Nat} {src : Nat → Inp E} {max p : Nat} {σ : RunSt n E} (h : RunInv src max p σ) {q : PSt E}
    (hk : q.Knows src max p) (hne : σ.prod ≠ .ended) (hq : q ≠ .ended)
    (hinp : ∀ e, p < max → src p = .fail e → σ.err ≠ none ∨ q = .report e ∨ q = .read p) :
    RunInv src max p { σ with prod := q } where
  knows := hk
  before := h.before
  closed := by
    constructor
    · intro hc; exact absurd (h.closed.mp hc) hne
    · intro hc; exact absurd hc hq
  place := h.place
  logNodup := h.logNodup
  queueNodup := h.queueNodup
  logQueue := h.logQueue
  busyOne := h.busyOne
  busyLog := h.busyLog
  drained := h.drained
  errFrom := h.errFrom
  errKept := h.errKept
  inpKept := hinp
  failFrom := h.failFrom
  count := h.count
  ret := h.ret
  more := h.more

/-- An error is recorded. -/
theorem RunInv.recordStep {n : Nat} {src : Nat → Inp E} {max p : Nat} {σ : RunSt n E} (h : RunInv src max p σ) {e : E}
    (hr : σ.ret = none) (ho : Occurred src max p σ.log e) : RunInv src max p (σ.record e) where
  knows := h.knows
  before := h.before
  closed := h.closed
  place := h.place
  logNodup := h.logNodup
  queueNodup := h.queueNodup
  logQueue := h.logQueue
  busyOne := h.busyOne
  busyLog := h.busyLog
  drained := h.drained
  errFrom := by
    intro e' he'
    simp only [RunSt.record, Option.some.injEq] at he'
    cases hs : σ.err with
    | none => rw [hs] at he'; exact he' ▸ ho
    | some x => rw [hs] at he'; exact h.errFrom e' (by rw [hs, ← he']; rfl)
  errKept := fun _ _ _ => Or.inl (by simp [RunSt.record])
  inpKept := fun _ _ _ => Or.inl (by simp [RunSt.record])
  failFrom := h.failFrom
  count := h.count
  ret := by intro r hrr; rw [show (σ.record e).ret = none from hr] at hrr; cases hrr
  more := h.more

/-- A worker moves between states in which it has no event. -/
theorem RunInv.workStep {n : Nat} {src : Nat → Inp E} {max p : Nat} {σ : RunSt n E} (h : RunInv src max p σ) {w : Fin n}
    {s : WSt E} (hw : ∀ i, σ.work w ≠ .busy i) (hg : (σ.work w).isGone = false) (hs : ∀ i, s ≠ .busy i) (hsg : s.isGone = false)
    (hd : s = .leaving → σ.closed = true ∧ σ.queue = []) (hf : ∀ e, s = .failing e → ∃ i, (i, some e) ∈ σ.log)
    (hk : ∀ i e, (i, some e) ∈ σ.log → σ.work w = .failing e → σ.err ≠ none ∨ s = .failing e) :
    RunInv src max p (σ.setWork w s) := by
  have hb : ∀ j i, (σ.setWork w s).work j = .busy i ↔ σ.work j = .busy i := by
    intro j i
    rw [setWork_work]
    split
    · rename_i hj; subst hj; exact ⟨fun h => absurd h (hs i), fun h => absurd h (hw i)⟩
    · rfl
  have hl : (σ.setWork w s).left = σ.left := by
    apply left_eq
    intro j
    rw [setWork_work]
    split
    · rename_i hj; subst hj; rw [hg, hsg]
    · rfl
  refine ⟨h.knows, h.before, h.closed, ?_, h.logNodup, h.queueNodup, h.logQueue, ?_, ?_, ?_, h.errFrom, ?_, h.inpKept, ?_, ?_,
    h.ret, h.more⟩
  · intro i
    simp only [hb]
    exact h.place i
  · intro i j j' h1 h2
    exact h.busyOne i j j' ((hb j i).mp h1) ((hb j' i).mp h2)
  · intro i j hj
    exact h.busyLog i j ((hb j i).mp hj)
  · intro j hj
    rw [setWork_work] at hj
    split at hj
    · rcases hj with hj | hj
      · exact hd hj
      · rw [hj] at hsg; cases hsg
    · exact h.drained j hj
  · intro i e hi
    rcases h.errKept i e hi with h1 | ⟨j, hj⟩
    · exact Or.inl h1
    · by_cases hjw : j = w
      · subst hjw
        rcases hk i e hi hj with h1 | h1
        · exact Or.inl h1
        · exact Or.inr ⟨j, by rw [setWork_work, if_pos rfl]; exact h1⟩
      · exact Or.inr ⟨j, by rw [setWork_work, if_neg hjw]; exact hj⟩
  · intro j e hj
    rw [setWork_work] at hj
    split at hj
    · exact hf e hj
    · exact h.failFrom j e hj
  · show σ.ndone = _
    rw [hl]; exact h.count

/-- Each step keeps the invariant. -/
theorem RunInv.step {n : Nat} {src : Nat → Inp E} {max p : Nat} {σ σ' : RunSt n E} {ev : RunEv n E} (h : RunInv src max p σ)
    (hx : σ.exec src max ev = some σ') : ∃ p', RunInv src max p' σ' := by
  cases ev with
  | read =>
    simp only [RunSt.exec, RunSt.read] at hx
    split at hx
    · rename_i i hp
      have hk := h.knows
      rw [hp] at hk
      obtain ⟨rfl, hle⟩ := hk
      have hne : σ.prod ≠ .ended := by rw [hp]; simp
      split at hx
      · rename_i hlt
        split at hx
        · rename_i hs
          cases hx
          exact ⟨i, h.prodStep ⟨rfl, hlt, hs⟩ hne (by simp) (fun e _ he => by rw [hs] at he; cases he)⟩
        · rename_i hs
          cases hx
          exact ⟨i, h.prodStep (Or.inr ⟨hlt, by rw [hs]; simp⟩) hne (by simp) (fun e _ he => by rw [hs] at he; cases he)⟩
        · rename_i e hs
          cases hx
          exact ⟨i, h.prodStep ⟨hlt, hs⟩ hne (by simp) (fun e' _ he => by rw [hs] at he; cases he; exact Or.inr (Or.inl rfl))⟩
      · rename_i hlt
        cases hx
        exact ⟨i, h.prodStep (Or.inl (by omega)) hne (by simp) (fun e hl _ => absurd hl hlt)⟩
    · cases hx
  | push =>
    simp only [RunSt.exec, RunSt.push] at hx
    split at hx
    · rename_i i hp
      have hk := h.knows
      rw [hp] at hk
      obtain ⟨rfl, hlt, hs⟩ := hk
      split at hx
      · cases hx
        have hpl := h.place i
        have hni : i ∉ σ.log.map Prod.fst ∧ (∀ w, σ.work w ≠ .busy i) ∧ i ∉ σ.queue := by
          refine ⟨fun hc => ?_, fun w hc => ?_, fun hc => ?_⟩
          · exact Nat.lt_irrefl _ (hpl.mp (Or.inl hc))
          · exact Nat.lt_irrefl _ (hpl.mp (Or.inr (Or.inl ⟨w, hc⟩)))
          · exact Nat.lt_irrefl _ (hpl.mp (Or.inr (Or.inr hc)))
        refine ⟨i + 1, ⟨⟨rfl, hlt⟩, ⟨hlt, ?_⟩, ?_, ?_, h.logNodup, ?_, ?_, h.busyOne, ?_, ?_, ?_, h.errKept, ?_, h.failFrom, h.count,
          h.ret, h.more⟩⟩
        · intro j hj
          rcases Nat.lt_succ_iff_lt_or_eq.mp hj with hj | rfl
          · exact h.before.2 j hj
          · exact hs
        · constructor
          · intro hc
            have := h.closed.mp hc
            rw [hp] at this; cases this
          · intro hc; cases hc
        · intro j
          simp only [List.mem_append, List.mem_singleton]
          rw [Nat.lt_succ_iff_lt_or_eq, ← h.place j]
          tauto
        · rw [List.nodup_append]
          refine ⟨h.queueNodup, by simp, ?_⟩
          intro a ha b hb hab
          simp only [List.mem_singleton] at hb
          exact hni.2.2 (by rw [← hb, ← hab]; exact ha)
        · intro j hj
          simp only [List.mem_append, List.mem_singleton, not_or]
          exact ⟨h.logQueue j hj, fun e => hni.1 (e ▸ hj)⟩
        · intro j w hj
          simp only [List.mem_append, List.mem_singleton, not_or]
          obtain ⟨h1, h2⟩ := h.busyLog j w hj
          exact ⟨h1, h2, fun e => hni.2.1 w (e ▸ hj)⟩
        · intro w hw
          have := h.closed.mp (h.drained w hw).1
          rw [hp] at this; cases this
        · intro e he
          rcases h.errFrom e he with ⟨_, h1⟩ | h1
          · rw [hs] at h1; cases h1
          · exact Or.inr h1
        · intro e _ _
          exact Or.inr (Or.inr rfl)
      · cases hx
    · cases hx
  | perr =>
    simp only [RunSt.exec] at hx
    split at hx
    · rename_i e hp hr
      cases hx
      have hk := h.knows
      rw [hp] at hk
      obtain ⟨hlt, hs⟩ := hk
      have h1 := h.recordStep (e := e) hr (Or.inl ⟨hlt, hs⟩)
      exact ⟨p, h1.prodStep (Or.inr ⟨hlt, by rw [hs]; simp⟩) (by show σ.prod ≠ _; rw [hp]; simp) (by simp)
        (fun _ _ _ => Or.inl (by simp [RunSt.record]))⟩
    · cases hx
  | close =>
    simp only [RunSt.exec] at hx
    split at hx
    · rename_i hp
      cases hx
      have hk := h.knows
      rw [hp] at hk
      refine ⟨p, ⟨hk, h.before, ⟨fun _ => rfl, fun _ => rfl⟩, h.place, h.logNodup, h.queueNodup, h.logQueue, h.busyOne, h.busyLog, ?_,
        h.errFrom, h.errKept, ?_, h.failFrom, h.count, h.ret, h.more⟩⟩
      · intro w hw
        have := h.closed.mp (h.drained w hw).1
        rw [hp] at this; cases this
      · intro e hl he
        rcases h.inpKept e hl he with h1 | h1 | h1
        · exact Or.inl h1
        · rw [hp] at h1; cases h1
        · rw [hp] at h1; cases h1
    · cases hx
  | pop w =>
    simp only [RunSt.exec] at hx
    split at hx
    · rename_i i q hw hq
      cases hx
      have hqn := h.queueNodup
      rw [hq, List.nodup_cons] at hqn
      have hiq : i ∈ σ.queue := by rw [hq]; simp
      have hnb : ∀ j, σ.work j ≠ .busy i := fun j hj => (h.busyLog i j hj).2 hiq
      have hwork : ∀ j, ({ σ with queue := q }.setWork w (.busy i)).work j = if j = w then .busy i else σ.work j := fun _ => rfl
      refine ⟨p, ⟨h.knows, h.before, h.closed, ?_, h.logNodup, hqn.2, ?_, ?_, ?_, ?_, h.errFrom, ?_, h.inpKept, ?_, ?_, h.ret, h.more⟩⟩
      · intro j
        rw [← h.place j, hq]
        show (j ∈ σ.log.map Prod.fst ∨ (∃ w', ({ σ with queue := q }.setWork w (.busy i)).work w' = .busy j) ∨ j ∈ q) ↔ _
        simp only [hwork, List.mem_cons]
        constructor
        · rintro (h1 | ⟨w', h1⟩ | h1)
          · exact Or.inl h1
          · split at h1
            · cases h1; exact Or.inr (Or.inr (Or.inl rfl))
            · exact Or.inr (Or.inl ⟨w', h1⟩)
          · exact Or.inr (Or.inr (Or.inr h1))
        · rintro (h1 | ⟨w', h1⟩ | rfl | h1)
          · exact Or.inl h1
          · refine Or.inr (Or.inl ⟨w', ?_⟩)
            rw [if_neg]
            · exact h1
            · rintro rfl; rw [hw] at h1; cases h1
          · exact Or.inr (Or.inl ⟨w, if_pos rfl⟩)
          · exact Or.inr (Or.inr h1)
      · intro j hj hc
        exact h.logQueue j hj (by rw [hq]; exact List.mem_cons_of_mem _ hc)
      · intro j a b ha hb
        rw [hwork] at ha hb
        split at ha
        · rename_i haw
          cases ha
          split at hb
          · rename_i hbw; rw [haw, hbw]
          · exact absurd hb (hnb b)
        · split at hb
          · cases hb; exact absurd ha (hnb a)
          · exact h.busyOne j a b ha hb
      · intro j a ha
        rw [hwork] at ha
        split at ha
        · cases ha
          exact ⟨fun hc => h.logQueue i hc hiq, hqn.1⟩
        · obtain ⟨h1, h2⟩ := h.busyLog j a ha
          exact ⟨h1, fun hc => h2 (by rw [hq]; exact List.mem_cons_of_mem _ hc)⟩
      · intro a ha
        rw [hwork] at ha
        split at ha
        · rcases ha with ha | ha <;> cases ha
        · have := (h.drained a ha).2
          rw [hq] at this; cases this
      · intro j e hj
        rcases h.errKept j e hj with h1 | ⟨a, ha⟩
        · exact Or.inl h1
        · refine Or.inr ⟨a, ?_⟩
          rw [hwork, if_neg]
          · exact ha
          · rintro rfl; rw [hw] at ha; cases ha
      · intro a e ha
        rw [hwork] at ha
        split at ha
        · cases ha
        · exact h.failFrom a e ha
      · show σ.ndone = _
        rw [left_eq (σ := σ)]
        · exact h.count
        · intro j
          rw [hwork]
          split
          · rename_i hj; subst hj; rw [hw]; rfl
          · rfl
    · cases hx
  | drained w =>
    simp only [RunSt.exec] at hx
    split at hx
    · rename_i hw hq hc
      cases hx
      exact ⟨p, h.workStep (by rw [hw]; simp) (by rw [hw]; rfl) (by simp) rfl (fun _ => ⟨hc, hq⟩) (by simp)
        (fun _ _ _ he => by rw [hw] at he; cases he)⟩
    · cases hx
  | finish w r =>
    simp only [RunSt.exec] at hx
    split at hx
    · rename_i i hw
      have key : ∀ s : WSt E, (r = none ∧ s = .idle ∨ ∃ e, r = some e ∧ s = .failing e) →
          RunInv src max p ({ σ with log := σ.log ++ [(i, r)] }.setWork w s) := by
        intro s hs
        have hsb : ∀ j, s ≠ .busy j := by rcases hs with ⟨_, rfl⟩ | ⟨e, _, rfl⟩ <;> simp
        have hsg : s.isGone = false := by rcases hs with ⟨_, rfl⟩ | ⟨e, _, rfl⟩ <;> rfl
        have hsl : ¬ (s = .leaving ∨ s = .gone) := by rcases hs with ⟨_, rfl⟩ | ⟨e, _, rfl⟩ <;> simp
        have hsf : ∀ e, s = .failing e → r = some e := by
          intro e he
          rcases hs with ⟨_, rfl⟩ | ⟨e', h1, rfl⟩
          · cases he
          · cases he; exact h1
        have hsr : ∀ e, r = some e → s = .failing e := by
          intro e he
          rcases hs with ⟨h1, _⟩ | ⟨e', h1, h2⟩
          · rw [h1] at he; cases he
          · rw [h1] at he; cases he; exact h2
        have hwork : ∀ j, ({ σ with log := σ.log ++ [(i, r)] }.setWork w s).work j = if j = w then s else σ.work j := fun _ => rfl
        have hlog : ({ σ with log := σ.log ++ [(i, r)] }.setWork w s).log.map Prod.fst = σ.log.map Prod.fst ++ [i] := by
          show (σ.log ++ [(i, r)]).map Prod.fst = _
          simp
        obtain ⟨hil, hiq⟩ := h.busyLog i w hw
        have hbusy : ∀ j a, (if a = w then s else σ.work a) = WSt.busy j → a ≠ w ∧ σ.work a = .busy j ∧ j ≠ i := by
          intro j a ha
          split at ha
          · exact absurd ha (hsb j)
          · rename_i haw
            exact ⟨haw, ha, fun e => haw (h.busyOne i a w (e ▸ ha) hw)⟩
        refine ⟨h.knows, h.before, h.closed, ?_, ?_, h.queueNodup, ?_, ?_, ?_, ?_, ?_, ?_, h.inpKept, ?_, ?_, h.ret, h.more⟩
        · intro j
          rw [hlog, ← h.place j]
          simp only [hwork, List.mem_append, List.mem_singleton]
          show ((j ∈ σ.log.map Prod.fst ∨ j = i) ∨ _ ∨ j ∈ σ.queue) ↔ _
          constructor
          · rintro ((h1 | rfl) | ⟨a, ha⟩ | h1)
            · exact Or.inl h1
            · exact Or.inr (Or.inl ⟨w, hw⟩)
            · exact Or.inr (Or.inl ⟨a, (hbusy j a ha).2.1⟩)
            · exact Or.inr (Or.inr h1)
          · rintro (h1 | ⟨a, ha⟩ | h1)
            · exact Or.inl (Or.inl h1)
            · by_cases haw : a = w
              · subst haw; rw [hw] at ha; cases ha; exact Or.inl (Or.inr rfl)
              · exact Or.inr (Or.inl ⟨a, by rw [if_neg haw]; exact ha⟩)
            · exact Or.inr (Or.inr h1)
        · rw [hlog, List.nodup_append]
          refine ⟨h.logNodup, by simp, ?_⟩
          intro a ha b hb hab
          simp only [List.mem_singleton] at hb
          exact hil (by rw [← hb, ← hab]; exact ha)
        · intro j hj
          rw [hlog, List.mem_append, List.mem_singleton] at hj
          rcases hj with hj | rfl
          · exact h.logQueue j hj
          · exact hiq
        · intro j a b ha hb
          rw [hwork] at ha hb
          exact h.busyOne j a b (hbusy j a ha).2.1 (hbusy j b hb).2.1
        · intro j a ha
          rw [hwork] at ha
          obtain ⟨_, h2, h3⟩ := hbusy j a ha
          obtain ⟨h4, h5⟩ := h.busyLog j a h2
          rw [hlog, List.mem_append, List.mem_singleton, not_or]
          exact ⟨⟨h4, h3⟩, h5⟩
        · intro a ha
          rw [hwork] at ha
          split at ha
          · exact absurd ha hsl
          · exact h.drained a ha
        · intro e he
          exact (h.errFrom e he).mono _
        · intro j e hj
          have hj : (j, some e) ∈ σ.log ++ [(i, r)] := hj
          rw [List.mem_append, List.mem_singleton] at hj
          rcases hj with hj | hj
          · rcases h.errKept j e hj with h1 | ⟨a, ha⟩
            · exact Or.inl h1
            · refine Or.inr ⟨a, ?_⟩
              rw [hwork, if_neg]
              · exact ha
              · rintro rfl; rw [hw] at ha; cases ha
          · simp only [Prod.mk.injEq] at hj
            exact Or.inr ⟨w, by rw [hwork, if_pos rfl]; exact hsr e hj.2.symm⟩
        · intro a e ha
          rw [hwork] at ha
          split at ha
          · exact ⟨i, List.mem_append_right _ (by rw [hsf e ha]; simp)⟩
          · obtain ⟨j, hj⟩ := h.failFrom a e ha
            exact ⟨j, List.mem_append_left _ hj⟩
        · show σ.ndone = _
          rw [left_eq (σ := σ)]
          · exact h.count
          · intro j
            rw [hwork]
            split
            · rename_i hj; subst hj; rw [hw, hsg]; rfl
            · rfl
      split at hx
      · cases hx; exact ⟨p, key _ (Or.inl ⟨rfl, rfl⟩)⟩
      · rename_i e
        cases hx; exact ⟨p, key _ (Or.inr ⟨e, rfl, rfl⟩)⟩
    · cases hx
  | werr w =>
    simp only [RunSt.exec] at hx
    split at hx
    · rename_i e hw hr
      cases hx
      obtain ⟨i, hi⟩ := h.failFrom w e hw
      have h1 := h.recordStep (e := e) hr (Or.inr ⟨i, hi⟩)
      have hw' : (σ.record e).work w = .failing e := hw
      exact ⟨p, h1.workStep (by rw [hw']; simp) (by rw [hw']; rfl) (by simp) rfl (by simp) (by simp)
        (fun _ _ _ _ => Or.inl (by simp [RunSt.record]))⟩
    · cases hx
  | done w =>
    simp only [RunSt.exec] at hx
    split at hx
    · rename_i hw hr
      have hdr := h.drained w (Or.inl hw)
      have key : ∀ ret : Option (Option E), (∀ r, ret = some r → r = σ.err ∧ σ.ndone + 1 = n) → (ret = none → σ.ndone + 1 ≠ n) →
          RunInv src max p ({ σ with ndone := σ.ndone + 1, ret := ret }.setWork w .gone) := by
        intro ret hret hnone
        have hwork : ∀ j, ({ σ with ndone := σ.ndone + 1, ret := ret }.setWork w .gone).work j = if j = w then .gone else σ.work j :=
          fun _ => rfl
        have hb : ∀ j i, ({ σ with ndone := σ.ndone + 1, ret := ret }.setWork w .gone).work j = .busy i ↔ σ.work j = .busy i := by
          intro j i
          rw [hwork]
          split
          · rename_i hj; subst hj; rw [hw]; simp
          · rfl
        refine ⟨h.knows, h.before, h.closed, ?_, h.logNodup, h.queueNodup, h.logQueue, ?_, ?_, ?_, h.errFrom, ?_, h.inpKept, ?_, ?_, hret, ?_⟩
        · intro i
          simp only [hb]
          exact h.place i
        · intro i a b ha hb'
          exact h.busyOne i a b ((hb a i).mp ha) ((hb b i).mp hb')
        · intro i a ha
          exact h.busyLog i a ((hb a i).mp ha)
        · intro a ha
          exact hdr
        · intro i e hi
          rcases h.errKept i e hi with h1 | ⟨a, ha⟩
          · exact Or.inl h1
          · refine Or.inr ⟨a, ?_⟩
            rw [hwork, if_neg]
            · exact ha
            · rintro rfl; rw [hw] at ha; cases ha
        · intro a e ha
          rw [hwork] at ha
          split at ha
          · cases ha
          · exact h.failFrom a e ha
        · show σ.ndone + 1 = _
          rw [left_gone (σ := σ) (w := w) (by rw [hw]; rfl) hwork, h.count]
        · intro hn hn0
          show σ.ndone + 1 < n
          have h1 := h.more hr hn0
          have h2 := hnone hn
          omega
      split at hx
      · rename_i hnn
        cases hx
        exact ⟨p, key (some σ.err) (fun r hrr => by cases hrr; exact ⟨rfl, hnn⟩) (by simp)⟩
      · rename_i hnn
        cases hx
        have := key none (by simp) (fun _ => hnn)
        rw [← hr] at this
        exact ⟨p, this⟩
    · cases hx

theorem RunInv.init (n : Nat) (src : Nat → Inp E) (max : Nat) : RunInv src max 0 (RunSt.start n E) := by
  refine ⟨⟨rfl, Nat.zero_le _⟩, ⟨Nat.zero_le _, by simp⟩, ?_, ?_, ?_, ?_, ?_, ?_, ?_, ?_, ?_, ?_, ?_, ?_, ?_, ?_, ?_⟩
  · simp [RunSt.start]
  · simp [RunSt.start]
  · simp [RunSt.start]
  · simp [RunSt.start]
  · simp [RunSt.start]
  · simp [RunSt.start]
  · simp [RunSt.start]
  · simp [RunSt.start]
  · simp [RunSt.start]
  · simp [RunSt.start]
  · intro e _ _; exact Or.inr (Or.inr rfl)
  · simp [RunSt.start]
  · show 0 = _; simp [RunSt.start, RunSt.left, WSt.isGone]
  · simp [RunSt.start]
  · intro _ hn; exact Nat.pos_of_ne_zero hn

theorem RunInv.run {n : Nat} {src : Nat → Inp E} {max : Nat} : ∀ (es : List (RunEv n E)) {p : Nat} {σ σ' : RunSt n E}, RunInv src max p σ →
    σ.run src max es = some σ' → ∃ p', RunInv src max p' σ'
  | [], p, σ, σ', h, hx => by cases hx; exact ⟨p, h⟩
  | e :: es, p, σ, σ', h, hx => by
    simp only [RunSt.run] at hx
    cases he : σ.exec src max e with
    | none => rw [he] at hx; cases hx
    | some τ =>
      rw [he] at hx
      obtain ⟨p', h'⟩ := h.step he
      exact RunInv.run es h' hx

theorem all_gone {n : Nat} {src : Nat → Inp E} {max p : Nat} {σ : RunSt n E} (h : RunInv src max p σ) (hn : σ.ndone = n) (w : Fin n) :
    σ.work w = .gone := by
  have : σ.left = Finset.univ := by
    apply Finset.eq_univ_of_card; rw [← h.count, hn]; simp
  have hw : w ∈ σ.left := by rw [this]; exact Finset.mem_univ _
  have := (Finset.mem_filter.mp hw).2
  cases hc : σ.work w <;> rw [hc] at this <;> first | rfl | cases this

/-- The number of events is determined by the input. -/
theorem Supplies.unique {src : Nat → Inp E} {max m m' : Nat} (h : Supplies src max m) (h' : Supplies src max m') : m = m' := by
  obtain ⟨a1, a2, a3⟩ := h
  obtain ⟨b1, b2, b3⟩ := h'
  rcases Nat.lt_trichotomy m m' with hl | hl | hl
  · rcases a3 with rfl | a3
    · omega
    · exact absurd (b2 m hl) a3
  · exact hl
  · rcases b3 with rfl | b3
    · omega
    · exact absurd (a2 m' hl) b3

/-- C74: when the event loop of an application with at least one worker returns, every event of the input has been
processed exactly once and nothing else; it returns no error if and only if neither reading the input nor
processing an event failed, and an error which it returns is one which occurred. This is so for all schedules. -/
theorem C74_once {n : Nat} (hn : n ≠ 0) (src : Nat → Inp E) (max m : Nat) (hm : Supplies src max m) (es : List (RunEv n E))
    (σ : RunSt n E) (hx : (RunSt.start n E).run src max es = some σ) (r : Option E) (hr : σ.ret = some r) :
    (σ.log.map Prod.fst).Perm (List.range m) ∧
    (r = none ↔ ∀ e, ¬ Occurred src max m σ.log e) ∧ (∀ e, r = some e → Occurred src max m σ.log e) := by
  obtain ⟨p, h⟩ := RunInv.run es (RunInv.init n src max) hx
  obtain ⟨rfl, hnd⟩ := h.ret r hr
  have hg := all_gone h hnd
  have w0 : Fin n := ⟨0, Nat.pos_of_ne_zero hn⟩
  obtain ⟨hcl, hq⟩ := h.drained w0 (Or.inr (hg w0))
  have hpe := h.closed.mp hcl
  have hk := h.knows
  rw [hpe] at hk
  have hp : m = p := hm.unique ⟨h.before.1, h.before.2, hk.imp id And.right⟩
  subst hp
  have hmem : ∀ i, i ∈ σ.log.map Prod.fst ↔ i < m := by
    intro i
    rw [← h.place i]
    constructor
    · exact Or.inl
    · rintro (h1 | ⟨w, hw⟩ | h1)
      · exact h1
      · rw [hg w] at hw; cases hw
      · rw [hq] at h1; cases h1
  refine ⟨?_, ⟨?_, ?_⟩, h.errFrom⟩
  · rw [List.perm_ext_iff_of_nodup h.logNodup List.nodup_range]
    intro i
    rw [hmem, List.mem_range]
  · rintro hnone e (⟨hlt, hs⟩ | ⟨i, hi⟩)
    · rcases h.inpKept e hlt hs with h1 | h1 | h1
      · exact h1 hnone
      · rw [hpe] at h1; cases h1
      · rw [hpe] at h1; cases h1
    · rcases h.errKept i e hi with h1 | ⟨w, hw⟩
      · exact h1 hnone
      · rw [hg w] at hw; cases hw
  · intro hno
    cases he : σ.err with
    | none => rfl
    | some e => exact absurd (h.errFrom e he) (hno e)

/-- C74: the event loop is never stuck before it returns: as long as it has not returned, something can happen
(the events themselves end, see C49). -/
theorem C74_progress {n : Nat} (hn : n ≠ 0) (src : Nat → Inp E) (max : Nat) (es : List (RunEv n E))
    (σ : RunSt n E) (hx : (RunSt.start n E).run src max es = some σ) (hr : σ.ret = none) :
    ∃ ev, (σ.exec src max ev).isSome = true := by
  obtain ⟨p, h⟩ := RunInv.run es (RunInv.init n src max) hx
  have hidle : ∃ w, σ.work w ≠ .gone := by
    by_contra hc
    have hall : ∀ w, σ.work w = .gone := by
      intro w; by_contra hw; exact hc ⟨w, hw⟩
    have : σ.left.card = n := by
      have : σ.left = Finset.univ := by
        ext w
        unfold RunSt.left
        rw [Finset.mem_filter, hall w]
        simp [WSt.isGone]
      rw [this]; simp
    have h1 := h.more hr hn
    rw [h.count, this] at h1
    exact Nat.lt_irrefl _ h1
  obtain ⟨w, hw⟩ := hidle
  cases hs : σ.work w with
  | gone => exact absurd hs hw
  | busy i => exact ⟨.finish w none, by simp [RunSt.exec, hs]⟩
  | failing e => exact ⟨.werr w, by simp [RunSt.exec, hs, hr]⟩
  | leaving =>
    refine ⟨.done w, ?_⟩
    simp only [RunSt.exec, hs, hr]
    split <;> rfl
  | idle =>
    cases hq : σ.queue with
    | cons i q => exact ⟨.pop w, by simp [RunSt.exec, hs, hq]⟩
    | nil =>
      cases hp : σ.prod with
      | ended => exact ⟨.drained w, by simp [RunSt.exec, hs, hq, h.closed.mpr hp]⟩
      | closing => exact ⟨.close, by simp [RunSt.exec, hp]⟩
      | report e => exact ⟨.perr, by simp [RunSt.exec, hp, hr]⟩
      | send i =>
        refine ⟨.push, ?_⟩
        have : 0 < 2 * n := by omega
        simp [RunSt.exec, RunSt.push, hp, hq, this]
      | read i =>
        refine ⟨.read, ?_⟩
        simp only [RunSt.exec, RunSt.read, hp]
        split
        · split <;> rfl
        · rfl

/-! ### Every run of finitely many events is finite -/

/-- What the producer may still do. -/
def PSt.weight (max : Nat) : PSt E → Nat
  | .read i => 10 * (max - i) + 5
  | .send i => 10 * (max - i) + 4
  | .report _ => 3
  | .closing => 2
  | .ended => 0

/-- What a worker may still do with what it has. -/
def WSt.weight : WSt E → Nat
  | .idle => 2
  | .busy _ => 5
  | .failing _ => 4
  | .leaving => 1
  | .gone => 0

def RunSt.weight {n : Nat} (max : Nat) (σ : RunSt n E) : Nat :=
  σ.prod.weight max + 4 * σ.queue.length + ∑ w, (σ.work w).weight

theorem weight_set {n : Nat} (f : Fin n → WSt E) (w : Fin n) (s : WSt E) :
    (∑ j, ((if j = w then s else f j).weight)) + (f w).weight = (∑ j, (f j).weight) + s.weight := by
  have h1 := Finset.sum_erase_add Finset.univ (fun j => (if j = w then s else f j).weight) (Finset.mem_univ w)
  have h2 := Finset.sum_erase_add Finset.univ (fun j => (f j).weight) (Finset.mem_univ w)
  have h3 : ∑ j ∈ Finset.univ.erase w, (if j = w then s else f j).weight = ∑ j ∈ Finset.univ.erase w, (f j).weight := by
    apply Finset.sum_congr rfl
    intro j hj
    rw [if_neg (Finset.ne_of_mem_erase hj)]
  simp only [if_true] at h1
  omega

theorem w_idle : (WSt.idle : WSt E).weight = 2 := rfl
theorem w_busy (i : Nat) : (WSt.busy i : WSt E).weight = 5 := rfl
theorem w_failing (e : E) : (WSt.failing e).weight = 4 := rfl
theorem w_leaving : (WSt.leaving : WSt E).weight = 1 := rfl
theorem w_gone : (WSt.gone : WSt E).weight = 0 := rfl

set_option linter.unusedSimpArgs false in
theorem weight_step {n : Nat} {src : Nat → Inp E} {max p : Nat} {σ σ' : RunSt n E} {ev : RunEv n E} (h : RunInv src max p σ)
    (hx : σ.exec src max ev = some σ') : σ'.weight max < σ.weight max := by
  have hset : ∀ (τ : RunSt n E) (w : Fin n) (s : WSt E), (∑ j, ((τ.setWork w s).work j).weight) + (τ.work w).weight =
      (∑ j, (τ.work j).weight) + s.weight := fun τ w s => weight_set τ.work w s
  cases ev with
  | read =>
    simp only [RunSt.exec, RunSt.read] at hx
    split at hx
    · rename_i i hp
      split at hx
      · rename_i hlt
        split at hx <;> cases hx <;> simp only [RunSt.weight, PSt.weight, hp] <;> omega
      · cases hx; simp only [RunSt.weight, PSt.weight, hp]; omega
    · cases hx
  | push =>
    simp only [RunSt.exec, RunSt.push] at hx
    split at hx
    · rename_i i hp
      have hk := h.knows
      rw [hp] at hk
      obtain ⟨rfl, hlt, _⟩ := hk
      split at hx
      · cases hx
        simp only [RunSt.weight, PSt.weight, hp, List.length_append, List.length_singleton]
        omega
      · cases hx
    · cases hx
  | perr =>
    simp only [RunSt.exec] at hx
    split at hx
    · rename_i hp _; cases hx; simp only [RunSt.weight, RunSt.record, PSt.weight, hp]; omega
    · cases hx
  | close =>
    simp only [RunSt.exec] at hx
    split at hx
    · rename_i hp; cases hx; simp only [RunSt.weight, PSt.weight, hp]; omega
    · cases hx
  | pop w =>
    simp only [RunSt.exec] at hx
    split at hx
    · rename_i i q hw hq
      cases hx
      have := hset { σ with queue := q } w (.busy i)
      simp only [hw, w_idle, w_busy, w_failing, w_leaving, w_gone] at this
      simp only [RunSt.weight, hq, List.length_cons]
      simp only [RunSt.setWork] at this ⊢
      omega
    · cases hx
  | drained w =>
    simp only [RunSt.exec] at hx
    split at hx
    · rename_i hw _ _
      cases hx
      have := hset σ w .leaving
      simp only [hw, w_idle, w_busy, w_failing, w_leaving, w_gone] at this
      simp only [RunSt.weight]
      simp only [RunSt.setWork] at this ⊢
      omega
    · cases hx
  | finish w r =>
    simp only [RunSt.exec] at hx
    split at hx
    · rename_i i hw
      split at hx
      · cases hx
        have := hset { σ with log := σ.log ++ [(i, none)] } w .idle
        simp only [hw, w_idle, w_busy, w_failing, w_leaving, w_gone] at this
        simp only [RunSt.weight]
        simp only [RunSt.setWork] at this ⊢
        omega
      · rename_i e
        cases hx
        have := hset { σ with log := σ.log ++ [(i, some e)] } w (.failing e)
        simp only [hw, w_idle, w_busy, w_failing, w_leaving, w_gone] at this
        simp only [RunSt.weight]
        simp only [RunSt.setWork] at this ⊢
        omega
    · cases hx
  | werr w =>
    simp only [RunSt.exec] at hx
    split at hx
    · rename_i e hw _
      cases hx
      have := hset (σ.record e) w .idle
      simp only [show (σ.record e).work w = .failing e from hw, w_idle, w_busy, w_failing, w_leaving, w_gone] at this
      simp only [RunSt.weight]
      simp only [RunSt.setWork, RunSt.record] at this ⊢
      omega
    · cases hx
  | done w =>
    simp only [RunSt.exec] at hx
    split at hx
    · rename_i hw _
      split at hx
      · cases hx
        have := hset { σ with ndone := σ.ndone + 1, ret := some σ.err } w .gone
        simp only [hw, w_idle, w_busy, w_failing, w_leaving, w_gone] at this
        simp only [RunSt.weight]
        simp only [RunSt.setWork] at this ⊢
        omega
      · cases hx
        have := hset { σ with ndone := σ.ndone + 1 } w .gone
        simp only [hw, w_idle, w_busy, w_failing, w_leaving, w_gone] at this
        simp only [RunSt.weight]
        simp only [RunSt.setWork] at this ⊢
        omega
    · cases hx

/-- C74: the event loop ends: an execution has at most `10·max + 5 + 2·n` steps, so that (with `C74_progress`) every
schedule leads to the return of the loop. `max` is the limit on the number of events, 2⁶³-1 by default. -/
theorem C74_terminates {n : Nat} (src : Nat → Inp E) (max : Nat) (es : List (RunEv n E))
    (σ : RunSt n E) (hx : (RunSt.start n E).run src max es = some σ) : es.length ≤ 10 * max + 5 + 2 * n := by
  have key : ∀ (es : List (RunEv n E)) {p : Nat} {σ σ' : RunSt n E}, RunInv src max p σ → σ.run src max es = some σ' →
      es.length + σ'.weight max ≤ σ.weight max := by
    intro es
    induction es with
    | nil => intro p σ σ' _ hx; cases hx; simp
    | cons e es ih =>
      intro p σ σ' h hx
      simp only [RunSt.run] at hx
      cases he : σ.exec src max e with
      | none => rw [he] at hx; cases hx
      | some τ =>
        rw [he] at hx
        obtain ⟨p', h'⟩ := h.step he
        have h1 := ih h' hx
        have h2 := weight_step h he
        simp only [List.length_cons]
        omega
  have h1 := key es (RunInv.init n src max) hx
  have h2 : (RunSt.start n E).weight max = 10 * max + 5 + 2 * n := by
    simp only [RunSt.weight, RunSt.start, PSt.weight, WSt.weight, List.length_nil, Finset.sum_const, Finset.card_univ, Fintype.card_fin]
    simp only [Nat.sub_zero, smul_eq_mul]
    omega
  omega

/-! ### Without workers, one event after the other -/

/-- fwk/app.go:532-608 (`runSequential`), when there is at least one task: the results of the events are
given by `proc`; the loop ends with the first error, also when it is the end of the input. The first component
are the events which are processed. -/
def runSequential (src : Nat → Inp E) (proc : Nat → Option E) : (left i : Nat) → List Nat × Option (Inp E)
  | 0, _ => ([], none)
  | left + 1, i =>
    match src i with
    | .ok =>
      match proc i with
      | none => let r := runSequential src proc left (i + 1); (i :: r.1, r.2)
      | some e => ([i], some (.fail e))
    | x => ([], some x)

theorem sequential_prefix (src : Nat → Inp E) (proc : Nat → Option E) : ∀ (left i : Nat),
    ∃ m, m ≤ left ∧ (runSequential src proc left i).1 = List.range' i m ∧ (∀ j < m, src (i + j) = .ok) ∧
      (∀ j, j + 1 < m → proc (i + j) = none) ∧
      ((runSequential src proc left i).2 = none → m = left ∧ ∀ j < m, proc (i + j) = none) ∧
      ((runSequential src proc left i).2 = some .eof → m < left ∧ src (i + m) = .eof ∧ ∀ j < m, proc (i + j) = none) ∧
      (∀ e, (runSequential src proc left i).2 = some (.fail e) → m < left ∧ src (i + m) = .fail e ∨ 0 < m ∧ proc (i + m - 1) = some e) ∧
      (runSequential src proc left i).2 ≠ some .ok := by
  intro left
  induction left with
  | zero => intro i; exact ⟨0, by simp [runSequential]⟩
  | succ left ih =>
    intro i
    cases hs : src i with
    | eof =>
      refine ⟨0, by omega, ?_⟩
      simp [runSequential, hs]
    | fail e =>
      refine ⟨0, by omega, ?_⟩
      simp [runSequential, hs]
    | ok =>
      cases hp : proc i with
      | some e =>
        refine ⟨1, by omega, ?_⟩
        simp only [runSequential, hs, hp]
        refine ⟨by simp, ?_, ?_, ?_, ?_, ?_, by simp⟩
        · intro j hj; obtain rfl : j = 0 := by omega
          exact hs
        · intro j hj; omega
        · simp
        · simp
        · intro e' he
          simp only [Option.some.injEq, Inp.fail.injEq] at he
          right
          exact ⟨by omega, by rw [show i + 1 - 1 = i by omega, hp, he]⟩
      | none =>
        obtain ⟨m, h1, h2, h3, h4, h5, h6, h7, h8⟩ := ih (i + 1)
        have hr : runSequential src proc (left + 1) i = (i :: (runSequential src proc left (i + 1)).1, (runSequential src proc left (i + 1)).2) := by
          simp only [runSequential, hs, hp]
        rw [hr]
        have shift : ∀ j, 0 < j → i + j = i + 1 + (j - 1) := by intro j hj; omega
        refine ⟨m + 1, by omega, ?_, ?_, ?_, ?_, ?_, ?_, h8⟩
        · simp only [h2, List.range'_succ]
        · intro j hj
          rcases Nat.eq_zero_or_pos j with rfl | hj0
          · exact hs
          · rw [shift j hj0]; exact h3 _ (by omega)
        · intro j hj
          rcases Nat.eq_zero_or_pos j with rfl | hj0
          · exact hp
          · rw [shift j hj0]; exact h4 _ (by omega)
        · intro hn
          obtain ⟨a, b⟩ := h5 hn
          refine ⟨by omega, ?_⟩
          intro j hj
          rcases Nat.eq_zero_or_pos j with rfl | hj0
          · exact hp
          · rw [shift j hj0]; exact b _ (by omega)
        · intro hn
          obtain ⟨a, b, c⟩ := h6 hn
          refine ⟨by omega, ?_, ?_⟩
          · rw [shift (m + 1) (by omega)]; exact b
          · intro j hj
            rcases Nat.eq_zero_or_pos j with rfl | hj0
            · exact hp
            · rw [shift j hj0]; exact c _ (by omega)
        · intro e he
          rcases h7 e he with ⟨a, b⟩ | ⟨a, b⟩
          · left
            refine ⟨by omega, ?_⟩
            rw [shift (m + 1) (by omega)]; exact b
          · right
            refine ⟨by omega, ?_⟩
            rw [show i + (m + 1) - 1 = i + 1 + m - 1 by omega]; exact b

/-- C74: without workers the events are processed in order, without gap and each once, up to the end of the input or
the first failure; no error means that all `max` events were processed without failure. -/
theorem C74_sequential (src : Nat → Inp E) (proc : Nat → Option E) (max m : Nat) (hm : Supplies src max m) :
    (∃ k ≤ m, (runSequential src proc max 0).1 = List.range k) ∧
    (((runSequential src proc max 0).2 = none ∨ (runSequential src proc max 0).2 = some .eof) →
      (runSequential src proc max 0).1 = List.range m ∧ ∀ i < m, proc i = none) := by
  obtain ⟨k, h1, h2, h3, _, h5, h6, _, _⟩ := sequential_prefix src proc max 0
  simp only [Nat.zero_add] at h3 h5 h6
  have hr : (runSequential src proc max 0).1 = List.range k := by rw [h2, List.range_eq_range']
  obtain ⟨a1, a2, a3⟩ := hm
  refine ⟨⟨k, ?_, hr⟩, ?_⟩
  · by_contra hc
    rcases a3 with rfl | a3
    · omega
    · exact a3 (h3 m (by omega))
  · rintro (hn | hn)
    · obtain ⟨rfl, b⟩ := h5 hn
      have : m = k := by
        rcases a3 with h | a3
        · exact h
        · rcases Nat.lt_or_eq_of_le a1 with h | h
          · exact absurd (h3 m h) a3
          · exact h
      exact ⟨this ▸ hr, this ▸ b⟩
    · obtain ⟨b0, b1, b2⟩ := h6 hn
      have : m = k := Supplies.unique ⟨a1, a2, a3⟩ ⟨h1, h3, Or.inr (by rw [b1]; simp)⟩
      exact ⟨this ▸ hr, this ▸ b2⟩

/-- C74: the two modes disagree on the end of the input: with workers it is a success, without it is returned as the
error `io.EOF`. (fwk/app.go:344-411 (`Run`) ignores it, fwk/runner.go:60-80 (`irunner.Run`) does not.) -/
theorem C74_eof_counterexample :
    (runSequential (fun i => if i < 2 then Inp.ok else .eof) (fun _ => (none : Option Nat)) 5 0) = ([0, 1], some .eof) ∧
    ((RunSt.start 1 Nat).run (fun i => if i < 2 then Inp.ok else .eof) 5
      [.read, .push, .read, .push, .read, .close, .pop 0, .finish 0 none, .pop 0, .finish 0 none, .drained 0, .done 0]).map RunSt.ret =
      some (some none) := ⟨rfl, rfl⟩

/-- The hypotheses of `C74_once` are met: three events, two workers, the second event fails. -/
example : ∃ σ, (RunSt.start 2 Nat).run (fun i => if i < 3 then Inp.ok else .eof) 9
      [.read, .push, .pop 1, .read, .push, .read, .pop 0, .push, .read, .close, .finish 0 (some 8), .finish 1 none, .pop 1, .werr 0,
        .drained 0, .finish 1 none, .drained 1, .done 1, .done 0] = some σ ∧
    σ.ret = some (some 8) ∧ σ.log = [(1, some 8), (0, none), (2, none)] := ⟨_, rfl, rfl, rfl⟩

example : Supplies (fun i => if i < 3 then Inp.ok else (.eof : Inp Nat)) 9 3 :=
  ⟨by decide, fun i hi => by simp [hi], Or.inr (by simp)⟩

end Verif.Fwk
