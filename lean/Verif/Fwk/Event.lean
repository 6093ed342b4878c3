import Mathlib.Logic.Relation
import Mathlib.Data.Finset.Card
import Mathlib.Data.Fintype.Basic
import Mathlib.Data.DFinsupp.WellFounded

/-!
# One event: the store and the tasks (fwk/store.go, fwk/worker.go)

The tasks of an event run concurrently; they communicate through the event store, which has for each key a
channel of capacity one. `n` is the number of tasks, `K` the keys and `A` the values.
-/

namespace Verif.Fwk

variable {K A : Type} [DecidableEq K]

/-- What a task does in `Process`, as far as the store is concerned: it returns (`true`: an error), or gets or
puts a value, and continues depending on the result (`none` or `false`: the call returned an error).
Tasks which never return are not modelled. -/
inductive Prog (K A : Type)
  | ret (err : Bool)
  | get (k : K) (next : Option A → Prog K A)
  | put (k : K) (v : A) (next : Bool → Prog K A)

/-- The state of the goroutine of a task, fwk/worker.go:135-146 (`taskrunner.run`): it executes `Process`; it is
in `Get` and has taken the value of a key, which it has to put back; it has sent its result to the worker
(the channel has room for all results); the worker has received it. -/
inductive TSt (K A : Type)
  | run (p : Prog K A)
  | hold (k : K) (v : A) (p : Prog K A)
  | fin (err : Bool)
  | gone

/-- The state of an event. `known` are the keys of `datastore.store`; `chan` are the values in their
channels; `quit` says that `datastore.quit` is closed; `ended` is set when the worker is done
with the event (`some true`: with an error); `ndone` as in fwk/worker.go:77-128 (`runTask`). -/
structure EvSt (n : Nat) (K A : Type) where
  known : K → Bool
  chan : K → Option A
  quit : Bool
  task : Fin n → TSt K A
  ndone : Nat
  ended : Option Bool

/-- What can happen: task `i` makes a step; task `i` notices, waiting in `Get` or `Put`, that the store is
closed; the worker receives the result of task `i`. -/
inductive EvEv (n : Nat)
  | step (i : Fin n)
  | quit (i : Fin n)
  | collect (i : Fin n)

def EvSt.setTask {n : Nat} (σ : EvSt n K A) (i : Fin n) (t : TSt K A) : EvSt n K A :=
  { σ with task := fun j => if j = i then t else σ.task j }

def EvSt.setChan {n : Nat} (σ : EvSt n K A) (k : K) (v : Option A) : EvSt n K A :=
  { σ with chan := fun k' => if k' = k then v else σ.chan k' }

/-- fwk/store.go:25-40 (`datastore.Get`): up to the point where the value is taken. -/
def EvSt.getStep {n : Nat} (σ : EvSt n K A) (i : Fin n) (k : K) (next : Option A → Prog K A) : Option (EvSt n K A) :=
  if σ.known k then
    match σ.chan k with
    | some v => some ((σ.setChan k none).setTask i (.hold k v (next (some v))))
    | none => none
  else some (σ.setTask i (.run (next none)))

/-- fwk/store.go:25-40 (`datastore.Get`): the value is put back, `ch <- v`. -/
def EvSt.backStep {n : Nat} (σ : EvSt n K A) (i : Fin n) (k : K) (v : A) (p : Prog K A) : Option (EvSt n K A) :=
  match σ.chan k with
  | none => some ((σ.setChan k (some v)).setTask i (.run p))
  | some _ => none

/-- fwk/store.go:42-49 (`datastore.Put`). The channel of an unknown key is `nil`: sending blocks. -/
def EvSt.putStep {n : Nat} (σ : EvSt n K A) (i : Fin n) (k : K) (v : A) (next : Bool → Prog K A) : Option (EvSt n K A) :=
  if σ.known k then
    match σ.chan k with
    | none => some ((σ.setChan k (some v)).setTask i (.run (next true)))
    | some _ => none
  else none

/-- A step of a task; `none` if it is blocked or has ended. -/
def EvSt.taskStep {n : Nat} (σ : EvSt n K A) (i : Fin n) : Option (EvSt n K A) :=
  match σ.task i with
  | .run (.ret e) => some (σ.setTask i (.fin e))
  | .run (.get k next) => σ.getStep i k next
  | .run (.put k v next) => σ.putStep i k v next
  | .hold k v p => σ.backStep i k v p
  | .fin _ => none
  | .gone => none

/-- The cases `<-ds.quit` of fwk/store.go:25-49 (`Get`, `Put`). -/
def EvSt.quitStep {n : Nat} (σ : EvSt n K A) (i : Fin n) : Option (EvSt n K A) :=
  match σ.quit, σ.task i with
  | true, .run (.get _ next) => some (σ.setTask i (.run (next none)))
  | true, .run (.put _ _ next) => some (σ.setTask i (.run (next false)))
  | _, _ => none

/-- The loop of fwk/worker.go:77-128 (`runTask`): the worker receives a result. -/
def EvSt.collectStep {n : Nat} (σ : EvSt n K A) (i : Fin n) : Option (EvSt n K A) :=
  match σ.ended, σ.task i with
  | none, .fin true => some { σ.setTask i .gone with ndone := σ.ndone + 1, quit := true, ended := some true }
  | none, .fin false =>
    if σ.ndone + 1 = n then some { σ.setTask i .gone with ndone := σ.ndone + 1, quit := true, ended := some false }
    else some { σ.setTask i .gone with ndone := σ.ndone + 1 }
  | _, _ => none

def EvSt.exec {n : Nat} (σ : EvSt n K A) : EvEv n → Option (EvSt n K A)
  | .step i => σ.taskStep i
  | .quit i => σ.quitStep i
  | .collect i => σ.collectStep i

def EvSt.run {n : Nat} (σ : EvSt n K A) : List (EvEv n) → Option (EvSt n K A)
  | [] => some σ
  | e :: es => (σ.exec e).bind fun σ' => σ'.run es

/-- The start of an event, fwk/worker.go:77-128 (`runTask`): `input` is what the input stream put in the
store (fwk/app.go:624-661, in `runConcurrent`, and fwk/store.go:67-86 (`reset`)). -/
def EvSt.start {n : Nat} (known : K → Bool) (input : K → Option A) (progs : Fin n → Prog K A) : EvSt n K A :=
  ⟨known, input, false, fun i => .run (progs i), 0, none⟩

/-! ## C48 -/

/-- What is observed when an event happens: a `Put` or a `Get` of task `i` is successful. -/
inductive Obs (n : Nat) (K A : Type)
  | put (i : Fin n) (k : K) (v : A)
  | got (i : Fin n) (k : K) (v : A)

/-- The value is sent by `Put`, or returned by `Get`. -/
def EvSt.obs {n : Nat} (σ : EvSt n K A) : EvEv n → List (Obs n K A)
  | .step i =>
    match σ.task i with
    | .run (.put k v _) => if (σ.exec (.step i)).isSome then [.put i k v] else []
    | .hold k v _ => if (σ.exec (.step i)).isSome then [.got i k v] else []
    | _ => []
  | _ => []

/-- The observations during an execution. -/
def EvSt.log {n : Nat} (σ : EvSt n K A) : List (EvEv n) → List (Obs n K A)
  | [] => []
  | e :: es => σ.obs e ++ ((σ.exec e).map fun σ' => σ'.log es).getD []

/-- Where the values are: in the channels and with the tasks inside `Get`. -/
def EvSt.Has {n : Nat} (σ : EvSt n K A) (k : K) (v : A) : Prop :=
  σ.chan k = some v ∨ ∃ i p, σ.task i = .hold k v p

omit [DecidableEq K] in
theorem setTask_task {n : Nat} (σ : EvSt n K A) (i j : Fin n) (t : TSt K A) :
    (σ.setTask i t).task j = if j = i then t else σ.task j := rfl

/-- A value in the store after a step was there before, or was put by the step. -/
theorem has_step {n : Nat} {σ σ' : EvSt n K A} {e : EvEv n} (h : σ.exec e = some σ') {k : K} {v : A} (hh : σ'.Has k v) :
    σ.Has k v ∨ ∃ i, Obs.put i k v ∈ σ.obs e := by
  have keep : ∀ {τ : EvSt n K A}, τ.Has k v → ∀ (i : Fin n) (t : TSt K A), (∀ k v p, t ≠ .hold k v p) → τ.chan = σ.chan →
      (∀ j, τ.task j = if j = i then t else σ.task j) → σ.Has k v := by
    intro τ hτ i t ht hc htk
    rcases hτ with hτ | ⟨j, p, hj⟩
    · exact Or.inl (hc ▸ hτ)
    · rw [htk] at hj
      split at hj
      · exact absurd hj (ht k v p)
      · exact Or.inr ⟨j, p, hj⟩
  cases e with
  | step i =>
    simp only [EvSt.exec] at h
    cases ht : σ.task i with
    | run p =>
      cases p with
      | ret e =>
        simp only [EvSt.taskStep, ht] at h
        cases h
        exact Or.inl (keep hh i (.fin e) (by simp) rfl (fun _ => rfl))
      | get k' next =>
        simp only [EvSt.taskStep, ht, EvSt.getStep] at h
        split at h
        · split at h
          · rename_i w hw
            cases h
            left
            rcases hh with hh | ⟨j, p, hj⟩
            · simp only [EvSt.setTask, EvSt.setChan] at hh
              split at hh
              · cases hh
              · exact Or.inl hh
            · rw [setTask_task] at hj
              split at hj
              · cases hj; exact Or.inl hw
              · exact Or.inr ⟨j, p, hj⟩
          · cases h
        · cases h
          exact Or.inl (keep hh i (.run (next none)) (by simp) rfl (fun _ => rfl))
      | put k' w next =>
        have hobs : σ.obs (.step i) = [.put i k' w] := by
          simp only [EvSt.obs, ht, EvSt.exec, h, Option.isSome_some, if_true]
        simp only [EvSt.taskStep, ht, EvSt.putStep] at h
        split at h
        · split at h
          · cases h
            rcases hh with hh | ⟨j, p, hj⟩
            · simp only [EvSt.setTask, EvSt.setChan] at hh
              split at hh
              · rename_i hk
                cases hh
                exact Or.inr ⟨i, by rw [hobs, hk]; simp⟩
              · exact Or.inl (Or.inl hh)
            · rw [setTask_task] at hj
              split at hj
              · cases hj
              · exact Or.inl (Or.inr ⟨j, p, hj⟩)
          · cases h
        · cases h
    | hold k' w p =>
      simp only [EvSt.taskStep, ht, EvSt.backStep] at h
      split at h
      · cases h
        left
        rcases hh with hh | ⟨j, q, hj⟩
        · simp only [EvSt.setTask, EvSt.setChan] at hh
          split at hh
          · rename_i hk
            cases hh
            exact Or.inr ⟨i, p, by rw [hk]; exact ht⟩
          · exact Or.inl hh
        · rw [setTask_task] at hj
          split at hj
          · cases hj
          · exact Or.inr ⟨j, q, hj⟩
      · cases h
    | fin e => simp only [EvSt.taskStep, ht] at h; cases h
    | gone => simp only [EvSt.taskStep, ht] at h; cases h
  | quit i =>
    simp only [EvSt.exec, EvSt.quitStep] at h
    split at h
    · rename_i next _ _
      cases h
      exact Or.inl (keep hh i (.run (next none)) (by simp) rfl (fun _ => rfl))
    · rename_i next _ _
      cases h
      exact Or.inl (keep hh i (.run (next false)) (by simp) rfl (fun _ => rfl))
    · cases h
  | collect i =>
    simp only [EvSt.exec, EvSt.collectStep] at h
    split at h
    · cases h
      exact Or.inl (keep hh i (.gone) (by simp) rfl (fun _ => rfl))
    · split at h
      · cases h
        exact Or.inl (keep hh i (.gone) (by simp) rfl (fun _ => rfl))
      · cases h
        exact Or.inl (keep hh i (.gone) (by simp) rfl (fun _ => rfl))
    · cases h

/-- A value got is in the store. -/
theorem got_has {n : Nat} {σ : EvSt n K A} {e : EvEv n} {i : Fin n} {k : K} {v : A} (h : Obs.got i k v ∈ σ.obs e) :
    σ.Has k v := by
  cases e with
  | step j =>
    simp only [EvSt.obs] at h
    split at h
    · split at h <;> simp at h
    · rename_i heq
      split at h
      · simp only [List.mem_singleton, Obs.got.injEq] at h
        obtain ⟨rfl, rfl, rfl⟩ := h
        exact Or.inr ⟨_, _, heq⟩
      · cases h
    · cases h
  | quit j => cases h
  | collect j => cases h

/-- C48: in every execution, from any state: whatever `Get` returns for a key was put before, or was in the store
at the start. -/
theorem got_was_put {n : Nat} : ∀ (es : List (EvEv n)) (σ : EvSt n K A) (pre post : List (Obs n K A)) (i : Fin n) (k : K) (v : A),
    σ.log es = pre ++ Obs.got i k v :: post → σ.Has k v ∨ ∃ j, Obs.put j k v ∈ pre
  | [], σ, pre, post, i, k, v, h => by
    have := congrArg List.length h
    simp [EvSt.log] at this
  | e :: es, σ, pre, post, i, k, v, h => by
    simp only [EvSt.log] at h
    rcases List.append_eq_append_iff.mp h with ⟨a, rfl, ha⟩ | ⟨c, hc, hpost⟩
    · cases hx : σ.exec e with
      | none => rw [hx] at ha; simp at ha
      | some σ' =>
        rw [hx] at ha
        rcases got_was_put es σ' a post i k v ha with hh | ⟨j, hj⟩
        · rcases has_step hx hh with h1 | ⟨j, hj⟩
          · exact Or.inl h1
          · exact Or.inr ⟨j, by simp [hj]⟩
        · exact Or.inr ⟨j, by simp [hj]⟩
    · cases c with
      | nil =>
        simp only [List.append_nil] at hc
        simp only [List.nil_append] at hpost
        cases hx : σ.exec e with
        | none => rw [hx] at hpost; simp at hpost
        | some σ' =>
          rw [hx] at hpost
          rcases got_was_put es σ' [] post i k v (by simpa using hpost.symm) with hh | ⟨j, hj⟩
          · rcases has_step hx hh with h1 | ⟨j, hj⟩
            · exact Or.inl h1
            · exact Or.inr ⟨j, by rw [← hc]; exact hj⟩
          · cases hj
      | cons o c =>
        simp only [List.cons_append, List.cons.injEq] at hpost
        obtain ⟨rfl, _⟩ := hpost
        exact Or.inl (got_has (e := e) (i := i) (by rw [hc]; exact List.mem_append_right _ List.mem_cons_self))

/-- C48: for every interleaving of the tasks of an event: if a key which was not filled by the input is put at most
once, each completed `Get` of the key returns the value which was put, and comes after the `Put`. -/
theorem C48_value {n : Nat} (known : K → Bool) (input : K → Option A) (progs : Fin n → Prog K A) (es : List (EvEv n))
    (k : K) (hk : input k = none) (pre post : List (Obs n K A)) (i : Fin n) (v : A)
    (hl : (EvSt.start known input progs).log es = pre ++ Obs.got i k v :: post) :
    (∃ j, Obs.put j k v ∈ pre) ∧
    ((∀ j j' w w' a b c, (EvSt.start known input progs).log es ≠ a ++ Obs.put j k w :: (b ++ Obs.put j' k w' :: c)) →
      ∀ j w, Obs.put j k w ∈ (EvSt.start known input progs).log es → w = v) := by
  have h := got_was_put es _ pre post i k v hl
  rcases h with h | ⟨j, hj⟩
  · rcases h with h | ⟨j, p, h⟩
    · rw [EvSt.start] at h; simp only [hk] at h; cases h
    · rw [EvSt.start] at h; cases h
  · refine ⟨⟨j, hj⟩, fun hone j' w hw => ?_⟩
    have hj' : Obs.put j k v ∈ (EvSt.start known input progs).log es := by rw [hl]; simp [hj]
    obtain ⟨a, b, hab⟩ := List.append_of_mem hj'
    rw [hab] at hw
    rcases List.mem_append.mp hw with hw | hw
    · obtain ⟨a1, a2, rfl⟩ := List.append_of_mem hw
      exact absurd (by rw [hab]; simp) (hone j' j w v a1 a2 b)
    · rcases List.mem_cons.mp hw with hw | hw
      · cases hw; rfl
      · obtain ⟨b1, b2, rfl⟩ := List.append_of_mem hw
        exact absurd hab (hone j j' v w a b1 b2)

/-- One task puts, two get. -/
def sharedProgs : Fin 3 → Prog Nat Nat
  | 0 => .put 7 42 fun _ => .ret false
  | _ => .get 7 fun _ => .ret false

example : (EvSt.start (fun _ => true) (fun _ => none) sharedProgs).log
    [.step 0, .step 2, .step 2, .step 1, .step 0, .collect 0, .step 1] = [.put 0 7 42, .got 2 7 42, .got 1 7 42] := rfl

end Verif.Fwk
