import Verif.Xrootd.Handler

/-!
# Model and properties of the client's sessions and the multiplexer (C38, C39, C73)

The goroutines waiting for responses (`send`), those reading connections (`consume`) and the
multiplexer, as a machine with one event per atomic step.
-/

namespace Verif.Xrootd

/-! ## Stream ids -/

/-- xrootd/internal/mux/mux.go:117-140 (`New`): the next number of the generator. -/
def nextID (i : Nat) : Nat := (i + 1) % 65025

/-- xrootd/internal/mux/mux.go:161-182 (`Claim`): the stream id of a number. -/
def streamID (i : Nat) : UInt8 × UInt8 := (UInt8.ofNat (i / 256), UInt8.ofNat i)

/-- xrootd/internal/mux/mux.go:161-182 (`Claim`): numbers are drawn from the generator, which is at `i`,
until one is free; `fuel` bounds the number of draws. -/
def claimID (claimed : UInt8 × UInt8 → Bool) : Nat → Nat → Option (UInt8 × UInt8)
  | 0, _ => none
  | fuel + 1, i => if claimed (streamID i) then claimID claimed fuel (nextID i) else some (streamID i)

/-! ## The machine -/

/-- xrootd/internal/mux/mux.go:55-59 (`ServerResponse`): data, or an error or a redirection (a number). -/
inductive Msg
  | data (d : Bytes)
  | stop (x : Nat)

/-- What happens when `SendData` finds no request with the stream id: the reading goroutine panics, the
message is skipped, or the goroutine ends. -/
inductive Missing
  | panic
  | skip
  | quit

/-- What a reading goroutine still has to do. -/
inductive Act (I : Type)
  | send (id : I) (m : Msg) (missing : Missing)
  | unclaim (id : I)

/-- The result of `send`. -/
inductive Outcome
  | full (d : Bytes)
  | stopped (x : Nat)
  | cancelled

/-- A request: not yet sent; waiting for responses with the data so far; its channel was closed; `send` returned. -/
inductive ReqSt (I : Type)
  | idle
  | waiting (id : I) (acc : Bytes)
  | closing (acc : Bytes)
  | done (o : Outcome)

/-- `owner` is the map `dataWaiters` of xrootd/internal/mux/mux.go:108-114 (`Mux`), with requests in place of
their channels; `lock` is the goroutine which is inside `SendData`; `prog` is what the goroutine of
each connection still has to do. -/
structure Net (I : Type) where
  owner : I → Option Nat
  lock : Option Nat
  prog : Nat → List (Act I)
  req : Nat → ReqSt I
  crashed : Bool

/-- A response: partial data (`OkSoFar`), the last data, an error or a redirection, or a request to wait (for
a request known to the session; one unknown to it is an error). -/
inductive Reply
  | part (d : Bytes)
  | final (d : Bytes)
  | fail (x : Nat)
  | wait

/-- The atomic steps. -/
inductive Ev (I : Type)
  | claim (r : Nat) (id : I)
  | recv (c : Nat) (id : I) (a : Reply)
  | lost (c : Nat) (pending claimed : List I) (last : Option (I × Bool))
  | cancel (r : Nat)
  | lock (c : Nat)
  | deliver (c : Nat)
  | unclaim (c : Nat)
  | finish (r : Nat)

/-- xrootd/session.go:221-272 (`consume`): what follows from a response. -/
def replyActs {I : Type} (id : I) : Reply → List (Act I)
  | .part d => [.send id (.data d) .panic]
  | .final d => [.send id (.data d) .panic, .unclaim id]
  | .fail x => [.send id (.stop x) .panic, .unclaim id]
  | .wait => []

/-- xrootd/session.go:173-188 (`handleReadError`) for a session other than the first one: the requests
`pending` of the session are redirected, the multiplexer is closed (xrootd/internal/mux/mux.go:143-158 (`Close`);
`claimed` are the ids found in its map, none for a sub-session), and xrootd/session.go:221-272 (`consume`)
goes on with the header it has, that of `last` (whether it is final), and no data. -/
def lostActs {I : Type} (pending claimed : List I) (last : Option (I × Bool)) : List (Act I) :=
  pending.map (fun id => .send id (.stop 0) .skip) ++
  (claimed.map fun id => [.send id (.stop 1) .skip, .unclaim id]).flatten ++
  match last with
  | none => []
  | some (id, true) => [.send id (.data []) .quit, .unclaim id]
  | some (id, false) => [.send id (.data []) .quit]

variable {I : Type} [DecidableEq I]

def setReq (σ : Net I) (r : Nat) (s : ReqSt I) : Nat → ReqSt I := fun r' => if r' = r then s else σ.req r'
def setProg (σ : Net I) (c : Nat) (p : List (Act I)) : Nat → List (Act I) := fun c' => if c' = c then p else σ.prog c'
def setOwner (σ : Net I) (id : I) (o : Option Nat) : I → Option Nat := fun i => if i = id then o else σ.owner i

/-- The start: no request. -/
def Net.start : Net I := ⟨fun _ => none, none, fun _ => [], fun _ => .idle, false⟩

/-- xrootd/internal/mux/mux.go:214-225 (`SendData`), before the channel operation. -/
def Net.lockStep (σ : Net I) (c : Nat) : Option (Net I) :=
  match σ.lock, σ.prog c with
  | none, .send id _ missing :: rest =>
    match σ.owner id with
    | some _ => some { σ with lock := some c }
    | none =>
      match missing with
      | .panic => some { σ with crashed := true }
      | .skip => some { σ with prog := setProg σ c rest }
      | .quit => some { σ with prog := setProg σ c [] }
  | _, _ => none

/-- What xrootd/session.go:304-341 (`send`) makes of a message. -/
def receive (id : I) (acc : Bytes) : Msg → ReqSt I
  | .data d => .waiting id (acc ++ d)
  | .stop x => .done (.stopped x)

/-- xrootd/internal/mux/mux.go:214-225 (`SendData`): the channel operation, which needs the owner to receive in
xrootd/session.go:304-341 (`send`). -/
def Net.deliverStep (σ : Net I) (c : Nat) : Option (Net I) :=
  if σ.lock = some c then
    match σ.prog c with
    | .send id m _ :: rest =>
      match σ.owner id with
      | none => none
      | some r =>
        match σ.req r with
        | .waiting id' acc => some { σ with lock := none, prog := setProg σ c rest, req := setReq σ r (receive id' acc m) }
        | _ => none
    | _ => none
  else none

/-- Closing the channel of a request. -/
def closeReq : ReqSt I → ReqSt I
  | .waiting _ acc => .closing acc
  | s => s

/-- xrootd/internal/mux/mux.go:203-211 (`Unclaim`). -/
def Net.unclaimStep (σ : Net I) (c : Nat) : Option (Net I) :=
  match σ.lock, σ.prog c with
  | none, .unclaim id :: rest =>
    match σ.owner id with
    | none => some { σ with prog := setProg σ c rest }
    | some r => some { σ with prog := setProg σ c rest, owner := setOwner σ id none, req := setReq σ r (closeReq (σ.req r)) }
  | _, _ => none

/-- xrootd/internal/mux/mux.go:161-182 (`Claim`) or xrootd/internal/mux/mux.go:185-200 (`ClaimWithID`) by a new request. -/
def Net.claimStep (σ : Net I) (r : Nat) (id : I) : Option (Net I) :=
  match σ.lock, σ.owner id, σ.req r with
  | none, none, .idle => some { σ with owner := setOwner σ id (some r), req := setReq σ r (.waiting id []) }
  | _, _, _ => none

/-- xrootd/session.go:304-341 (`send`): the context is cancelled. -/
def Net.cancelStep (σ : Net I) (r : Nat) : Option (Net I) :=
  match σ.req r with
  | .waiting _ _ => some { σ with req := setReq σ r (.done .cancelled) }
  | .closing _ => some { σ with req := setReq σ r (.done .cancelled) }
  | _ => none

/-- xrootd/session.go:304-341 (`send`): the channel is closed. -/
def Net.finishStep (σ : Net I) (r : Nat) : Option (Net I) :=
  match σ.req r with
  | .closing acc => some { σ with req := setReq σ r (.done (.full acc)) }
  | _ => none

/-- A goroutine which has nothing left to do reads from its connection. -/
def Net.readStep (σ : Net I) (c : Nat) (acts : List (Act I)) : Option (Net I) :=
  match σ.prog c with
  | [] => some { σ with prog := setProg σ c acts }
  | _ => none

/-- One step, if it is possible. -/
def Net.exec (σ : Net I) (e : Ev I) : Option (Net I) :=
  if σ.crashed then none else
  match e with
  | .claim r id => σ.claimStep r id
  | .recv c id a => σ.readStep c (replyActs id a)
  | .lost c pending claimed last => σ.readStep c (lostActs pending claimed last)
  | .cancel r => σ.cancelStep r
  | .lock c => σ.lockStep c
  | .deliver c => σ.deliverStep c
  | .unclaim c => σ.unclaimStep c
  | .finish r => σ.finishStep r

/-- Any number of steps. -/
def Net.run (σ : Net I) : List (Ev I) → Option (Net I)
  | [] => some σ
  | e :: es => match σ.exec e with
    | none => none
    | some σ' => σ'.run es

theorem run_append (σ : Net I) (es fs : List (Ev I)) : σ.run (es ++ fs) = (σ.run es).bind (·.run fs) := by
  induction es generalizing σ with
  | nil => rfl
  | cons e es ih =>
    simp only [List.cons_append, Net.run]
    cases σ.exec e with
    | none => rfl
    | some σ' => exact ih σ'

/-- Induction over the last step. -/
theorem run_induction {P : List (Ev I) → Net I → Prop} (h0 : P [] Net.start)
    (h1 : ∀ es e σ σ', Net.start.run es = some σ → P es σ → σ.exec e = some σ' → P (es ++ [e]) σ') :
    ∀ es σ, Net.start.run es = some σ → P es σ := by
  intro es
  induction hn : es.length generalizing es with
  | zero =>
    intro σ h
    have : es = [] := List.eq_nil_of_length_eq_zero hn
    subst this
    cases h; exact h0
  | succ n ih =>
    intro σ h
    obtain ⟨es', e, rfl⟩ : ∃ es' e, es = es' ++ [e] := by
      have hne : es ≠ [] := by intro hc; rw [hc] at hn; cases hn
      exact ⟨es.dropLast, es.getLast hne, (List.dropLast_concat_getLast hne).symm⟩
    rw [run_append] at h
    cases hr : Net.start.run es' with
    | none => rw [hr] at h; cases h
    | some σ0 =>
      rw [hr] at h
      simp only [Option.bind_some, Net.run] at h
      cases he : σ0.exec e with
      | none => rw [he] at h; cases h
      | some σ' =>
        rw [he] at h
        simp only [Option.some.injEq] at h
        subst h
        have hl : es'.length = n := by simpa using hn
        exact h1 es' e σ0 _ hr (ih es' hl σ0 hr) he

/-! ### C38 -/

/-- Owners of stream ids and waiting requests correspond. -/
structure OwnInv (σ : Net I) : Prop where
  waiting : ∀ r id acc, σ.req r = .waiting id acc → σ.owner id = some r
  live : ∀ id r, σ.owner id = some r → σ.req r ≠ .idle
  same : ∀ id r id' acc, σ.owner id = some r → σ.req r = .waiting id' acc → id = id'
  once : ∀ id id' r, σ.owner id = some r → σ.owner id' = some r → id = id'
  notClosing : ∀ id r acc, σ.owner id = some r → σ.req r ≠ .closing acc ∧ σ.req r ≠ .done (.full acc)

omit [DecidableEq I] in
theorem ownInv_start : OwnInv (Net.start : Net I) := by
  refine ⟨?_, ?_, ?_, ?_, ?_⟩ <;> intros <;> simp_all [Net.start]

theorem ownInv_exec {σ σ' : Net I} (hi : OwnInv σ) {e : Ev I} (h : σ.exec e = some σ') : OwnInv σ' := by
  unfold Net.exec at h
  split at h
  · cases h
  rename_i hcr
  obtain ⟨h1, h2, h3, h4, h5⟩ := hi
  cases e with
  | claim r id =>
    simp only [Net.claimStep] at h
    split at h
    · rename_i _ _ _ hl ho hq
      cases h
      have hno : ∀ i, σ.owner i ≠ some r := fun i hc => h2 i r hc hq
      refine ⟨?_, ?_, ?_, ?_, ?_⟩
      · intro r' i acc hw
        simp only [setReq, setOwner] at hw ⊢
        by_cases hr : r' = r
        · rw [if_pos hr] at hw; cases hw; rw [if_pos rfl, hr]
        · rw [if_neg hr] at hw
          have := h1 r' i acc hw
          rw [if_neg]
          · exact this
          · rintro rfl; rw [ho] at this; cases this
      · intro i r' hw
        simp only [setReq, setOwner] at hw ⊢
        by_cases hr : r' = r
        · rw [if_pos hr]; simp
        · rw [if_neg hr]
          by_cases hi : i = id
          · rw [if_pos hi] at hw; cases hw; exact absurd rfl hr
          · rw [if_neg hi] at hw; exact h2 i r' hw
      · intro i r' i' acc hw hq'
        simp only [setReq, setOwner] at hw hq'
        by_cases hi : i = id
        · rw [if_pos hi] at hw; cases hw; rw [if_pos rfl] at hq'; cases hq'; exact hi
        · rw [if_neg hi] at hw
          have hr : r' ≠ r := by rintro rfl; exact hno i hw
          rw [if_neg hr] at hq'; exact h3 i r' i' acc hw hq'
      · intro i i' r' hw hw'
        simp only [setOwner] at hw hw'
        by_cases hi : i = id <;> by_cases hi' : i' = id
        · rw [hi, hi']
        · rw [if_pos hi] at hw; rw [if_neg hi'] at hw'; cases hw; exact absurd hw' (hno i')
        · rw [if_neg hi] at hw; rw [if_pos hi'] at hw'; cases hw'; exact absurd hw (hno i)
        · rw [if_neg hi] at hw; rw [if_neg hi'] at hw'; exact h4 i i' r' hw hw'
      · intro i r' acc hw
        simp only [setReq, setOwner] at hw ⊢
        by_cases hr : r' = r
        · rw [if_pos hr]; simp
        · rw [if_neg hr]
          by_cases hi : i = id
          · rw [if_pos hi] at hw; cases hw; exact absurd rfl hr
          · rw [if_neg hi] at hw; exact h5 i r' acc hw
    · cases h
  | recv c id a =>
    simp only [Net.readStep] at h
    split at h
    · cases h; exact ⟨h1, h2, h3, h4, h5⟩
    · cases h
  | lost c p cl l =>
    simp only [Net.readStep] at h
    split at h
    · cases h; exact ⟨h1, h2, h3, h4, h5⟩
    · cases h
  | cancel r =>
    have key : OwnInv { σ with req := setReq σ r (.done .cancelled) } := by
      refine ⟨?_, ?_, ?_, h4, ?_⟩
      · intro r' i acc hw
        simp only [setReq] at hw
        split at hw
        · cases hw
        · exact h1 r' i acc hw
      · intro i r' hw
        simp only [setReq]
        split
        · simp
        · exact h2 i r' hw
      · intro i r' i' acc hw hq
        simp only [setReq] at hq
        split at hq
        · cases hq
        · exact h3 i r' i' acc hw hq
      · intro i r' acc hw
        simp only [setReq]
        split
        · simp
        · exact h5 i r' acc hw
    simp only [Net.cancelStep] at h
    split at h
    · cases h; exact key
    · cases h; exact key
    · cases h
  | lock c =>
    simp only [Net.lockStep] at h
    split at h
    · split at h
      · cases h; exact ⟨h1, h2, h3, h4, h5⟩
      · split at h <;> cases h <;> exact ⟨h1, h2, h3, h4, h5⟩
    · cases h
  | deliver c =>
    simp only [Net.deliverStep] at h
    split at h
    · split at h
      · rename_i id m _ rest _
        split at h
        · cases h
        · rename_i r ho
          split at h
          · rename_i id' acc hq
            cases h
            refine ⟨?_, ?_, ?_, h4, ?_⟩
            · intro r' i acc' hw
              simp only [setReq] at hw
              by_cases hr : r' = r
              · rw [if_pos hr] at hw
                cases m with
                | data d => simp only [receive] at hw; cases hw; rw [hr]; exact h1 r _ _ hq
                | stop x => simp only [receive] at hw; cases hw
              · rw [if_neg hr] at hw; exact h1 r' i acc' hw
            · intro i r' hw
              simp only [setReq]
              by_cases hr : r' = r
              · rw [if_pos hr]; cases m <;> simp [receive]
              · rw [if_neg hr]; exact h2 i r' hw
            · intro i r' i' acc' hw hq'
              simp only [setReq] at hq'
              by_cases hr : r' = r
              · rw [if_pos hr] at hq'
                cases m with
                | data d => simp only [receive] at hq'; cases hq'; rw [hr] at hw; exact h3 i r _ _ hw hq
                | stop x => simp only [receive] at hq'; cases hq'
              · rw [if_neg hr] at hq'; exact h3 i r' i' acc' hw hq'
            · intro i r' acc' hw
              simp only [setReq]
              by_cases hr : r' = r
              · rw [if_pos hr]; cases m <;> simp [receive]
              · rw [if_neg hr]; exact h5 i r' acc' hw
          · cases h
      · cases h
    · cases h
  | unclaim c =>
    simp only [Net.unclaimStep] at h
    split at h
    · rename_i _ _ id rest _ _
      split at h
      · cases h; exact ⟨h1, h2, h3, h4, h5⟩
      · rename_i r ho
        cases h
        refine ⟨?_, ?_, ?_, ?_, ?_⟩
        · intro r' i acc hw
          simp only [setReq, setOwner] at hw ⊢
          by_cases hr : r' = r
          · rw [if_pos hr] at hw
            cases hq : σ.req r <;> rw [hq] at hw <;> simp [closeReq] at hw
          · rw [if_neg hr] at hw
            have := h1 r' i acc hw
            rw [if_neg]
            · exact this
            · rintro rfl; rw [ho] at this; cases this; exact hr rfl
        · intro i r' hw
          simp only [setReq, setOwner] at hw ⊢
          split at hw
          · cases hw
          · rename_i hi
            have hr : r' ≠ r := by rintro rfl; exact hi (h4 i id r' hw ho)
            rw [if_neg hr]; exact h2 i r' hw
        · intro i r' i' acc hw hq
          simp only [setReq, setOwner] at hw hq
          split at hw
          · cases hw
          · rename_i hi
            have hr : r' ≠ r := by rintro rfl; exact hi (h4 i id r' hw ho)
            rw [if_neg hr] at hq; exact h3 i r' i' acc hw hq
        · intro i i' r' hw hw'
          simp only [setOwner] at hw hw'
          split at hw
          · cases hw
          · split at hw'
            · cases hw'
            · exact h4 i i' r' hw hw'
        · intro i r' acc hw
          simp only [setReq, setOwner] at hw ⊢
          split at hw
          · cases hw
          · rename_i hi
            have hr : r' ≠ r := by rintro rfl; exact hi (h4 i id r' hw ho)
            rw [if_neg hr]; exact h5 i r' acc hw
    · cases h
  | finish r =>
    simp only [Net.finishStep] at h
    split at h
    · rename_i acc hq
      cases h
      have hno : ∀ i, σ.owner i ≠ some r := fun i hc => (h5 i r acc hc).1 hq
      refine ⟨?_, ?_, ?_, h4, ?_⟩
      · intro r' i acc' hw
        simp only [setReq] at hw
        split at hw
        · cases hw
        · exact h1 r' i acc' hw
      · intro i r' hw
        simp only [setReq]
        split
        · simp
        · exact h2 i r' hw
      · intro i r' i' acc' hw hq'
        simp only [setReq] at hq'
        split at hq'
        · cases hq'
        · exact h3 i r' i' acc' hw hq'
      · intro i r' acc' hw
        simp only [setReq]
        rw [if_neg (by rintro rfl; exact hno i hw)]
        exact h5 i r' acc' hw
    · cases h

theorem ownInv_run (es : List (Ev I)) (σ : Net I) (h : Net.start.run es = some σ) : OwnInv σ :=
  run_induction (P := fun _ σ => OwnInv σ) ownInv_start (fun _ _ _ _ _ hi he => ownInv_exec hi he) es σ h

/-- C38: whatever happens in any order (including cancellations and lost connections), two requests waiting for
responses never have the same stream id. -/
theorem C38_unique (es : List (Ev I)) (σ : Net I) (h : Net.start.run es = some σ) (r r' : Nat) (id : I) (acc acc' : Bytes)
    (h1 : σ.req r = .waiting id acc) (h2 : σ.req r' = .waiting id acc') : r = r' := by
  have hi := ownInv_run es σ h
  have a := hi.waiting r id acc h1
  have b := hi.waiting r' id acc' h2
  rw [a] at b
  exact Option.some.inj b

/-- C38: a message for a stream id changes the request waiting with this id, and no other one: data are added to
its data, and an error or redirection ends it. -/
theorem C38_own_request (es : List (Ev I)) (σ σ' : Net I) (h : Net.start.run es = some σ) (c : Nat) (id : I) (m : Msg)
    (missing : Missing) (rest : List (Act I)) (hp : σ.prog c = .send id m missing :: rest)
    (hd : σ.exec (.deliver c) = some σ') :
    ∃ r acc, σ.req r = .waiting id acc ∧ (∀ r', r' ≠ r → σ'.req r' = σ.req r') ∧
      (∀ d, m = .data d → σ'.req r = .waiting id (acc ++ d)) ∧ (∀ x, m = .stop x → σ'.req r = .done (.stopped x)) := by
  have hi := ownInv_run es σ h
  unfold Net.exec at hd
  split at hd
  · cases hd
  simp only [Net.deliverStep, hp] at hd
  split at hd
  · split at hd
    · cases hd
    · rename_i r ho
      split at hd
      · rename_i id' acc hq
        cases hd
        have he := hi.same id r id' acc ho hq
        subst he
        refine ⟨r, acc, hq, ?_, ?_, ?_⟩
        · intro r' hr; simp [setReq, hr]
        · rintro d rfl; simp [setReq, receive]
        · rintro x rfl; simp [setReq, receive]
      · cases hd
  · cases hd

/-- C38: as long as one of the 65025 stream ids is free, `Claim` finds a free one, wherever the generator is. -/
theorem C38_claim (claimed : UInt8 × UInt8 → Bool) (i k : Nat) (hi : i < 65025) (hk : k < 65025)
    (hf : claimed (streamID k) = false) : ∃ id, claimID claimed 65025 i = some id ∧ claimed id = false := by
  have key : ∀ (n fuel i : Nat), i < 65025 → n < fuel → (i + n) % 65025 = k →
      ∃ id, claimID claimed fuel i = some id ∧ claimed id = false := by
    intro n
    induction n with
    | zero =>
      intro fuel i hi hn he
      cases fuel with
      | zero => omega
      | succ fuel =>
        have : i = k := by omega
        subst this
        exact ⟨streamID i, by simp [claimID, hf], hf⟩
    | succ n ih =>
      intro fuel i hi hn he
      cases fuel with
      | zero => omega
      | succ fuel =>
        unfold claimID
        cases hc : claimed (streamID i) with
        | false => exact ⟨streamID i, by simp, hc⟩
        | true =>
          rw [if_pos rfl]
          refine ih fuel (nextID i) (by unfold nextID; omega) (by omega) ?_
          unfold nextID
          omega
  exact key ((k + 65025 - i) % 65025) 65025 i hi (by omega) (by omega)

/-- The numbers of the generator are different stream ids. -/
theorem C38_streamID_injective (i j : Nat) (hi : i < 65025) (hj : j < 65025) (h : streamID i = streamID j) : i = j := by
  unfold streamID at h
  have h1 := congrArg (fun p => p.1.toNat) h
  have h2 := congrArg (fun p => p.2.toNat) h
  simp at h1 h2
  omega

example : (Net.start.run [.claim 1 (0 : Nat), .claim 2 1, .recv 7 1 (.part [5]), .lock 7, .deliver 7]).map (fun σ => σ.owner 1)
    = some (some 2) := by decide

end Verif.Xrootd
