/-
C122: the rows of a query (groot/rsql/rsqldrv/driver.go:505-647): a goroutine
reads the tree, and `Next` takes the rows from it one at a time.
-/
import Verif.Rsql.Expr

namespace Verif.Rsql

/-- What one entry of the tree becomes (groot/rsql/rsqldrv/driver.go:531-567):
`skip` an entry the filter rejects, `row` a row, `fail` an error (of the filter,
of the row expression, or of the reader itself), `crash` a filter whose value is
not a boolean, which panics in the goroutine and so ends the process. -/
inductive Judge (β : Type)
  | skip | row (v : β) | fail | crash

/-- The value of the row expression, line 557. -/
def rowOf {F32 F64 : Type} (fl : Floats F32 F64) (sel : Expr F32 F64) (r : Row F32 F64) : Judge (Val F32 F64) :=
  match eval fl r sel with
  | none => .fail
  | some v => .row v

/-- groot/rsql/rsqldrv/driver.go:531-562: the filter, then the row. -/
def judge {F32 F64 : Type} (fl : Floats F32 F64) (filter : Option (Expr F32 F64)) (sel : Expr F32 F64)
    (r : Row F32 F64) : Judge (Val F32 F64) :=
  match filter with
  | none => rowOf fl sel r
  | some f =>
    match eval fl r f with
    | none => .fail
    | some (.bool false) => .skip
    | some (.bool true) => rowOf fl sel r
    | some _ => .crash

/-- The results of `Next`. -/
inductive Got (β : Type)
  | row (v : β) | eof | err
  deriving DecidableEq

/-- Where the reading goroutine is: in the loop over the entries (`run`),
sending a row (line 571), waiting for the consumer to be done with it (line
572), sending the end (lines 576 and 579), or gone, with the channel closed. -/
inductive Prod (β : Type)
  | run | send (v : β) | wait | fin (failed : Bool) | gone
  deriving DecidableEq

/-- Where the consumer is: outside `Next`, receiving inside `Next` (line 598), or
dead by the panic of `close` of a nil channel (line 595). -/
inductive Cons
  | idle | recv | broken
  deriving DecidableEq

/-- The row kept between two calls to `Next`: none yet (`Entry` is -1), a row,
or the end (whose `Entry` is 0 and whose `done` is nil). -/
inductive Held
  | fresh | row | last
  deriving DecidableEq

/-- The state of a query. -/
structure Q (α β : Type) where
  /-- number of entries read so far -/
  n : Nat
  /-- the variables the reader fills, shared with the rows -/
  buf : Option α
  pc : Prod β
  cons : Cons
  held : Held
  /-- whether the `done` channel of the last row sent is closed -/
  done : Bool
  /-- what `Next` returned so far -/
  out : List (Got β)
  /-- the process died in the goroutine -/
  dead : Bool

/-- The steps: `next` is a call to `Next`; the other ones are internal. -/
inductive Act
  | next | read | hand | wake | finish | closed
  deriving DecidableEq

/-- groot/rsql/rsqldrv/driver.go:524-528: the state `start` leaves. -/
def start (α β : Type) : Q α β := ⟨0, none, .run, .idle, .fresh, false, [], false⟩

/-- groot/rsql/rsqldrv/driver.go:593-596: `Next` up to the receive. -/
def callNext {α β : Type} (s : Q α β) : Option (Q α β) :=
  if s.cons = .idle then
    match s.held with
    | .fresh => some { s with cons := .recv }
    | .row => some { s with cons := .recv, done := true }
    | .last => some { s with cons := .broken }
  else none

/-- The loop of the reader: the next entry goes to the variables and is judged. -/
def readEntry {α β : Type} (j : α → Judge β) (l : List α) (s : Q α β) : Option (Q α β) :=
  match s.pc with
  | .run =>
    match l[s.n]? with
    | none => some { s with pc := .fin false }
    | some x =>
      match j x with
      | .skip => some { s with n := s.n + 1, buf := some x }
      | .row v => some { s with n := s.n + 1, buf := some x, pc := .send v }
      | .fail => some { s with n := s.n + 1, buf := some x, pc := .fin true }
      | .crash => some { s with n := s.n + 1, buf := some x, dead := true }
  | _ => none

/-- Lines 564-571 with 598 and 610-628: a row goes through the channel, with a new `done` channel. -/
def hand {α β : Type} (s : Q α β) : Option (Q α β) :=
  match s.pc, s.cons with
  | .send v, .recv =>
    some { s with pc := .wait, done := false, cons := .idle, held := .row, out := s.out ++ [.row v] }
  | _, _ => none

/-- Line 572: the consumer is done with the row. -/
def wake {α β : Type} (s : Q α β) : Option (Q α β) :=
  match s.pc, s.done with
  | .wait, true => some { s with pc := .run }
  | _, _ => none

/-- Lines 574-579 with 598-609: the end goes through the channel, which is then closed. -/
def finish {α β : Type} (s : Q α β) : Option (Q α β) :=
  match s.pc, s.cons with
  | .fin e, .recv =>
    some { s with pc := .gone, cons := .idle, held := .last, out := s.out ++ [if e then .err else .eof] }
  | _, _ => none

/-- Lines 600-602: receiving from the closed channel. -/
def closed {α β : Type} (s : Q α β) : Option (Q α β) :=
  match s.pc, s.cons with
  | .gone, .recv => some { s with cons := .idle, held := .last, out := s.out ++ [.eof] }
  | _, _ => none

/-- One step.  Nothing happens any more once the process is dead. -/
def step {α β : Type} (j : α → Judge β) (l : List α) (s : Q α β) (a : Act) : Option (Q α β) :=
  if s.dead then none
  else
    match a with
    | .next => callNext s
    | .read => readEntry j l s
    | .hand => hand s
    | .wake => wake s
    | .finish => finish s
    | .closed => closed s

/-- The states reached from `start`. -/
inductive Reach {α β : Type} (j : α → Judge β) (l : List α) : Q α β → Prop
  | start : Reach j l (start α β)
  | step {s t : Q α β} (a : Act) : Reach j l s → step j l s a = some t → Reach j l t

/-- A sequence of internal steps. -/
inductive Internal {α β : Type} (j : α → Judge β) (l : List α) : Q α β → Nat → Q α β → Prop
  | refl (s : Q α β) : Internal j l s 0 s
  | step {s t u : Q α β} {k : Nat} (a : Act) : a ≠ .next → step j l s a = some t → Internal j l t k u →
      Internal j l s (k + 1) u

/-! ### The specification -/

/-- An entry without error. -/
def Judge.fine {β : Type} : Judge β → Bool
  | .skip => true
  | .row _ => true
  | _ => false

/-- The row of an entry. -/
def Judge.val? {β : Type} : Judge β → Option β
  | .row v => some v
  | _ => none

/-- The rows before the first entry in error, in order. -/
def rowsOf {α β : Type} (j : α → Judge β) (l : List α) : List β :=
  (l.takeWhile fun x => (j x).fine).filterMap fun x => (j x).val?

/-- How the query ends. -/
def ending {α β : Type} (j : α → Judge β) (l : List α) : List (Got β) :=
  match l.find? fun x => !(j x).fine with
  | none => [.eof]
  | some x => match j x with
    | .crash => []
    | _ => [.err]

/-- All that `Next` returns. -/
def expected {α β : Type} (j : α → Judge β) (l : List α) : List (Got β) :=
  (rowsOf j l).map .row ++ ending j l

section
variable {α β : Type} (j : α → Judge β)

theorem expected_nil : expected j [] = [.eof] := rfl

theorem expected_skip {x : α} (l : List α) (h : j x = .skip) : expected j (x :: l) = expected j l := by
  simp [expected, rowsOf, ending, h, Judge.fine, Judge.val?]

theorem expected_row {x : α} {v : β} (l : List α) (h : j x = .row v) :
    expected j (x :: l) = .row v :: expected j l := by
  simp [expected, rowsOf, ending, h, Judge.fine, Judge.val?]

theorem expected_fail {x : α} (l : List α) (h : j x = .fail) : expected j (x :: l) = [.err] := by
  simp [expected, rowsOf, ending, h, Judge.fine]

theorem expected_crash {x : α} (l : List α) (h : j x = .crash) : expected j (x :: l) = [] := by
  simp [expected, rowsOf, ending, h, Judge.fine]

/-- What is still to come, by the place of the goroutine. -/
def todo (l : List α) (s : Q α β) : List (Got β) :=
  match s.pc with
  | .run => if s.dead then [] else expected j (l.drop s.n)
  | .send v => .row v :: expected j (l.drop s.n)
  | .wait => expected j (l.drop s.n)
  | .fin e => [if e then .err else .eof]
  | .gone => []

/-- The invariant. -/
structure Inv (l : List α) (s : Q α β) : Prop where
  out : s.out ++ todo j l s = expected j l
  le : s.n ≤ l.length
  dead : s.dead = true → s.pc = .run
  /-- between two calls the variables still hold the entry of the row just returned -/
  fresh : s.held = .row → s.done = false →
    s.pc = .wait ∧ s.cons = .idle ∧ ∃ x v, s.buf = some x ∧ j x = .row v ∧ s.out.getLast? = some (.row v)
  sent : ∀ v, s.pc = .send v → ∃ x, s.buf = some x ∧ j x = .row v
  start : s.held = .fresh → s.pc ≠ .wait ∧ s.out = []
  waiting : s.pc = .wait → s.held = .row
  closing : s.cons = .recv → s.held = .row → s.done = true
  last : s.held = .last ↔ s.pc = .gone
  lastIdle : s.held = .last → s.cons ≠ .recv
  broken : s.cons = .broken → s.held = .last
  rows : s.held ≠ .last → Got.eof ∉ s.out ∧ Got.err ∉ s.out

theorem inv_start (l : List α) : Inv j l (start α β) where
  out := by simp [start, todo]
  le := Nat.zero_le _
  dead := fun h => by cases h
  fresh := fun h => by cases h
  sent := fun v h => by cases h
  start := fun _ => ⟨by simp [Rsql.start], rfl⟩
  waiting := fun h => by cases h
  closing := fun h => by cases h
  last := by simp [Rsql.start]
  lastIdle := fun h => by cases h
  broken := fun h => by cases h
  rows := fun _ => ⟨List.not_mem_nil, List.not_mem_nil⟩

theorem inv_step {l : List α} {s t : Q α β} {a : Act} (hi : Inv j l s) (h : step j l s a = some t) :
    Inv j l t := by
  obtain ⟨h1, h2, h3, h4, h5, h6, h7, h8, h9, h10, h11, h12⟩ := hi
  unfold step at h
  split at h
  · cases h
  rename_i hd
  simp only [Bool.not_eq_true] at hd
  cases a with
  | next =>
    simp only [callNext] at h
    split at h
    · rename_i hc
      split at h
      · rename_i hh
        cases h
        exact ⟨h1, h2, h3, fun a _ => by simp_all, h5, fun _ => h6 hh, h7, fun _ e => by simp_all, h9,
          fun e => by simp_all, fun e => by simp_all, h12⟩
      · rename_i hh
        cases h
        exact ⟨h1, h2, h3, fun _ e => by simp_all, h5, fun e => by simp_all, h7, fun _ _ => rfl, h9,
          fun e => by simp_all, fun e => by simp_all, h12⟩
      · rename_i hh
        cases h
        exact ⟨h1, h2, h3, fun e => by simp_all, h5, fun e => by simp_all, h7, fun e => by simp_all, h9,
          fun _ e => by simp_all, fun _ => hh, h12⟩
    · cases h
  | read =>
    simp only [readEntry] at h
    split at h
    · rename_i hp
      have hnl : s.held ≠ .last := fun e => by have := h9.mp e; simp_all
      have hfr : s.held = .row → s.done = true := by
        intro e
        cases hdn : s.done with
        | true => rfl
        | false => have := (h4 e hdn).1; simp_all
      split at h
      · rename_i hx
        cases h
        have hn : l.drop s.n = [] := List.drop_eq_nil_of_le (List.getElem?_eq_none_iff.mp hx)
        refine ⟨?_, h2, fun e => by simp_all, fun e e' => by simp_all, fun v e => by simp_all,
          fun e => ⟨by simp, (h6 e).2⟩, fun e => by simp_all, h8, ?_, h10, h11, h12⟩
        · simp only [todo, hp, hd, hn, expected_nil, Bool.false_eq_true, if_false] at h1 ⊢
          exact h1
        · simp [hnl]
      · rename_i x hx
        obtain ⟨hlt, hget⟩ := List.getElem?_eq_some_iff.mp hx
        have hdrop : l.drop s.n = x :: l.drop (s.n + 1) := by
          rw [List.drop_eq_getElem_cons hlt, hget]
        simp only [todo, hp, hd, Bool.false_eq_true, if_false, hdrop] at h1
        split at h
        · rename_i hj
          cases h
          rw [expected_skip j _ hj] at h1
          refine ⟨?_, hlt, fun e => by simp_all, fun e e' => by simp_all, fun v e => by simp_all,
            fun e => ⟨by simp_all, (h6 e).2⟩, fun e => by simp_all, h8, by simp_all, h10, h11, h12⟩
          simp only [todo, hp, hd, Bool.false_eq_true, if_false]
          exact h1
        · rename_i v hj
          cases h
          rw [expected_row j _ hj] at h1
          refine ⟨h1, hlt, fun e => by simp_all, fun e e' => by simp_all,
            fun v' e => ⟨x, rfl, by cases e; exact hj⟩,
            fun e => ⟨by simp, (h6 e).2⟩, fun e => by simp_all, h8, by simp_all, h10, h11, h12⟩
        · rename_i hj
          cases h
          rw [expected_fail j _ hj] at h1
          exact ⟨h1, hlt, fun e => by simp_all, fun e e' => by simp_all, fun v e => by simp_all,
            fun e => ⟨by simp, (h6 e).2⟩, fun e => by simp_all, h8, by simp_all, h10, h11, h12⟩
        · rename_i hj
          cases h
          rw [expected_crash j _ hj] at h1
          refine ⟨?_, hlt, fun _ => hp, fun e e' => by simp_all, fun v e => by simp_all,
            fun e => ⟨by simp_all, (h6 e).2⟩, fun e => by simp_all, h8, by simp_all, h10, h11, h12⟩
          simp only [todo, hp, if_true]
          exact h1
    · cases h
  | hand =>
    simp only [hand] at h
    split at h
    · rename_i v hp hc
      cases h
      have hnl : s.held ≠ .last := fun e => by have := h9.mp e; simp_all
      obtain ⟨x, hb, hj⟩ := h5 v hp
      refine ⟨?_, h2, fun e => by simp_all, fun _ _ => ⟨rfl, rfl, x, v, hb, hj, by simp⟩,
        fun v e => by simp_all, fun e => by simp_all, fun _ => rfl, fun e => by simp_all, by simp,
        fun e => by simp_all, fun e => by simp_all, fun _ => ?_⟩
      · simp only [todo, hp] at h1
        simp only [todo, List.append_assoc, List.singleton_append]
        exact h1
      · have := h12 hnl
        simp [this]
    · cases h
  | wake =>
    simp only [wake] at h
    split at h
    · rename_i hw hw'
      cases h
      have hh := h7 hw
      refine ⟨?_, h2, fun _ => rfl, fun e e' => by simp_all, fun v e => by simp_all,
        fun e => by simp_all, fun e => by simp_all, h8, by simp_all, h10, h11, h12⟩
      simp only [todo, hw] at h1
      simp only [todo, hd, Bool.false_eq_true, if_false]
      exact h1
    · cases h
  | finish =>
    simp only [finish] at h
    split at h
    · rename_i e hp hc
      cases h
      refine ⟨?_, h2, fun e => by simp_all, fun e => by simp_all, fun v e => by simp_all,
        fun e => by simp_all, fun e => by simp_all, fun e => by simp_all, by simp, fun _ => by simp,
        fun e => by simp_all, fun e => by simp_all⟩
      simp only [todo, hp] at h1
      simp only [todo, List.append_nil]
      exact h1
    · cases h
  | closed =>
    simp only [closed] at h
    split at h
    · rename_i hw hw'
      exact absurd hw' (h10 (h9.mpr hw))
    · cases h

theorem inv_reach {l : List α} {s : Q α β} (h : Reach j l s) : Inv j l s := by
  induction h with
  | start => exact inv_start j l
  | step a _ hs ih => exact inv_step j ih hs

/-- **C122.** Whatever the interleaving of the goroutine and of the consumer: what `Next` returned
so far is a beginning of the rows of the entries the filter keeps, in the order
of the tree, followed by the end of the file or the first error. -/
theorem C122_rows {l : List α} {s : Q α β} (h : Reach j l s) : s.out <+: expected j l :=
  ⟨todo j l s, (inv_reach j h).out⟩

/-- Between a row and the next call its `done` channel is open. -/
theorem reach_idle {l : List α} {s : Q α β} (h : Reach j l s) : s.held = .row → s.cons = .idle → s.done = false := by
  induction h with
  | start => intro hr; cases hr
  | @step s t a _ hs ih =>
    unfold step at hs
    split at hs
    · cases hs
    cases a with
    | next =>
      simp only [callNext] at hs
      split at hs
      · split at hs <;> cases hs <;> simp
      · cases hs
    | read =>
      simp only [readEntry] at hs
      split at hs
      · split at hs
        · cases hs; exact ih
        · split at hs <;> cases hs <;> exact ih
      · cases hs
    | hand => simp only [hand] at hs; split at hs <;> cases hs; simp
    | wake => simp only [wake] at hs; split at hs <;> cases hs; exact ih
    | finish => simp only [finish] at hs; split at hs <;> cases hs; simp
    | closed => simp only [closed] at hs; split at hs <;> cases hs; simp

/-- **C122.** A row stays valid until the next call to `Next`: between the two calls the goroutine
waits, and the variables it shares with the row still hold the entry of the row. -/
theorem C122_row_stays {l : List α} {s : Q α β} (h : Reach j l s) (hr : s.held = .row)
    (hc : s.cons = .idle) :
    ∃ x v, s.buf = some x ∧ j x = .row v ∧ s.out.getLast? = some (.row v) ∧
      ∀ a t, a ≠ .next → step j l s a ≠ some t := by
  have hd := reach_idle j h hr hc
  obtain ⟨hp, _, x, v, hb, hj, hl⟩ := (inv_reach j h).fresh hr hd
  refine ⟨x, v, hb, hj, hl, ?_⟩
  intro a t ha hs
  unfold step at hs
  split at hs
  · cases hs
  cases a <;> simp_all [readEntry, hand, wake, finish, closed]

/-- The work left. -/
def work (l : List α) (s : Q α β) : Nat :=
  4 * (l.length - s.n) + (match s.pc with
    | .run => 2
    | .send _ => 4
    | .wait => 3
    | .fin _ => 1
    | .gone => 0) + (if s.dead then 0 else 1)

theorem work_step {l : List α} {s t : Q α β} {a : Act} (hi : Inv j l s) (ha : a ≠ .next)
    (h : step j l s a = some t) : work l t < work l s := by
  unfold step at h
  split at h
  · cases h
  rename_i hd
  simp only [Bool.not_eq_true] at hd
  cases a with
  | next => exact absurd rfl ha
  | read =>
    simp only [readEntry] at h
    split at h
    · rename_i hp
      split at h
      · cases h; simp [work, hp]
      · rename_i x hx
        have hlt := (List.getElem?_eq_some_iff.mp hx).1
        split at h <;> cases h <;> simp only [work, hp, hd] <;> simp <;> omega
    · cases h
  | hand =>
    simp only [hand] at h
    split at h
    · rename_i v hp hc
      cases h; simp [work, hp]
    · cases h
  | wake =>
    simp only [wake] at h
    split at h
    · rename_i hw hw'
      cases h; simp [work, hw]
    · cases h
  | finish =>
    simp only [finish] at h
    split at h
    · rename_i e hp hc
      cases h; simp [work, hp]
    · cases h
  | closed =>
    simp only [closed] at h
    split at h
    · rename_i hw hw'
      exact absurd hw' (hi.lastIdle (hi.last.mpr hw))
    · cases h

theorem reach_internal {l : List α} {s t : Q α β} {k : Nat} (h : Reach j l s) (hi : Internal j l s k t) :
    Reach j l t := by
  induction hi with
  | refl => exact h
  | step a _ hs _ ih => exact ih (h.step a hs)

/-- **C122.** A call to `Next` is answered: the internal steps are finitely many, and as long as
`Next` has no answer (and the process lives) one of them is possible. -/
theorem C122_next_answers {l : List α} {s t : Q α β} {k : Nat} (h : Reach j l s) (hi : Internal j l s k t) :
    k ≤ work l s ∧
      (t.cons = .recv → t.dead = false → ∃ a u, a ≠ .next ∧ step j l t a = some u) := by
  constructor
  · have : ∀ {s t : Q α β} {k : Nat}, Internal j l s k t → Reach j l s → k ≤ work l s := by
      intro s t k hi
      induction hi with
      | refl => intro _; exact Nat.zero_le _
      | step a ha hs _ ih =>
        intro hr
        have := work_step j (inv_reach j hr) ha hs
        have := ih (hr.step a hs)
        omega
    exact this hi h
  · intro hc hd
    have hv := inv_reach j (reach_internal j h hi)
    cases hp : t.pc with
    | run =>
      cases hx : l[t.n]? with
      | none => exact ⟨.read, _, by simp, by simp only [step, hd, readEntry, hp, hx]; rfl⟩
      | some x =>
        cases hj : j x with
        | skip => exact ⟨.read, _, by simp, by simp only [step, hd, readEntry, hp, hx, hj]; rfl⟩
        | row v => exact ⟨.read, _, by simp, by simp only [step, hd, readEntry, hp, hx, hj]; rfl⟩
        | fail => exact ⟨.read, _, by simp, by simp only [step, hd, readEntry, hp, hx, hj]; rfl⟩
        | crash => exact ⟨.read, _, by simp, by simp only [step, hd, readEntry, hp, hx, hj]; rfl⟩
    | send v => exact ⟨.hand, _, by simp, by simp only [step, hd, hand, hp, hc]; rfl⟩
    | wait =>
      have hh := hv.waiting hp
      have hdn := hv.closing hc hh
      exact ⟨.wake, _, by simp, by simp only [step, hd, wake, hp, hdn]; rfl⟩
    | fin e => exact ⟨.finish, _, by simp, by simp only [step, hd, finish, hp, hc]; rfl⟩
    | gone => exact absurd hc (hv.lastIdle (hv.last.mpr hp))

/-- **C122.** When `Next` returned the end or an error, everything was returned and the goroutine
is gone. -/
theorem C122_end {l : List α} {s : Q α β} (h : Reach j l s) (he : Got.eof ∈ s.out ∨ Got.err ∈ s.out) :
    s.out = expected j l ∧ s.pc = .gone := by
  have hv := inv_reach j h
  have hl : s.held = .last := by
    by_contra hne
    obtain ⟨h1, h2⟩ := hv.rows hne
    exact he.elim h1 h2
  have hp := hv.last.mp hl
  refine ⟨?_, hp⟩
  have := hv.out
  simp only [todo, hp, List.append_nil] at this
  exact this

/-- **C122.** `Next` does not panic before it returned the end or an error. -/
theorem C122_no_panic {l : List α} {s : Q α β} (h : Reach j l s) (hb : s.cons = .broken) :
    s.out = expected j l ∧ s.pc = .gone := by
  have hv := inv_reach j h
  have hp := hv.last.mp (hv.broken hb)
  refine ⟨?_, hp⟩
  have := hv.out
  simp only [todo, hp, List.append_nil] at this
  exact this

/-- **C122, what fails.** One more call after the end panics, instead of returning the end again. -/
theorem C122_after_end_counterexample {l : List α} {s : Q α β} (h : Reach j l s)
    (he : Got.eof ∈ s.out ∨ Got.err ∈ s.out) (hc : s.cons = .idle) :
    step j l s .next = some { s with cons := .broken } := by
  have hv := inv_reach j h
  have hp := (C122_end j h he).2
  have hl := hv.last.mpr hp
  have hd : s.dead = false := by
    cases hd : s.dead with
    | false => rfl
    | true => have := hv.dead hd; rw [hp] at this; cases this
  simp [step, hd, callNext, hc, hl]

/-- **C122, what fails.** A query which is given up after a row (rows closed early, or a
single-row query): nothing the goroutine could do is possible any more, so it is never gone. -/
theorem C122_leak_counterexample {l : List α} {s t : Q α β} {k : Nat} (h : Reach j l s) (hr : s.held = .row)
    (hc : s.cons = .idle) (hi : Internal j l s k t) : t = s ∧ t.pc = .wait := by
  have hd := reach_idle j h hr hc
  obtain ⟨hp, _⟩ := (inv_reach j h).fresh hr hd
  cases hi with
  | refl => exact ⟨rfl, hp⟩
  | step a ha hs _ =>
    obtain ⟨_, _, _, _, _, hno⟩ := C122_row_stays j h hr hc
    exact absurd hs (hno a _ ha)

/-! ### The rows of `SELECT ... WHERE ...` -/

end

/-- **C122.** When the condition and the row expression have values on every entry, the rows are
those of the entries for which the condition is true, in order, and the query ends without error. -/
theorem C122_where {F32 F64 : Type} (fl : Floats F32 F64) (filter sel : Expr F32 F64) (l : List (Row F32 F64))
    (p : Row F32 F64 → Bool) (f : Row F32 F64 → Val F32 F64)
    (hp : ∀ r ∈ l, eval fl r filter = some (.bool (p r)))
    (hf : ∀ r ∈ l, p r = true → eval fl r sel = some (f r)) :
    expected (judge fl (some filter) sel) l = ((l.filter p).map fun r => Got.row (f r)) ++ [.eof] := by
  induction l with
  | nil => rfl
  | cons r l ih =>
    have ih := ih (fun r hr => hp r (List.mem_cons_of_mem _ hr)) (fun r hr => hf r (List.mem_cons_of_mem _ hr))
    have h1 := hp r List.mem_cons_self
    cases hpr : p r with
    | false =>
      rw [hpr] at h1
      rw [expected_skip _ _ (by simp [judge, h1]), ih, List.filter_cons_of_neg (by simp [hpr])]
    | true =>
      rw [hpr] at h1
      rw [expected_row _ (v := f r) _ (by simp [judge, h1, rowOf, hf r List.mem_cons_self hpr]), ih,
        List.filter_cons_of_pos hpr]
      rfl

/-- **C122.** An entry on which the condition has no value, or which is kept and whose row
expression has none, ends the query with an error, after the rows of the entries before it. -/
theorem C122_errors {F32 F64 : Type} (fl : Floats F32 F64) (filter sel : Expr F32 F64) (l l' : List (Row F32 F64))
    (x : Row F32 F64) (p : Row F32 F64 → Bool) (f : Row F32 F64 → Val F32 F64)
    (hp : ∀ r ∈ l, eval fl r filter = some (.bool (p r)))
    (hf : ∀ r ∈ l, p r = true → eval fl r sel = some (f r))
    (hx : eval fl x filter = none ∨ (eval fl x filter = some (.bool true) ∧ eval fl x sel = none)) :
    expected (judge fl (some filter) sel) (l ++ x :: l') = ((l.filter p).map fun r => Got.row (f r)) ++ [.err] := by
  induction l with
  | nil =>
    refine expected_fail _ _ ?_
    rcases hx with hx | ⟨hx, hy⟩
    · simp [judge, hx]
    · simp [judge, hx, rowOf, hy]
  | cons r l ih =>
    have ih := ih (fun r hr => hp r (List.mem_cons_of_mem _ hr)) (fun r hr => hf r (List.mem_cons_of_mem _ hr))
    have h1 := hp r List.mem_cons_self
    rw [List.cons_append]
    cases hpr : p r with
    | false =>
      rw [hpr] at h1
      rw [expected_skip _ _ (by simp [judge, h1]), ih, List.filter_cons_of_neg (by simp [hpr])]
    | true =>
      rw [hpr] at h1
      rw [expected_row _ (v := f r) _ (by simp [judge, h1, rowOf, hf r List.mem_cons_self hpr]), ih,
        List.filter_cons_of_pos hpr]
      rfl

example (fl : Floats Unit Unit) : expected (judge fl (some (.ident ['k'])) (.ident ['v']))
    [fun n => if n = ['k'] then some (.bool true) else some (.str []), fun _ => some (.bool false), fun _ => none,
      fun _ => some (.bool true)] = [.row (.str []), .err] := rfl

/-- **C122.** With a condition on integer columns whose numbers fit their types: a query read to its end
returned exactly the entries for which the condition is true. -/
theorem C122_condition {F32 F64 : Type} (fl : Floats F32 F64) (args : List (Arg F64)) (c : Cond)
    (Γ : List Char → Ty) (ρ : Row F32 F64 → List Char → Int) (l : List (Row F32 F64))
    (hrow : ∀ r ∈ l, Holds Γ (ρ r) r ∧ c.Fits Γ (ρ r)) (name : List Char) {filter : Expr F32 F64}
    (hc : newExpr fl args c.sql = .ok filter) {s : Q (Row F32 F64) (Val F32 F64)}
    (h : Reach (judge fl (some filter) (.ident name)) l s) (he : Got.eof ∈ s.out ∨ Got.err ∈ s.out) :
    ∃ p : Row F32 F64 → Bool, (∀ r ∈ l, p r = true ↔ c.den (ρ r)) ∧
      s.out = ((l.filter p).map fun r => Got.row ((Γ name).val (ρ r name))) ++ [.eof] := by
  classical
  refine ⟨fun r => decide (c.den (ρ r)), fun r _ => by simp, ?_⟩
  rw [(C122_end _ h he).1]
  apply C122_where
  · intro r hr
    obtain ⟨e, he1, b, he2, he3⟩ := C121_condition fl args (hrow r hr).1 c (hrow r hr).2
    rw [hc] at he1
    cases he1
    rw [he2]
    congr 2
    cases b with
    | true => exact (decide_eq_true (he3.mp rfl)).symm
    | false => exact (decide_eq_false (fun x => by simpa using he3.mpr x)).symm
  · intro r hr _
    simp only [eval]
    exact ((hrow r hr).1 name).1

/-- **C122, what fails.** A condition which is not a boolean (`WHERE 1`, `WHERE x`) is accepted, and the
first entry ends the whole process by a panic in the goroutine. -/
theorem C122_not_boolean_counterexample {F32 F64 : Type} (fl : Floats F32 F64) (sel : Expr F32 F64)
    (r : Row F32 F64) (l : List (Row F32 F64)) :
    newExpr fl [] (.intLit ['1']) = .ok (.value (Ty.val .ii 1)) ∧
      ∃ s, step (judge fl (some (.value (Ty.val .ii 1))) sel) (r :: l) (start _ _) .read = some s ∧ s.dead = true :=
  ⟨rfl, ⟨_, rfl, rfl⟩⟩

/-! ### Examples -/

/-- Even numbers kept, 9 an error. -/
def exJudge (n : Nat) : Judge Nat := if n = 9 then .fail else if n % 2 = 0 then .row n else .skip

example : expected exJudge [1, 2, 3, 4, 9, 6] = [.row 2, .row 4, .err] := by decide

/-- The steps one after another. -/
def steps {α β : Type} (j : α → Judge β) (l : List α) (s : Q α β) : List Act → Option (Q α β)
  | [] => some s
  | a :: as => (step j l s a).bind fun t => steps j l t as

theorem reach_steps {α β : Type} {j : α → Judge β} {l : List α} {s t : Q α β} (h : Reach j l s) (as : List Act)
    (hs : steps j l s as = some t) : Reach j l t := by
  induction as generalizing s with
  | nil => cases hs; exact h
  | cons a as ih =>
    simp only [steps, Option.bind_eq_some_iff] at hs
    obtain ⟨u, hu, hs⟩ := hs
    exact ih (h.step a hu) hs

/-- The first row is out, the goroutine waits. -/
def exState : Q Nat Nat := ⟨2, some 2, .wait, .idle, .row, false, [.row 2], false⟩

theorem exState_reach : Reach exJudge [1, 2, 3, 4] exState :=
  reach_steps .start [.read, .next, .read, .hand] (by rfl)

example : exState.out <+: [.row 2, .row 4, .eof] := C122_rows exJudge exState_reach

example : ∃ x v, exState.buf = some x ∧ exJudge x = .row v ∧ exState.out.getLast? = some (.row v) ∧
    ∀ a t, a ≠ .next → step exJudge [1, 2, 3, 4] exState a ≠ some t :=
  C122_row_stays exJudge exState_reach rfl rfl

/-- Read to the end. -/
def exEnd : Q Nat Nat := ⟨4, some 4, .gone, .idle, .last, true, [.row 2, .row 4, .eof], false⟩

theorem exEnd_reach : Reach exJudge [1, 2, 3, 4] exEnd :=
  reach_steps exState_reach [.next, .wake, .read, .read, .hand, .next, .wake, .read, .finish] (by rfl)

example : exEnd.out = [.row 2, .row 4, .eof] ∧ exEnd.pc = .gone :=
  C122_end exJudge exEnd_reach (.inl (by decide))

end Verif.Rsql
