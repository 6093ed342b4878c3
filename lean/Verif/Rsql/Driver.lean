/-
C123: the connections of the SQL driver and the files they hold
(groot/rsql/rsqldrv/driver.go:44-183, connector.go).

Every function takes the mutex of the driver first, so the model is one of
whole calls.  Closing a file is assumed to succeed.
-/
import Mathlib.Logic.Function.Basic

namespace Verif.Rsql

/-- groot/rsql/rsqldrv/driver.go:121-126: a connection.  `name` is the name
stored inside its file, which `riofs.File.Name` returns
(groot/riofs/file.go:482-484 and groot/riofs/dir.go:217-221); `mine` tells that the driver
opened the file, `isOpen` that the file is still open. -/
structure Conn (N : Type) where
  name : N
  mine : Bool
  isOpen : Bool
  refs : Nat
  stmts : Nat

/-- groot/rsql/rsqldrv/driver.go:44-49: the driver.  The connections are
numbered in the order of their creation; `handles` counts, for every
connection, the calls which returned it and are not closed yet (it is not in the
code). -/
structure Drv (N : Type) where
  dbs : N → Option Nat
  owns : N → Bool
  conns : Nat → Option (Conn N)
  next : Nat
  handles : Nat → Nat

/-- The driver before any call. -/
def Drv.init (N : Type) : Drv N := ⟨fun _ => none, fun _ => false, fun _ => none, 0, fun _ => 0⟩

section
variable {N : Type} [DecidableEq N]

/-- `conn.refs++`, groot/rsql/rsqldrv/driver.go:76 and 103. -/
def Drv.acquire (d : Drv N) (c : Nat) : Drv N :=
  { d with
    conns := Function.update d.conns c ((d.conns c).map fun x => { x with refs := x.refs + 1 })
    handles := Function.update d.handles c (d.handles c + 1) }

/-- A new connection under a key, groot/rsql/rsqldrv/driver.go:66-74 and 94-101. -/
def Drv.create (d : Drv N) (key name : N) (mine : Bool) : Drv N :=
  { d with
    dbs := Function.update d.dbs key (some d.next)
    owns := Function.update d.owns key mine
    conns := Function.update d.conns d.next (some ⟨name, mine, true, 0, 0⟩)
    next := d.next + 1 }

/-- groot/rsql/rsqldrv/driver.go:50-79, `open`.  `disk` gives the name stored
inside the file at a path, none when it cannot be opened (the outcome is then an
error and nothing changes). -/
def Drv.open (disk : N → Option N) (d : Drv N) (path : N) : Option (Drv N × Nat) :=
  match d.dbs path with
  | some c => some (d.acquire c, c)
  | none =>
    match disk path with
    | none => none
    | some name => some ((d.create path name true).acquire d.next, d.next)

/-- groot/rsql/rsqldrv/driver.go:81-106, `connect`: a file of the user with the given stored name. -/
def Drv.connect (d : Drv N) (name : N) : Drv N × Nat :=
  match d.dbs name with
  | some c => (d.acquire c, c)
  | none => ((d.create name name false).acquire d.next, d.next)

/-- groot/rsql/rsqldrv/driver.go:129-138, `Prepare`: the statement is remembered. -/
def Drv.prepare (d : Drv N) (c : Nat) : Drv N :=
  { d with conns := Function.update d.conns c ((d.conns c).map fun x => { x with stmts := x.stmts + 1 }) }

/-- groot/rsql/rsqldrv/driver.go:148-183, `Close` of a connection; `none` is the panic of
`driverStmt.Close` (line 641). -/
def Drv.close (d : Drv N) (c : Nat) : Option (Drv N) :=
  match d.conns c with
  | none => none
  | some x =>
    if x.refs > 1 then
      some { d with
        conns := Function.update d.conns c (some { x with refs := x.refs - 1 })
        handles := Function.update d.handles c (d.handles c - 1) }
    else if x.stmts > 0 then none
    else
      some { d with
        dbs := if x.refs = 1 then Function.update d.dbs x.name none else d.dbs
        conns := Function.update d.conns c
          (some { x with isOpen := if d.owns x.name then false else x.isOpen, refs := 0 })
        handles := Function.update d.handles c (d.handles c - 1) }

/-- The states of a driver whose connections are closed once each; `ok` restricts the paths opened. -/
inductive DReach (disk : N → Option N) (ok : N → Prop) : Drv N → Prop
  | init : DReach disk ok (Drv.init N)
  | open {d d' : Drv N} {path : N} {c : Nat} : DReach disk ok d → ok path → d.open disk path = some (d', c) →
      DReach disk ok d'
  | connect {d : Drv N} (name : N) : DReach disk ok d → DReach disk ok (d.connect name).1
  | close {d d' : Drv N} {c : Nat} : DReach disk ok d → 0 < d.handles c → d.close c = some d' →
      DReach disk ok d'

/-- The invariant, when every file is opened under its stored name. -/
structure DInv (d : Drv N) : Prop where
  /-- what the map holds -/
  dbs : ∀ n c, d.dbs n = some c → ∃ x, d.conns c = some x ∧ x.name = n ∧ 0 < x.refs ∧ d.owns n = x.mine
  /-- what the connections are -/
  conns : ∀ c x, d.conns c = some x →
    c < d.next ∧ x.refs = d.handles c ∧ x.stmts = 0 ∧ (0 < x.refs → d.dbs x.name = some c ∧ x.isOpen = true) ∧
      (x.refs = 0 → x.isOpen = !x.mine)
  none : ∀ c, d.conns c = Option.none → d.handles c = 0
  next : d.conns d.next = Option.none

omit [DecidableEq N] in
theorem dinv_init : DInv (Drv.init N) where
  dbs := fun n c h => by cases h
  conns := fun c x h => by cases h
  none := fun _ _ => rfl
  next := rfl

omit [DecidableEq N] in
theorem dinv_acquire {d : Drv N} (hd : DInv d) {n : N} {c : Nat} (h : d.dbs n = some c) : DInv (d.acquire c) := by
  obtain ⟨x, hx, hn, hr, ho⟩ := hd.dbs n c h
  obtain ⟨c1, c2, c3, c4, c5⟩ := hd.conns c x hx
  refine ⟨?_, ?_, ?_, ?_⟩
  · intro m c' hm
    obtain ⟨y, hy, h1, h2, h3⟩ := hd.dbs m c' hm
    by_cases e : c' = c
    · subst e
      rw [hx] at hy
      cases hy
      exact ⟨{ x with refs := x.refs + 1 }, by simp [Drv.acquire, hx], h1, by simp, h3⟩
    · exact ⟨y, by simp [Drv.acquire, Function.update_of_ne e, hy], h1, h2, h3⟩
  · intro c' y hy
    by_cases e : c' = c
    · subst e
      simp only [Drv.acquire, Function.update_self, hx, Option.map_some, Option.some.injEq] at hy ⊢
      subst hy
      exact ⟨c1, by simp [c2], c3, fun _ => ⟨(c4 hr).1, (c4 hr).2⟩, fun e => by simp at e⟩
    · simp only [Drv.acquire, Function.update_of_ne e] at hy ⊢
      exact hd.conns c' y hy
  · intro c' hc
    by_cases e : c' = c
    · subst e
      simp [Drv.acquire, hx] at hc
    · simp only [Drv.acquire, Function.update_of_ne e] at hc ⊢
      exact hd.none c' hc
  · have e : d.next ≠ c := by omega
    simp only [Drv.acquire, Function.update_of_ne e]
    exact hd.next

theorem dinv_create {d : Drv N} (hd : DInv d) {n : N} (h : d.dbs n = none) (mine : Bool) :
    DInv ((d.create n n mine).acquire d.next) := by
  have hne : ∀ c x, d.conns c = some x → c ≠ d.next := fun c x hx => by have := (hd.conns c x hx).1; omega
  have h0 := hd.none d.next hd.next
  refine ⟨?_, ?_, ?_, ?_⟩
  · intro m c' hm
    by_cases em : m = n
    · subst em
      simp only [Drv.acquire, Drv.create, Function.update_self, Option.some.injEq] at hm ⊢
      subst hm
      exact ⟨⟨m, mine, true, 1, 0⟩, by simp, rfl, by simp, rfl⟩
    · simp only [Drv.acquire, Drv.create, Function.update_of_ne em] at hm ⊢
      obtain ⟨y, hy, h1, h2, h3⟩ := hd.dbs m c' hm
      exact ⟨y, by simp [Function.update_of_ne (hne c' y hy), hy], h1, h2, h3⟩
  · intro c' y hy
    by_cases e : c' = d.next
    · subst e
      simp only [Drv.acquire, Drv.create, Function.update_self, Option.map_some, Option.some.injEq] at hy ⊢
      subst hy
      exact ⟨by simp, by simp [h0], rfl, fun _ => ⟨by simp, rfl⟩, fun e => by simp at e⟩
    · simp only [Drv.acquire, Drv.create, Function.update_of_ne e] at hy ⊢
      obtain ⟨c1, c2, c3, c4, c5⟩ := hd.conns c' y hy
      refine ⟨by omega, c2, c3, fun hr => ?_, c5⟩
      obtain ⟨q1, q2⟩ := c4 hr
      have : y.name ≠ n := fun e => by rw [e, h] at q1; cases q1
      exact ⟨by rw [Function.update_of_ne this]; exact q1, q2⟩
  · intro c' hc
    by_cases e : c' = d.next
    · subst e
      simp [Drv.acquire, Drv.create] at hc
    · simp only [Drv.acquire, Drv.create, Function.update_of_ne e] at hc ⊢
      exact hd.none c' hc
  · have e : d.next + 1 ≠ d.next := by omega
    simp only [Drv.acquire, Drv.create, Function.update_of_ne e]
    cases hc : d.conns (d.next + 1) with
    | none => rfl
    | some x => have := (hd.conns _ x hc).1; omega

theorem dinv_close {d d' : Drv N} (hd : DInv d) {c : Nat} (hc : 0 < d.handles c) (h : d.close c = some d') :
    DInv d' := by
  unfold Drv.close at h
  split at h
  · cases h
  rename_i x hx
  obtain ⟨c1, c2, c3, c4, c5⟩ := hd.conns c x hx
  have hnext : d.next ≠ c := by omega
  split at h
  · rename_i hr
    cases h
    refine ⟨?_, ?_, ?_, ?_⟩
    · intro m c' hm
      obtain ⟨y, hy, h1, h2, h3⟩ := hd.dbs m c' hm
      by_cases e : c' = c
      · subst e
        rw [hx] at hy
        cases hy
        exact ⟨{ x with refs := x.refs - 1 }, by simp, h1, by simp; omega, h3⟩
      · exact ⟨y, by simp [Function.update_of_ne e, hy], h1, h2, h3⟩
    · intro c' y hy
      by_cases e : c' = c
      · subst e
        simp only [Function.update_self, Option.some.injEq] at hy ⊢
        subst hy
        exact ⟨c1, by simp [c2], c3, fun _ => c4 (by omega), fun e => by simp at e; omega⟩
      · simp only [Function.update_of_ne e] at hy ⊢
        exact hd.conns c' y hy
    · intro c' hn
      by_cases e : c' = c
      · subst e
        simp at hn
      · simp only [Function.update_of_ne e] at hn ⊢
        exact hd.none c' hn
    · simp only [Function.update_of_ne hnext]
      exact hd.next
  · rename_i hr
    have hr1 : x.refs = 1 := by omega
    split at h
    · cases h
    cases h
    obtain ⟨q1, q2⟩ := c4 (by omega)
    obtain ⟨x', hx', hn, _, ho⟩ := hd.dbs _ _ q1
    rw [hx] at hx'
    cases hx'
    refine ⟨?_, ?_, ?_, ?_⟩
    · intro m c' hm
      dsimp only at hm
      by_cases em : m = x.name
      · subst em; simp at hm
      rw [Function.update_of_ne em] at hm
      obtain ⟨y, hy, h1, h2, h3⟩ := hd.dbs m c' hm
      have e : c' ≠ c := by
        rintro rfl
        rw [hx] at hy
        cases hy
        exact em h1.symm
      exact ⟨y, by simp [Function.update_of_ne e, hy], h1, h2, h3⟩
    · intro c' y hy
      by_cases e : c' = c
      · subst e
        simp only [Function.update_self, Option.some.injEq] at hy ⊢
        subst hy
        refine ⟨c1, by simp; omega, c3, fun e => by simp at e, fun _ => ?_⟩
        simp only [ho, q2]
        cases x.mine <;> rfl
      · simp only [Function.update_of_ne e] at hy ⊢
        obtain ⟨e1, e2, e3, e4, e5⟩ := hd.conns c' y hy
        refine ⟨e1, e2, e3, fun hr' => ?_, e5⟩
        obtain ⟨p1, p2⟩ := e4 hr'
        have : y.name ≠ x.name := fun en => by
          rw [en, q1] at p1
          cases p1
          exact e rfl
        exact ⟨by rw [Function.update_of_ne this]; exact p1, p2⟩
    · intro c' hn
      by_cases e : c' = c
      · subst e
        simp at hn
      · simp only [Function.update_of_ne e] at hn ⊢
        exact hd.none c' hn
    · simp only [Function.update_of_ne hnext]
      exact hd.next

theorem dinv_reach {disk : N → Option N} {ok : N → Prop} (hok : ∀ p, ok p → disk p = none ∨ disk p = some p)
    {d : Drv N} (h : DReach disk ok d) : DInv d := by
  induction h with
  | init => exact dinv_init
  | @«open» d d' path c _ hp hs ih =>
    unfold Drv.open at hs
    split at hs
    · rename_i c' hc
      cases hs
      exact dinv_acquire ih hc
    · rename_i hc
      split at hs
      · cases hs
      · rename_i name hn
        cases hs
        rcases hok path hp with h | h
        · rw [h] at hn; cases hn
        · rw [h] at hn
          cases hn
          exact dinv_create ih hc true
  | @connect d name _ ih =>
    unfold Drv.connect
    split
    · rename_i c hc
      exact dinv_acquire ih hc
    · rename_i hc
      exact dinv_create ih hc false
  | close _ hc hs ih => exact dinv_close ih hc hs

/-- **C123.** When every file is opened under the name stored inside it: a connection that some
handle still holds has an open file and is the one the driver finds under its name; a file the driver opened is
closed exactly when no handle of its connection is left; a file of the user is never
closed by the driver. -/
theorem C123_files_partial {disk : N → Option N} {ok : N → Prop}
    (hok : ∀ p, ok p → disk p = none ∨ disk p = some p) {d : Drv N} (h : DReach disk ok d) {c : Nat} {x : Conn N}
    (hx : d.conns c = some x) :
    (0 < d.handles c → x.isOpen = true ∧ d.dbs x.name = some c) ∧
      (x.mine = true → (x.isOpen = false ↔ d.handles c = 0)) ∧
      (x.mine = false → x.isOpen = true) := by
  obtain ⟨_, c2, _, c4, c5⟩ := (dinv_reach hok h).conns c x hx
  rw [c2] at c4 c5
  refine ⟨fun hr => ⟨(c4 hr).2, (c4 hr).1⟩, ?_, ?_⟩
  · intro hm
    constructor
    · intro ho
      by_contra hne
      have := (c4 (by omega)).2
      rw [ho] at this
      cases this
    · intro h0
      rw [c5 h0, hm]; rfl
  · intro hm
    by_cases h0 : d.handles c = 0
    · rw [c5 h0, hm]; rfl
    · exact (c4 (by omega)).2

/-- **C123.** Opening a name (under the same condition) gives a connection whose file is open, and the same
connection as long as someone holds it. -/
theorem C123_open_partial {disk : N → Option N} {ok : N → Prop}
    (hok : ∀ p, ok p → disk p = none ∨ disk p = some p) {d d' : Drv N} (h : DReach disk ok d) {path : N} {c : Nat}
    (hp : ok path) (ho : d.open disk path = some (d', c)) :
    (∃ x, d'.conns c = some x ∧ x.isOpen = true ∧ x.name = path) ∧ d'.dbs path = some c ∧
      0 < d'.handles c ∧ ∀ d'' c', d'.open disk path = some (d'', c') → c' = c := by
  have hi := dinv_reach hok (h.open hp ho)
  have key : d'.dbs path = some c := by
    unfold Drv.open at ho
    split at ho
    · rename_i c' hc
      cases ho
      exact hc
    · split at ho
      · cases ho
      · cases ho
        simp [Drv.acquire, Drv.create]
  obtain ⟨x, hx, hn, hr, _⟩ := hi.dbs path c key
  obtain ⟨_, c2, _, c4, _⟩ := hi.conns c x hx
  refine ⟨⟨x, hx, (c4 hr).2, hn⟩, key, by omega, ?_⟩
  intro d'' c' h'
  simp only [Drv.open, key, Option.some.injEq, Prod.mk.injEq] at h'
  exact h'.2.symm

/-- **C123.** Closing does not panic as long as nothing was prepared. -/
theorem C123_close_partial {disk : N → Option N} {ok : N → Prop}
    (hok : ∀ p, ok p → disk p = none ∨ disk p = some p) {d : Drv N} (h : DReach disk ok d) {c : Nat}
    (hc : 0 < d.handles c) : ∃ d', d.close c = some d' := by
  have hi := dinv_reach hok h
  unfold Drv.close
  cases hx : d.conns c with
  | none => have := hi.none c hx; omega
  | some x =>
    have hs := (hi.conns c x hx).2.2.1
    by_cases h1 : x.refs > 1
    · exact ⟨_, by simp [h1]; rfl⟩
    · exact ⟨_, by simp [h1, hs]; rfl⟩

/-! ### What fails -/

/-- Two files: at path 0 a file which stores the name 1 (it was renamed or is
in another directory), at path 1 a file which stores the name 1. -/
def exDisk (p : Nat) : Option Nat := if p ≤ 1 then some 1 else none

/-- The steps one after another: `inl p` opens a path, `inr c` closes a connection. -/
def run (disk : Nat → Option Nat) (d : Drv Nat) : List (Nat ⊕ Nat) → Option (Drv Nat)
  | [] => some d
  | .inl p :: as => (d.open disk p).bind fun r => run disk r.1 as
  | .inr c :: as => (d.close c).bind fun d' => run disk d' as

/-- **C123, what fails.** A file opened under another name than the one stored inside it is not closed
with its last connection. -/
theorem C123_moved_counterexample :
    ∃ d x, run exDisk (Drv.init Nat) [.inl 0, .inr 0] = some d ∧ d.handles 0 = 0 ∧
      d.conns 0 = some x ∧ x.mine = true ∧ x.isOpen = true :=
  ⟨_, _, rfl, rfl, rfl, rfl, rfl⟩

/-- **C123, what fails.** Two files which store the same name: the connection on the first one is
closed while the second one is in use, the first path is opened again, and the
connection one gets has a closed file. -/
theorem C123_reopened_counterexample :
    ∃ d d' x, run exDisk (Drv.init Nat) [.inl 0, .inl 1, .inr 0] = some d ∧
      d.open exDisk 0 = some (d', 0) ∧ d'.conns 0 = some x ∧ x.isOpen = false ∧ d'.handles 0 = 1 :=
  ⟨_, _, _, rfl, rfl, rfl, rfl, rfl⟩

/-- **C123, what fails.** Closing the last connection after a statement was prepared panics. -/
theorem C123_prepared_counterexample {disk : N → Option N} (path : N) (h : disk path = some path) :
    ∃ d c, (Drv.init N).open disk path = some (d, c) ∧ (d.prepare c).close c = none := by
  refine ⟨_, _, by simp only [Drv.open, Drv.init, h]; rfl, ?_⟩
  simp [Drv.prepare, Drv.close, Drv.acquire, Drv.create]

/-! ### Examples -/

theorem exReach : ∃ d, DReach (fun p : Nat => some p) (fun _ => True) d ∧ d.handles 0 = 1 ∧ d.handles 1 = 1 := by
  have h1 : DReach (fun p : Nat => some p) (fun _ => True) (((Drv.init Nat).create 7 7 true).acquire 0) :=
    .open (path := 7) (c := 0) .init trivial rfl
  refine ⟨_, .connect 8 h1, rfl, rfl⟩

example : ∃ d : Drv Nat, DReach (fun p : Nat => some p) (fun _ => True) d ∧ (∃ d', d.close 0 = some d') ∧
    ∀ x, d.conns 0 = some x → x.isOpen = true := by
  obtain ⟨d, hd, h0, _⟩ := exReach
  exact ⟨d, hd, C123_close_partial (fun p _ => .inr rfl) hd (by omega),
    fun x hx => ((C123_files_partial (fun p _ => .inr rfl) hd hx).1 (by omega)).1⟩

end

end Verif.Rsql
