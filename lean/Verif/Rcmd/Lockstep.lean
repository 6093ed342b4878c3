/-!
# Model of the two goroutines that read trees for comparison (groot/rcmd/diff.go, C165)

`diffTree` starts a goroutine for each tree. Each loads an entry, variable by variable, into variables
that it shares with `diffTree`, offers the entry on a channel, and waits for an acknowledgement before it
loads the next. The machine has three actors; a communication on a channel without buffer is one step of
the main actor, possible if the other side is there. Simplified: a load or a comparison of a variable is
one step; reading (`rtree.Reader.Read`) is loading the variables in order, and may fail before any of
them; both trees have the same number of variables and of entries.
-/

namespace Verif.Rcmd.Lockstep

/-- The two trees: `n` entries, `nv` variables, the values, where loading fails, and whether
`rtree.NewReader` fails. -/
structure Cfg (V : Type) where
  n : Nat
  nv : Nat
  ra : Nat → Nat → V
  rb : Nat → Nat → V
  fa : Nat → Nat → Bool
  fb : Nat → Nat → Bool
  oa : Bool
  ob : Bool
  ceq : V → V → Bool

/-- Where a goroutine is (groot/rcmd/diff.go:259-282): it loads variable `j` of entry `i`, it is in the
`select`, it waits at `<-next`, it sends an error, or it is at its end (with the channel closed). -/
inductive Rd where
  | load (i j : Nat)
  | offer (i : Nat)
  | wait (i : Nat)
  | err
  | done
deriving DecidableEq

/-- What is received (`treeEntry`, groot/rcmd/diff.go:253-257); `closed` is the zero value that a closed
channel gives: number 0, no error, and an `ok` channel that is nil. -/
inductive Got where
  | entry (i : Nat)
  | err
  | closed
deriving DecidableEq

/-- What `diffTree` returns: an error reading one of the trees, an error that they are out of step, no
error, or the error that they differ. -/
inductive Verdict where
  | readRef
  | readChk
  | sync
  | same
  | differ
deriving DecidableEq

/-- Where `diffTree` is (groot/rcmd/diff.go:218-251). -/
inductive Mn where
  | recvA (i : Nat)
  | recvB (i : Nat) (a : Got)
  | check (i : Nat) (a b : Got)
  | cmp (i j : Nat) (a b : Got)
  | okA (i : Nat) (a b : Got)
  | okB (i : Nat) (b : Got)
  | ret (v : Verdict)
deriving DecidableEq

structure St (V : Type) where
  mn : Mn
  a : Rd
  b : Rd
  va : Nat → Option V
  vb : Nat → Option V
  good : Bool

variable {V : Type}

def put (v : Nat → Option V) (j : Nat) (x : V) : Nat → Option V := fun k => if k = j then some x else v k

/-- A step of a goroutine by itself (groot/rcmd/diff.go:259-282); `quit` says that the channel `quit` is
closed. After `quit` the callback returns `io.EOF`, which `Read` returns, and which is then sent. -/
def rstep (n nv : Nat) (vals : Nat → Nat → V) (f : Nat → Nat → Bool) (quit : Bool) (v : Nat → Option V) :
    Rd → Option (Rd × (Nat → Option V))
  | .load i j =>
    if n ≤ i then some (.done, v)
    else if f i j then some (.err, v)
    else if j < nv then some (.load i (j + 1), put v j (vals i j))
    else some (.offer i, v)
  | .offer _ => if quit then some (.err, v) else none
  | .wait _ => none
  | .err => none
  | .done => none

/-- Receiving from a goroutine. -/
def recv : Rd → Option (Got × Rd)
  | .offer i => some (.entry i, .wait i)
  | .err => some (.err, .done)
  | .done => some (.closed, .done)
  | .load _ _ => none
  | .wait _ => none

/-- Sending on the `ok` channel of what was received: on a nil channel this blocks for ever. -/
def ack : Got → Rd → Option Rd
  | .entry _, .wait i => some (.load (i + 1) 0)
  | _, _ => none

def num : Got → Nat
  | .entry i => i
  | .err => 0
  | .closed => 0

/-- The comparison of one variable, as it is now. -/
def eqv (ceq : V → V → Bool) : Option V → Option V → Bool
  | some x, some y => ceq x y
  | none, none => true
  | _, _ => false

/-- The head of the loop and what follows it (groot/rcmd/diff.go:218, groot/rcmd/diff.go:246-250). -/
def loop (n i : Nat) (good : Bool) : Mn :=
  if i < n then .recvA i else .ret (if good then .same else .differ)

/-- groot/rcmd/diff.go:221-229. -/
def checked (i : Nat) (a b : Got) : Mn :=
  if a = .err then .ret .readRef
  else if b = .err then .ret .readChk
  else if num b ≠ num a then .ret .sync
  else .cmp i 0 a b

/-- A step of `diffTree` (groot/rcmd/diff.go:218-251). -/
def mstep (c : Cfg V) (s : St V) : Mn → Option (St V)
  | .recvA i => (recv s.a).map fun p => { s with mn := .recvB i p.1, a := p.2 }
  | .recvB i a => (recv s.b).map fun p => { s with mn := .check i a p.1, b := p.2 }
  | .check i a b => some { s with mn := checked i a b }
  | .cmp i j a b =>
    if j < c.nv then some { s with mn := .cmp i (j + 1) a b, good := s.good && eqv c.ceq (s.va j) (s.vb j) }
    else some { s with mn := .okA i a b }
  | .okA i a b => (ack a s.a).map fun r => { s with mn := .okB i b, a := r }
  | .okB i b => (ack b s.b).map fun r => { s with mn := loop c.n (i + 1) s.good, b := r }
  | .ret _ => none

/-- `defer close(quit)` (groot/rcmd/diff.go:207-208). -/
def quitting : Mn → Bool
  | .ret _ => true
  | _ => false

inductive Act where
  | main
  | ref
  | chk

def step (c : Cfg V) (s : St V) : Act → Option (St V)
  | .main => mstep c s s.mn
  | .ref => (rstep c.n c.nv c.ra c.fa (quitting s.mn) s.va s.a).map fun p => { s with a := p.1, va := p.2 }
  | .chk => (rstep c.n c.nv c.rb c.fb (quitting s.mn) s.vb s.b).map fun p => { s with b := p.1, vb := p.2 }

/-- The beginning (groot/rcmd/diff.go:207-218, groot/rcmd/diff.go:259-265). -/
def init (c : Cfg V) : St V :=
  { mn := loop c.n 0 true
    a := if c.oa then .err else .load 0 0
    b := if c.ob then .err else .load 0 0
    va := fun _ => none
    vb := fun _ => none
    good := true }

/-- An execution: the actors that step, one after another. -/
def run (c : Cfg V) : St V → List Act → Option (St V)
  | s, [] => some s
  | s, x :: xs => (step c s x).bind fun t => run c t xs

end Verif.Rcmd.Lockstep
