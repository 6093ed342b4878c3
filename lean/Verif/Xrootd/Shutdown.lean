/-!
# Model of the life of a server (xrootd/server.go, C189)

A step machine. Listeners and connections are numbers. The three parts of `Shutdown` are steps of their own: each is within a lock that
the steps it could interfere with need too. `Shutdown` may be called again once it has returned, not at the same time. The end of a
handler, which removes its connection and then closes it, is one step. What is read from a connection is not modelled here.
-/

namespace Verif.Xrootd.Shutdown

/-- How far `Shutdown` has come. -/
inductive Pc where
  | no
  | flagged
  | listeners
  | done
deriving DecidableEq

structure St where
  /-- `closed` -/
  closed : Bool
  /-- `listeners` -/
  listeners : List Nat
  /-- `activeConn` -/
  active : List Nat
  /-- connections that `Accept` has given to `Serve`, which are not in `activeConn` yet -/
  accepted : List Nat
  /-- listeners and connections that are open -/
  lopen : List Nat
  copen : List Nat
  pc : Pc
deriving DecidableEq

inductive Ev where
  /-- `Serve` is called with a listener -/
  | serve (l : Nat)
  /-- a listener accepts a new connection -/
  | accept (l c : Nat)
  /-- `Serve` registers it and starts to handle it -/
  | register (c : Nat)
  /-- the handling of a connection ends -/
  | finish (c : Nat)
  /-- the parts of `Shutdown` -/
  | flag
  | closeListeners
  | closeConns
deriving DecidableEq

/-- xrootd/server.go:77-102 (`Shutdown`), 107-128 (`Serve`) and 134-140 (`handleConnection`): one step, none if it cannot happen. -/
def step (s : St) : Ev → Option St
  | .serve l => if s.pc = .listeners then none else some { s with listeners := s.listeners ++ [l], lopen := l :: s.lopen }
  | .accept l c =>
    if l ∈ s.lopen ∧ l ∈ s.listeners ∧ c ∉ s.copen ∧ c ∉ s.accepted ∧ c ∉ s.active then
      some { s with accepted := c :: s.accepted, copen := c :: s.copen }
    else none
  | .register c => if c ∈ s.accepted then some { s with accepted := s.accepted.filter (· ≠ c), active := c :: s.active } else none
  | .finish c =>
    if c ∈ s.active then some { s with active := s.active.filter (· ≠ c), copen := s.copen.filter (· ≠ c) } else none
  | .flag => if s.pc = .no ∨ s.pc = .done then some { s with closed := true, pc := .flagged } else none
  | .closeListeners =>
    if s.pc = .flagged then some { s with lopen := s.lopen.filter (fun l => l ∉ s.listeners), pc := .listeners } else none
  | .closeConns => if s.pc = .listeners then some { s with copen := s.copen.filter (fun c => c ∉ s.active), pc := .done } else none

def run (s : St) : List Ev → Option St
  | [] => some s
  | e :: es => (step s e).bind fun s' => run s' es

/-- xrootd/server.go:64-73 (`NewServer`) -/
def init : St := ⟨false, [], [], [], [], [], .no⟩

/-- xrootd/server.go:111-118 (`ErrServerClosed`): what `Serve` returns when `Accept` fails with `err` -/
def serveErr {E : Type} (errServerClosed : E) (s : St) (err : E) : E := if s.closed then errServerClosed else err

/-- xrootd/server.go:87-91 and 96-100 (`cerr`) -/
def keepFirst {E : Type} : Option E → List (Option E) → Option E
  | err, [] => err
  | none, some c :: cs => keepFirst (some c) cs
  | err, _ :: cs => keepFirst err cs

/-- The error of `Shutdown` (xrootd/server.go:77-102), of those of the listeners and the connections. -/
def shutdownErr {E : Type} (ls cs : List (Option E)) : Option E := keepFirst (keepFirst none ls) cs

end Verif.Xrootd.Shutdown
