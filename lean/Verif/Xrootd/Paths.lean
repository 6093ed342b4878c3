/-!
# Model of the data connections of a session (xrootd/session.go, C185)

A step machine. Requests and connections are numbers; number 0 is the main connection. A goroutine that offers a connection on the
channel of free ones is an entry of `offers`. Not modelled: the end of a session, and connections that break.
-/

namespace Verif.Xrootd.Paths

/-- xrootd/session.go:40-63 (`cliSession`) -/
structure St where
  /-- `subs`, the keys of the map -/
  subs : List Nat
  /-- the connections offered on `freeSubs` -/
  offers : List Nat
  /-- the requests that hold a connection other than the main one -/
  inUse : List (Nat × Nat)
  /-- the request that holds `subCreateMu` -/
  lock : Option Nat
deriving DecidableEq

inductive Ev where
  /-- a request receives a free connection -/
  | take (r p : Nat)
  /-- a request finds that all connections are taken -/
  | full (r : Nat)
  /-- a request finds that there may be one more -/
  | start (r : Nat)
  /-- the new connection was given this number by the server -/
  | bound (r p : Nat)
  /-- the new connection failed -/
  | failed (r : Nat)
  /-- a request has ended -/
  | done (r p : Nat)
deriving DecidableEq

/-- xrootd/session.go:411 (`subs`): an entry of the map -/
def insertKey (p : Nat) (l : List Nat) : List Nat := if p ∈ l then l else p :: l

/-- xrootd/session.go:391-416 (`claimPathID`) and 418-429 (`unclaimPathID`), called as in xrootd/session.go:356-369: one step, none
if it cannot happen. A request that cannot have a connection uses the main one. -/
def step (max : Nat) (s : St) : Ev → Option St
  | .take r p => if p ∈ s.offers then some { s with offers := s.offers.erase p, inUse := (r, p) :: s.inUse } else none
  | .full _ => if s.lock = none ∧ max ≤ s.subs.length then some s else none
  | .start r => if s.lock = none ∧ s.subs.length < max then some { s with lock := some r } else none
  | .bound r p =>
    if s.lock = some r then
      some { s with lock := none, subs := insertKey p s.subs, inUse := if p = 0 then s.inUse else (r, p) :: s.inUse }
    else none
  | .failed r => if s.lock = some r then some { s with lock := none } else none
  | .done r p => if (r, p) ∈ s.inUse then some { s with inUse := s.inUse.erase (r, p), offers := p :: s.offers } else none

def run (max : Nat) (s : St) : List Ev → Option St
  | [] => some s
  | e :: es => (step max s e).bind fun s' => run max s' es

/-- xrootd/session.go:90-102 (`maxSubs`): a new session -/
def init : St := ⟨[], [], [], none⟩

end Verif.Xrootd.Paths
