/-!
# Model of the sessions of a client (xrootd/client.go, C192)

A step machine: looking a session up and opening one are within different locks, other calls may come between. Addresses and sessions
are numbers, opening a session succeeds or not.
-/

namespace Verif.Xrootd.CliSessions

structure St where
  /-- `sessions`: addresses and sessions -/
  sess : List (Nat × Nat)
  /-- addresses of calls that found no session and have not opened one yet -/
  waiting : List Nat
  /-- sessions that are open -/
  opened : List Nat
  /-- the number of the next session -/
  next : Nat
  /-- `initialSessionID` -/
  initial : Option Nat
deriving DecidableEq

inductive Ev where
  /-- `getSession` looks for a session -/
  | look (a : Nat)
  /-- it opens one, which succeeds or not -/
  | create (a : Nat) (ok : Bool)
  /-- `Close` -/
  | close
deriving DecidableEq

/-- xrootd/client.go:167-190 (`getSession`) and 98-118 (`Close`): one step, none if it cannot happen. -/
def step (s : St) : Ev → Option St
  | .look a => if a ∈ s.sess.map Prod.fst then some s else some { s with waiting := a :: s.waiting }
  | .create a ok =>
    if a ∈ s.waiting then
      if ok then
        some { s with
          waiting := s.waiting.erase a
          sess := (a, s.next) :: s.sess.filter (fun p => p.1 ≠ a)
          opened := s.next :: s.opened
          next := s.next + 1
          initial := match s.initial with
            | none => some a
            | some i => some i }
      else some { s with waiting := s.waiting.erase a }
    else none
  | .close => some { s with opened := s.opened.filter (fun i => i ∉ s.sess.map Prod.snd) }

def run (s : St) : List Ev → Option St
  | [] => some s
  | e :: es => (step s e).bind fun s' => run s' es

/-- xrootd/client.go:65-95 (`NewClient`), before its first session -/
def init : St := ⟨[], [], [], 0, none⟩

end Verif.Xrootd.CliSessions
