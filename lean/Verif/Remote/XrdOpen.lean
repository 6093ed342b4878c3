/-!
# Model of opening and closing remote files (xrootd/xrdio/xrdio.go, C195)

The world is the clients that are connected and the files they have open; a client that is closed has no open files, the server closes
them. Whether the steps succeed is given.
-/

namespace Verif.Remote.XrdOpen

structure World where
  clients : List Nat
  /-- the client and the handle -/
  files : List (Nat × Nat)
  nextClient : Nat
  nextFile : Nat
deriving DecidableEq

structure File where
  /-- `cli`: the client, if the file has one of its own -/
  cli : Option Nat
  /-- `fs` and `f` -/
  client : Nat
  handle : Nat
  size : Int
deriving DecidableEq

inductive Err where
  | parse
  | connect
  | open
  | stat
  | closeFile
  | closeClient
deriving DecidableEq

def connect (w : World) : World := { w with clients := w.nextClient :: w.clients, nextClient := w.nextClient + 1 }

def openFile (w : World) (c : Nat) : World := { w with files := (c, w.nextFile) :: w.files, nextFile := w.nextFile + 1 }

def closeClient (w : World) (c : Nat) : World :=
  { w with clients := w.clients.filter (· ≠ c), files := w.files.filter (fun f => f.1 ≠ c) }

def closeFile (w : World) (c h : Nat) : World := { w with files := w.files.filter (· ≠ (c, h)) }

/-- xrootd/xrdio/xrdio.go:43-70 (`Open`): whether the name is one, the server answers, the file can be opened, and its size if there is one -/
def openName (w : World) (parse conn opn : Bool) (stat : Option Int) : World × Except Err File :=
  if ¬ parse then (w, .error .parse)
  else if ¬ conn then (w, .error .connect)
  else if ¬ opn then (closeClient (connect w) w.nextClient, .error .open)
  else
    match stat with
    | none => (closeClient (openFile (connect w) w.nextClient) w.nextClient, .error .stat)
    | some n => (openFile (connect w) w.nextClient, .ok ⟨some w.nextClient, w.nextClient, w.nextFile, n⟩)

/-- xrootd/xrdio/xrdio.go:78-92 (`OpenFrom`), with a client that is connected -/
def openFrom (w : World) (c : Nat) (opn : Bool) (stat : Option Int) : World × Except Err File :=
  if ¬ opn then (w, .error .open)
  else
    match stat with
    | none => (openFile w c, .error .stat)
    | some n => (openFile w c, .ok ⟨none, c, w.nextFile, n⟩)

/-- xrootd/xrdio/xrdio.go:100-120 (`Close`): whether the server closes the file, and the client closes without error (it is closed
anyway) -/
def close (w : World) (f : File) (okFile okClient : Bool) : World × Option Err :=
  let w1 := if okFile then closeFile w f.client f.handle else w
  match f.cli with
  | none => (w1, if okFile then none else some .closeFile)
  | some c => (closeClient w1 c, if ¬ okFile then some .closeFile else if ¬ okClient then some .closeClient else none)

end Verif.Remote.XrdOpen
