import Verif.Fwk.Streamer

/-!
# Model of the files of the histogram service (fwk/hbooksvc/stream.go, C168)

A histogram is a value `V`; that the histograms of a stream are those booked for it, in order, is clear from
fwk/hbooksvc/hsvc.go:189-195. Simplified: opening, creating and closing files succeeds; one stream is looked at.
-/

namespace Verif.Fwk.Hstream

open Verif.Rio Verif.Fwk.Streamer

variable {V : Type} (enc : V → Option Bytes) (dec : Bytes → Option V)

/-- fwk/hbooksvc/stream.go:115-147 (`write`): the records written and whether it succeeded. `done` are the names of the records
the writer has; a name cannot be connected twice, rio/record.go:49-69 (`Connect`). -/
def write (options : BitVec 32) : List Bytes → List (Bytes × V) → List Rec × Bool
  | _, [] => ([], true)
  | done, o :: os =>
    if o.1 ∈ done then ([], false)
    else match enc o.2 with
      | none => ([], false)
      | some d => more ⟨options, o.1, [⟨0, o.1, d⟩]⟩ (write options (o.1 :: done) os)

/-- The file after fwk/hbooksvc/hsvc.go:115-149 (`StopSvc`), which closes it also if writing failed. `Wr.close` is the end of the
file. -/
def saved (C : Codec) (M : MetaCodec) (options : BitVec 32) (os : List (Bytes × V)) : Bytes :=
  ((write enc options [] os).1.foldl (Wr.write C) newWriter).close C M options

/-- What booking from a stream that is read gives: the histogram of the file, an empty one without an error, an error, a
panic. -/
inductive Booked (V : Type) where
  | filled (v : V)
  | empty
  | error
  | panic
deriving DecidableEq

def onBlock (dec : Bytes → Option V) : Option Blk → Booked V
  | none => .error
  | some b => match dec b.data with
    | none => .error
    | some v => .filled v

/-- fwk/hbooksvc/stream.go:53-105 (`read`), fwk/hbooksvc/hsvc.go:176-187. If `Scan` finds nothing, `Err` is returned, which is
nil at the end of the file. -/
def book (C : Codec) (file : Bytes) (name : Bytes) : Booked V :=
  match readFull 4 file with
  | .ok m s =>
    if m = rioMagic then
      match scan C [(name, true)] (s.length + 1) (newScanner s) with
      | .found st => onBlock dec (findBlock st.blocks name)
      | .done => .empty
      | .error => .error
      | .panic => .panic
    else .error
  | _ => .error

end Verif.Fwk.Hstream
