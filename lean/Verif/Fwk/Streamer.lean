import Verif.Rio.Model

/-!
# Model of the event streams of the framework in rio files (fwk/rio, C167)

The store of an event is a function on names: `none` is an error of `Get`. For reading, the store has
an empty slot for every port and takes one value for each: a second `Put` under a name waits until
the event is given up (fwk/store.go:42-49). Simplified: nobody takes a value out of its slot between two
`Put`s of the streamer; opening and closing the underlying files succeeds; only the first of the input
files is there, as in fwk/rio/input.go:31-33. How values are written as bytes (`blk.Write`, `blk.Read`) is a parameter.
-/

namespace Verif.Fwk.Streamer

open Verif.Rio

/-- A port: its name and type, fwk/core.go:150-153 (`Port`). -/
structure Port (T : Type) where
  name : Bytes
  ty : T
deriving DecidableEq

/-- The Go type of a value, and its encoding by rio/block.go:44-57 (`Write`) and rio/block.go:60-69 (`Read`). -/
structure Vals (T V : Type) where
  typeOf : V → T
  enc : V → Option Bytes
  dec : T → Bytes → Option V

variable {T V : Type} [DecidableEq T] (E : Vals T V)

/-! ## Writing -/

/-- Adds a record to those written. -/
def more (r : Rec) (p : List Rec × Bool) : List Rec × Bool := (r :: p.1, p.2)

/-- The record of one port (fwk/rio/output.go:79-98); `none` is an error. -/
def portRec (options : BitVec 32) (p : Port T) (e : Bytes → Option V) : Option Rec :=
  (e p.name).bind fun v =>
    if E.typeOf v = p.ty then (E.enc v).map fun d => ⟨options, p.name, [⟨0, p.name, d⟩]⟩ else none

/-- fwk/rio/output.go:72-106 (`OutputStreamer.Write`): the records it has written, and whether it succeeded. -/
def write (options : BitVec 32) (e : Bytes → Option V) : List (Port T) → List Rec × Bool
  | [] => ([], true)
  | p :: ps => match portRec E options p e with
    | none => ([], false)
    | some r => more r (write options e ps)

/-- Writing events in sequence. -/
def writeAll (options : BitVec 32) (ps : List (Port T)) : List (Bytes → Option V) → List Rec
  | [] => []
  | e :: es => (write E options e ps).1 ++ writeAll options ps es

/-! ## The scanner after a failure -/

/-- The blocks kept by rio/record.go:206-223 when one of them cannot be read. -/
def blkLeft : Nat → Nat → Bytes → List Blk → List Blk
  | 0, _, _, bl => bl
  | fuel + 1, n, s, bl =>
    if n = 0 then bl
    else match readBlk s with
      | .ok b rest => blkLeft fuel (n - (s.length - rest.length)) rest (setBlock bl b)
      | _ => bl

def leftBlocks (C : Codec) (sel : List (Bytes × Bool)) (st : Scn) (raw : Raw) (s : Bytes) : List Blk :=
  if lookup sel raw.name = some true then
    blkLeft (raw.xlen + 1) raw.xlen ((C.out (st.xr.getD (compressorKind raw.options))
      (s.take (rioAlignU32 raw.clen))).take raw.xlen) st.blocks
  else st.blocks

/-- The record after a round of rio/scanner.go:49-119 (`Scan`) that failed: only its name and its blocks matter. The name is set
after the rest of the header of the record was read (rio/rio.go:284-315). -/
def leftStep (C : Codec) (sel : List (Bytes × Bool)) (st : Scn) : Scn :=
  match readHeader st.input with
  | .ok h s =>
    if h.2 = recFrame then
      match readRaw s with
      | .ok raw s => { st with raw := raw, blocks := leftBlocks C sel st raw s }
      | _ => st
    else st
  | _ => st

def scanLeft (C : Codec) (sel : List (Bytes × Bool)) : Nat → Scn → Scn
  | 0, st => st
  | fuel + 1, st => match scanStep C sel st with
    | .next s => scanLeft C sel fuel s
    | _ => leftStep C sel st

/-- The error of the scanner (rio/scanner.go:137-143): none, `io.EOF`, another one. -/
inductive Over where
  | no
  | eof
  | bad
deriving DecidableEq

structure In where
  st : Scn
  over : Over
deriving DecidableEq

/-- rio/scanner.go:49-119 (`Scan`), which does nothing after an error; `none` is a panic. -/
def scanNext (C : Codec) (sel : List (Bytes × Bool)) (i : In) : Option In :=
  if i.over = .no then
    match scan C sel (i.st.input.length + 1) i.st with
    | .found s => some ⟨s, .no⟩
    | .done => some ⟨scanLeft C sel (i.st.input.length + 1) i.st, .eof⟩
    | .error => some ⟨scanLeft C sel (i.st.input.length + 1) i.st, .bad⟩
    | .panic => none
  else some i

/-! ## Reading -/

/-- How `Read` ends: with the values put in the store, `io.EOF`, another error, a panic, waiting for the store. -/
inductive Fate (V : Type) where
  | event (l : List (Bytes × V))
  | eof
  | error
  | panic
  | blocked
deriving DecidableEq

/-- One value (fwk/rio/input.go:69-80): the type is that of the port with the name of the record. -/
def put (ports : List (Port T)) (puts : List (Bytes × V)) (st : Scn) : Fate V :=
  match ports.find? fun p => p.name = st.raw.name, findBlock st.blocks st.raw.name with
  | some p, some b => match E.dec p.ty b.data with
    | none => .error
    | some v => if st.raw.name ∈ puts.map (·.1) then .blocked else .event (puts ++ [(st.raw.name, v)])
  | _, _ => .panic

/-- fwk/rio/input.go:59-88 (`InputStreamer.Read`), `n` records before the end of the loop. -/
def readLoop (C : Codec) (sel : List (Bytes × Bool)) (ports : List (Port T)) :
    Nat → List (Bytes × V) → In → Fate V × In
  | 0, puts, i => (if puts.length ≠ ports.length then .error else .event puts, i)
  | n + 1, puts, i => match scanNext C sel i with
    | none => (.panic, i)
    | some i => if i.over = .eof then (.eof, i) else match put E ports puts i.st with
      | .event puts => readLoop C sel ports n puts i
      | f => (f, i)

/-- The selectors of fwk/rio/input.go:43-55. -/
def selectors (ports : List (Port T)) : List (Bytes × Bool) := ports.map fun p => (p.name, true)

def read (C : Codec) (ports : List (Port T)) (i : In) : Fate V × In :=
  readLoop E C (selectors ports) ports ports.length [] i

/-- `n` events, each with a new store. -/
def readMany (C : Codec) (ports : List (Port T)) : Nat → In → List (Fate V)
  | 0, _ => []
  | n + 1, i => (read E C ports i).1 :: readMany C ports n (read E C ports i).2

/-- fwk/rio/input.go:26-57 (`InputStreamer.Connect`); connecting the same name twice is an error, rio/record.go:49-69 (`Connect`). -/
def connect (ports : List (Port T)) (file : Bytes) : Option In :=
  match readFull 4 file with
  | .ok m s => if m = rioMagic ∧ (ports.map (·.name)).Nodup then some ⟨newScanner s, .no⟩ else none
  | _ => none

end Verif.Fwk.Streamer
