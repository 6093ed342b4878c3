import Verif.Lhef.Model
import Verif.HepMC.Graph
import Verif.HepMC.Encode

/-!
# From LHEF files to HepMC files (`cmd/lhef2hepmc/main.go`)

The program reads Les Houches events one after the other (Verif.Lhef.Model) and builds, with the functions of
Verif.HepMC.Graph, one HepMC event for each, which it writes at once (Verif.HepMC.Encode).  Every event is built
on a heap of its own, where the event and its only vertex are number 0.

Not modelled: the flags and files (`keep` is the flag `-keep-all`), messages, and what has been written when the
program stops with `log.Fatalf` or panics: those are outcomes without output.
-/

namespace Verif.Lhef2HepMC

open Verif.HepMC
open Verif.Lhef (Run V5 Decoder Notation)

/-- The arithmetic of `float64` the program uses; no law is assumed. -/
structure Ar (F : Type) where
  add : F → F → F
  sub : F → F → F
  mul : F → F → F
  div : F → F → F
  ofNat : Nat → F
  neg : F → Bool
  sqrt : F → F

/-- How the program stops, or goes on. -/
inductive Res (α : Type) where
  | ok (a : α)
  | fatal
  | panic

/-- The global variables `cmd/lhef2hepmc/main.go:45-47 (`sumw2`)`. -/
structure Acc (F : Type) where
  sumw : F
  sumw2 : F
  nevt : Nat

variable {F G N : Type}

/-- `cmd/lhef2hepmc/main.go:45-47 (`sumw2`)`. -/
def acc0 (ar : Ar F) : Acc F := ⟨ar.ofNat 0, ar.ofNat 0, 0⟩

/-- One more event of weight `w`: `cmd/lhef2hepmc/main.go:126-128 (`sumw2`)`. -/
def Acc.count (ar : Ar F) (s : Acc F) (w : F) : Acc F :=
  ⟨ar.add s.sumw w, ar.add s.sumw2 (ar.mul w w), s.nevt + 1⟩

/-- `xsecval` of `cmd/lhef2hepmc/main.go:129-129 (`xsecval`)`. -/
def mean (ar : Ar F) (s : Acc F) : F := ar.div s.sumw (ar.ofNat s.nevt)

/-- `cmd/lhef2hepmc/main.go:130-130 (`xsecerr2`)`. -/
def err2 (ar : Ar F) (s : Acc F) : F :=
  ar.div (ar.sub (ar.div s.sumw2 (ar.ofNat s.nevt)) (ar.mul (mean ar s) (mean ar s))) (ar.ofNat s.nevt)

/-- `cmd/lhef2hepmc/main.go:132-136 (`xsecerr`)`. -/
def err (ar : Ar F) (s : Acc F) : F := ar.sqrt (if ar.neg (err2 ar s) then ar.ofNat 0 else err2 ar s)

/-- The cross section of an event of weight `w`: `cmd/lhef2hepmc/main.go:118-140 (`IDWTUP`)`. -/
def cross (ar : Ar F) (r : Run F) (s : Acc F) (w : F) : Res (CrossSection F × Acc F) :=
  if r.idwtup.toInt.natAbs = 3 then
    match r.xsecup with
    | x :: y :: _ => .ok (⟨x, y⟩, s)
    | _ => .panic
  else if r.idwtup.toInt.natAbs = 4 then .ok (⟨mean ar (s.count ar w), err ar (s.count ar w)⟩, s.count ar w)
  else .fatal

/-- A beam: `cmd/lhef2hepmc/main.go:147-156 (`EBMUP`)` and `cmd/lhef2hepmc/main.go:157-166 (`EBMUP`)`. -/
def beam (c : Fmt F G N) (en : F) (id : BitVec 64) (bc : Int) : PData F :=
  ⟨bc, id.toInt, c.zero, c.zero, en, en, c.zero, 4, c.zero, c.zero, []⟩

/-- The event before anything is put into it: `cmd/lhef2hepmc/main.go:101-116 (`EventNumber`)`, with the cross
section of `cmd/lhef2hepmc/main.go:142-142 (`CrossSection`)`; `n0` is the name `"0"`. -/
def bare (c : Fmt F G N) (n0 : N) (ievt : Nat) (w : F) (x : CrossSection F) : Evt F G N :=
  { zeroEvt c with
    number := (ievt : Int) + 1, vertices := some [], particles := some [], weights := some [w], wmap := [(n0, 0)]
    mu := .gev, lu := .mm, cross := some x }

/-- The heap with the event and the vertex of `cmd/lhef2hepmc/main.go:143-146 (`Vertex`)`. -/
def start (c : Fmt F G N) (e : Evt F G N) : Heap F G N :=
  { nv := 1, np := 0
    v := fun _ => ⟨⟨-1, 0, c.zero, c.zero, c.zero, c.zero, []⟩, [], [], some 0⟩
    p := fun _ => ⟨⟨0, 0, c.zero, c.zero, c.zero, c.zero, c.zero, 0, c.zero, c.zero, []⟩, none, none⟩
    e := fun _ => e }

/-- `&hepmc.Particle{...}`. -/
def newPart (h : Heap F G N) (d : PData F) : Heap F G N :=
  { h with np := h.np + 1, p := put h.p h.np ⟨d, none, none⟩ }

/-- Make a particle, and `AddParticleIn`: `cmd/lhef2hepmc/main.go:167-174 (`AddParticleIn`)`. -/
def putIn (h : Heap F G N) (d : PData F) : Option (Heap F G N) := addIn (newPart h d) 0 h.np

/-- Make a particle, and `AddParticleOut`: `cmd/lhef2hepmc/main.go:185-199 (`AddParticleOut`)`. -/
def putOut (h : Heap F G N) (d : PData F) : Option (Heap F G N) := addOut (newPart h d) 0 h.np

/-- An outgoing particle: `cmd/lhef2hepmc/main.go:185-196 (`GeneratedMass`)`. -/
def outPart (c : Fmt F G N) (i : Nat) (st : BitVec 32) (id : BitVec 64) (p : V5 F) : PData F :=
  ⟨3 + (i : Int), id.toInt, p.1, p.2.1, p.2.2.1, p.2.2.2.1, p.2.2.2.2, st.toInt, c.zero, c.zero, []⟩

/-- One turn of the loop `cmd/lhef2hepmc/main.go:178-200 (`imax`)` with `nmax`; `none` is an index out of range. -/
def turn (c : Fmt F G N) (keep : Bool) (e : Lhef.Event F) (i : Nat) (x : Heap F G N × Nat) : Option (Heap F G N × Nat) :=
  match e.istup[i]?, e.idup[i]?, e.pup[i]? with
  | some st, some id, some p =>
    if !keep && st != 1 then some x
    else (putOut x.1 (outPart c i st id p)).map fun h => (h, x.2 + 1)
  | some st, _, _ => if !keep && st != 1 then some x else none
  | _, _, _ => none

/-- `cmd/lhef2hepmc/main.go:178-200 (`imax`)`, from `i` on, `k` turns. -/
def turns (c : Fmt F G N) (keep : Bool) (e : Lhef.Event F) : Nat → Nat → Heap F G N × Nat → Option (Heap F G N × Nat)
  | _, 0, x => some x
  | i, k + 1, x => (turn c keep e i x).bind (turns c keep e (i + 1) k)

/-- The beams of the event: `cmd/lhef2hepmc/main.go:175-176 (`Beams`)`. -/
def setBeams (h : Heap F G N) : Heap F G N :=
  { h with e := put h.e 0 { h.e 0 with beam1 := some 0, beam2 := some 1 } }

/-- `cmd/lhef2hepmc/main.go:167-204 (`AddVertex`)`: the heap and `nmax`. -/
def graph (c : Fmt F G N) (keep : Bool) (r : Run F) (e : Lhef.Event F) (h : Heap F G N) : Option (Heap F G N × Nat) :=
  (putIn h (beam c r.ebmup.1 r.idbmup.1 1)).bind fun h =>
  (putIn h (beam c r.ebmup.2 r.idbmup.2 2)).bind fun h =>
  (turns c keep e 0 e.nup.toInt.toNat (setBeams h, 2)).bind fun x =>
  (addVertex x.1 0 0).map fun h => (h, x.2)

/-- The checks `cmd/lhef2hepmc/main.go:206-218 (`nparts`)`. -/
def checked (s : Acc F) (x : Heap F G N × Nat) : Res (Heap F G N × Acc F) :=
  if x.2 ≠ (mlist (x.1.e 0).particles).length then .fatal
  else if (mlist (x.1.e 0).vertices).length ≠ 1 then .fatal
  else .ok (x.1, s)

/-- What is made of event number `ievt`: `cmd/lhef2hepmc/main.go:101-218 (`lhevt`)`. -/
def convert (c : Fmt F G N) (n0 : N) (ar : Ar F) (keep : Bool) (r : Run F) (ievt : Nat) (s : Acc F) (e : Lhef.Event F) :
    Res (Heap F G N × Acc F) :=
  match cross ar r s e.xwgtup with
  | .panic => .panic
  | .fatal => .fatal
  | .ok (x, s) =>
    match graph c keep r e (start c (bare c n0 ievt e.xwgtup x)) with
    | none => .panic
    | some y => checked s y

/-- Bytes written before what follows. -/
def Res.after (bs : List UInt8) : Res (List UInt8) → Res (List UInt8)
  | .ok l => .ok (bs ++ l)
  | .fatal => .fatal
  | .panic => .panic

/-- The loop `cmd/lhef2hepmc/main.go:92-224 (`ievt`)` and the deferred `Close` of the encoder
`cmd/lhef2hepmc/main.go:90-90 (`Close`)`; `seen` is the state of the encoder.  The first argument bounds the number
of turns: every event takes tokens. -/
def loop (no : Notation F) (c : Fmt F G N) (n0 : N) (ar : Ar F) (keep : Bool) :
    Nat → Decoder F → Nat → Acc F → Bool → Res (List UInt8)
  | 0, _, _, _, _ => .fatal
  | k + 1, d, ievt, s, seen =>
    match d.decode no with
    | (.eof, _) => .ok (closeEnc seen)
    | (.err, _) => .fatal
    | (.panic, _) => .panic
    | (.ok e, d) =>
      match convert c n0 ar keep d.run ievt s e with
      | .fatal => .fatal
      | .panic => .panic
      | .ok (h, s) => (loop no c n0 ar keep k d (ievt + 1) s (encode c seen h (h.e 0)).1).after (encode c seen h (h.e 0)).2

/-- `cmd/lhef2hepmc/main.go:50-225 (`main`)`: the output for an input. -/
def run (no : Notation F) (c : Fmt F G N) (n0 : N) (ar : Ar F) (keep : Bool) (input : List Lhef.Tok × Lhef.Fin) :
    Res (List UInt8) :=
  match Lhef.newDecoder no input with
  | .ok d => loop no c n0 ar keep (d.toks.length + 1) d 0 (acc0 ar) false
  | .panic => .panic
  | _ => .fatal

end Verif.Lhef2HepMC
