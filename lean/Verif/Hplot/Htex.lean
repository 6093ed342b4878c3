import Mathlib.Data.List.Basic

/-!
# Model of the LaTeX handlers (hplot/htex, C171)

The background handler is a step machine: the caller submits documents and waits, every document has a goroutine; any of
them may be the next to go on. How long a compilation takes and whether it fails is part of the schedule. Simplified:
the goroutine of a document records its error and leaves the group in one step; the caller is one goroutine.
-/

namespace Verif.Hplot.Htex

abbrev Bytes := List UInt8

/-! ## The background handler -/

/-- What the caller does. -/
inductive Instr (D : Type) where
  | compile (d : D)
  | wait
deriving DecidableEq

/-- Where the goroutine of a document is, hplot/htex/handler.go:42-46: before the channel, in the compilation, before
the deferred receive, before the end with an error or not, at the end. -/
inductive Phase (E : Type) where
  | waiting
  | running
  | compiled (r : Option E)
  | released (r : Option E)
  | finished (r : Option E)
deriving DecidableEq

/-- hplot/htex/handler.go:15-19 (`GoHandler`): the number of values in the channel, the first error of the group, the
goroutines; and what was observed: the compilations that were done and the results of `Wait`. -/
structure St (D E : Type) where
  prog : List (Instr D)
  jobs : List (D × Phase E)
  tokens : Nat
  err : Option E
  log : List D
  waits : List (Option E)
deriving DecidableEq

/-- The capacity of the channel, hplot/htex/handler.go:26-38 (`NewGoHandler`). -/
def limit (n : Int) (cpus : Nat) : Nat := if n ≤ 0 then cpus + 1 else n.toNat

def start {D E : Type} (prog : List (Instr D)) : St D E := ⟨prog, [], 0, none, [], []⟩

def isFinished {D E : Type} : D × Phase E → Bool
  | (_, .finished _) => true
  | _ => false

/-- The next step of the caller: hplot/htex/handler.go:41-48 (`CompileLatex`) or hplot/htex/handler.go:50-52 (`Wait`);
`none` if it cannot go on. -/
def stepMain {D E : Type} (s : St D E) : Option (St D E) :=
  match s.prog with
  | [] => none
  | .compile d :: p => some { s with prog := p, jobs := s.jobs ++ [(d, .waiting)] }
  | .wait :: p => if s.jobs.all isFinished then some { s with prog := p, waits := s.waits ++ [s.err] } else none

/-- The first error is kept, `errgroup.Group`. -/
def once {E : Type} : Option E → Option E → Option E
  | none, r => r
  | some e, _ => some e

/-- The next step of a goroutine, hplot/htex/handler.go:42-46; `r` is the result of the compilation if
that is the step. -/
def stepPhase {D E : Type} (n : Nat) (s : St D E) (i : Nat) (d : D) (r : Option E) : Phase E → Option (St D E)
  | .waiting => if s.tokens < n then some { s with jobs := s.jobs.set i (d, .running), tokens := s.tokens + 1 } else none
  | .running => some { s with jobs := s.jobs.set i (d, .compiled r), log := s.log ++ [d] }
  | .compiled q => if s.tokens = 0 then none else
      some { s with jobs := s.jobs.set i (d, .released q), tokens := s.tokens - 1 }
  | .released q => some { s with jobs := s.jobs.set i (d, .finished q), err := once s.err q }
  | .finished _ => none

/-- Who goes on. -/
inductive Actor (E : Type) where
  | main
  | job (i : Nat) (r : Option E)

def step {D E : Type} (n : Nat) (s : St D E) : Actor E → Option (St D E)
  | .main => stepMain s
  | .job i r => match s.jobs[i]? with
    | none => none
    | some (d, p) => stepPhase n s i d r p

/-- A schedule; actors that cannot go on are passed over. -/
def run {D E : Type} (n : Nat) : St D E → List (Actor E) → St D E
  | s, [] => s
  | s, a :: as => run n ((step n s a).getD s) as

/-! ## One compilation -/

/-- A file system. -/
abbrev Fs := Bytes → Option Bytes

inductive Out where
  | ok
  | err
  | panic
deriving DecidableEq

/-- What comes after the last slash (path.Base of a name that does not end with one). -/
def baseName (p : Bytes) : Bytes := (p.reverse.takeWhile (· ≠ 47)).reverse

/-- `.tex`, `.pdf` -/
def dotTex : Bytes := [46, 116, 101, 120]
def dotPdf : Bytes := [46, 112, 100, 102]

def put (fs : Fs) (p d : Bytes) : Fs := fun q => if q = p then some d else fs q

/-- hplot/htex/latex.go:73-97 (`oname`), after the command has run and left some files in the temporary
directory. -/
def collect (canCreate : Bytes → Bool) (fname : Bytes) (files : Bytes → Option Bytes) (fs : Fs) : Out × Fs :=
  if fname.length < dotTex.length then (.panic, fs) else
  if canCreate (fname.take (fname.length - dotTex.length) ++ dotPdf) then
    match files (baseName (fname.take (fname.length - dotTex.length) ++ dotPdf)) with
    | none => (.err, put fs (fname.take (fname.length - dotTex.length) ++ dotPdf) [])
    | some d => (.ok, put fs (fname.take (fname.length - dotTex.length) ++ dotPdf) d)
  else (.err, fs)

/-- hplot/htex/latex.go:45-97 (`CompileLatex`). The command gives the files it made in the temporary directory, or
fails; reading and writing succeed. -/
def compile (cmd : Bytes → Option (Bytes → Option Bytes)) (canCreate : Bytes → Bool) (fname : Bytes) (fs : Fs) :
    Out × Fs :=
  match cmd fname with
  | none => (.err, fs)
  | some files => collect canCreate fname files fs

end Verif.Hplot.Htex
