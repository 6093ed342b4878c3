import Verif.Rcmd.Merge

/-!
# Model of copying ROOT files (`rcmd.Copy`, the command root-cp) (C130)

Files as in Merge.lean. A selection is a predicate on the names "/a/b/x" of the objects and directories
of a file, given by their parts: what the regular expression matches. Opening, creating and closing
files succeeds; the name kept inside of a file is the one it was opened with and has no "./" or "//" in
it (otherwise the names come out wrong, groot/rcmd/copy.go:64).
-/

namespace Verif.Rcmd

open Verif.Riofs

variable {S E A : Type}

/-- The name of a directory for `Get` and `Mkdir`: `path.Dir` of the name of an object in it; of the name "" of
the file itself it is ".". -/
def dirParts (p : List (List UInt8)) : List (List UInt8) := if p = [] then [[46]] else p.dropLast

def dirName (p : List (List UInt8)) : List UInt8 := if p = [] then [46] else slash p.dropLast

/-- `path.Base` of a name. -/
def baseName (p : List (List UInt8)) : List UInt8 := p.getLast?.getD [46]

/-- groot/rcmd/copy.go:69-82: the directory for an object is looked up, and made if it is not there. -/
def outDir (o : Keys (Ob S E A)) (name : List UInt8) : Out (Keys (Ob S E A)) :=
  match rget o name with
  | .ok (.dir _) => .ok o
  | .ok (.obj _) => .panic
  | .panic => .panic
  | _ => rmkdir o name

/-- groot/rcmd/copy.go:92-134 (`copyCmd.copyObj`, `copyCmd.copyTree`): what is done in the directory. The tree
written has no title and is of class TTree. -/
def copyObj (env : Env S E A) (k : List UInt8) (n : Node (Ob S E A)) (d : Keys (Ob S E A)) : Out (Keys (Ob S E A)) :=
  match n with
  | .dir _ => mkdir1 d k
  | .obj (.tree _ _ s e) =>
    match env.rd s s e with
    | some e' => put1 k [] tTree tTree (.tree tTree [] s e') d
    | none => .err
  | .obj x => put1 k [] x.cls x.cls x d

/-- groot/rcmd/copy.go:60-85: the function given to `Walk`. -/
def copyVisit (env : Env S E A) (sel : List (List UInt8) → Bool) (o : Keys (Ob S E A)) (v : Visit (Ob S E A)) : Out (Keys (Ob S E A)) :=
  match v.2 with
  | none => .err
  | some n =>
    if sel v.1 = false then .ok o
    else (outDir o (dirName v.1)).bind fun o' => updAt (copyObj env (baseName v.1) n) (dirParts v.1) o'

/-- The calls of that function one after another, until it returns an error. -/
def copyVisits (env : Env S E A) (sel : List (List UInt8) → Bool) : List (Visit (Ob S E A)) → Keys (Ob S E A) → Out (Keys (Ob S E A))
  | [], o => .ok o
  | v :: vs, o => (copyVisit env sel o v).bind (copyVisits env sel vs)

/-- groot/rcmd/copy.go:45-90 (`copyCmd.process`). The number bounds the depth of the walk. -/
def copyFile (env : Env S E A) (fuel : Nat) (sel : List (List UInt8) → Bool) (f o : Keys (Ob S E A)) : Out (Keys (Ob S E A)) :=
  copyVisits env sel (walkTop (fun _ => Verdict.go) fuel f).1 o

/-- The loop of groot/rcmd/copy.go:28-34. -/
def copyFiles (env : Env S E A) (fuel : Nat) : List ((List (List UInt8) → Bool) × Keys (Ob S E A)) → Keys (Ob S E A) → Out (Keys (Ob S E A))
  | [], o => .ok o
  | a :: as, o => (copyFile env fuel a.1 a.2 o).bind (copyFiles env fuel as)

/-- groot/rcmd/copy.go:21-41 (`Copy`): the content of the output file. -/
def copy (env : Env S E A) (fuel : Nat) (args : List ((List (List UInt8) → Bool) × Keys (Ob S E A))) : Out (Keys (Ob S E A)) :=
  copyFiles env fuel args []

end Verif.Rcmd
