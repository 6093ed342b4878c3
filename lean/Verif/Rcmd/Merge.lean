import Verif.Riofs.NestedWalk

/-!
# Model of merging ROOT files (`rcmd.Merge`, the command root-merge) (C128)

Files are trees of directories (Verif/Riofs/Nested.lean) whose objects are trees with their entries,
objects with a method `ROOTMerge` (histograms, graphs, ...), two-dimensional histograms and others. How
the entries of a tree are read into the variables of another, and what `ROOTMerge` does, are
parameters. Opening, creating and closing files succeeds.
-/

namespace Verif.Rcmd

open Verif.Riofs

/-- An object of a file: `S` is what the branches of a tree are, `E` an entry, `A` what a histogram or
graph holds. `mer` are the objects that implement `root.Merger`. -/
inductive Ob (S E A : Type) where
  | tree (cls title : List UInt8) (schema : S) (entries : List E)
  | mer (cls : List UInt8) (a : A)
  | h2 (cls : List UInt8) (a : A)
  | other (cls : List UInt8)

/-- What the code depends on: reading the entries of a tree with branches `src` into variables for the
branches `dst` (groot/rtree/copy.go:14-55, `Copy`), and the method `ROOTMerge`; `none` is an error. -/
structure Env (S E A : Type) where
  rd : S → S → List E → Option (List E)
  mrg : A → A → Option A

variable {S E A : Type}

/-- The method `Class`. -/
def Ob.cls : Ob S E A → List UInt8
  | .tree c _ _ _ => c
  | .mer c _ => c
  | .h2 c _ => c
  | .other c => c

/-- groot/rcmd/merge.go:60-73 (`mergeCmd.acceptObj`). -/
def accept : Ob S E A → Bool
  | .other _ => false
  | _ => true

/-- groot/rcmd/merge.go:97-103 (`task`): the directory is kept as its parts. -/
structure Task (S E A : Type) where
  dir : List (List UInt8)
  key : List UInt8
  obj : Ob S E A

/-- "TTree", the class of a tree writer. -/
def tTree : List UInt8 := [84, 84, 114, 101, 101]

/-- The name given to `Mkdir`, `Get` and `Put`: groot/rcmd/merge.go:120 (the path given by the walk,
without that of the file) and groot/rcmd/merge.go:199-201 (`task.path`). -/
def slash (p : List (List UInt8)) : List UInt8 := 47 :: joinPath p

/-- groot/rcmd/merge.go:157-178: a tree is replaced by a writer with its title that has its entries. -/
def seed (env : Env S E A) : Ob S E A → Out (Ob S E A)
  | .tree _ title s e =>
    match env.rd s s e with
    | some e' => .ok (.tree tTree title s e')
    | none => .err
  | x => .ok x

/-- groot/rcmd/merge.go:143-155: the directory of the output file must be there. -/
def dirThere (o : Keys (Ob S E A)) (dir : List (List UInt8)) : Out Unit :=
  if dir = [] then .ok ()
  else match rget o (slash dir) with
    | .ok (.dir _) => .ok ()
    | .ok (.obj _) => .panic
    | .noKey => .noKey
    | .err => .err
    | .panic => .panic

/-- groot/rcmd/merge.go:116-187: the function given to `Walk`; the state is the output file and the
tasks. (The second case of an empty path does not occur: `Walk` starts with the file.) -/
def visit (env : Env S E A) (st : Keys (Ob S E A) × List (Task S E A)) (v : Visit (Ob S E A)) :
    Out (Keys (Ob S E A) × List (Task S E A)) :=
  match v.2 with
  | none => .err
  | some (.dir _) => if v.1 = [] then .ok st else (rmkdir st.1 (slash v.1)).map fun o => (o, st.2)
  | some (.obj x) =>
    if v.1 = [] then .ok st
    else if accept x = false then .ok st
    else (dirThere st.1 v.1.dropLast).bind fun _ =>
      (seed env x).map fun y => (st.1, st.2 ++ [⟨v.1.dropLast, v.1.getLast?.getD [], y⟩])

/-- The calls of that function one after another, until it returns an error. -/
def visitAll (env : Env S E A) : List (Visit (Ob S E A)) → Keys (Ob S E A) × List (Task S E A) →
    Out (Keys (Ob S E A) × List (Task S E A))
  | [], st => .ok st
  | v :: vs, st => (visit env st v).bind (visitAll env vs)

/-- groot/rcmd/merge.go:234-251 (`task.mergeObj`). -/
def mergeObj (env : Env S E A) (dst src : Ob S E A) : Out (Ob S E A) :=
  if dst.cls ≠ src.cls then .err
  else match dst, src with
    | .h2 _ _, _ => .panic
    | .tree c t s e, .tree _ _ s' e' =>
      match env.rd s s' e' with
      | some e'' => .ok (.tree c t s (e ++ e''))
      | none => .err
    | .mer c a, .mer _ b =>
      match env.mrg a b with
      | some r => .ok (.mer c r)
      | none => .err
    | _, _ => .err

/-- groot/rcmd/merge.go:203-216 (`task.merge`); a directory under the name is an object of another class. -/
def Task.merge (env : Env S E A) (f : Keys (Ob S E A)) (t : Task S E A) : Out (Task S E A) :=
  match rget f (slash (t.dir ++ [t.key])) with
  | .ok (.obj y) => (mergeObj env t.obj y).map fun x => { t with obj := x }
  | .ok (.dir _) => .err
  | .noKey => .noKey
  | .err => .err
  | .panic => .panic

/-- groot/rcmd/merge.go:75-95 (`mergeCmd.process`). -/
def process (env : Env S E A) (f : Keys (Ob S E A)) : List (Task S E A) → Out (List (Task S E A))
  | [] => .ok []
  | t :: ts => (t.merge env f).bind fun t' => (process env f ts).map fun ts' => t' :: ts'

/-- groot/rcmd/merge.go:33-38. -/
def processAll (env : Env S E A) : List (Keys (Ob S E A)) → List (Task S E A) → Out (List (Task S E A))
  | [], ts => .ok ts
  | f :: fs, ts => (process env f ts).bind (processAll env fs)

/-- groot/rcmd/merge.go:218-232 (`task.close`): a tree is put into the directory its writer was made
with. -/
def Task.close (o : Keys (Ob S E A)) (t : Task S E A) : Out (Keys (Ob S E A)) :=
  match t.obj with
  | .tree c a s e => updAt (put1 t.key [] c c (.tree c a s e)) t.dir o
  | x => rput o (slash (t.dir ++ [t.key])) [] x.cls x.cls x

/-- groot/rcmd/merge.go:40-46. -/
def closeAll : List (Task S E A) → Keys (Ob S E A) → Out (Keys (Ob S E A))
  | [], o => .ok o
  | t :: ts, o => (t.close o).bind (closeAll ts)

/-- groot/rcmd/merge.go:20-54 (`Merge`) with groot/rcmd/merge.go:105-197 (`mergeCmd.mergeTasksFrom`): the content of
the output file. The number bounds the depth of the walk. -/
def merge (env : Env S E A) (fuel : Nat) : List (Keys (Ob S E A)) → Out (Keys (Ob S E A))
  | [] => .panic
  | f :: fs =>
    (visitAll env (walkTop (fun _ => Verdict.go) fuel f).1 ([], [])).bind fun st =>
      (processAll env fs st.2).bind fun ts => closeAll ts st.1

end Verif.Rcmd
