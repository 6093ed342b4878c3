import Verif.Riofs.File

/-!
# What a ROOT file is for its users

The specification the model of `File.lean` is compared with: directories are lists of
entries in the order they were added; nothing is said about keys, records or bytes.
-/

namespace Verif.Riofs

open Verif.RBytes Verif.Compress

/-- What an entry of a directory gives access to. -/
inductive Item where
  | obj (cls payload : List UInt8)
  | dir (id : Nat)
deriving DecidableEq, Repr

/-- An entry of a directory. -/
structure Entry where
  name : List UInt8
  cycle : Int
  title : List UInt8
  item : Item
deriving DecidableEq, Repr

/-- The operations on a file being written; `i` is the directory (in the order of creation). -/
inductive FOp where
  | put (i : Nat) (name objName title cls keyCls payload : List UInt8) (now : Civil)
  | mkdir (i : Nat) (name : List UInt8) (now : Civil)

/-- The highest cycle in use for a name, 0 if there is none. -/
def topCycle (name : List UInt8) : List Entry → Int
  | [] => 0
  | e :: es => if e.name = name then max e.cycle (topCycle name es) else topCycle name es

/-- Whether an entry is an object of the given class. -/
def Item.isObj (cls : List UInt8) : Item → Bool
  | .obj c _ => decide (c = cls)
  | .dir _ => false

/-- The effect of an operation on the directories of a file: an object goes under the next
cycle of its name, provided that everything stored under that name is of its class; a
directory needs a new name; everything else changes nothing. -/
def specStep (s : List (List Entry)) : FOp → List (List Entry)
  | .put i name objName title cls keyCls payload _ =>
    match s[i]? with
    | none => s
    | some es =>
      let nm := if name = [] then objName else name
      if 47 ∈ name ∨ nm = [] ∨ (∃ e ∈ es, e.name = nm ∧ ¬ e.item.isObj cls) then s
      else s.set i (es ++ [⟨nm, topCycle nm es + 1, title, .obj keyCls payload⟩])
  | .mkdir i name _ =>
    match s[i]? with
    | none => s
    | some es =>
      if 47 ∈ name ∨ (∃ e ∈ es, e.name = name) then s
      else s.set i (es ++ [⟨name, 1, name, .dir s.length⟩]) ++ [[]]

/-- A new file has one directory, which is empty. -/
def specRun (ops : List FOp) : List (List Entry) := ops.foldl specStep [[]]

/-- The program: operations that fail leave the file as it was; `none` is a panic. -/
def stepOp (c : Codec) (spare : List UInt8) (f : FFile) : FOp → Option FFile
  | .put i name objName title cls keyCls payload now =>
    match fput c spare f i name objName title cls keyCls payload now with
    | .ok f => some f
    | .panic => none
    | _ => some f
  | .mkdir i name now =>
    match mkdir f i name now with
    | .ok f => some f
    | .panic => none
    | _ => some f

def runOps (c : Codec) (spare : List UInt8) (f : FFile) (ops : List FOp) : Option FFile :=
  ops.foldlM (stepOp c spare) f

/-- A directory read from a file shows, down to a depth `n`, the entries of the directory `i`
of the specification: names, cycles and titles in the same order; objects have their class and
load into their payload; sub-directories can be opened and show theirs. -/
def Shows (c : Codec) (disk : List UInt8) (s : List (List Entry)) : Nat → RDir → Nat → Prop
  | 0, _, _ => True
  | n + 1, rd, i => ∃ es, s[i]? = some es ∧ rd.keys.length = es.length ∧
      ∀ (m : Nat) k e, rd.keys[m]? = some k → es[m]? = some e →
        k.name = e.name ∧ k.cycle = e.cycle ∧ k.title = e.title ∧
        match e.item with
        | .obj cls payload => k.cls = cls ∧ k.objlen = payload.length ∧
            ∀ buf : List UInt8, buf.length = payload.length → load c disk ⟨k, []⟩ buf = .ok payload
        | .dir j => k.cls = tDirectoryFile ∧ ∃ rd', objectDir c disk k = some rd' ∧ rd'.name = e.name ∧
            Shows c disk s n rd' j

end Verif.Riofs
