/-!
# Model of removing a directory of a server with all it has (xrootd/filesystem.go, C181)

What is on the server is a tree that nobody else changes. Any request can fail; which do is a parameter.
-/

namespace Verif.Xrootd.RemoveAll


mutual
/-- A file, or a directory with what it has. -/
inductive Tree where
  | file
  | dir (es : Forest)
/-- The entries of a directory, in the order in which the server lists them. -/
inductive Forest where
  | nil
  | cons (name : String) (t : Tree) (es : Forest)
end

inductive Op where
  | stat
  | list
  | rmFile
  | rmDir
deriving DecidableEq

/-- A request: what, and for which path. -/
abbrev Req := Op × List String

mutual
/-- xrootd/filesystem.go:113-135 (`RemoveAll`), of a path that exists: what remains, and the request that failed. -/
def remove (fails : Req → Bool) (p : List String) : Tree → Option Tree × Option Req
  | .file =>
    if fails (.stat, p) then (some .file, some (.stat, p))
    else if fails (.rmFile, p) then (some .file, some (.rmFile, p))
    else (none, none)
  | .dir es =>
    if fails (.stat, p) then (some (.dir es), some (.stat, p))
    else if fails (.list, p) then (some (.dir es), some (.list, p))
    else
      match removeEntries fails p es with
      | (es', some r) => (some (.dir es'), some r)
      | (es', none) => if fails (.rmDir, p) then (some (.dir es'), some (.rmDir, p)) else (none, none)
/-- xrootd/filesystem.go:124-130 (`entries`): the entries in order, until one fails. -/
def removeEntries (fails : Req → Bool) (p : List String) : Forest → Forest × Option Req
  | .nil => (.nil, none)
  | .cons n t es =>
    match remove fails (p ++ [n]) t with
    | (some t', some r) => (.cons n t' es, some r)
    | (none, some r) => (es, some r)
    | (some t', none) => (.cons n t' (removeEntries fails p es).1, (removeEntries fails p es).2)
    | (none, none) => removeEntries fails p es
end

/-- xrootd/filesystem.go:113-117 (`Stat`): a path that does not exist cannot be asked about. -/
def removeAll (fails : Req → Bool) (p : List String) : Option Tree → Option Tree × Option Req
  | none => (none, some (.stat, p))
  | some t => remove fails p t

end Verif.Xrootd.RemoveAll
