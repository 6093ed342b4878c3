/-!
# Model of xrd-cp (xrootd/cmd/xrd-cp/main.go, C169)

Paths are the lists of their names: `.` is the empty list, and an absolute path begins with the name `/`. So the
destination is a clean path (path.Join cleans all others), and not the empty string. Simplified: the server answers all requests, does not change meanwhile, and what
is at `path.Join(src, name)` is the entry `name` of the directory `src`; the content of a file is transferred correctly; of the local file
system there are directories and regular files, and it only fails because of what is or is not there.
-/

namespace Verif.Xrootd.Copy

abbrev Name := List UInt8

abbrev Path := List Name

mutual

/-- What the server has under a path. -/
inductive Node where
  | file (data : List UInt8)
  | dir (es : Ents)

/-- The entries of a directory as `Dirlist` gives them. -/
inductive Ents where
  | nil
  | cons (name : Name) (n : Node) (es : Ents)

end

/-- The local file system: `none` is nothing, `some none` a directory. -/
abbrev Loc := Path → Option (Option (List UInt8))

def isFile : Option (Option (List UInt8)) → Bool
  | some (some _) => true
  | _ => false

/-- `os.MkdirAll`. -/
def mkdirAll (p : Path) (l : Loc) : Option Loc :=
  if (List.range (p.length + 1)).any fun k => isFile (l (p.take k)) then none
  else some fun q => if q = p.take q.length ∧ l q = none then some none else l q

/-- `os.Create`, with the content written afterwards. -/
def create (p : Path) (data : List UInt8) (l : Loc) : Option Loc :=
  if l p = some none ∨ l p.dropLast ≠ some none then none
  else some fun q => if q = p then some (some data) else l q

/-- A file to copy, xrootd/cmd/xrd-cp/main.go:216-220 (`job`): the last name of its source, the destination, and the
content of the source. -/
structure Job where
  base : Name
  dst : Path
  data : List UInt8

mutual

/-- `addDir` (xrootd/cmd/xrd-cp/main.go:111-145) for the source with last name `base`; `none` is an error. -/
def addDir (recursive : Bool) (root : Path) (base : Name) : Node → Loc → Option (List Job) × Loc
  | .file d, l => (some [⟨base, root ++ [base], d⟩], l)
  | .dir es, l =>
    if recursive then
      match mkdirAll (root ++ [base]) l with
      | none => (none, l)
      | some l => addAll recursive (root ++ [base]) es l
    else (none, l)

/-- The loop over the entries of a directory (xrootd/cmd/xrd-cp/main.go:131-136, xrootd/cmd/xrd-cp/main.go:165-170). -/
def addAll (recursive : Bool) (root : Path) : Ents → Loc → Option (List Job) × Loc
  | .nil, l => (some [], l)
  | .cons name n es, l =>
    match addDir recursive root name n l with
    | (none, l) => (none, l)
    | (some js, l) =>
      match addAll recursive root es l with
      | (none, l) => (none, l)
      | (some js', l) => (some (js ++ js'), l)

end

/-- The state of the program: local files, what was written to the standard output, and whether that was closed. -/
structure St where
  loc : Loc
  out : List UInt8
  closed : Bool

def onStdout (data : List UInt8) (s : St) : Option St :=
  if s.closed then none else some { s with out := s.out ++ data, closed := true }

/-- xrootd/cmd/xrd-cp/main.go:222-260 (`run`); `none` is an error. -/
def runJob (j : Job) (s : St) : Option St :=
  if j.dst = [[45]] then onStdout j.data s
  else (create (if j.dst = [] then [j.base] else j.dst) j.data s.loc).map fun l => { s with loc := l }

/-- xrootd/cmd/xrd-cp/main.go:270-280 (`run`): the state at the end, and whether all went well. -/
def runJobs : List Job → St → St × Bool
  | [], s => (s, true)
  | j :: js, s => match runJob j s with
    | none => (s, false)
    | some s => runJobs js s

def finish (s : St) (r : Option (List Job) × Loc) : St × Bool :=
  match r.1 with
  | none => ({ s with loc := r.2 }, false)
  | some js => runJobs js { s with loc := r.2 }

/-- xrootd/cmd/xrd-cp/main.go:98-203 (`xrdcopy`). A directory is copied into a directory, or gives its entries to a new one;
if the destination is a file, no case applies. -/
def copy (recursive : Bool) (dst : Path) (base : Name) : Node → St → St × Bool
  | .dir es, s => match s.loc dst with
    | none => match mkdirAll dst s.loc with
      | none => (s, false)
      | some l => finish s (addAll recursive dst es l)
    | some none => finish s (addDir recursive dst base (.dir es) s.loc)
    | some (some _) => finish s (some [], s.loc)
  | .file d, s => match s.loc dst with
    | some none => finish s (some [⟨base, dst ++ [base], d⟩], s.loc)
    | _ => finish s (some [⟨base, dst, d⟩], s.loc)

/-- The loop over the sources (xrootd/cmd/xrd-cp/main.go:82-95); the program ends at the first error. -/
def copies (recursive : Bool) (dst : Path) : List (Name × Node) → St → St × Bool
  | [], s => (s, true)
  | x :: xs, s => match copy recursive dst x.1 x.2 s with
    | (s, false) => (s, false)
    | (s, true) => copies recursive dst xs s

end Verif.Xrootd.Copy
