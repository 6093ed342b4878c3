import Verif.Riofs.NameCycle

/-!
# Model of nested directories of a ROOT file and of walking through them (C126)

`riofs.Dir` wraps a directory so that names may be paths ("some/dir/name;1"). A directory is the
list of its keys; the object of a key may again be a directory. In the code directories are
pointers, each held by the key of one parent directory: the model is the tree of their contents, and
a change of a directory is the replacement of its content below that key. Objects that are neither
directories nor plain objects but can be searched by name themselves (`root.ObjectFinder`) are not
modelled: they count as plain objects. The file is open for writing and writing it succeeds.
-/

namespace Verif.Riofs

/-- What a key of a directory gives access to. -/
inductive Node (O : Type) where
  | obj (o : O)
  | dir (keys : List (DKey (Node O)))

/-- The content of a directory. -/
abbrev Keys (O : Type) := List (DKey (Node O))

/-- The outcome of an operation: `noKey` is the error of type `noKeyError`, `err` any other error. -/
inductive Out (α : Type) where
  | ok (a : α)
  | noKey
  | err
  | panic
deriving DecidableEq

def Out.bind {α β : Type} : Out α → (α → Out β) → Out β
  | .ok a, f => f a
  | .noKey, _ => .noKey
  | .err, _ => .err
  | .panic, _ => .panic

def Out.map {α β : Type} (f : α → β) : Out α → Out β
  | .ok a => .ok (f a)
  | .noKey => .noKey
  | .err => .err
  | .panic => .panic

/-- `strings.TrimPrefix(s, "/")` (Go standard library). -/
def trimPrefix : List UInt8 → List UInt8
  | [] => []
  | b :: s => if b = 47 then s else b :: s

/-- `strings.Join(ps, "/")` (Go standard library). -/
def joinPath : List (List UInt8) → List UInt8
  | [] => []
  | [p] => p
  | p :: q :: ps => p ++ 47 :: joinPath (q :: ps)

/-- `path.Split` (Go standard library): what comes up to and including the last slash, and the rest. -/
def pathSplit (p : List UInt8) : List UInt8 × List UInt8 :=
  ((p.reverse.dropWhile (fun b => b ≠ 47)).reverse, (p.reverse.takeWhile (fun b => b ≠ 47)).reverse)

/-- `strings.TrimRight(s, "/")` (Go standard library). -/
def trimRight (s : List UInt8) : List UInt8 := (s.reverse.dropWhile (fun b => b = 47)).reverse

variable {O : Type}

/-- groot/riofs/walk.go:200-218 (`recDir.walkdir`); the empty path does not occur
(`strings.Split` gives at least one part). -/
def walkdir (cycle : Int) : List (List UInt8) → Keys O → Out (Node O)
  | [], _ => .err
  | [c], ks =>
    match get ks (c ++ 59 :: intEnc cycle) with
    | .found n => .ok n
    | .noKey => .noKey
    | .panic => .panic
  | c :: c' :: cs, ks =>
    match get ks c with
    | .found (.dir sub) => walkdir cycle (c' :: cs) sub
    | .found (.obj _) => .err
    | .noKey => .noKey
    | .panic => .panic

/-- groot/riofs/walk.go:119-128 (`recDir.get`). -/
def rget (ks : Keys O) (namecycle : List UInt8) : Out (Node O) :=
  if namecycle = [] ∨ namecycle = [47] then .ok (.dir ks)
  else match decodeNameCycle namecycle with
    | none => .panic
    | some (name, cycle) => walkdir cycle (splitOn 47 (trimPrefix name)) ks

/-- The class of the key of a new directory. -/
def dirClass : List UInt8 := [84, 68, 105, 114, 101, 99, 116, 111, 114, 121]

/-- groot/riofs/dir.go:488-501 (`tdirectoryFile.Mkdir`) with groot/riofs/dir.go:98-143 (the key of the new
directory has cycle 1): the new content of the directory. -/
def mkdir1 (ks : Keys O) (name : List UInt8) : Out (Keys O) :=
  match get ks name with
  | .found _ => .err
  | .panic => .panic
  | .noKey => if 47 ∈ name then .err else .ok (ks ++ [⟨name, 1, dirClass, .dir []⟩])

/-- The content of the directory held by the key that `Get(c)` finds becomes `sub`. -/
def setDir (ks : Keys O) (c : List UInt8) (sub : Keys O) : Keys O :=
  match maxCycle (ks.filter (fun k => decide (k.name = c))) with
  | none => ks
  | some m => ks.map (fun k => if k.name = c ∧ k.cycle = m.cycle then { k with obj := .dir sub } else k)

/-- A change `f` of the directory at a path (the directory is reached as in `walkdir`). -/
def updAt (f : Keys O → Out (Keys O)) : List (List UInt8) → Keys O → Out (Keys O)
  | [], ks => f ks
  | c :: cs, ks =>
    match get ks c with
    | .found (.dir sub) => (updAt f cs sub).map (setDir ks c)
    | .found (.obj _) => .err
    | .noKey => .noKey
    | .panic => .panic

/-- The components `recDir.get` follows, groot/riofs/walk.go:119-128, for a path without ';'. -/
def comps (p : List UInt8) : List (List UInt8) :=
  if p = [] ∨ p = [47] then [] else splitOn 47 (trimPrefix p)

/-- One round of the loop of groot/riofs/walk.go:145-198 (`recDir.mkdir`), lines 163-187. -/
def mkStep (ks : Keys O) (p : List UInt8) : Out (Keys O) :=
  match rget ks p with
  | .ok _ => .ok ks
  | .panic => .panic
  | .err => .err
  | .noKey =>
    match rget ks (trimRight (pathSplit p).1) with
    | .ok (.dir _) => (updAt (fun d => mkdir1 d (pathSplit p).2) (comps (trimRight (pathSplit p).1)) ks)
    | .ok (.obj _) => .panic
    | .noKey => .noKey
    | .err => .err
    | .panic => .panic

/-- The rounds of the loop of groot/riofs/walk.go:145-198 over the beginnings of the path; `done`
are the parts already passed. -/
def mkLoop : List (List UInt8) → List (List UInt8) → Keys O → Out (Keys O)
  | _, [], ks => .ok ks
  | done, p :: ps, ks => (mkStep ks (joinPath (done ++ [p]))).bind (mkLoop (done ++ [p]) ps)

/-- groot/riofs/walk.go:145-198 (`recDir.mkdir`) for paths without ';': the new content of the
directory the wrapper was made of. What is at the path and is not a directory makes the error
message panic (line 155: the assertion is on the nil interface `d`). -/
def rmkdir (ks : Keys O) (path : List UInt8) : Out (Keys O) :=
  if path = [] ∨ path = [47] then .err
  else match rget ks path with
    | .ok (.dir _) => .ok ks
    | .ok (.obj _) => .panic
    | .panic => .panic
    | _ =>
      if (splitOn 47 path).length = 1 then mkdir1 ks path
      else (mkLoop [] (splitOn 47 path) ks).bind fun ks' =>
        match rget ks' path with
        | .ok (.dir _) => .ok ks'
        | .ok (.obj _) => .err
        | .noKey => .noKey
        | .err => .err
        | .panic => .panic

/-- `put` of one directory (NameCycle.lean, groot/riofs/dir.go:410-480) as an outcome. -/
def put1 (name objName cls keyCls : List UInt8) (o : O) (ks : Keys O) : Out (Keys O) :=
  match put ks name objName cls keyCls (.obj o) with
  | some ks' => .ok ks'
  | none => .err

/-- groot/riofs/walk.go:130-143 (`recDir.put`) for paths without ';'. -/
def rput (ks : Keys O) (name objName cls keyCls : List UInt8) (o : O) : Out (Keys O) :=
  if trimRight (pathSplit name).1 = [] then put1 name objName cls keyCls o ks
  else (rmkdir ks (trimRight (pathSplit name).1)).bind fun ks' =>
    updAt (put1 (pathSplit name).2 objName cls keyCls o) (comps (trimRight (pathSplit name).1)) ks'

/-! ### Walking -/

/-- What a `WalkFunc` returns: nil, `SkipDir`, another error. -/
inductive Verdict where
  | go
  | skip
  | stop
deriving DecidableEq

/-- The first loop of groot/riofs/walk.go:47-87 (`walk`), lines 59-65: the cycle kept for a name. -/
def keptCycle (ks : Keys O) (name : List UInt8) : Option Int :=
  ks.foldl (fun acc k =>
    if k.name = name then
      match acc with
      | some c => if k.cycle < c then some c else some k.cycle
      | none => some k.cycle
    else acc) none

/-- A call of the `WalkFunc`: the path (the parts below the directory `Walk` was called with) and
the object, `none` if it could not be obtained. -/
abbrev Visit (O : Type) := List (List UInt8) × Option (Node O)

/-- groot/riofs/walk.go:68-78 (in `walk`): one key; if `Get` fails the function gets the error, otherwise
the walk goes on with the object. -/
def visitKey (fn : Visit O → Verdict) (w : List (List UInt8) → Node O → List (Visit O) × Verdict)
    (path : List (List UInt8)) (all : Keys O) (k : DKey (Node O)) : List (Visit O) × Verdict :=
  match get all k.name with
  | .found n => w (path ++ [k.name]) n
  | _ => ([(path ++ [k.name], none)], fn (path ++ [k.name], none))

/-- The second loop of groot/riofs/walk.go:47-87 (`walk`), lines 67-84: `all` are the keys of the
directory, the last argument those still to be looked at, `w` walks one object. (A name with several
';' makes `Get` panic; the model takes that for an error.) -/
def walkKeys (fn : Visit O → Verdict) (w : List (List UInt8) → Node O → List (Visit O) × Verdict)
    (path : List (List UInt8)) (all : Keys O) : Keys O → List (Visit O) × Verdict
  | [] => ([], .go)
  | k :: ks =>
    if some k.cycle ≠ keptCycle all k.name then walkKeys fn w path all ks
    else if (visitKey fn w path all k).2 = .stop then visitKey fn w path all k
    else ((visitKey fn w path all k).1 ++ (walkKeys fn w path all ks).1, (walkKeys fn w path all ks).2)

/-- groot/riofs/walk.go:47-87 (`walk`): the calls of the function and what is returned. The number
bounds the depth. A path is given by its parts, which for names that are not empty, "." or ".." and
hold no slash is what `path.Join` amounts to. -/
def walk (fn : Visit O → Verdict) : Nat → List (List UInt8) → Node O → List (Visit O) × Verdict
  | 0, _, _ => ([], .stop)
  | _ + 1, path, .obj o => ([(path, some (.obj o))], fn (path, some (.obj o)))
  | fuel + 1, path, .dir ks =>
    match fn (path, some (.dir ks)) with
    | .go =>
      ((path, some (.dir ks)) :: (walkKeys fn (walk fn fuel) path ks ks).1, (walkKeys fn (walk fn fuel) path ks ks).2)
    | v => ([(path, some (.dir ks))], v)

/-- groot/riofs/walk.go:25-44 (`Walk`): `SkipDir` from the top is not an error. -/
def walkTop (fn : Visit O → Verdict) (fuel : Nat) (ks : Keys O) : List (Visit O) × Bool :=
  ((walk fn fuel [] (.dir ks)).1, decide ((walk fn fuel [] (.dir ks)).2 ≠ .stop))

end Verif.Riofs
