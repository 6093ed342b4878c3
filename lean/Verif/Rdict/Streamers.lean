import Verif.Common.Text
import Verif.Common.Words

/-!
# Model of the registry of streamers and of the streamers of a file (groot/rdict/db.go, groot/riofs/file.go, C173)

A streamer describes one version of a class. Simplified: strings are lists of characters, spaces are those of ASCII; the
locks are not modelled; files are those opened for writing. A Go map is the list of its values, with different
keys. The order of the iteration over a map and the unstable sort are one function that gives some sorted permutation.
-/

namespace Verif.Rdict.Streamers

open Verif.Text

/-- What is used of a streamer info; `id` stands for the pointer. -/
structure SI where
  name : List Char
  title : List Char
  vers : Int
  id : Nat
deriving DecidableEq

/-- One character of the replacer of groot/rdict/gen.go:66-70 (`NewReplacer`). -/
def repl (c : Char) : List Char :=
  if c = '-' then ['_'] else if c = '/' then [':', ':'] else if c = '.' then ['_'] else [c]

/-- groot/rdict/gen.go:65-76 (`GoName2Cxx`): the last dot, unless it comes first, then the replacer. -/
def goName2Cxx (name : List Char) : List Char :=
  match afterLast '.' name with
  | none => name.flatMap repl
  | some t =>
    if name.length = t.length + 1 then name.flatMap repl
    else (name.take (name.length - t.length - 1) ++ [':', ':'] ++ t).flatMap repl

/-- groot/rdict/gen.go:80-96 (`Typename`). -/
def typename (name title : List Char) : List Char × Bool :=
  match cut [';'] title with
  | none => (name, false)
  | some (lang, rest) =>
    if lang = [] then (name, false)
    else if lang = ['G', 'o'] then (trimSpace rest, decide (goName2Cxx (trimSpace rest) = name))
    else (trimSpace rest, false)

/-- groot/rdict/db.go:45-55 (`Typename`): is the streamer one for the class? -/
def hit (cls : List Char) (s : SI) : Bool :=
  decide (s.name = cls) ||
    (!s.title.isEmpty && (typename cls s.title).2 && decide ((typename cls s.title).1 = cls))

/-- groot/rdict/db.go:38-76 (`Get`). `srt` gives the slice after the sort. -/
def get (srt : List SI → List SI) (db : List SI) (cls : List Char) (vers : Int) : Option SI :=
  if vers < 0 then (srt (db.filter (hit cls))).getLast?
  else db.find? fun s => decide (s.name = cls ∧ s.vers = vers)

/-- groot/rdict/db.go:83-105 (`Add`): the streamer replaces that of the same name and version. -/
def add (db : List SI) (s : SI) : List SI :=
  db.filter (fun o => !decide (o.name = s.name ∧ o.vers = s.vers)) ++ [s]

/-- groot/rdict/db.go:108-127 (`Values`). `srt` sorts by name and version. -/
def values (srt : List SI → List SI) (db : List SI) : List SI := srt db

/-- The registry and the streamers of the file; the set `simap` has the same members as the slice. -/
structure St where
  db : List SI
  sinfos : List SI

/-- groot/riofs/file.go:783-790 (`Typename`): the first one in the file, of any version. -/
def fileHit (cls : List Char) (s : SI) : Bool := decide (s.name = cls) || (typename cls s.title).2

/-- groot/riofs/file.go:778-798 (`StreamerInfo`). -/
def streamerInfo (srt : List SI → List SI) (st : St) (cls : List Char) (vers : Int) : Option SI :=
  if st.sinfos = [] then none
  else
    match st.sinfos.find? (fileHit cls) with
    | some s => some s
    | none => get srt st.db cls vers

/-- groot/riofs/file.go:810-821 (`addStreamer`), with groot/riofs/dir.go:742-745. -/
def addStreamer (core : List Char → Bool) (st : St) (s : SI) : St :=
  if core s.name then st
  else if s ∈ st.sinfos then st
  else { st with sinfos := st.sinfos ++ [s] }

/-- groot/riofs/file.go:802-808 (`RegisterStreamer`). -/
def register (core : List Char → Bool) (srt : List SI → List SI) (st : St) (s : SI) : St :=
  match streamerInfo srt st s.name s.vers with
  | some _ => st
  | none => addStreamer core { st with db := add st.db s } s

/-- groot/riofs/streamers.go:36-53 (`streamerInfoFrom`); `vers` is that of the object, or -1. -/
def infoFrom (core : List Char → Bool) (srt : List SI → List SI) (st : St) (cxx : List Char) (vers : Int) : Option St :=
  (get srt st.db cxx vers).map (addStreamer core st)

/-- The streamers when an object is put into a directory, groot/riofs/dir.go:451-465 (`addStreamer`); `none` for an error. -/
def putStreamer (core : List Char → Bool) (srt : List SI → List SI) (st : St) (cls : List Char) (vers : Int) : Option St :=
  if core cls then some st
  else
    match streamerInfo srt st (goName2Cxx cls) (-1) with
    | some s => some (addStreamer core st s)
    | none =>
      (infoFrom core srt st (goName2Cxx cls) vers).bind fun st' =>
        (streamerInfo srt st' (goName2Cxx cls) (-1)).map (addStreamer core st')

/-- groot/riofs/file.go:629-638 (`addStreamer`): the streamers of the dependencies; `skip` are the core types and the C++
builtin ones. -/
def addDeps (core skip : List Char → Bool) (srt : List SI → List SI) : St → List (List Char × Int) → Option St
  | st, [] => some st
  | st, d :: ds =>
    if skip d.1 then addDeps core skip srt st ds
    else (get srt st.db d.1 d.2).bind fun s => addDeps core skip srt (addStreamer core st s) ds

end Verif.Rdict.Streamers
