import Verif.Common.Text

/-!
# Model of the arguments of root-cp and root-print (groot/rcmd/rcmd.go, groot/cmd/root-print/main.go, C174)

An argument is the name of a file, and after a colon what is selected in it. Simplified: not on Windows, where names of files
have volumes.
-/

namespace Verif.Rcmd.SplitArg

/-- groot/rcmd/rcmd.go:17 (`root://`) and groot/cmd/root-print/main.go:242 (`root://`). -/
def schemes : List (List Char) := ["https://".toList, "http://".toList, "root://".toList, "file://".toList]

/-- groot/rcmd/rcmd.go:16-22 (`HasPrefix`) -/
def scheme (cmd : List Char) : List Char := ((schemes.find? fun p => p.isPrefixOf cmd)).getD []

/-- The position of the last colon (`strings.LastIndex`), groot/rcmd/rcmd.go:34. -/
def lastColon : List Char → Option Nat
  | [] => none
  | c :: cs =>
    match lastColon cs with
    | some i => some (i + 1)
    | none => if c = ':' then some 0 else none

/-- groot/rcmd/rcmd.go:34-41 (`LastIndex`) -/
def cutAt (f : List Char) : List Char × List Char :=
  match lastColon f with
  | some i => if 0 < i then (f.take i, f.drop (i + 1)) else (f, ".*".toList)
  | none => (f, ".*".toList)

/-- groot/rcmd/rcmd.go:42-44 (`sel`) -/
def orAll (sel : List Char) : List Char := if sel = [] then ".*".toList else sel

/-- groot/rcmd/rcmd.go:46-53 (`HasPrefix`) -/
def rooted : List Char → List Char
  | '/' :: s => '/' :: s
  | '^' :: '/' :: s => '^' :: '/' :: s
  | '^' :: s => '^' :: '/' :: s
  | s => '/' :: s

/-- groot/rcmd/rcmd.go:14-55 (`splitArg`) and groot/cmd/root-print/main.go:239-280 (`splitArg`); `none` for the error. -/
def splitArg (cmd : List Char) : Option (List Char × List Char) :=
  if 1 < (cmd.drop (scheme cmd).length).count ':' then none
  else
    some (scheme cmd ++ (cutAt (cmd.drop (scheme cmd).length)).1,
      rooted (orAll (cutAt (cmd.drop (scheme cmd).length)).2))

end Verif.Rcmd.SplitArg
