/-!
# Model of the choice of a security method (xrootd/auth.go, C190)

What the server sends is a list of characters. Whether the server accepts a request is a function of the request.
-/

namespace Verif.Xrootd.Auth

abbrev Str := List Char

/-- `bytes.Split` with a separator of one character, as used in xrootd/auth.go:27 and 32 -/
def split (c : Char) : Str → List Str
  | [] => [[]]
  | x :: xs =>
    if x = c then [] :: split c xs
    else
      match split c xs with
      | [] => [[x]]
      | y :: ys => (x :: y) :: ys

/-- `bytes.TrimLeft`: every leading character that is in the set -/
def trimLeft (set : Str) : Str → Str
  | [] => []
  | x :: xs => if x ∈ set then trimLeft set xs else x :: xs

/-- xrootd/auth.go:31-38: the name of a method and its parameters -/
def method (info : Str) : Str × List Str :=
  match split ',' (trimLeft ['P', '='] info) with
  | [] => ([], [])
  | p :: ps => (p, ps)

/-- xrootd/auth.go:26-27: the methods of the server -/
def methods (info : Str) : List (Str × List Str) := (split '&' (trimLeft ['&'] info)).map method

/-- xrootd/auth.go:42, 47 and 53: the reasons a method did not work -/
inductive Why where
  | notFound
  | request
  | refused
deriving DecidableEq

/-- xrootd/auth.go:30-57: the requests sent, and the errors if no method works -/
def tryAll {R : Type} (auths : Str → Option (List Str → Option R)) (ok : R → Bool) :
    List (Str × List Str) → List (Str × Why) → List R × Option (List (Str × Why))
  | [], errs => ([], some errs)
  | (n, ps) :: ms, errs =>
    match auths n with
    | none => tryAll auths ok ms (errs ++ [(n, .notFound)])
    | some f =>
      match f ps with
      | none => tryAll auths ok ms (errs ++ [(n, .request)])
      | some r =>
        if ok r then ([r], none)
        else (r :: (tryAll auths ok ms (errs ++ [(n, .refused)])).1, (tryAll auths ok ms (errs ++ [(n, .refused)])).2)

/-- xrootd/auth.go:25-60 (`auth`) -/
def auth {R : Type} (auths : Str → Option (List Str → Option R)) (ok : R → Bool) (info : Str) : List R × Option (List (Str × Why)) :=
  tryAll auths ok (methods info) []

end Verif.Xrootd.Auth
