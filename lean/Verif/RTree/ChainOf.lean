/-!
# Model of opening a chain of trees of files (groot/rtree/chain.go, C175)

Simplified: what is opened and closed is a list of events. `W` is what the files are and what goes wrong.
-/

namespace Verif.RTree.ChainOf

inductive Ev where
  | opened (f : Nat)
  | closed (f : Nat)
deriving DecidableEq

inductive Err where
  | open_ (file : Nat)
  | get (file : Nat)
  | notTree (file : Nat)
  | close (file : Nat)
deriving DecidableEq

/-- What the names of files give: can they be opened, what is the object in them, does closing fail? -/
structure W where
  opens : Nat → Bool
  /-- `none`: there is no object; `some none`: it is no tree; `some (some n)`: a tree with n entries. -/
  obj : Nat → Option (Option Nat)
  closeFails : Nat → Bool

/-- groot/rtree/chain.go:63-70 (`Close`): the files opened so far, in order. -/
def closeAll (fs : List Nat) : List Ev := fs.map .closed

/-- The result: trees, as their files and entries, and the files; and the events. -/
abbrev Res := Except Err (List (Nat × Nat) × List Nat) × List Ev

/-- groot/rtree/chain.go:72-91 (`Open`): the loop. Files are the indices of the slice with their names. -/
def loop (w : W) : List Nat → List (Nat × Nat) → List Nat → List Ev → Res
  | [], ts, fs, evs => (.ok (ts, fs), evs)
  | f :: rest, ts, fs, evs =>
    if w.opens f = false then (.error (.open_ f), evs ++ closeAll fs)
    else
      match w.obj f with
      | none => (.error (.get f), evs ++ [.opened f] ++ closeAll (fs ++ [f]))
      | some none => (.error (.notTree f), evs ++ [.opened f] ++ closeAll (fs ++ [f]))
      | some (some n) => loop w rest (ts ++ [(f, n)]) (fs ++ [f]) (evs ++ [.opened f])

/-- groot/rtree/chain.go:57-108 (`ChainOf`) -/
def chainOf (w : W) (files : List Nat) : Res := loop w files [] [] []

/-- groot/rtree/chain.go:97-103 (`Close`): the first error. -/
def firstErr (w : W) : List Nat → Option Err → Option Err
  | [], e => e
  | f :: fs, e => firstErr w fs (if w.closeFails f && e.isNone then some (.close f) else e)

/-- groot/rtree/chain.go:95-105 (`Close`): the function that closes the files. -/
def close (w : W) (fs : List Nat) : Option Err × List Ev := (firstErr w fs none, closeAll fs)

end Verif.RTree.ChainOf
