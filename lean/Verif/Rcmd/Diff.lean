import Verif.Riofs.Nested

/-!
# Model of the comparison of two ROOT files (groot/rcmd/diff.go, C164)

A file is the tree of its directories (Verif.Riofs.Nested); an object is a tree with the names of
the variables that `rtree.NewReadVars` gives and a row of values for every entry, or any other
object. `deq` is `reflect.DeepEqual` on objects and `ceq` is `cmp.Diff(a, b) == ""` on the values of
variables. Simplified: reading objects and entries succeeds, `cmp.Diff` does not panic (it does for
structs with unexported fields), what is written to `w` is left out, and all errors are one (`differ`).
The two goroutines that read the trees are the subject of Verif.Rcmd.Lockstep; here the rows come in
order.
-/

namespace Verif.Rcmd.Diff

open Verif.Riofs

/-- An object of a file: `ty` is its Go type. -/
inductive DOb (T V A : Type) where
  | tree (ty : T) (names : List (List UInt8)) (rows : List (List V))
  | other (ty : T) (a : A)

/-- The outcome: no error, an error, a panic; `deep` only says that the model ran out of fuel. -/
inductive Vd where
  | same
  | differ
  | panic
  | deep
deriving DecidableEq

def Vd.next : Vd → Vd → Vd
  | .same, v => v
  | v, _ => v

variable {T V A : Type} [DecidableEq T] (deq : A → A → Bool) (ceq : V → V → Bool)

/-- The comparison of the variables of one entry (groot/rcmd/diff.go:231-242): the loop is over the
variables of the reference, and indexes those of the other tree; `none` is an index out of range. -/
def rowSame : List V → List V → Option Bool
  | [], _ => some true
  | _ :: _, [] => none
  | x :: xs, y :: ys => (rowSame xs ys).map fun b => ceq x y && b

/-- The loop over the entries (groot/rcmd/diff.go:218-244); all entries are compared, also after a
difference. -/
def rowsSame : List (List V) → List (List V) → Option Bool
  | r :: rs, c :: cs => (rowSame ceq r c).bind fun b => (rowsSame rs cs).map fun b' => b && b'
  | _, _ => some true

def ofRows : Option Bool → Vd
  | none => .panic
  | some true => .same
  | some false => .differ

/-- groot/rcmd/diff.go:199-251 (`diffTree`). -/
def diffTree (r c : List (List V)) : Vd :=
  if r.length ≠ c.length then .differ else ofRows (rowsSame ceq r c)

/-- groot/rcmd/diff.go:125-149 (`diffObject`) for objects that are not directories. -/
def diffOb : DOb T V A → DOb T V A → Vd
  | .tree t _ r, .tree t' _ c => if t = t' then diffTree ceq r c else .differ
  | .other t a, .other t' a' => if t = t' then (if deq a a' then .same else .differ) else .differ
  | _, _ => .differ

def onFound {O : Type} (f : O → Vd) : GetResult O → Vd
  | .found n => f n
  | .noKey => .differ
  | .panic => .panic

/-- The two objects under a name (groot/rcmd/diff.go:105-114, groot/rcmd/diff.go:180-188). -/
def fetch {O : Type} (f : Node O → Node O → Vd) (r c : Keys O) (k : List UInt8) : Vd :=
  onFound (fun n => onFound (fun m => f n m) (get c k)) (get r k)

/-- A loop that stops at the first error. -/
def every (f : List UInt8 → Vd) : List (List UInt8) → Vd
  | [] => .same
  | k :: ks => (f k).next (every f ks)

/-- The names in a directory, each once: the map of groot/rcmd/diff.go:158-175, in any order. -/
def nameSet {O : Type} : Keys O → List (List UInt8)
  | [] => []
  | k :: ks => if k.name ∈ nameSet ks then nameSet ks else k.name :: nameSet ks

/-- groot/rcmd/diff.go:151-197 (`diffDir`); `ord` is `sort.Strings`. -/
def diffDir {O : Type} (ord : List (List UInt8) → List (List UInt8)) (f : Node O → Node O → Vd)
    (r c : Keys O) : Vd :=
  if r.length ≠ c.length then .differ
  else if (nameSet r).length ≠ (nameSet c).length then .differ
  else every (fetch f r c) (ord (nameSet r))

/-- groot/rcmd/diff.go:125-149 (`diffObject`); the number bounds the depth of directories. -/
def diffNode (ord : List (List UInt8) → List (List UInt8)) :
    Nat → Node (DOb T V A) → Node (DOb T V A) → Vd
  | 0, _, _ => .deep
  | _ + 1, .obj a, .obj b => diffOb deq ceq a b
  | n + 1, .dir r, .dir c => diffDir ord (diffNode ord n) r c
  | _ + 1, .obj _, .dir _ => .differ
  | _ + 1, .dir _, .obj _ => .differ

/-- The keys to compare (groot/rcmd/diff.go:54-71): those given, without spaces around and without
empty ones, or the names in the reference. -/
def wanted {O : Type} (trim : List UInt8 → List UInt8) (r : Keys O) (keys : List (List UInt8)) :
    Option (List (List UInt8)) :=
  if keys = [] then some (r.map DKey.name)
  else if (keys.map trim).filter (fun k => decide (k ≠ [])) = [] then none
  else some ((keys.map trim).filter fun k => decide (k ≠ []))

def thereIn {O : Type} (k : List UInt8) (ks : Keys O) : Option Bool :=
  match get ks k with
  | .found _ => some true
  | .noKey => some false
  | .panic => none

/-- The loop of groot/rcmd/diff.go:73-90: are all keys in both files? -/
def allThere {O : Type} (r c : Keys O) : List (List UInt8) → Option Bool
  | [] => some true
  | k :: ks => (thereIn k r).bind fun a => (thereIn k c).bind fun b =>
      (allThere r c ks).map fun d => a && b && d

/-- groot/rcmd/diff.go:92-102 and `diffFiles` (groot/rcmd/diff.go:104-123). -/
def start (ord : List (List UInt8) → List (List UInt8)) (fuel : Nat) (r c : Keys (DOb T V A))
    (u : List (List UInt8)) : Vd :=
  match allThere r c u with
  | none => .panic
  | some ok =>
    if u = [] then .differ
    else if ok = false then .differ
    else every (fetch (diffNode deq ceq ord fuel) r c) (ord u)

/-- `rcmd.Diff` (groot/rcmd/diff.go:28-35). -/
def diff (ord : List (List UInt8) → List (List UInt8)) (trim : List UInt8 → List UInt8) (fuel : Nat)
    (r c : Keys (DOb T V A)) (keys : List (List UInt8)) : Vd :=
  match wanted trim r keys with
  | none => .differ
  | some u => start deq ceq ord fuel r c u

end Verif.Rcmd.Diff
