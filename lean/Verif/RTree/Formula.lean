/-!
# Model of formulas over tree variables (groot/rtree/formula.go, groot/rtree/reader.go, rfunc, C166)

A reader has the variables the user gave and those that formulas asked for; an internal reader, made at
times from these, is what fills them. Memory is a function from addresses to values. Simplified: leaf
counts and the fields of structs, which `newReader` adds to the variables, are left out; variables given
by the user have the type of their leaf (the internal reader panics otherwise), options are valid, and the
callback of `Read` does not itself ask for formulas; reading succeeds (C145).
-/

namespace Verif.RTree.Formula

/-- A leaf of a tree: the name of its branch, its name, its Go type. -/
structure Leaf (N T : Type) where
  br : N
  leaf : N
  ty : T

/-- `ReadVar` (groot/rtree/rvar.go:24-31): the address stands for `Value`. -/
structure RVar (N T : Type) where
  br : N
  leaf : N
  ty : T
  addr : Nat
deriving DecidableEq

/-- A user function: the types of its arguments, the number of its results, whether the last argument is
`...`, and what it computes. -/
structure Fn (T V R : Type) where
  ins : List T
  outs : Nat
  variadic : Bool
  ap : List V → R

/-- `genericFormula` (groot/rtree/rfunc/rfunc.go:42-52) after `Bind`. -/
structure Form (N T V R : Type) where
  names : List N
  fn : Fn T V R
  ptrs : List Nat

/-- `Reader` (groot/rtree/reader.go:15-26): the variables, those of the internal reader, and the rest. -/
structure Rdr (N T V R : Type) where
  rvars : List (RVar N T)
  inner : List (RVar N T)
  dirty : Bool
  evals : List (Form N T V R)
  beg : Nat
  fin : Nat
  mem : Nat → V
  next : Nat

variable {N T V R : Type} [DecidableEq N] [DecidableEq T]

/-- `NewReadVars` (groot/rtree/rvar.go:35-49): new variables for all leaves. -/
def newVars : List (Leaf N T) → Nat → List (RVar N T)
  | [], _ => []
  | l :: ls, a => ⟨l.br, l.leaf, l.ty, a⟩ :: newVars ls (a + 1)

/-- The map `loaded` of groot/rtree/formula.go:40-44: a later variable replaces an earlier one. -/
def loaded (vs : List (RVar N T)) (name : N) : Option (RVar N T) :=
  (vs.reverse).find? fun v => decide (v.br = name)

/-- What the map `all` adds to it (groot/rtree/formula.go:45-51): the first of the new ones. -/
def firstNew (vs : List (RVar N T)) (name : N) : Option (RVar N T) :=
  vs.find? fun v => decide (v.br = name)

/-- The loop of `formulaAutoLoad` (groot/rtree/formula.go:52-64): the variables of the reader, and the
ones needed; those that are missing are left out. -/
def autoLoad (fresh : List (RVar N T)) : List N → List (RVar N T) → List (RVar N T) × List (RVar N T)
  | [], vs => (vs, [])
  | nm :: nms, vs =>
    match loaded vs nm with
    | some v => ((autoLoad fresh nms vs).1, v :: (autoLoad fresh nms vs).2)
    | none =>
      match firstNew fresh nm with
      | some v => ((autoLoad fresh nms (vs ++ [v])).1, v :: (autoLoad fresh nms (vs ++ [v])).2)
      | none => autoLoad fresh nms vs

/-- The type checks of `Bind` (groot/rtree/rfunc/rfunc.go:96-122). -/
def bindOk : List (RVar N T) → List T → Bool
  | [], [] => true
  | v :: vs, t :: ts => decide (v.ty = t) && bindOk vs ts
  | _, _ => false

/-- `newGenericFormula` (groot/rtree/rfunc/rfunc.go:54-93). -/
def suits (names : List N) (fn : Fn T V R) : Bool :=
  decide (names.length = fn.ins.length) && decide (fn.outs = 1)

/-- `FormulaFunc` (groot/rtree/reader.go:170-198, groot/rtree/formula.go:13-29): the reader after it, and
whether there was no error. After an error the variables loaded so far stay. -/
def formula (leaves : List (Leaf N T)) (s : Rdr N T V R) (names : List N) (fn : Fn T V R) :
    Rdr N T V R × Bool :=
  if suits names fn then
    let p := autoLoad (newVars leaves s.next) names s.rvars
    let s' := { s with rvars := p.1, next := s.next + leaves.length }
    if p.2.length = names.length ∧ bindOk p.2 fn.ins then
      ({ s' with evals := s.evals ++ [⟨names, fn, p.2.map RVar.addr⟩],
                 dirty := s.dirty || decide (s.rvars.length ≠ p.1.length) }, true)
    else (s', false)
  else (s, false)

/-- `eval` (groot/rtree/rfunc/rfunc.go:124-129): `none` is the panic of `reflect.Value.Call`, which for
a function with `...` takes the elements and not the slice. -/
def eval (f : Form N T V R) (mem : Nat → V) : Option R :=
  if f.fn.variadic then none else some (f.fn.ap (f.ptrs.map mem))

/-- Filling the variables with entry `i`; `val` is what the tree holds. -/
def load (val : Nat → N → N → V) (i : Nat) : List (RVar N T) → (Nat → V) → Nat → V
  | [], m => m
  | v :: vs, m => load val i vs fun a => if a = v.addr then val i v.br v.leaf else m a

/-- The loop over the entries: the memory at each call of the callback, and at the end. -/
def loop (val : Nat → N → N → V) (vs : List (RVar N T)) : Nat → Nat → (Nat → V) → List (Nat × (Nat → V))
  | _, 0, _ => []
  | i, k + 1, m => (i, load val i vs m) :: loop val vs (i + 1) k (load val i vs m)

/-- `Read` before the loop (groot/rtree/reader.go:136-142). -/
def refresh (s : Rdr N T V R) : Rdr N T V R :=
  if s.dirty then { s with dirty := false, inner := s.rvars } else s

/-- `Read` (groot/rtree/reader.go:136-146): the entries with the memory that the callback sees. -/
def calls (val : Nat → N → N → V) (s : Rdr N T V R) : List (Nat × (Nat → V)) :=
  loop val (refresh s).inner s.beg (s.fin - s.beg) s.mem

/-- The reader after `Read`. -/
def read (val : Nat → N → N → V) (s : Rdr N T V R) : Rdr N T V R :=
  { refresh s with mem := ((calls val s).map Prod.snd).getLastD s.mem }

/-- `Reset` (groot/rtree/reader.go:149-166) with a range. -/
def reset (s : Rdr N T V R) (beg fin : Nat) : Rdr N T V R :=
  { s with inner := s.rvars, beg := beg, fin := fin }

/-- `NewReader` (groot/rtree/reader.go:54-71). -/
def new (user : List (RVar N T)) (mem : Nat → V) (next beg fin : Nat) : Rdr N T V R :=
  ⟨user, user, false, [], beg, fin, mem, next⟩

/-- What a program does with a reader. -/
inductive Op (N T V R : Type) where
  | formula (names : List N) (fn : Fn T V R)
  | read
  | reset (beg fin : Nat)

def apply (leaves : List (Leaf N T)) (val : Nat → N → N → V) (s : Rdr N T V R) : Op N T V R → Rdr N T V R
  | .formula names fn => (formula leaves s names fn).1
  | .read => read val s
  | .reset b e => reset s b e

def applyAll (leaves : List (Leaf N T)) (val : Nat → N → N → V) (s : Rdr N T V R) :
    List (Op N T V R) → Rdr N T V R
  | [] => s
  | o :: os => applyAll leaves val (apply leaves val s o) os

end Verif.RTree.Formula
