/-!
# Arrow columns of a tree

Values of leaves, the columns built out of them, and the values a flat tree is
written with out of columns.

The Arrow library is not part of the repository; its arrays are modelled after
the Arrow columnar format: a list array is a validity and an offset per row next
to an array of all the elements, a fixed-size list array and a struct array only
have a validity per row next to the arrays of their elements.
-/

namespace Verif.Rarrow

abbrev Bytes := List UInt8

/-- The primitive types.  `root.Float16` and `root.Double32` are `float32` and
`float64` under another name, and are not told from them here. -/
inductive Prim where
  | bool | i8 | i16 | i32 | i64 | u8 | u16 | u32 | u64 | f32 | f64
  deriving DecidableEq, Repr

/-- Number of bits. -/
def Prim.bits : Prim → Nat
  | .bool => 1
  | .i8 => 8
  | .i16 => 16
  | .i32 => 32
  | .i64 => 64
  | .u8 => 8
  | .u16 => 16
  | .u32 => 32
  | .u64 => 64
  | .f32 => 32
  | .f64 => 64

/-- Types of values: the Arrow types, and the Go types they are made from.  A
struct is a chain of `scons` ended by `snil`; the names of its fields are left
out.  `bin` is the Arrow type `Binary`. -/
inductive Ty where
  | prim (p : Prim)
  | str
  | bin
  | list (t : Ty)
  | fixed (n : Nat) (t : Ty)
  | snil
  | scons (t ts : Ty)
  deriving DecidableEq, Repr

/-- Values of a type: a number is its bits. -/
def Ty.Val : Ty → Type
  | .prim p => BitVec p.bits
  | .str => Bytes
  | .bin => Bytes
  | .list t => List t.Val
  | .fixed _ t => List t.Val
  | .snil => Unit
  | .scons t ts => t.Val × ts.Val

/-- All the elements of a list are such that. -/
def Every {β : Type} (P : β → Prop) (l : List β) : Prop := ∀ x ∈ l, P x

/-- A list and one more element at its end. -/
def snoc {β : Type} (l : List β) (x : β) : List β := l ++ [x]

/-- The arrays of the value have the length of their type (`true` of any Go value). -/
def Ok : (t : Ty) → t.Val → Prop
  | .prim _, _ => True
  | .str, _ => True
  | .bin, _ => True
  | .list t, v => Every (Ok t) v
  | .fixed n t, v => List.length (α := t.Val) v = n ∧ Every (Ok t) v
  | .snil, _ => True
  | .scons t ts, v => Ok t v.1 ∧ Ok ts v.2

/-- Columns of a type. -/
def Ty.Col : Ty → Type
  | .prim p => List (Bool × BitVec p.bits)
  | .str => List (Bool × Nat) × Bytes
  | .bin => List (Bool × Nat) × Bytes
  | .list t => List (Bool × Nat) × t.Col
  | .fixed _ t => List Bool × t.Col
  | .snil => List Bool
  | .scons t ts => t.Col × ts.Col

/-- Number of rows of a column. -/
def len : (t : Ty) → t.Col → Nat
  | .prim p, c => List.length (α := Bool × BitVec p.bits) c
  | .str, c => List.length c.1
  | .bin, c => List.length c.1
  | .list _, c => List.length c.1
  | .fixed _ _, c => List.length c.1
  | .snil, c => List.length (α := Bool) c
  | .scons _ ts, c => len ts c.2

/-- An empty column: groot/rarrow/rarrow.go:204-244 `builderFrom`. -/
def builder : (t : Ty) → t.Col
  | .prim p => ([] : List (Bool × BitVec p.bits))
  | .str => (([], []) : List (Bool × Nat) × Bytes)
  | .bin => (([], []) : List (Bool × Nat) × Bytes)
  | .list t => (([], builder t) : List (Bool × Nat) × t.Col)
  | .fixed _ t => (([], builder t) : List Bool × t.Col)
  | .snil => ([] : List Bool)
  | .scons t ts => ((builder t, builder ts) : t.Col × ts.Col)

/-- Append the elements of a list, one after the other. -/
def appendAll {β γ : Type} (f : γ → β → Option γ) : γ → List β → Option γ
  | c, [] => some c
  | c, v :: vs => (f c v).bind fun c' => appendAll f c' vs

/-- Append a string to a column of strings. -/
def appendBytes (c : List (Bool × Nat) × Bytes) (v : Bytes) : List (Bool × Nat) × Bytes :=
  (snoc c.1 (true, c.2.length), c.2 ++ v)

/-- groot/rarrow/rarrow.go:314-378 `appendValue`, and
groot/rarrow/rarrow.go:246-312 `appendData`, which does the same through a
pointer.  `none`: the function panics; there is no case for `Binary`. -/
def appendValue : (t : Ty) → t.Col → t.Val → Option t.Col
  | .prim p, c, v => some (snoc (β := Bool × BitVec p.bits) c (true, v))
  | .str, c, v => some (appendBytes c v)
  | .bin, _, _ => none
  | .list t, c, v =>
    (appendAll (appendValue t) c.2 v).map fun ch => (snoc c.1 (true, len t c.2), ch)
  | .fixed _ t, c, v =>
    (appendAll (appendValue t) c.2 v).map fun ch => (snoc c.1 true, ch)
  | .snil, c, _ => some (snoc (β := Bool) c true)
  | .scons t ts, c, v =>
    (appendValue t c.1 v.1).bind fun c1 => (appendValue ts c.2 v.2).map fun c2 => (c1, c2)

/-! ## Leaves, branches and fields -/

/-- A leaf of a branch.  `elem` is the type of a Go element; `plain` tells the
leaf is of a primitive type or a string, and not of a struct or a slice; `short`
tells the leaf is of `Float16` or `Double32`, whose shape is not in the file. -/
structure Leaf where
  name : String
  elem : Ty
  plain : Bool
  short : Bool
  count : Bool
  len : Nat
  shape : List Nat
  deriving DecidableEq, Repr

/-- Arrays of the given dimensions, the last one innermost. -/
def arrays (t : Ty) : List Nat → Ty
  | [] => t
  | n :: ns => .fixed n (arrays t ns)

/-- groot/rarrow/rarrow.go:146-202 `dataTypeFromGo`. -/
def fromGo : Ty → Ty
  | .prim p => .prim p
  | .str => .str
  | .bin => .bin
  | .list (.prim .u8) => .bin
  | .list t => .list (fromGo t)
  | .fixed n t => .fixed n (fromGo t)
  | .snil => .snil
  | .scons t ts => .scons (fromGo t) (fromGo ts)

/-- The dimensions around a type: groot/rarrow/rarrow.go:106-141 in
`dataTypeFromLeaf`, and the same in groot/rtree/rvar.go:357-392
`newValue`.  Strings of several dimensions are left out. -/
def wrap (l : Leaf) (t : Ty) : Ty :=
  if l.count then .list (arrays t (if l.short then [] else l.shape))
  else if 1 < l.len then
    (if t = .str then t else arrays t (if l.short then [l.len] else l.shape))
  else t

/-- groot/rarrow/rarrow.go:50-144 `dataTypeFromLeaf`. -/
def leafTy (l : Leaf) : Ty := wrap l (if l.plain then l.elem else fromGo l.elem)

/-- The Go type of the value of a leaf: groot/rtree/rvar.go:324-395 `newValue`. -/
def goTy (l : Leaf) : Ty := wrap l l.elem

/-- A branch and its leaves. -/
structure Branch where
  name : String
  leaves : List Leaf
  deriving DecidableEq, Repr

/-- The struct of a list of types. -/
def struct : List Ty → Ty
  | [] => .snil
  | t :: ts => .scons t (struct ts)

/-- groot/rarrow/rarrow.go:30-48 `fieldFromBranch`: name and type of the field. -/
def field (b : Branch) : String × Ty :=
  match b.leaves with
  | [l] => (b.name, leafTy l)
  | ls => (b.name, struct (ls.map leafTy))

/-- groot/rarrow/rarrow.go:21-28 `SchemaFrom`. -/
def schema (bs : List Branch) : List (String × Ty) := bs.map field

/-- groot/rtree/rvar.go:35-49 `NewReadVars`: the Go types of the variables, one per leaf. -/
def rvars (bs : List Branch) : List Ty := bs.flatMap fun b => b.leaves.map goTy

/-- A value with its type, and a column with its type. -/
abbrev Cell := (t : Ty) × t.Val
abbrev Column := (t : Ty) × t.Col

/-- `appendData`, for a value whose type is not known to be that of the column.
Simplified: where the types differ the function panics. -/
def appendData (c : Column) (v : Cell) : Option Column :=
  if h : v.1 = c.1 then (appendValue c.1 c.2 (h ▸ v.2)).map fun c' => ⟨c.1, c'⟩ else none

/-- The loop over the fields for one entry (groot/rarrow/reader.go:80-85). -/
def appendRow : List Column → List Cell → Option (List Column)
  | [], _ => some []
  | _ :: _, [] => none
  | c :: cs, v :: vs => (appendData c v).bind fun c' => (appendRow cs vs).map fun cs' => c' :: cs'

/-- groot/rarrow/reader.go:64-93 `load`, for the rows of the range: the
columns of the record. -/
def columns (bs : List Branch) (rows : List (List Cell)) : Option (List Column) :=
  appendAll appendRow ((schema bs).map fun f => ⟨f.2, builder f.2⟩) rows

/-! ## Flat trees out of columns -/

/-- The values `f s`, ..., `f (s + n - 1)`. -/
def gets {β : Type} (f : Nat → Option β) : Nat → Nat → Option (List β)
  | _, 0 => some []
  | s, n + 1 => (f s).bind fun v => (gets f (s + 1) n).map fun vs => v :: vs

/-- Where the row `i` of a list or string column ends: at the start of the next
one, or at the end `m` of the elements. -/
def stop (l : List (Bool × Nat)) (m i : Nat) : Nat :=
  match l[i + 1]? with
  | some p => p.2
  | none => m

/-- The value of a row of a column of numbers. -/
def numAt {β : Type} (c : List (Bool × β)) (i : Nat) : Option β := (c[i]?).map Prod.snd

/-- The bytes of a row of a column of strings. -/
def bytesAt (c : List (Bool × Nat) × Bytes) (i : Nat) : Option Bytes :=
  (c.1[i]?).map fun p => (c.2.drop p.2).take (stop c.1 c.2.length i - p.2)

/-- groot/rarrow/tree_writer.go:233-325 `readFrom`, for the element `i` of
the slice of the column starting at `off`, inside of a list: a list inside of a
list has no counter, and panics, as a struct does (in `writeVarFrom`,
groot/rarrow/tree_writer.go:103-231). -/
def readElem : (t : Ty) → t.Col → Nat → Nat → Option t.Val
  | .prim p, c, off, i => numAt (β := BitVec p.bits) c (off + i)
  | .str, c, off, i => bytesAt c (off + i)
  | .bin, c, off, i => bytesAt c (off + i)
  | .list _, _, _, _ => none
  | .fixed n t, c, off, i =>
    if (off + i + 1) * n ≤ len t c.2 then gets (fun k => readElem t c.2 ((off + i) * n) k) 0 n else none
  | .snil, _, _, _ => none
  | .scons _ _, _, _, _ => none

/-- `readFrom` for the row `i` of a column of a record which is the slice
starting at `off`: the value written and, for a list, its counter. -/
def readFrom : (t : Ty) → t.Col → Nat → Nat → Option (t.Val × Option Nat)
  | .list t, c, off, i =>
    (c.1[i + off]?).bind fun p =>
      if p.1 then
        (gets (fun k => readElem t c.2 p.2 k) 0 (stop c.1 (len t c.2) (i + off) - p.2)).map
          fun v => (v, some (stop c.1 (len t c.2) (i + off) - p.2))
      else some (([] : List t.Val), some 0)
  | t, c, off, i => (readElem t c off i).map fun v => (v, none)

/-- A column of a record: a slice of a column, of `n` rows from `off` on. -/
structure Arr where
  t : Ty
  c : t.Col
  off : Nat
  n : Nat

/-- A column as it is in a record read from a tree. -/
def whole (n : Nat) (c : Column) : Arr := ⟨c.1, c.2, 0, n⟩

/-- The value of a cell written and its counter. -/
abbrev Written := Cell × Option Nat

/-- The columns of one row (groot/rarrow/tree_writer.go:68-77). -/
def readRow (i : Nat) : List Arr → Option (List Written)
  | [] => some []
  | a :: as => (readFrom a.t a.c a.off i).bind fun p =>
      (readRow i as).map fun ws => (⟨a.t, p.1⟩, p.2) :: ws

/-- What became of writing a record. -/
inductive Res where
  | ok | err | panic
  deriving DecidableEq, Repr

/-- The rows from `i` on, `n` of them (groot/rarrow/tree_writer.go:67-82). -/
def writeRows (as : List Arr) : Nat → Nat → List (List Written) → List (List Written) × Res
  | _, 0, es => (es, .ok)
  | i, n + 1, es =>
    match readRow i as with
    | none => (es, .panic)
    | some ws => writeRows as (i + 1) n (es ++ [ws])

/-- groot/rarrow/tree_writer.go:52-85 `Write`: the entries of the tree
after the call.  Of the schemas only the types are compared. -/
def write (sch : List Ty) (as : List Arr) (es : List (List Written)) : List (List Written) × Res :=
  if as.map Arr.t ≠ sch then (es, .err)
  else
    match as with
    | [] => (es, .panic)
    | a :: as' =>
      if as'.all fun b => b.n == a.n then writeRows (a :: as') 0 a.n es else (es, .err)

/-- The names of the branches of the tree written: the counters of the lists,
here in the order of the fields, and the fields
(groot/rarrow/tree_writer.go:27-43 `NewFlatTreeWriter`). -/
def branchNames (sch : List (String × Ty)) : List String :=
  (sch.filterMap fun f =>
    match f.2 with
    | .list _ => some ("rarrow_n_" ++ f.1)
    | _ => none) ++ sch.map (·.1)

end Verif.Rarrow
