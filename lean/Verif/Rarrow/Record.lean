/-!
# Arrow records of a tree: which entries they hold

The entries of a tree are a list of rows, of any type.  How a row becomes the
cells of Arrow columns is in `Verif/Rarrow/Column.lean`; reading a range of
entries out of a file is in `Verif/RTree`.
-/

namespace Verif.Rarrow

/-- Addition of two `int64`: the result wraps around. -/
def add64 (a b : Int) : Int := (a + b).bmod (2 ^ 64)

/-- The options of a record, a table or a record reader
(groot/rarrow/option.go:11-16); the allocator of memory is left out. -/
structure Config where
  chunks : Int
  beg : Int
  fin : Int
  deriving DecidableEq, Repr

/-- groot/rarrow/option.go:18-27: `newConfig` without any option. -/
def Config.zero : Config := ⟨0, 0, -1⟩

/-- groot/rarrow/option.go:46-50 `WithChunk`. -/
def Config.withChunk (n : Int) (c : Config) : Config := { c with chunks := n }

/-- groot/rarrow/option.go:53-57 `WithStart`. -/
def Config.withStart (n : Int) (c : Config) : Config := { c with beg := n }

/-- groot/rarrow/option.go:60-64 `WithEnd`. -/
def Config.withEnd (n : Int) (c : Config) : Config := { c with fin := n }

/-- A record: the entry it starts at, the number of rows it says it has, and
its rows (groot/rarrow/reader.go:18-30). -/
structure Rec (α : Type) where
  offset : Int
  nrows : Int
  rows : List α
  deriving DecidableEq, Repr

/-- Reading the entries of a range: groot/rarrow/reader.go:64-93 `load`
with the checks of groot/rtree/reader.go:72-116 `setup`.  `none`: the
range is refused, and `load` panics. -/
def load {α : Type} (tree : List α) (beg fin : Int) : Option (List α) :=
  let fin := if fin < 0 then (tree.length : Int) else fin
  if beg < 0 then none
  else if fin < beg then none
  else if (tree.length : Int) < beg then none
  else if (tree.length : Int) < fin then none
  else some ((tree.drop beg.toNat).take (fin.toNat - beg.toNat))

/-- groot/rarrow/reader.go:33-62 `NewRecord`.  `none`: the function panics. -/
def newRecord {α : Type} (tree : List α) (c : Config) : Option (Rec α) :=
  let fin := if c.fin < 0 then (tree.length : Int) else c.fin
  let beg := if c.beg ≤ 0 then 0 else c.beg
  if fin < beg then none
  else (load tree beg fin).map fun rows => ⟨beg, fin - beg, rows⟩

/-- groot/rarrow/reader.go:130-132 `NewSlice`. -/
def Rec.newSlice {α : Type} (tree : List α) (r : Rec α) (i j : Int) : Option (Rec α) :=
  newRecord tree ((Config.zero.withStart (add64 r.offset i)).withEnd (add64 r.offset j))

/-- groot/rarrow/table.go:18-34 `NewTable`: the rows of the table. -/
def newTable {α : Type} (tree : List α) (_ : Config) : Option (List α) :=
  load tree 0 (tree.length : Int)

/-- A reader of records (groot/rarrow/reader.go:141-154); the current
record is what `next` gives back. -/
structure Reader where
  fin : Int
  cur : Int
  chunk : Int
  deriving DecidableEq, Repr

/-- groot/rarrow/reader.go:157-187 `NewRecordReader`. -/
def newReader {α : Type} (tree : List α) (c : Config) : Reader where
  fin := if c.fin ≤ 0 then (tree.length : Int) else c.fin
  cur := if c.beg ≤ 0 then 0 else c.beg
  chunk := if c.chunks = 0 then 1 else if c.chunks < 0 then (tree.length : Int) else c.chunks

/-- What a call of `Next` does: it tells there is nothing left, it panics, or
there is a new current record. -/
inductive Step (α : Type) where
  | done
  | panic
  | rec' (r : Rec α) (s : Reader)
  deriving DecidableEq, Repr

/-- groot/rarrow/reader.go:213-226 `Next`, with `load`
(groot/rarrow/reader.go:228-230). -/
def next {α : Type} (tree : List α) (s : Reader) : Step α :=
  if s.fin ≤ s.cur then .done
  else
    match newRecord tree
        ((Config.zero.withStart s.cur).withEnd (min (add64 s.cur s.chunk) s.fin)) with
    | none => .panic
    | some r => .rec' r { s with cur := add64 s.cur s.chunk }

/-- A loop `for r.Next() { ... r.Record() ... }` going round at most `n` times:
the records in turn and whether the loop came to its end. -/
def loop {α : Type} (tree : List α) : Nat → Reader → Option (List (Rec α) × Bool)
  | 0, _ => some ([], false)
  | n + 1, s =>
    match next tree s with
    | .done => some ([], true)
    | .panic => none
    | .rec' r s' => (loop tree n s').map fun p => (r :: p.1, p.2)

end Verif.Rarrow
