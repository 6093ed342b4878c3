import Verif.Csv.Model

/-!
# Model of `csvdriver`: files of comma-separated values as databases

The import of a file: names and types of the columns from the first rows, then all rows.  The database
itself (`modernc.org/ql`) is not part of the repository: making the table and inserting a row is
assumed to succeed and to keep the values.  Then the connections the driver keeps by name of
file, without the database, and the steps of opening and closing one at a time.
-/

namespace Verif.Csv
open Verif.Strconv

/-! ### Import -/

/-- The types of columns: csvutil/csvdriver/import.go:140-168 (`inferSchemaFromFields`). -/
inductive ColTy
  | int
  | float
  | str
deriving DecidableEq, Repr

/-- A result, an error or a panic. -/
inductive IRes (α : Type)
  | ok (a : α)
  | err (e : Err)
  | panic
deriving DecidableEq, Repr

section
variable {Fl : Type}

/-- csvutil/csvdriver/import.go:153-165 (`ParseInt`): the type of a column by a field. -/
def colTy (pf : Nat → List Char → Option Fl) (field : List Char) : ColTy :=
  if (parseInt 64 field).isSome then .int
  else if (pf 64 field).isSome then .float
  else .str

/-- csvutil/csvdriver/import.go:147-152 (`name`): the name of column `i`. -/
def colName (i : Nat) (name : List Char) : List Char :=
  if name = [] then ['v', 'a', 'r'] ++ formatUint (i + 1) else name

/-- csvutil/csvdriver/import.go:144-166 (`schema`), from column `i` on; `none` is an index out of range. -/
def columns (pf : Nat → List Char → Option Fl) :
    Nat → List (List Char) → List (List Char) → Option (List (List Char × ColTy))
  | _, _, [] => some []
  | _, [], _ :: _ => none
  | i, n :: ns, f :: fs =>
    match columns pf (i + 1) ns fs with
    | some cs => some ((colName i n, colTy pf f) :: cs)
    | none => none

/-- csvutil/csvdriver/import.go:140-168 (`inferSchemaFromFields`). -/
def schemaOf (pf : Nat → List Char → Option Fl) (fields names : List (List Char)) :
    IRes (List (List Char × ColTy)) :=
  match columns pf 0 (if names = [] then List.replicate fields.length [] else names) fields with
  | some cs => .ok cs
  | none => .panic

/-- csvutil/csvdriver/import.go:133-137 (`Next`): the row the types come from.  Without a row the error
of the rows is returned, be it nil. -/
def schemaRow (d : Dialect) (pf : Nat → List Char → Option Fl) (s : Rows) (names : List (List Char)) :
    IRes (List (List Char × ColTy)) :=
  match s.next d with
  | (true, s') => schemaOf pf s'.record names
  | (false, s') =>
    match s'.err with
    | some e => .err e
    | none => .ok []

/-- csvutil/csvdriver/import.go:110-138 (`inferSchemaFromTable`). -/
def inferSchema (d : Dialect) (pf : Nat → List Char → Option Fl) (r : Rd) (header : Bool)
    (names : List (List Char)) : IRes (List (List Char × ColTy)) :=
  match (readRows d r 0 (if header then 2 else 1)).2 with
  | .error e => .err (.read e)
  | .ok s =>
    if header then
      match s.next d with
      | (true, s') => schemaRow d pf s' (if names = [] then s'.record else names)
      | (false, s') =>
        match s'.err with
        | some e => .err e
        | none => .ok []
    else schemaRow d pf s names

/-- csvutil/csvdriver/import.go:185-198 (`Args`): where a column is read to. -/
def destOf (zero : Fl) : ColTy → Val Fl
  | .int => .int 64 0
  | .float => .float 64 zero
  | .str => .str []

/-- The table: names and types of columns, and the rows. -/
structure DbTable (Fl : Type) where
  cols : List (List Char × ColTy)
  rows : List (List (Val Fl))

/-- csvutil/csvdriver/import.go:66-87 (`insert`): the rows, after the loop.  In the code the same
destinations are used for all rows; all rows have the same number of fields, so none is left over. -/
def inserted (cols : List (List Char × ColTy)) (out : List (List (List Char) × List (Val Fl) × Bool))
    (err : Option Err) : IRes (DbTable Fl) :=
  if out.all (·.2.2) then
    match err with
    | none => .ok ⟨cols, out.map (·.2.1)⟩
    | some (.read .eof) => .ok ⟨cols, out.map (·.2.1)⟩
    | some e => .err e
  else .err .scan

/-- csvutil/csvdriver/import.go:19-92 (`importCSV`). -/
def importCSV (d : Dialect) (pf : Nat → List Char → Option Fl) (zero : Fl) (header : Bool)
    (names : List (List Char)) (file : List Char) : IRes (DbTable Fl) :=
  match inferSchema d pf (openFile file) header names with
  | .err e => .err e
  | .panic => .panic
  | .ok cols =>
    match (readRows d (openFile file) (if header then 1 else 0) (-1)).2 with
    | .error e => .err (.read e)
    | .ok s =>
      match loop d pf (cols.map fun c => destOf zero c.2) ((openFile file).inp.length + 1) s with
      | some (out, t) => inserted cols out t.err
      | none => .panic

/-- Opening a local file: csvutil/csvdriver/driver.go:129-133 (`doImport`),
csvutil/csvdriver/driver.go:166-192 (`OpenFile`).  `old` is the content of the file if there is one, `trunc`
whether the mode is that of `Create`.  The first `none` is an error, the second a database without
table. -/
def openLocal (d : Dialect) (pf : Nat → List Char → Option Fl) (zero : Fl) (header : Bool)
    (names : List (List Char)) (trunc : Bool) (old : Option (List Char)) :
    Option (IRes (Option (DbTable Fl))) :=
  match old with
  | none => if trunc then some (.ok none) else none
  | some file =>
    match importCSV d pf zero header names (if trunc then [] else file) with
    | .ok t => some (.ok (some t))
    | .err e => some (.err e)
    | .panic => some .panic

end

/-! ### Connections -/

/-- csvutil/csvdriver/driver.go:198-208 (`csvConn`): the name it was opened by, the name of its file,
how it was configured, the number of users, and whether the database is still open. -/
structure CConn (N C : Type) where
  name : N
  fname : N
  cfg : C
  refs : Nat
  live : Bool

/-- csvutil/csvdriver/driver.go:103-106 (`csvDriver`): the connections that were made, numbered, and
the numbers of those kept by name. -/
structure CDrv (N C : Type) where
  dbs : List (N × Nat)
  conns : List (CConn N C)

section
variable {N C : Type} [DecidableEq N]

/-- Looking up in the map. -/
def dbGet (k : N) : List (N × Nat) → Option Nat
  | [] => none
  | p :: m => if p.1 = k then some p.2 else dbGet k m

/-- Removing from the map. -/
def dbDel (k : N) (m : List (N × Nat)) : List (N × Nat) := m.filter fun p => decide (p.1 ≠ k)

/-- One more user of a connection. -/
def addRef (c : CConn N C) : CConn N C := { c with refs := c.refs + 1 }

/-- csvutil/csvdriver/driver.go:117-196 (`Open`), of a file that can be imported; `temp` gives the name
of the file made for a name: the same but for what comes from the network. -/
def openConn (temp : N → N) (s : CDrv N C) (name : N) (cfg : C) : Nat × CDrv N C :=
  match dbGet name s.dbs with
  | some id => (id, ⟨s.dbs, s.conns.modify id addRef⟩)
  | none => (s.conns.length, ⟨(name, s.conns.length) :: s.dbs, s.conns ++ [⟨name, temp name, cfg, 1, true⟩]⟩)

/-- csvutil/csvdriver/driver.go:240-269 (`Close`).  Closing the database does not fail. -/
def closeConn (s : CDrv N C) (id : Nat) : CDrv N C :=
  match s.conns[id]? with
  | none => s
  | some c =>
    if 1 < c.refs then ⟨s.dbs, s.conns.set id { c with refs := c.refs - 1 }⟩
    else
      ⟨if c.refs = 1 then dbDel c.fname s.dbs else s.dbs,
       s.conns.set id { c with refs := 0, live := false }⟩

/-- What users do: open a file, or close a connection they have. -/
inductive COp (N C : Type)
  | opened (name : N) (cfg : C)
  | closed (id : Nat)

/-- One thing after the other. -/
def cstep (temp : N → N) (s : CDrv N C) : COp N C → CDrv N C
  | .opened name cfg => (openConn temp s name cfg).2
  | .closed id => closeConn s id

/-! ### Closing in steps -/

/-- What one user who closes a connection has done so far: csvutil/csvdriver/driver.go:241-244 (`refs`),
csvutil/csvdriver/driver.go:251-259 (`Close`), csvutil/csvdriver/driver.go:261-266 (`Lock`).  The first
two steps are without the lock. -/
inductive Closing
  | start
  | checked
  | shut
  | done
deriving DecidableEq, Repr

/-- One step of closing connection `id`. -/
def closeStep (s : CDrv N C) (id : Nat) (p : Closing) : CDrv N C × Closing :=
  match s.conns[id]? with
  | none => (s, .done)
  | some c =>
    match p with
    | .start => if 1 < c.refs then (⟨s.dbs, s.conns.set id { c with refs := c.refs - 1 }⟩, .done) else (s, .checked)
    | .checked => (⟨s.dbs, s.conns.set id { c with live := false }⟩, .shut)
    | .shut =>
      (⟨if c.refs = 1 then dbDel c.fname s.dbs else s.dbs, s.conns.set id { c with refs := 0 }⟩, .done)
    | .done => (s, .done)

end

end Verif.Csv
