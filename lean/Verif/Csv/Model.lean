import Verif.Common.Strconv

/-!
# Model of `csvutil`: tables of comma-separated values

The conversion of Go values into fields and back, the rows of a table, the iteration over rows and
the two ways a table writes into its file are those of `csvutil/csv.go`.  The package is a thin layer
on `encoding/csv` of the standard library, which is not part of the repository: its writer and reader
(default settings but for the delimiter, the comment character and the number of fields) are
modelled from their documentation, as a machine over characters.

Simplifications: files are lists of characters (valid UTF-8); reading and writing the operating
system's files does not fail; the notation of floating-point numbers is a pair of parameters `ff`,
`pf` (`strconv.FormatFloat(x, 'g', -1, bits)` and `strconv.ParseFloat`); values are given directly or
through one pointer; a struct is the list of its fields.
-/

namespace Verif.Csv
open Verif.Strconv

/-! ### `encoding/csv` -/

/-- The fields of `csv.Reader` and `csv.Writer` a user sets. -/
structure Dialect where
  comma : Char
  comment : Option Char
deriving DecidableEq, Repr

/-- The characters `csv.Writer` and `csv.Reader` accept as delimiter, `validDelim`. -/
def validDelim (c : Char) : Bool := c != '"' && c != '\r' && c != '\n' && c != Char.ofNat 0

/-- `csv.Reader` refuses to work otherwise. -/
def Dialect.Valid (d : Dialect) : Prop :=
  validDelim d.comma = true ∧ (∀ c, d.comment = some c → validDelim c = true ∧ c ≠ d.comma)

/-- `csv.Writer.fieldNeedsQuotes`; `sp` is `unicode.IsSpace`. -/
def needsQuotes (sp : Char → Bool) (comma : Char) (f : List Char) : Bool :=
  match f with
  | [] => false
  | c :: _ =>
    f == ['\\', '.'] || f.any (fun c => c == comma || c == '"' || c == '\r' || c == '\n') || sp c

/-- Quotes inside a quoted field are doubled. -/
def esc : List Char → List Char
  | [] => []
  | c :: f => if c = '"' then '"' :: '"' :: esc f else c :: esc f

/-- A field as written. -/
def encField (sp : Char → Bool) (comma : Char) (f : List Char) : List Char :=
  if needsQuotes sp comma f then '"' :: (esc f ++ ['"']) else f

/-- The fields of a record separated by the delimiter. -/
def encFields (sp : Char → Bool) (comma : Char) : List (List Char) → List Char
  | [] => []
  | [f] => encField sp comma f
  | f :: g :: fs => encField sp comma f ++ comma :: encFields sp comma (g :: fs)

/-- `csv.Writer.Write` (`UseCRLF` unset). -/
def encRec (sp : Char → Bool) (comma : Char) (fs : List (List Char)) : List Char :=
  encFields sp comma fs ++ ['\n']

/-- The reader turns `\r\n` into `\n` and drops a `\r` at the end of the file. -/
def crlf : List Char → List Char
  | [] => []
  | ['\r'] => []
  | '\r' :: '\n' :: l => '\n' :: crlf l
  | c :: l => c :: crlf l

/-- Where the reader is: at the beginning of a line, in a comment, at the beginning of a field, in
a field without quotes, in a field with quotes, after a quote in such a field. -/
inductive St
  | line | skip | start | plain | quoted | after
deriving DecidableEq, Repr

/-- What a character does. -/
inductive Step
  | go (st : St) (acc : List Char) (done : List (List Char))
  | emit (fs : List (List Char))
  | fail (fs : List (List Char))

/-- A character of a field without quotes. -/
def plainStep (d : Dialect) (acc : List Char) (done : List (List Char)) (c : Char) : Step :=
  if c = d.comma then .go .start [] (done ++ [acc])
  else if c = '\n' then .emit (done ++ [acc])
  else if c = '"' then .fail done
  else .go .plain (acc ++ [c]) done

/-- The first character of a field. -/
def startStep (d : Dialect) (done : List (List Char)) (c : Char) : Step :=
  if c = '"' then .go .quoted [] done else plainStep d [] done c

/-- One character read by `csv.Reader.readRecord`. -/
def step (d : Dialect) : St → List Char → List (List Char) → Char → Step
  | .line, _, _, c =>
    if c = '\n' then .go .line [] []
    else if some c = d.comment then .go .skip [] []
    else startStep d [] c
  | .skip, _, _, c => if c = '\n' then .go .line [] [] else .go .skip [] []
  | .start, _, done, c => startStep d done c
  | .plain, acc, done, c => plainStep d acc done c
  | .quoted, acc, done, c => if c = '"' then .go .after acc done else .go .quoted (acc ++ [c]) done
  | .after, acc, done, c =>
    if c = '"' then .go .quoted (acc ++ ['"']) done
    else if c = d.comma then .go .start [] (done ++ [acc])
    else if c = '\n' then .emit (done ++ [acc])
    else .fail done

/-- What `csv.Reader.readRecord` found. -/
inductive Res
  | recd (fs : List (List Char)) (rest : List Char)
  | err (fs : List (List Char)) (rest : List Char)
  | eof
deriving DecidableEq, Repr

/-- The rest of the line is skipped after an error. -/
def dropLine : List Char → List Char
  | [] => []
  | c :: l => if c = '\n' then l else dropLine l

/-- The end of the file. -/
def atEOF : St → List Char → List (List Char) → Res
  | .line, _, _ => .eof
  | .skip, _, _ => .eof
  | .start, _, done => .recd (done ++ [[]]) []
  | .plain, acc, done => .recd (done ++ [acc]) []
  | .quoted, _, done => .err done []
  | .after, acc, done => .recd (done ++ [acc]) []

/-- `csv.Reader.readRecord`. -/
def run (d : Dialect) : St → List Char → List (List Char) → List Char → Res
  | st, acc, done, [] => atEOF st acc done
  | st, acc, done, c :: l => match step d st acc done c with
    | .go st acc done => run d st acc done l
    | .emit fs => .recd fs l
    | .fail fs => .err fs (dropLine l)

/-- Errors of the reader. -/
inductive RdErr
  | eof | quote | fieldCount
deriving DecidableEq, Repr

/-- A `csv.Reader`: what is left to read and `FieldsPerRecord`. -/
structure Rd where
  inp : List Char
  fpr : Int
deriving DecidableEq, Repr

/-- `csv.Reader.Read`: the record, the error, the reader afterwards. -/
def Rd.read (d : Dialect) (r : Rd) : List (List Char) × Option RdErr × Rd :=
  match run d .line [] [] r.inp with
  | .eof => ([], some .eof, ⟨[], r.fpr⟩)
  | .err fs rest => (fs, some .quote, ⟨rest, if r.fpr = 0 then fs.length else r.fpr⟩)
  | .recd fs rest =>
    if r.fpr > 0 ∧ (fs.length : Int) ≠ r.fpr then (fs, some .fieldCount, ⟨rest, r.fpr⟩)
    else (fs, none, ⟨rest, if r.fpr = 0 then fs.length else r.fpr⟩)

/-! ### Values -/

/-- A Go value given to `WriteRow` or held by a destination of `Scan`: the kinds
csvutil/csv.go:31-64 (`formatValue`) distinguishes.  `other` is any other kind. -/
inductive Val (Fl : Type)
  | bool (b : Bool)
  | int (bits : Nat) (i : Int)
  | uint (bits : Nat) (n : Nat)
  | float (bits : Nat) (x : Fl)
  | str (s : List Char)
  | slice (l : List (Val Fl))
  | other

section
variable {Fl : Type}

/-- `strconv.FormatBool`. -/
def formatBool (b : Bool) : List Char := if b then ['t', 'r', 'u', 'e'] else ['f', 'a', 'l', 's', 'e']

mutual
/-- csvutil/csv.go:31-64 (`formatValue`); `none` is an error. -/
def formatValue (ff : Nat → Fl → List Char) (quotes : Bool) : Val Fl → Option (List Char)
  | .bool b => some (formatBool b)
  | .int _ i => some (formatInt i)
  | .uint _ n => some (formatUint n)
  | .float bits x => some (ff bits x)
  | .str s => some (if quotes then '\'' :: (s ++ ['\'']) else s)
  | .slice l => match formatElems ff true l with
    | some t => some ('[' :: (t ++ [']']))
    | none => none
  | .other => none
/-- The elements of a slice, csvutil/csv.go:31-64 (`formatValue`). -/
def formatElems (ff : Nat → Fl → List Char) (first : Bool) : List (Val Fl) → Option (List Char)
  | [] => some []
  | v :: l => match formatValue ff true v, formatElems ff false l with
    | some s, some t => some ((if first then [] else [',', ' ']) ++ s ++ t)
    | _, _ => none
end

/-- The fields of a row, csvutil/csv.go:209-221 (`Table.write`). -/
def fieldsOf (ff : Nat → Fl → List Char) : List (Val Fl) → Option (List (List Char))
  | [] => some []
  | v :: vs => match formatValue ff false v, fieldsOf ff vs with
    | some f, some fs => some (f :: fs)
    | _, _ => none

/-- csvutil/csv.go:180-207 (`Table.WriteRow`) and csvutil/csv.go:209-221 (`Table.write`): the characters
handed to the buffered writer, `none` being an error. -/
def rowBytes (ff : Nat → Fl → List Char) (sp : Char → Bool) (d : Dialect) (args : List (Val Fl)) :
    Option (List Char) :=
  match args with
  | [] => none
  | _ => match fieldsOf ff args with
    | some fs => if validDelim d.comma then some (encRec sp d.comma fs) else none
    | none => none

/-- `strconv.ParseBool`. -/
def parseBool (s : List Char) : Option Bool :=
  if s ∈ [['1'], ['t'], ['T'], ['t', 'r', 'u', 'e'], ['T', 'R', 'U', 'E'], ['T', 'r', 'u', 'e']] then some true
  else if s ∈ [['0'], ['f'], ['F'], ['f', 'a', 'l', 's', 'e'], ['F', 'A', 'L', 'S', 'E'], ['F', 'a', 'l', 's', 'e']] then
    some false
  else none

/-- One destination of csvutil/csv.go:307-352 (`Rows.scan`): the value it gets, by its kind.  `none` is an
error. -/
def scanOne (pf : Nat → List Char → Option Fl) (s : List Char) : Val Fl → Option (Val Fl)
  | .bool _ => (parseBool s).map .bool
  | .int bits _ => (parseInt bits s).map (.int bits)
  | .uint bits _ => (parseUint bits s).map (.uint bits)
  | .float bits _ => (pf bits s).map (.float bits)
  | .str _ => some (.str s)
  | .slice _ => none
  | .other => none

/-- csvutil/csv.go:307-352 (`Rows.scan`): destinations are filled from the left up to the first error, those
without a field keep their value. -/
def scanAll (pf : Nat → List Char → Option Fl) : List (List Char) → List (Val Fl) → List (Val Fl) × Bool
  | [], dest => (dest, true)
  | _, [] => ([], true)
  | s :: fs, v :: dest => match scanOne pf s v with
    | none => (v :: dest, false)
    | some w => let r := scanAll pf fs dest; (w :: r.1, r.2)

/-! ### Rows -/

/-- Errors of csvutil/csv.go:247-249 (`Rows.Err`). -/
inductive Err
  | read (e : RdErr)
  | scan
deriving DecidableEq, Repr

/-- csvutil/csv.go:234-243 (`Rows`) with the reader of its table; `cur` is never read. -/
structure Rows where
  rd : Rd
  i : Int
  n : Int
  record : List (List Char)
  closed : Bool
  err : Option Err
deriving DecidableEq, Repr

/-- csvutil/csv.go:363-373 (`Rows.skip`). -/
def skip (d : Dialect) : Nat → Rd → Rd × Option RdErr
  | 0, r => (r, none)
  | k + 1, r => match r.read d with
    | (_, some e, r') => (r', some e)
    | (_, none, r') => skip d k r'

/-- `math.MaxInt64`. -/
def maxInt64 : Int := 9223372036854775807

/-- csvutil/csv.go:149-168 (`Table.ReadRows`): rows or an error. -/
def readRows (d : Dialect) (r : Rd) (beg stop : Int) : Rd × (Except RdErr Rows) :=
  let n := if stop = -1 then maxInt64 else stop - beg
  match skip d beg.toNat r with
  | (r', some e) => (r', .error e)
  | (r', none) => (r', .ok ⟨r', 0, n, [], false, none⟩)

/-- csvutil/csv.go:370-401 (`Rows.Next`). -/
def Rows.next (d : Dialect) (s : Rows) : Bool × Rows :=
  if s.closed then (false, s)
  else if s.err.isSome then (false, s)
  else
    let more := decide (s.i < s.n)
    let s := { s with i := s.i + 1 }
    if more then
      match s.rd.read d with
      | (fs, some e, rd) => (false, { s with record := fs, err := some (.read e), rd })
      | (fs, none, rd) => (true, { s with record := fs, rd })
    else (false, { s with closed := true, err := none })

/-- csvutil/csv.go:281-305 (`Rows.Scan`): the destinations afterwards and whether it succeeded. -/
def Rows.scan (pf : Nat → List Char → Option Fl) (s : Rows) (dest : List (Val Fl)) :
    List (Val Fl) × Bool × Rows :=
  match dest with
  | [] => ([], false, { s with err := some .scan })
  | _ =>
    let r := scanAll pf s.record dest
    (r.1, r.2, { s with err := if r.2 then none else some .scan })

/-- The loop of a user: `for rows.Next() { rows.Scan(dest...) }` with new destinations each time,
the fields and what they were scanned to; `none` if the bound was too small. -/
def loop (d : Dialect) (pf : Nat → List Char → Option Fl) (dest : List (Val Fl)) :
    Nat → Rows → Option (List (List (List Char) × List (Val Fl) × Bool) × Rows)
  | 0, _ => none
  | fuel + 1, s => match s.next d with
    | (false, s') => some ([], s')
    | (true, s') =>
      let r := s'.scan pf dest
      match loop d pf dest fuel r.2.2 with
      | some (out, t) => some ((s'.record, r.1, r.2.1) :: out, t)
      | none => none

/-! ### Writing -/

/-- A table in write mode, csvutil/csv.go:116-123 (`Table`): the file and what the buffered writer holds
back. -/
structure Wr where
  file : List Char
  pend : List Char
deriving DecidableEq, Repr

/-- What can happen to a table in write mode; `flush k` is the buffered writer giving its first `k`
characters to the file, which it does when its buffer is full. -/
inductive WOp (Fl : Type)
  | header (h : List Char)
  | row (args : List (Val Fl))
  | flush (k : Nat)
  | close

/-- csvutil/csv.go:171-177 (`Table.WriteHeader`): a newline is added unless there is one. -/
def headerBytes (h : List Char) : List Char := if h.getLast? = some '\n' then h else h ++ ['\n']

/-- csvutil/csv.go:171-177 (`Table.WriteHeader`) writes to the file directly, csvutil/csv.go:180-207
(`Table.WriteRow`) through the buffer, csvutil/csv.go:126-145 (`Table.Close`) empties the buffer. -/
def wstep (ff : Nat → Fl → List Char) (sp : Char → Bool) (d : Dialect) (w : Wr) : WOp Fl → Wr
  | .header h => { w with file := w.file ++ headerBytes h }
  | .row args => match rowBytes ff sp d args with
    | some bs => { w with pend := w.pend ++ bs }
    | none => w
  | .flush k => ⟨w.file ++ w.pend.take k, w.pend.drop k⟩
  | .close => ⟨w.file ++ w.pend, []⟩

/-- A sequence of calls. -/
def wrun (ff : Nat → Fl → List Char) (sp : Char → Bool) (d : Dialect) (w : Wr) (ops : List (WOp Fl)) : Wr :=
  ops.foldl (wstep ff sp d) w

/-- csvutil/csv.go:81-91 (`Create`). -/
def create : Wr := ⟨[], []⟩

/-- csvutil/csv.go:96-110 (`Append`). -/
def appendTo (file : List Char) : Wr := ⟨file, []⟩

/-- csvutil/csv.go:67-78 (`Open`): a reader with default settings. -/
def openFile (file : List Char) : Rd := ⟨crlf file, 0⟩

end

end Verif.Csv
