import Verif.Common.Text
import Verif.Hbook.Model

/-!
# Model of `hbook/ntup`: queries, scans, histograms of n-tuples

Simplifications: texts are lists of characters; the answer of the data base to a query is a list of
rows, each with its values or the error of converting them, and the error that ends it; a column type
is its kind and a name.  The signs of zeros are not tracked (`math.Min`, `math.Max`).
-/

namespace Verif.Ntup
open Verif.Text Verif.Hbook

/-! ### Queries -/

def tWHERE : List Char := [' ', 'W', 'H', 'E', 'R', 'E', ' ']
def tWhere : List Char := [' ', 'w', 'h', 'e', 'r', 'e', ' ']
def tORDER : List Char := [' ', 'O', 'R', 'D', 'E', 'R', ' ']
def tOrder : List Char := [' ', 'o', 'r', 'd', 'e', 'r', ' ']
def tSelect : List Char := ['s', 'e', 'l', 'e', 'c', 't', ' ']
def tFrom : List Char := [' ', 'f', 'r', 'o', 'm', ' ']
def tById : List Char := [' ', 'o', 'r', 'd', 'e', 'r', ' ', 'b', 'y', ' ', 'i', 'd', '(', ')']

/-- The first two elements of `strings.Split`, if the separator occurs. -/
def two (sep q : List Char) : Option (List Char × List Char) :=
  match cut sep q with
  | none => none
  | some (a, r) => match cut sep r with
    | none => some (a, r)
    | some (b, _) => some (a, b)

/-- hbook/ntup/ntuple.go:327-357 (`massageQuery`). -/
def massageQuery (name q : List Char) : List Char :=
  let vw : List Char × List Char := match two tWHERE q with
    | some (v, w) => (v, tWhere ++ w)
    | none => match two tWhere q with
      | some (v, w) => (v, tWhere ++ w)
      | none => (q, [])
  let order := if (cut tORDER q).isSome then [] else if (cut tOrder q).isSome then [] else tById
  tSelect ++ vw.1 ++ tFrom ++ name ++ vw.2 ++ order

/-! ### Scans -/

/-- How `rows.Err` ends. -/
inductive Fin (E : Type)
  | ok | eof
  | err (e : E)
deriving DecidableEq, Repr

/-- The loop of hbook/ntup/ntuple.go:207-255 (`Scan`): `call` is the function of the caller, which
may keep a state; the rows carry the errors of `rows.Scan`. -/
def scan {σ R E : Type} (call : σ → R → σ × Option E) (fin : Fin E) : σ → List (Except E R) → σ × Option E
  | s, [] => (s, match fin with
    | .ok => none
    | .eof => none
    | .err e => some e)
  | s, .error e :: _ => (s, some e)
  | s, .ok r :: rs => match call s r with
    | (s', some e) => (s', some e)
    | (s', none) => scan call fin s' rs

/-! ### Histograms -/

section Hist
variable {F α : Type} [LinearOrder α] [GoFloat F α]

/-- `math.Min`. -/
def fmin (x y : F) : F := if isNaN x then x else if isNaN y then y else if flt y x then y else x

/-- `math.Max`. -/
def fmax (x y : F) : F := if isNaN x then x else if isNaN y then y else if flt x y then y else x

/-- `math.Nextafter`, with the next larger and the next smaller number. -/
def nextafter (succ pred : F → F) (x y : F) : F :=
  if isNaN x then x else if isNaN y then y
  else if feq x y then x else if flt x y then succ x else pred x

/-- hbook/ntup/ntuple.go:359-361 (`nextULP`). -/
def nextULP [Add F] [One F] (succ pred : F → F) (v : F) : F := nextafter succ pred v (v + 1)

/-- What `ScanH1D` returns. -/
inductive Res (H E : Type)
  | ok (h : H)
  | err (e : E)
  | panic
deriving DecidableEq, Repr

/-- The second scan of hbook/ntup/ntuple.go:261-287 (`ScanH1D`).  A fill that panics keeps its state. -/
def fillCall [Add F] [Mul F] [One F] {E : Type} (h : Option (Binning1D F)) (x : F) : Option (Binning1D F) × Option E :=
  (h.bind fun h => h.fill x 1, none)

def fillAll [Add F] [Mul F] [One F] {E : Type} (h : Binning1D F) (rows : List (Except E F)) (fin : Fin E) :
    Res (Binning1D F) E :=
  match scan fillCall fin (some h) rows with
  | (none, _) => .panic
  | (some _, some e) => .err e
  | (some h, none) => .ok h

/-- The first scan of hbook/ntup/ntuple.go:261-287 (`ScanH1D`). -/
def rangeCall {E : Type} (s : F × F) (x : F) : (F × F) × Option E := ((fmin s.1 x, fmax s.2 x), none)

/-- hbook/ntup/ntuple.go:261-287 (`ScanH1D`): the query is run twice without a histogram; `big` is
`math.MaxFloat64`.  The histogram returned beside an error is left out. -/
def scanH1D [Zero F] [One F] [Add F] [Neg F] [Sub F] [Mul F] [Div F] [NatCast F] {E : Type} (succ pred : F → F) (big : F)
    (h : Option (Binning1D F)) (rows : List (Except E F)) (fin : Fin E) : Res (Binning1D F) E :=
  match h with
  | some h => fillAll h rows fin
  | none => match scan rangeCall fin (big, -big) rows with
    | (_, some e) => .err e
    | ((xmin, xmax), none) => match newBinning1D 100 xmin (nextULP succ pred xmax) with
      | none => .panic
      | some h => fillAll h rows fin

end Hist

/-! ### Columns -/

/-- The kinds of types hbook/ntup/ntuple.go:136-164 (`schemaFromStruct`) tells apart. -/
inductive Kind
  | chan | iface | map | slice | struct | other
deriving DecidableEq, Repr

/-- A type: kind and name. -/
structure Ty where
  kind : Kind
  name : List Char
deriving DecidableEq, Repr

/-- A field of a struct: the values of the tags `hbook`, `rio` and `db`, in that order. -/
structure SField where
  name : List Char
  exported : Bool
  tags : List (List Char)
  ty : Ty
deriving DecidableEq, Repr

/-- hbook/ntup/ntuple.go:188-196 (`getTag`). -/
def getTag : List (List Char) → List Char
  | [] => []
  | v :: vs => if v ≠ [] ∧ v ≠ ['-'] then v else getTag vs

/-- hbook/ntup/ntuple.go:136-164 (`schemaFromStruct`): the columns, or the kind that is refused. -/
def schemaFromStruct : List SField → Except Kind (List (List Char × Ty))
  | [] => .ok []
  | f :: fs =>
    if !f.exported then schemaFromStruct fs
    else if f.ty.kind ≠ .other then .error f.ty.kind
    else
      let fname := getTag f.tags
      match schemaFromStruct fs with
      | .error k => .error k
      | .ok l => .ok ((if fname = [] then f.name else fname, f.ty) :: l)

/-- hbook/ntup/ntuple.go:166-186 (`schemaFrom`), from column number `i` on; `num` writes a number. -/
def schemaFrom (num : Nat → List Char) : Nat → List Ty → Except Kind (List (List Char × Ty))
  | _, [] => .ok []
  | i, t :: ts =>
    if t.kind ≠ .other then .error t.kind
    else match schemaFrom num (i + 1) ts with
      | .error k => .error k
      | .ok l => .ok (('v' :: 'a' :: 'r' :: num (i + 1), t) :: l)

end Verif.Ntup
