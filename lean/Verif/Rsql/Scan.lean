/-!
# Model of scanning the rows of a query (groot/rsql/scan.go, C197)

The rows are what the query gives, one after the other: the values of a row, or the error of converting them. The function of the user has
a state of its own.
-/

namespace Verif.Rsql.Scan

/-- What there is to know of the function given to `Scan`. -/
structure Kind where
  isNil : Bool
  isFunc : Bool
  /-- it has one result, an error -/
  returnsError : Bool
deriving DecidableEq

/-- groot/rsql/scan.go:50-66: the rows, and the error at their end -/
def loop {S V E : Type} [DecidableEq E] (eof : E) (f : S → V → S × Option E) (last : Option E) : S → List (Except E V) → S × Option E
  | s, [] => (s, if last = some eof then none else last)
  | s, .error e :: _ => (s, some e)
  | s, .ok v :: rs =>
    match f s v with
    | (s', some e) => (s', some e)
    | (s', none) => loop eof f last s' rs

/-- groot/rsql/scan.go:21-67 (`Scan`): `bad` is the error for a value that is not a function as needed, `query` the rows and the error
at their end, or the error of the query -/
def scan {S V E : Type} [DecidableEq E] (eof bad : E) (k : Kind) (query : Except E (List (Except E V) × Option E)) (f : S → V → S × Option E)
    (s : S) : S × Option E :=
  if k.isNil then (s, some bad)
  else if ¬ k.isFunc then (s, some bad)
  else if ¬ k.returnsError then (s, some bad)
  else
    match query with
    | .error e => (s, some e)
    | .ok (rows, last) => loop eof f last s rows

/-- groot/rsql/scan.go:73-99 (`ScanH1D`) and 107-137 (`ScanH2D`), with a type of histograms: how it is made of the least and the greatest value, how it is
filled. The query is executed twice if there is no histogram. -/
def scanH {H V R E : Type} [DecidableEq E] (eof bad : E) (query : Except E (List (Except E V) × Option E)) (start : R) (widen : R → V → R)
    (make : R → H) (fill : H → V → H) (h : Option H) : Option H × Option E :=
  let k : Kind := ⟨false, true, true⟩
  match h with
  | some h =>
    let r := scan eof bad k query (fun h v => (fill h v, none)) h
    (some r.1, r.2)
  | none =>
    match scan eof bad k query (fun r v => (widen r v, none)) start with
    | (_, some e) => (none, some e)
    | (r, none) =>
      let r := scan eof bad k query (fun h v => (fill h v, none)) (make r)
      (some r.1, r.2)

end Verif.Rsql.Scan
