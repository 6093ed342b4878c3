import Verif.Common.Fscanf
import Verif.Common.Text
import Verif.Hbook.Brio

/-!
# Model of the YODA texts of `hbook`

`MarshalYODA` and `UnmarshalYODA` of `hbook.H1D`, `P1D`, `H2D` and `S2D`: a header line, the
annotations, a table of numbers and an end line.

What is a parameter (`Env`): the text of a number (`%e` of package `fmt`) and the value of such a
text, the conversions between `int64` and `float64`, `math.Min` and `math.Max`, and
`gopkg.in/yaml.v3`, the codec of the annotations.  A value of an annotation is of a type `V` with
strings among its values.

The four readers are the same loop over lines with different tables; the loop is written once
(`loop`) with the table as an argument (`Kind`).  `bufio.Scanner` refuses lines of more than 64 kB:
this is not modelled.
-/

namespace Verif.Hbook.Yoda
open Verif.Text Verif.Fscanf Verif.Strconv Verif.Hbook Verif.Hbook.Brio

/-- An annotation: a Go map as a list of keys and values, in the order in which a loop over the map visits them. -/
abbrev Ann (V : Type) : Type := List (List Char × V)

/-- `ann[k]` -/
def get {V : Type} (a : Ann V) (k : List Char) : Option V := (a.find? fun x => decide (x.1 = k)).map fun x => x.2

/-- `ann[k] = v` -/
def set {V : Type} (a : Ann V) (k : List Char) (v : V) : Ann V := a.filter (fun x => decide (x.1 ≠ k)) ++ [(k, v)]

/-- The libraries. -/
structure Env (F V : Type) where
  /-- `%e` of a `float64` -/
  fmtE : F → List Char
  /-- the number of a text -/
  parse : List Char → Option F
  /-- `float64(n)` -/
  ofInt : Int → F
  /-- `int64(x)` -/
  toInt : F → Int
  /-- `math.Inf(+1)` -/
  inf : F
  /-- `math.Inf(-1)` -/
  ninf : F
  /-- `math.Min` -/
  min : F → F → F
  /-- `math.Max` -/
  max : F → F → F
  /-- a string as the value of an annotation -/
  str : List Char → V
  /-- `v.(string)` -/
  isStr : V → Option (List Char)
  /-- `%s` of the value of an annotation -/
  fmtS : V → List Char
  /-- `yaml.Marshal` -/
  yenc : Ann V → Option (List Char)
  /-- `yaml.Unmarshal` into an empty map -/
  ydec : List Char → Option (Ann V)

def kName : List Char := ['n', 'a', 'm', 'e']
def kTitle : List Char := ['t', 'i', 't', 'l', 'e']
def kTypeY : List Char := ['T', 'y', 'p', 'e']
def kPathY : List Char := ['P', 'a', 't', 'h']
def kTitleY : List Char := ['T', 'i', 't', 'l', 'e']

section
variable {F V : Type} (env : Env F V)

/-- hbook/h1d.go:65-75 (`Name`), hbook/p1d.go:50-60, hbook/h2d.go:43-53, hbook/s2d.go:148-158. -/
def nameOf (a : Ann V) : List Char :=
  match get a kName with
  | none => []
  | some v => match env.isStr v with
    | none => []
    | some s => s

/-- One round of the loop of hbook/h1d.go:338-347. -/
def annStep (out : Ann V) (x : List Char × V) : Ann V :=
  if x.1 = kName then out
  else if x.1 = kTitle then set out kTitleY x.2
  else set out x.1 x.2

/-- hbook/h1d.go:333-349 (`annToYODA`), hbook/p1d.go:154-170, hbook/h2d.go:282-298, hbook/s2d.go:279-295. -/
def annToYODA (ty : List Char) (a : Ann V) : Ann V :=
  a.foldl annStep [(kTypeY, env.str ty), (kPathY, env.str ('/' :: nameOf env a)), (kTitleY, env.str [])]

/-- `strings.TrimPrefix(name, "/")` -/
def trimSlash : List Char → List Char
  | [] => []
  | c :: r => if c = '/' then r else c :: r

/-- One round of the loop of hbook/h1d.go:356-369; the type assertion panics on a path that is no string. -/
def unannStep (out : Ann V) (x : List Char × V) : Option (Ann V) :=
  if x.1 = kTypeY then some out
  else if x.1 = kPathY then (env.isStr x.2).map fun s => set out kName (env.str (trimSlash s))
  else if x.1 = kTitleY then some (set out kTitle x.2)
  else some (set out x.1 x.2)

/-- hbook/h1d.go:351-370 (`annFromYODA`), hbook/p1d.go:172-192, hbook/h2d.go:300-320, hbook/s2d.go:297-317:
`out` is what the receiver had. -/
def annFromYODA (out : Ann V) : Ann V → Option (Ann V)
  | [] => some out
  | x :: l => match unannStep env out x with
    | none => none
    | some o => annFromYODA o l

end

/-! ### Lines -/

/-- A piece of the text of a format before its first verb. -/
inductive Lit
  /-- a character -/
  | chr (c : Char)
  /-- a run of spaces -/
  | sp
deriving DecidableEq

/-- The pieces of a text without newlines; the flag tells that a run of spaces has begun. -/
def litsOf : Bool → List Char → List Lit
  | _, [] => []
  | b, c :: l =>
    if blank c then (if b then litsOf true l else .sp :: litsOf true l) else .chr c :: litsOf false l

/-- `ss.advance` of package `fmt` over the text before a verb. -/
def advance : List Lit → List Char → Option (List Char)
  | [], s => some s
  | .sp :: l, s => (matchSP s).bind (advance l)
  | .chr _ :: _, [] => none
  | .chr c :: l, d :: s => if c = d then advance l s else none

section
variable {F V : Type} (env : Env F V)

/-- `fmt.Fscanf` of one line with a format made of a text and `n` numbers: `"Total   \tTotal   \t%e\t%e\n"`. -/
def scanRow (text : List Char) (n : Nat) (line : List Char) : Option (List (Val F)) :=
  ((advance (litsOf false text) line).bind (scanf env.parse (lineFmt (List.replicate n .flt)))).map fun x => x.1

/-- The numbers of a line separated by tabs: `"%e\t%e\t%e"`. -/
def tabbed : List (List Char) → List Char
  | [] => []
  | [t] => t
  | t :: u :: l => t ++ '\t' :: tabbed (u :: l)

/-- `fmt.Fprintf(buf, "%e\t%e\t%e\n", ...)` without the newline. -/
def rowText (l : List F) : List Char := tabbed (l.map env.fmtE)

/-- What distinguishes the four texts. -/
structure Kind where
  /-- the type among the annotations -/
  ty : List Char
  /-- the tag of the header -/
  tag : List Char
  /-- the line ending the annotations, with the newline before it -/
  mark : List Char
  /-- the prefix of the end line -/
  fin : List Char
  /-- the first column of the lines before the bins; the last of them enables the bins -/
  heads : List (List Char)
  /-- columns of such a line after the name -/
  nHead : Nat
  /-- columns of a bin -/
  nRow : Nat

def kBegin : List Char := ['B', 'E', 'G', 'I', 'N', ' ', 'Y', 'O', 'D', 'A', '_']
def kEnd : List Char := ['E', 'N', 'D', ' ', 'Y', 'O', 'D', 'A', '_']
def kV2 : List Char := ['_', 'V', '2']
def kDash : List Char := ['-', '-', '-']
def kTotal : List Char := ['T', 'o', 't', 'a', 'l', ' ', ' ', ' ']
def kUnder : List Char := ['U', 'n', 'd', 'e', 'r', 'f', 'l', 'o', 'w']
def kOver : List Char := ['O', 'v', 'e', 'r', 'f', 'l', 'o', 'w']
def kMean : List Char := ['#', ' ', 'M', 'e', 'a', 'n', ':', ' ']
def kArea : List Char := ['#', ' ', 'A', 'r', 'e', 'a', ':', ' ']
def kVolume : List Char := ['#', ' ', 'V', 'o', 'l', 'u', 'm', 'e', ':', ' ']

/-- hbook/h1d.go:608-729 (`unmarshalYODAv2`): the end line is recognised without its version. -/
def kH1D : Kind where
  ty := ['H', 'i', 's', 't', 'o', '1', 'D']
  tag := ['H', 'I', 'S', 'T', 'O', '1', 'D']
  mark := ['\n', '#', ' ', 'M', 'e', 'a', 'n', ':']
  fin := ['E', 'N', 'D', ' ', 'Y', 'O', 'D', 'A', '_', 'H', 'I', 'S', 'T', 'O', '1', 'D']
  heads := [kTotal, kUnder, kOver]
  nHead := 5
  nRow := 7

/-- hbook/p1d.go:431-558 (`unmarshalYODAv2`) -/
def kP1D : Kind where
  ty := ['P', 'r', 'o', 'f', 'i', 'l', 'e', '1', 'D']
  tag := ['P', 'R', 'O', 'F', 'I', 'L', 'E', '1', 'D']
  mark := ['\n', '#', ' ', 'I', 'D', '\t', ' ', 'I', 'D', '\t']
  fin := ['E', 'N', 'D', ' ', 'Y', 'O', 'D', 'A', '_', 'P', 'R', 'O', 'F', 'I', 'L', 'E', '1', 'D', '_', 'V', '2']
  heads := [kTotal, kUnder, kOver]
  nHead := 7
  nRow := 9

/-- hbook/h2d.go:526-626 (`unmarshalYODAv2`) -/
def kH2D : Kind where
  ty := ['H', 'i', 's', 't', 'o', '2', 'D']
  tag := ['H', 'I', 'S', 'T', 'O', '2', 'D']
  mark := ['\n', '#', ' ', 'M', 'e', 'a', 'n', ':']
  fin := ['E', 'N', 'D', ' ', 'Y', 'O', 'D', 'A', '_', 'H', 'I', 'S', 'T', 'O', '2', 'D', '_', 'V', '2']
  heads := [kTotal]
  nHead := 8
  nRow := 12

/-- hbook/yoda.go:16-36 (`readYODAHeader`): the version and what follows the header line. -/
def header (tag s : List Char) : Option (Nat × List Char) :=
  match cut ['\n'] s with
  | none => none
  | some (l, r) =>
    if (kBegin ++ tag ++ kV2 ++ [' ']).isPrefixOf (l ++ ['\n']) then some (2, r)
    else if (kBegin ++ tag ++ [' ']).isPrefixOf (l ++ ['\n']) then some (1, r)
    else none

/-- What a reader has read: the lines before the bins and the bins, both in the order of the text. -/
structure St (F : Type) where
  seen : List (List Char × List (Val F))
  bins : List (List (Val F))

/-- `ctx.bins`: bins are read once the last of the lines before them has been read. -/
def St.on (k : Kind) (st : St F) : Bool :=
  match k.heads.getLast? with
  | none => true
  | some h => st.seen.any fun x => decide (x.1 = h)

/-- The line before the bins that a line is: `!ctx.total && bytes.HasPrefix(buf, "Total   \t")`. -/
def headOf (k : Kind) (st : St F) (line : List Char) : Option (List Char) :=
  k.heads.find? fun h => (!st.seen.any fun x => decide (x.1 = h)) && (h ++ ['\t']).isPrefixOf line

/-- A line to be skipped: empty, or a comment. -/
def isComment (line : List Char) : Bool :=
  match line with
  | [] => true
  | c :: _ => decide (c = '#')

/-- hbook/h1d.go:643-722 (`scanLoop`) and the same loops of the other readers; a line that is not
understood is an error. -/
def loop (k : Kind) : List (List Char) → St F → Out (St F)
  | [], st => .ok st
  | line :: l, st =>
    if isComment line then loop k l st
    else if k.fin.isPrefixOf line then .ok st
    else match headOf k st line with
      | some h => match scanRow env (h ++ '\t' :: (h ++ ['\t'])) k.nHead line with
        | none => .err
        | some v => loop k l { st with seen := st.seen ++ [(h, v)] }
      | none =>
        if st.on k then
          match scanRow env [] k.nRow line with
          | none => .err
          | some v => loop k l { st with bins := st.bins ++ [v] }
        else .err

/-- The beginning of `UnmarshalYODA`, common to the readers (hbook/h1d.go:476-491 and 608-622): the annotations
of the receiver afterwards, and the lines.  Texts of version 1 are not modelled. -/
inductive Start (V : Type) where
  | v1
  | ann (a : Ann V) (lines : List (List Char))

/-- hbook/h1d.go:477-491 (`UnmarshalYODA`) and hbook/h1d.go:611-622: header, annotations.  `old` is what the
receiver had. -/
def start (k : Kind) (old : Ann V) (data : List Char) : Out (Start V) :=
  match header k.tag data with
  | none => .err
  | some (v, r) =>
    if v = 1 then .ok .v1
    else match cut k.mark r with
      | none => .err
      | some (a, rest) => match env.ydec (a ++ ['\n']) with
        | none => .err
        | some ann => match annFromYODA env old ann with
          | none => .panic
          | some ann => .ok (.ann ann (lines (k.mark ++ rest)))

/-- One object and its annotations; `v1` when the text is of version 1. -/
inductive Read (B V : Type) where
  | v1
  | obj (b : B) (a : Ann V)

/-- A reader: `build` makes the object of what was read, and may panic. -/
def read {B : Type} (k : Kind) (build : St F → Option B) (old : Ann V) (data : List Char) : Out (Read B V) :=
  match start env k old data with
  | .panic => .panic
  | .err => .err
  | .ok .v1 => .ok .v1
  | .ok (.ann a ls) => match loop env k ls ⟨[], []⟩ with
    | .panic => .panic
    | .err => .err
    | .ok st => match build st with
      | none => .panic
      | some b => .ok (.obj b a)

/-- The text written, given the lines of the table: hbook/h1d.go:426-474 (`marshalYODAv2`),
hbook/p1d.go:245-293, hbook/h2d.go:366-409, hbook/s2d.go:347-370. -/
def write (k : Kind) (a : Ann V) (table : List (List Char)) : Option (List Char) :=
  let ann := annToYODA env k.ty a
  match env.yenc ann, get ann kPathY with
  | some y, some p => some (kBegin ++ k.tag ++ kV2 ++ ' ' :: env.fmtS p ++ '\n' ::
      (y ++ kDash ++ '\n' :: (table ++ [kEnd ++ k.tag ++ kV2, []]).flatMap (· ++ ['\n'])))
  | _, _ => none

/-- `fmt.Fprintf(buf, "Total   \tTotal   \t%e\t%e\n", ...)` without the newline. -/
def headText (h : List Char) (l : List F) : List Char := h ++ '\t' :: (h ++ '\t' :: rowText env l)

/-! ### One-dimensional histograms -/

/-- The numbers of a distribution. -/
def row1 (d : Dist1D F) : List F := [d.dist.sumW, d.dist.sumW2, d.sumWX, d.sumWX2, env.ofInt d.dist.n]

/-- The numbers of a bin. -/
def rowB1 (b : Bin1D F) : List F := b.range.lo :: b.range.hi :: row1 env b.dist

def kID1 : List Char := ['#', ' ', 'I', 'D', '\t', ' ', 'I', 'D', '\t', ' ', 's', 'u', 'm', 'w', '\t', ' ', 's', 'u', 'm', 'w', '2', '\t', ' ', 's', 'u', 'm', 'w', 'x', '\t', ' ', 's', 'u', 'm', 'w', 'x', '2', '\t', ' ', 'n', 'u', 'm', 'E', 'n', 't', 'r', 'i', 'e', 's']
def kLow1 : List Char := ['#', ' ', 'x', 'l', 'o', 'w', '\t', ' ', 'x', 'h', 'i', 'g', 'h', '\t', ' ', 's', 'u', 'm', 'w', '\t', ' ', 's', 'u', 'm', 'w', '2', '\t', ' ', 's', 'u', 'm', 'w', 'x', '\t', ' ', 's', 'u', 'm', 'w', 'x', '2', '\t', ' ', 'n', 'u', 'm', 'E', 'n', 't', 'r', 'i', 'e', 's']

/-- The table of hbook/h1d.go:437-472; `mean` and `area` are `XMean()` and `Integral()`, which are not read back. -/
def table1 (mean area : F) (b : Binning1D F) : List (List Char) :=
  [kMean ++ env.fmtE mean, kArea ++ env.fmtE area, kID1, headText env kTotal (row1 env b.dist),
    headText env kUnder (row1 env b.under), headText env kOver (row1 env b.over), kLow1] ++
  b.bins.map fun x => rowText env (rowB1 env x)

/-- hbook/h1d.go:426-474 (`marshalYODAv2`), which is `MarshalYODA`. -/
def marshalH1D (mean area : F) (b : Binning1D F) (a : Ann V) : Option (List Char) :=
  write env kH1D a (table1 env mean area b)

/-- A number read. -/
def num [Zero F] : Option (Val F) → F
  | some (.flt x) => x
  | _ => 0

/-- A distribution of the values read: hbook/h1d.go:658-664. -/
def dist1 [Zero F] (v : List (Val F)) : Dist1D F where
  dist := { n := env.toInt (num v[4]?), sumW := num v[0]?, sumW2 := num v[1]? }
  sumWX := num v[2]?
  sumWX2 := num v[3]?

/-- The distribution of a line before the bins, or the zero value. -/
def seen1 [Zero F] (st : St F) (h : List Char) : Dist1D F :=
  match st.seen.find? fun x => decide (x.1 = h) with
  | none => .zero
  | some x => dist1 env x.2

/-- hbook/h1d.go:697-709. -/
def bin1 [Zero F] (v : List (Val F)) : Bin1D F where
  range := ⟨num v[0]?, num v[1]?⟩
  dist := dist1 env (v.drop 2)

/-- hbook/h1d.go:714-715 (`xmin`) -/
def loFold : List (Range F) → F → F
  | [], m => m
  | r :: l, m => loFold l (env.min m r.lo)

/-- hbook/h1d.go:714-715 (`xmax`) -/
def hiFold : List (Range F) → F → F
  | [], m => m
  | r :: l, m => hiFold l (env.max m r.hi)

/-- hbook/h1d.go:722-728. -/
def build1 [Zero F] (st : St F) : Option (Binning1D F) :=
  let bins := st.bins.map (bin1 env)
  some { bins := bins, dist := seen1 env st kTotal, under := seen1 env st kUnder, over := seen1 env st kOver,
         xrange := ⟨loFold env (bins.map (·.range)) env.inf, hiFold env (bins.map (·.range)) env.ninf⟩ }

/-- hbook/h1d.go:477-491 (`UnmarshalYODA`) into a histogram with annotations `old`. -/
def unmarshalH1D [Zero F] (old : Ann V) (data : List Char) : Out (Read (Binning1D F) V) :=
  read env kH1D (build1 env) old data

end

end Verif.Hbook.Yoda
