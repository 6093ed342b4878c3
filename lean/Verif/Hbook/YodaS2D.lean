import Verif.Hbook.Yoda

/-!
# YODA texts of scatters, and archives of YODA texts

`sort.Sort` is a parameter: some function of the list of points (`srt`).
-/

namespace Verif.Hbook.Yoda
open Verif.Text Verif.Fscanf Verif.Strconv Verif.Hbook Verif.Hbook.Brio

section
variable {F V : Type} (env : Env F V)

/-- hbook/s2d.go:436-481 (`unmarshalYODAv2`): there are no lines before the points. -/
def kS2D : Kind where
  ty := ['S', 'c', 'a', 't', 't', 'e', 'r', '2', 'D']
  tag := ['S', 'C', 'A', 'T', 'T', 'E', 'R', '2', 'D']
  mark := ['\n', '#', ' ', 'x', 'v', 'a', 'l', '\t', ' ', 'x', 'e', 'r', 'r', '-', '\t']
  fin := ['E', 'N', 'D', ' ', 'Y', 'O', 'D', 'A', '_', 'S', 'C', 'A', 'T', 'T', 'E', 'R', '2', 'D', '_', 'V', '2']
  heads := []
  nHead := 0
  nRow := 6

def kHdrS : List Char := ['#', ' ', 'x', 'v', 'a', 'l', '\t', ' ', 'x', 'e', 'r', 'r', '-', '\t', ' ', 'x', 'e', 'r', 'r', '+', '\t', ' ', 'y', 'v', 'a', 'l', '\t', ' ', 'y', 'e', 'r', 'r', '-', '\t', ' ', 'y', 'e', 'r', 'r', '+', '\t']

/-- The numbers of a point: hbook/s2d.go:362-366. -/
def rowS (p : Point2D F) : List F := [p.x, p.errX.lo, p.errX.hi, p.y, p.errY.lo, p.errY.hi]

/-- The table of hbook/s2d.go:358-367. -/
def tableS (pts : List (Point2D F)) : List (List Char) := kHdrS :: pts.map fun p => rowText env (rowS p)

/-- hbook/s2d.go:347-370 (`marshalYODAv2`), which is `MarshalYODA`: the text, and the points of the scatter
afterwards, which have been sorted. -/
def marshalS2D (srt : List (Point2D F) → List (Point2D F)) (pts : List (Point2D F)) (a : Ann V) :
    Option (List Char × List (Point2D F)) :=
  (write env kS2D a (tableS env (srt pts))).map fun s => (s, srt pts)

/-- `fmt.Fscanf` whose error is ignored: the values stored before it stopped. -/
def scanSome : List Item → List Char → List (Val F)
  | [], _ => []
  | .nl :: l, s => match matchNL s with
    | none => []
    | some r => scanSome l r
  | .sp :: l, s => match matchSP s with
    | none => []
    | some r => scanSome l r
  | .int b :: l, s => match verb env.parse (.int b) s with
    | none => []
    | some x => x.1 :: scanSome l x.2
  | .flt :: l, s => match verb env.parse .flt s with
    | none => []
    | some x => x.1 :: scanSome l x.2

/-- hbook/s2d.go:463-468: what was not read is zero. -/
def pointOf [Zero F] (v : List (Val F)) : Point2D F where
  x := num v[0]?
  y := num v[3]?
  errX := ⟨num v[1]?, num v[2]?⟩
  errY := ⟨num v[4]?, num v[5]?⟩

/-- hbook/s2d.go:452-474 (`scanLoop`): the error of `Fscanf` is not looked at (`err` is that of the annotations),
and every line is a point. -/
def loopS [Zero F] : List (List Char) → List (Point2D F) → List (Point2D F)
  | [], pts => pts
  | line :: l, pts =>
    if isComment line then loopS l pts
    else if kS2D.fin.isPrefixOf line then pts
    else loopS l (pts ++ [pointOf (scanSome env (lineFmt (List.replicate 6 .flt)) line)])

/-- hbook/s2d.go:373-387 (`UnmarshalYODA`) into a scatter with points `pts` and annotations `old`: the points are
added to those already there. -/
def unmarshalS2D [Zero F] (srt : List (Point2D F) → List (Point2D F)) (pts : List (Point2D F)) (old : Ann V)
    (data : List Char) : Out (Read (List (Point2D F)) V) :=
  match start env kS2D old data with
  | .panic => .panic
  | .err => .err
  | .ok .v1 => .ok .v1
  | .ok (.ann a ls) => .ok (.obj (srt (loopS env ls pts)) a)

end

section
variable {F α : Type} [LinearOrder α] [GoFloat F α]

/-- hbook/points.go:59-81 (`points2D.Less`) -/
def lessS (p q : Point2D F) : Bool :=
  if !feq p.x q.x then flt p.x q.x
  else if !feq p.errX.lo q.errX.lo then flt p.errX.lo q.errX.lo
  else if !feq p.errX.hi q.errX.hi then flt p.errX.hi q.errX.hi
  else if !feq p.y q.y then flt p.y q.y
  else if !feq p.errY.lo q.errY.lo then flt p.errY.lo q.errY.lo
  else if !feq p.errY.hi q.errY.hi then flt p.errY.hi q.errY.hi
  else false

end

/-! ### Archives -/

/-- The types an archive is read into. -/
inductive Which
  | h1 | h2 | p1 | s2
deriving DecidableEq, Repr

/-- What a header line announces. -/
inductive Head
  | bad | ignore | typ (w : Which)
deriving DecidableEq, Repr

/-- The names of hbook/yodacnv/yoda.go:110-129, without and with the version. -/
def typeNames : List (List Char × Head) :=
  [(['H', 'I', 'S', 'T', 'O', '1', 'D'], .typ .h1), (['H', 'I', 'S', 'T', 'O', '1', 'D', '_', 'V', '2'], .typ .h1), (['H', 'I', 'S', 'T', 'O', '2', 'D'], .typ .h2), (['H', 'I', 'S', 'T', 'O', '2', 'D', '_', 'V', '2'], .typ .h2),
   (['P', 'R', 'O', 'F', 'I', 'L', 'E', '1', 'D'], .typ .p1), (['P', 'R', 'O', 'F', 'I', 'L', 'E', '1', 'D', '_', 'V', '2'], .typ .p1), (['P', 'R', 'O', 'F', 'I', 'L', 'E', '2', 'D'], .ignore), (['P', 'R', 'O', 'F', 'I', 'L', 'E', '2', 'D', '_', 'V', '2'], .ignore),
   (['S', 'C', 'A', 'T', 'T', 'E', 'R', '1', 'D'], .ignore), (['S', 'C', 'A', 'T', 'T', 'E', 'R', '1', 'D', '_', 'V', '2'], .ignore), (['S', 'C', 'A', 'T', 'T', 'E', 'R', '2', 'D'], .typ .s2), (['S', 'C', 'A', 'T', 'T', 'E', 'R', '2', 'D', '_', 'V', '2'], .typ .s2),
   (['S', 'C', 'A', 'T', 'T', 'E', 'R', '3', 'D'], .ignore), (['S', 'C', 'A', 'T', 'T', 'E', 'R', '3', 'D', '_', 'V', '2'], .ignore), (['C', 'O', 'U', 'N', 'T', 'E', 'R'], .ignore), (['C', 'O', 'U', 'N', 'T', 'E', 'R', '_', 'V', '2'], .ignore)]

/-- hbook/yodacnv/yoda.go:101-132 (`splitHeader`) of a line beginning with `BEGIN YODA_`. -/
def splitHeader (raw : List Char) : Head :=
  match cut [' '] (raw.drop kBegin.length) with
  | none => .bad
  | some x => match typeNames.find? fun e => decide (e.1 = x.1) with
    | none => .bad
    | some e => e.2

/-- The variables of `Read`. -/
structure Arch (O : Type) where
  out : List O
  block : List Char
  rt : Option Which
  ignore : Bool

section
variable {O : Type} (dec : Which → List Char → Out O)

/-- One line: hbook/yodacnv/yoda.go:40-74.  `dec` is `UnmarshalYODA` into a new value of the type. -/
def archStep (st : Arch O) (raw : List Char) : Out (Arch O) :=
  if kBegin.isPrefixOf raw then
    match splitHeader raw with
    | .bad => .err
    | .ignore => .ok { st with block := raw ++ ['\n'], rt := none, ignore := true }
    | .typ w => .ok { st with block := raw ++ ['\n'], rt := some w }
  else if kEnd.isPrefixOf raw then
    if st.ignore then .ok { st with block := st.block ++ raw ++ ['\n'], ignore := false }
    else match st.rt with
      | none => .panic
      | some w => match dec w (st.block ++ raw ++ ['\n']) with
        | .panic => .panic
        | .err => .err
        | .ok o => .ok { st with block := st.block ++ raw ++ ['\n'], out := st.out ++ [o] }
  else .ok { st with block := st.block ++ raw ++ ['\n'] }

/-- The loop over the lines. -/
def archLoop : List (List Char) → Arch O → Out (List O)
  | [], st => .ok st.out
  | l :: ls, st => match archStep dec st l with
    | .panic => .panic
    | .err => .err
    | .ok st => archLoop ls st

/-- hbook/yodacnv/yoda.go:30-81 (`Read`) -/
def readArchive (data : List Char) : Out (List O) := archLoop dec (lines data) ⟨[], [], none, false⟩

end

/-- hbook/yodacnv/yoda.go:84-99 (`Write`): the texts of the objects in order; none when one of them has none.
The writer takes all bytes. -/
def writeArchive : List (Option (List Char)) → Option (List Char)
  | [] => some []
  | none :: _ => none
  | some s :: l => (writeArchive l).map fun r => s ++ r

end Verif.Hbook.Yoda
