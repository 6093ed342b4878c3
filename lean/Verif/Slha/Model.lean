import Verif.Common.Strconv
import Verif.Common.Text
import Verif.Common.Words

/-!
# Model of `slha`: SUSY Les Houches Accord files

Simplifications: texts are lists of ASCII characters; floating-point numbers are an arbitrary type
with their notations as parameters (`Floats`); the length of a line is not limited (the scanner of the
code gives up at 64 KiB); the warnings about unknown sections, written to the standard error, are left
out; the errors of the writer are left out.  A Go panic is `.panic`.
-/

namespace Verif.Slha
open Verif.Strconv Verif.Text

/-- How a function ends. -/
inductive Res (α : Type)
  | ok (a : α)
  | err
  | panic
deriving DecidableEq, Repr

def Res.bind {α β : Type} : Res α → (α → Res β) → Res β
  | .ok a, f => f a
  | .err, _ => .err
  | .panic, _ => .panic

/-- slha/slha.go:20-25 (`Value`): an integer, a number or a text, with its comment. -/
inductive Val (F : Type)
  | int (i : Int)
  | flt (x : F)
  | str (s : List Char)
deriving DecidableEq, Repr

/-- slha/slha.go:20-25 (`Value`): `none` is the zero `reflect.Value`. -/
structure Value (F : Type) where
  v : Option (Val F)
  c : List Char
deriving DecidableEq, Repr

/-- slha/slha.go:125-130 (`Index`). -/
structure Index where
  rank : Nat
  coords : List Char
deriving DecidableEq, Repr

/-- slha/slha.go:98-103 (`DataItem`). -/
structure Item (F : Type) where
  index : Index
  value : Value F
deriving DecidableEq, Repr

/-- slha/slha.go:54-60 (`Block`). -/
structure Block (F : Type) where
  name : List Char
  comment : List Char
  q : F
  data : List (Item F)
deriving DecidableEq, Repr

/-- slha/slha.go:191-196 (`Decay`). -/
structure Decay (F : Type) where
  br : F
  ids : List Int
  comment : List Char
deriving DecidableEq, Repr

/-- slha/slha.go:201-208 (`Particle`). -/
structure Particle (F : Type) where
  pdgid : Int
  width : F
  mass : F
  comment : List Char
  decays : List (Decay F)
deriving DecidableEq, Repr

/-- The two lists of an `SLHA` value. -/
structure Data (F : Type) where
  blocks : List (Block F)
  particles : List (Particle F)
deriving DecidableEq, Repr

/-! ### Indices and values of a block -/

/-- slha/slha.go:160-166 (`strindex`). -/
def strindex (args : List Int) : List (List Char) := args.map formatInt

/-- slha/slha.go:132-140 (`NewIndex`). -/
def newIndex (args : List Int) : Index := ⟨args.length, joinC '#' (strindex args)⟩

/-- The loop of slha/slha.go:147-156: an empty text is 0, a text that is no integer a panic. -/
def coordsOf : List (List Char) → Res (List Int)
  | [] => .ok []
  | t :: ts =>
    if t.isEmpty then (coordsOf ts).bind fun l => .ok (0 :: l)
    else match parseInt 64 t with
      | none => .panic
      | some i => (coordsOf ts).bind fun l => .ok (i :: l)

/-- slha/slha.go:142-158 (`Index.Index`). -/
def Index.index (x : Index) : Res (List Int) := coordsOf (splitC '#' x.coords)

/-- slha/slha.go:105-114 (`DataArray.Get`). -/
def dataGet {F : Type} : List (Item F) → Index → Option (Value F)
  | [], _ => none
  | it :: r, x => if it.index = x then some it.value else dataGet r x

/-- slha/slha.go:116-123 (`DataArray.pos`): `none` is -1. -/
def dataPos {F : Type} : List (Item F) → Index → Option Nat
  | [], _ => none
  | it :: r, x => if it.index = x then some 0 else (dataPos r x).map (· + 1)

/-- slha/slha.go:62-74 (`Block.Get`): `none` is the error. -/
def Block.get {F : Type} (b : Block F) (args : List Int) : Option (Value F) := dataGet b.data (newIndex args)

/-- slha/slha.go:76-93 (`Block.Set`). -/
def Block.set {F : Type} (b : Block F) (v : Val F) (args : List Int) : Block F :=
  let old : Value F := (b.get args).getD ⟨none, []⟩
  let val : Value F := ⟨some v, old.c⟩
  match dataPos b.data (newIndex args) with
  | none => { b with data := b.data ++ [⟨newIndex args, val⟩] }
  | some p => { b with data := b.data.modify p fun it => { it with value := val } }

/-- slha/slha.go:180-189 (`Blocks.Get`). -/
def blocksGet {F : Type} : List (Block F) → List Char → Option (Block F)
  | [], _ => none
  | b :: r, n => if b.name = n then some b else blocksGet r n

/-- slha/slha.go:217-226 (`Particles.Get`). -/
def particlesGet {F : Type} : List (Particle F) → Int → Option (Particle F)
  | [], _ => none
  | p :: r, n => if p.pdgid = n then some p else particlesGet r n

/-! ### Encoding -/

/-- The notations of floating-point numbers: `fmtE` is `%.8E`, `fmtV` is `%v`, `parse` is
`strconv.ParseFloat(s, 64)`; `bad` is the text `fmt` produces when the arguments do not fit the
format. -/
structure Floats (F : Type) where
  fmtE : F → List Char
  fmtV : F → List Char
  parse : List Char → Option F
  isNaN : F → Bool
  nan : F
  bad : List Char → List Int → Value F → List Char

/-- The formats of slha/encode.go:14-60 (`blockFormat`): one index in a field and a number, two
indices, no index, an index and a text, an index and an integer, all arguments. -/
inductive Fmt
  | one (w : Nat)
  | two
  | zero
  | info
  | sel
  | all
deriving DecidableEq, Repr

def nMASS : List Char := ['M', 'A', 'S', 'S']
def nALPHA : List Char := ['A', 'L', 'P', 'H', 'A']
def nMODSEL : List Char := ['M', 'O', 'D', 'S', 'E', 'L']
def nSPINFO : List Char := ['S', 'P', 'I', 'N', 'F', 'O']
def nDCINFO : List Char := ['D', 'C', 'I', 'N', 'F', 'O']

/-- The names of slha/encode.go:21-30. -/
def twoNames : List (List Char) :=
  [['N','M','I','X'], ['U','M','I','X'], ['V','M','I','X'], ['S','T','O','P','M','I','X'],
   ['S','B','O','T','M','I','X'], ['S','T','A','U','M','I','X'], ['U','S','Q','M','I','X'],
   ['D','S','Q','M','I','X'], ['S','E','L','M','I','X'], ['S','N','U','M','I','X'], ['A','U'], ['A','D'],
   ['A','E'], ['Y','U'], ['Y','D'], ['Y','E'], ['T','U'], ['T','D'], ['T','E'], ['T','U','I','N'],
   ['T','D','I','N'], ['T','E','I','N'], ['M','S','Q','2','I','N'], ['M','S','U','2','I','N'],
   ['M','S','D','2','I','N'], ['M','S','L','2','I','N'], ['M','S','E','2','I','N'], ['M','S','Q','2'],
   ['M','S','U','2'], ['M','S','D','2'], ['M','S','L','2'], ['M','S','E','2'], ['V','C','K','M'],
   ['I','M','V','C','K','M'], ['U','P','M','N','S'], ['I','M','U','P','M','N','S']]

/-- The names of slha/encode.go:38-49. -/
def oneNames : List (List Char) :=
  [['H','M','I','X'], ['G','A','U','G','E'], ['M','S','O','F','T'], ['S','M','I','N','P','U','T','S'],
   ['V','C','K','M','I','N'], ['U','P','M','N','S','I','N'], ['M','I','N','P','A','R'],
   ['E','X','T','P','A','R'], ['Q','E','X','T','P','A','R']]

/-- slha/encode.go:14-60 (`blockFormat`). -/
def blockFormat (name : List Char) : Fmt :=
  if name = nMASS then .one 9
  else if name ∈ twoNames then .two
  else if name = nALPHA then .zero
  else if name ∈ oneNames then .one 5
  else if name = nSPINFO ∨ name = nDCINFO then .info
  else if name = nMODSEL then .sel
  else .all

def sp (n : Nat) : List Char := List.replicate n ' '

/-- The end of a data line: `"# %s"` after some spaces. -/
def tail (n : Nat) (c : List Char) : List Char := sp n ++ '#' :: ' ' :: c

/-- `%v` of a value. -/
def fmtVal {F : Type} (fl : Floats F) : Val F → List Char
  | .int i => formatInt i
  | .flt x => fl.fmtV x
  | .str s => s

/-- A data line, slha/encode.go:96-98 with the formats of slha/encode.go:14-60; `idx` are the indices
among the arguments. -/
def itemLine {F : Type} (fl : Floats F) (name : List Char) (idx : List Int) (v : Value F) : List Char :=
  match blockFormat name, idx, v.v with
  | .one w, [i], some (.flt x) =>
    ' ' :: padL w (formatInt i) ++ sp 3 ++ padL 16 (fl.fmtE x) ++ tail 3 v.c
  | .two, [i, j], some (.flt x) =>
    ' ' :: padL 2 (formatInt i) ++ ' ' :: padL 2 (formatInt j) ++ sp 3 ++ padL 16 (fl.fmtE x) ++ tail 3 v.c
  | .zero, [], some (.flt x) => sp 9 ++ padL 16 (fl.fmtE x) ++ tail 3 v.c
  | .info, [i], some (.str s) => ' ' :: padL 5 (formatInt i) ++ sp 3 ++ padR 8 s ++ tail 4 v.c
  | .sel, [i], some (.int k) => ' ' :: padL 5 (formatInt i) ++ ' ' :: padL 5 (formatInt k) ++ tail 2 v.c
  | .all, is, some x => is.flatMap (fun i => ' ' :: formatInt i) ++ ' ' :: fmtVal fl x ++ tail 1 v.c
  | _, _, _ => fl.bad name idx v

def tBLOCK : List Char := ['B', 'L', 'O', 'C', 'K']
def tDECAY : List Char := ['D', 'E', 'C', 'A', 'Y']

/-- The line of a block, slha/encode.go:75-85. -/
def blockLine {F : Type} (fl : Floats F) (b : Block F) : List Char :=
  tBLOCK ++ ' ' :: b.name
    ++ (if fl.isNaN b.q then [] else ' ' :: 'Q' :: '=' :: padL 16 (fl.fmtE b.q))
    ++ (if b.comment = [] then [] else ' ' :: ' ' :: '#' :: ' ' :: b.comment)

/-- The data lines of a block, slha/encode.go:87-102: the indices of the block `ALPHA` are not
written; `Interface` of the zero `reflect.Value` is a panic. -/
def itemLines {F : Type} (fl : Floats F) (name : List Char) : List (Item F) → Res (List (List Char))
  | [] => .ok []
  | it :: r => it.index.index.bind fun idx =>
      if it.value.v.isNone then .panic else (itemLines fl name r).bind fun ls =>
      .ok (itemLine fl name (if name = nALPHA then [] else idx) it.value :: ls)

/-- The blocks, slha/encode.go:73-107. -/
def blocksLines {F : Type} (fl : Floats F) : List (Block F) → Res (List (List Char))
  | [] => .ok []
  | b :: r => (itemLines fl b.name b.data).bind fun ls => (blocksLines fl r).bind fun rs =>
      .ok (blockLine fl b :: ls ++ ['#'] :: rs)

/-- slha/encode.go:63 (`particleHeader`): only its first character matters to a reader. -/
def particleHeader : List Char := '#' :: sp 9 ++ ['P', 'D', 'G'] ++ sp 12 ++ ['W', 'i', 'd', 't', 'h']

/-- slha/encode.go:64 (`decayHeader`). -/
def decayHeader : List Char :=
  '#' :: sp 10 ++ ['B', 'R'] ++ sp 9 ++ ['N', 'D', 'A'] ++ sp 6 ++ ['I', 'D', '1'] ++ sp 7 ++ ['I', 'D', '2']

/-- The line of a particle, slha/encode.go:112. -/
def particleLine {F : Type} (fl : Floats F) (p : Particle F) : List Char :=
  tDECAY ++ ' ' :: padL 9 (formatInt p.pdgid) ++ sp 3 ++ padL 16 (fl.fmtE p.width) ++ tail 3 p.comment

/-- The line of a decay, slha/encode.go:129-145. -/
def decayLine {F : Type} (fl : Floats F) (d : Decay F) : List Char :=
  sp 3 ++ padL 16 (fl.fmtE d.br) ++ sp 3 ++ padL 2 (formatInt d.ids.length) ++ sp 2
    ++ d.ids.flatMap (fun i => ' ' :: padL 9 (formatInt i)) ++ tail 3 d.comment

/-- The lines of a particle, slha/encode.go:109-152. -/
def particleLines {F : Type} (fl : Floats F) (p : Particle F) : List (List Char) :=
  particleHeader :: particleLine fl p ::
    (if p.decays = [] then [['#']] else decayHeader :: p.decays.map (decayLine fl) ++ [['#']])

/-- slha/encode.go:70-154 (`Encode`). -/
def encode {F : Type} (fl : Floats F) (d : Data F) : Res (List Char) :=
  (blocksLines fl d.blocks).bind fun ls =>
    .ok ((ls ++ d.particles.flatMap (particleLines fl)).flatMap (· ++ ['\n']))

/-! ### Decoding -/

/-- `\s` of a regular expression. -/
def reSpace (c : Char) : Bool := c == ' ' || c == '\t' || c == '\n' || c == '\r' || c.toNat == 12

/-- `\w` of a regular expression. -/
def reWord (c : Char) : Bool := c.isAlphanum || c == '_'

/-- The optional group of slha/decode.go:21 (`\s+Q\s*=\s*.+`) at the beginning of a text: the group
extends to the end of the line. -/
def qGroup (s : List Char) : List Char :=
  if (s.takeWhile reSpace).isEmpty then [] else
  match s.dropWhile reSpace with
  | 'Q' :: r => match r.dropWhile reSpace with
    | '=' :: t => if t.isEmpty then [] else s
    | _ => []
  | _ => []

/-- slha/decode.go:21 (`reBlock`) at the beginning of a text: the two groups. -/
def reBlockAt (s : List Char) : Option (List Char × List Char) :=
  if tBLOCK.isPrefixOf s then
    let r := s.drop 5
    if (r.takeWhile reSpace).isEmpty then none else
    let t := r.dropWhile reSpace
    if (t.takeWhile reWord).isEmpty then none else some (t.takeWhile reWord, qGroup (t.dropWhile reWord))
  else none

/-- The characters of `[\d\.E+-]`. -/
def reNum (c : Char) : Bool := c.isDigit || c == '.' || c == 'E' || c == '+' || c == '-'

/-- The number of slha/decode.go:22: characters of numbers, or `NAN`. -/
def reWidth (s : List Char) : Option (List Char) :=
  if (s.takeWhile reNum).isEmpty then (if ['N', 'A', 'N'].isPrefixOf s then some ['N', 'A', 'N'] else none)
  else some (s.takeWhile reNum)

/-- The sign of slha/decode.go:22 and what follows. -/
def reSign : List Char → List Char × List Char
  | '-' :: t => (['-'], t)
  | s => ([], s)

/-- slha/decode.go:22 (`reDecay`) at the beginning of a text: the two groups. -/
def reDecayAt (s : List Char) : Option (List Char × List Char) :=
  if tDECAY.isPrefixOf s then
    let r := s.drop 5
    if (r.takeWhile reSpace).isEmpty then none else
    let t := r.dropWhile reSpace
    let u := (reSign t).2
    if (u.takeWhile Char.isDigit).isEmpty then none else
    let w := u.dropWhile Char.isDigit
    if (w.takeWhile reSpace).isEmpty then none else
    match reWidth (w.dropWhile reSpace) with
    | none => none
    | some g => some ((reSign t).1 ++ u.takeWhile Char.isDigit, g)
  else none

/-- `FindStringSubmatch`: the leftmost match. -/
def find {α : Type} (at_ : List Char → Option α) : List Char → Option α
  | [] => at_ []
  | c :: r => match at_ (c :: r) with
    | some a => some a
    | none => find at_ r

/-- A line before its comment, and the comment (slha/decode.go:50-55, 89-94, 165-169, 262-266: the
line begins with another character than `#`). -/
def uncomment (line : List Char) : List Char × List Char :=
  match cut ['#'] line with
  | some (a, b) => (a, trimSpace b)
  | none => (line, [])

/-- The upper-case text given to a regular expression: trimmed if there is a comment
(slha/decode.go:50-55, 89-94). -/
def header (line : List Char) : List Char :=
  match cut ['#'] line with
  | some (a, _) => trimSpace (upper a)
  | none => upper line

/-- A line that begins a block, slha/decode.go:49-84. -/
def readBlock {F : Type} (fl : Floats F) (line : List Char) : Res (Block F) :=
  match find reBlockAt (header line) with
  | none => .err
  | some (name, g) =>
    if g.isEmpty then .ok ⟨name, (uncomment line).2, fl.nan, []⟩
    else match fl.parse (match cut ['='] g with
        | some (_, b) => trimSpace b
        | none => g) with
      | none => .err
      | some q => .ok ⟨name, (uncomment line).2, q, []⟩

/-- A line that begins a particle, slha/decode.go:87-119. -/
def readParticle {F : Type} (fl : Floats F) (line : List Char) : Res (Particle F) :=
  match find reDecayAt (header line) with
  | none => .err
  | some (id, g) => match parseInt 64 id with
    | none => .err
    | some pdgid => match fl.parse g with
      | none => .err
      | some w => .ok ⟨pdgid, w, fl.nan, (uncomment line).2, []⟩

/-- One occurrence of a character replaced by an `E`, slha/decode.go:233-234, 241-242. -/
def fortran (x : Char) (s : List Char) : Option (List Char) :=
  if s.count x = 1 then some (s.map fun c => if c = x then 'E' else c) else none

/-- slha/decode.go:223-257 (`anyvalue`): a text that is neither a number nor an integer is returned
with the error of the last conversion. -/
def anyvalue {F : Type} (fl : Floats F) (s : List Char) : Res (Val F) :=
  match fl.parse s with
  | some x => .ok (.flt x)
  | none => match (fortran 'D' s).bind fl.parse with
    | some x => .ok (.flt x)
    | none => match (fortran 'd' s).bind fl.parse with
      | some x => .ok (.flt x)
      | none => match parseInt 64 s with
        | some i => .ok (.int i)
        | none => .err

/-- Integers from texts: `strconv.Atoi` of each, the first failure is an error. -/
def atois : List (List Char) → Res (List Int)
  | [] => .ok []
  | t :: ts => match parseInt 64 t with
    | none => .err
    | some i => (atois ts).bind fun l => .ok (i :: l)

/-- The value of a data line, slha/decode.go:194-212. -/
def readVal {F : Type} (fl : Floats F) (name s : List Char) : Res (Val F) :=
  if name = nMODSEL then match parseInt 64 s with
    | none => .err
    | some i => .ok (.int i)
  else if name = nSPINFO ∨ name = nDCINFO then .ok (.str s)
  else anyvalue fl s

/-- slha/decode.go:162-221 (`addBlockEntry`): `make` of a negative length is a panic. -/
def readItem {F : Type} (fl : Floats F) (name line : List Char) : Res (Item F) :=
  match (words (trimSpace (uncomment line).1)).reverse with
  | [] => .panic
  | s :: is => (atois is.reverse).bind fun index => (readVal fl name s).bind fun v =>
      .ok ⟨newIndex index, ⟨some v, (uncomment line).2⟩⟩

/-- The loop of slha/decode.go:285-290: `n` integers, a panic if there are fewer texts. -/
def readIds : Nat → List (List Char) → Res (List Int)
  | 0, _ => .ok []
  | _ + 1, [] => .panic
  | n + 1, t :: ts => match parseInt 64 t with
    | none => .err
    | some i => (readIds n ts).bind fun l => .ok (i :: l)

/-- slha/decode.go:259-299 (`addDecayEntry`). -/
def readDecay {F : Type} (fl : Floats F) (line : List Char) : Res (Decay F) :=
  match words (trimSpace (uncomment line).1) with
  | [] => .panic
  | t :: ts => match fl.parse t with
    | none => .err
    | some br => match ts with
      | [] => .panic
      | n :: toks => match parseInt 64 n with
        | none => .err
        | some nda =>
          if nda < 0 then .panic
          else (readIds nda.toNat toks).bind fun ids => .ok ⟨br, ids, (uncomment line).2⟩

/-- slha/decode.go:28-32: the section a data line belongs to. -/
inductive Sec
  | none
  | block
  | decay
deriving DecidableEq, Repr

/-- The state of the loop of slha/decode.go:33-36: the current block and particle are the last ones. -/
structure St (F : Type) where
  sec : Sec
  data : Data F
deriving DecidableEq, Repr

/-- A change of the last element of a list. -/
def onLast {α : Type} (f : α → Res α) : List α → Res (List α)
  | [] => .panic
  | [x] => (f x).bind fun y => .ok [y]
  | x :: y :: r => (onLast f (y :: r)).bind fun l => .ok (x :: l)

/-- One line, slha/decode.go:39-138. -/
def step {F : Type} (fl : Floats F) (s : St F) (line : List Char) : Res (St F) :=
  match line with
  | [] => .ok s
  | c :: _ =>
    if c = '#' then .ok s
    else if c.toUpper = 'B' then
      (readBlock fl line).bind fun b => .ok ⟨.block, { s.data with blocks := s.data.blocks ++ [b] }⟩
    else if c.toUpper = 'D' then
      (readParticle fl line).bind fun p => .ok ⟨.decay, { s.data with particles := s.data.particles ++ [p] }⟩
    else if c = '\t' ∨ c = ' ' then
      match s.sec with
      | .none => .ok s
      | .block =>
        (onLast (fun b => (readItem fl b.name line).bind fun it => .ok { b with data := b.data ++ [it] })
          s.data.blocks).bind fun bs => .ok { s with data := { s.data with blocks := bs } }
      | .decay =>
        (onLast (fun p => (readDecay fl line).bind fun d => .ok { p with decays := p.decays ++ [d] })
          s.data.particles).bind fun ps => .ok { s with data := { s.data with particles := ps } }
    else .ok s

/-- The loop of slha/decode.go:38-139. -/
def steps {F : Type} (fl : Floats F) : St F → List (List Char) → Res (St F)
  | s, [] => .ok s
  | s, l :: ls => (step fl s l).bind fun s' => steps fl s' ls

/-- `Value.Float`, slha/slha.go:33-37. -/
def Value.float {F : Type} (v : Value F) : Res F :=
  match v.v with
  | some (.flt x) => .ok x
  | _ => .panic

/-- The masses of the particles, slha/decode.go:148-158. -/
def masses {F : Type} (b : Block F) : List (Particle F) → Res (List (Particle F))
  | [] => .ok []
  | p :: r => match b.get [p.pdgid] with
    | none => (masses b r).bind fun ps => .ok (p :: ps)
    | some v => v.float.bind fun m => (masses b r).bind fun ps => .ok ({ p with mass := m } :: ps)

/-- slha/decode.go:25-160 (`Decode`). -/
def decode {F : Type} (fl : Floats F) (text : List Char) : Res (Data F) :=
  (steps fl ⟨.none, ⟨[], []⟩⟩ (lines text)).bind fun s =>
    match blocksGet s.data.blocks nMASS with
    | none => .ok s.data
    | some b => (masses b s.data.particles).bind fun ps => .ok { s.data with particles := ps }

end Verif.Slha
