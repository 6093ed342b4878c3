/-
Les Houches event files (lhef/lhef.go, lhef/writer.go, lhef/reader.go).

`encoding/xml` and `fmt` belong to the standard library.  `fmt.Fscanf` is Verif.Common.Fscanf; the
notations `%.6E`, `%.10E` and `%.f` of floating-point numbers are parameters.  The reader of XML is
modelled by `tokens`, on text with tags, attributes and character data.  Simplifications: comments,
processing instructions, directives, CDATA sections, entities (`&`), name spaces and the `>` inside
attributes are not modelled (`tokens` gives an error); carriage returns are kept.  Writers do not
fail.  The fields no code of the package uses (weights, clustering, PDF information, cuts, ...) are
left out.
-/
import Verif.Common.Fscanf

namespace Verif.Lhef

open Verif.Text Verif.Strconv Verif.Fscanf

abbrev Str := List Char

/-! The texts written and looked for (lhef/writer.go and lhef/reader.go). -/

/-- `"<header>\n"` -/
def sHeader : Str := ['<', 'h', 'e', 'a', 'd', 'e', 'r', '>', '\n']

/-- `"\n</header>\n"` -/
def sHeaderEnd : Str := ['\n', '<', '/', 'h', 'e', 'a', 'd', 'e', 'r', '>', '\n']

/-- `"<LesHouchesEvents version=\"1.0\">\n"` -/
def sOpen : Str := ['<', 'L', 'e', 's', 'H', 'o', 'u', 'c', 'h', 'e', 's', 'E', 'v', 'e', 'n', 't', 's', ' ', 'v',
  'e', 'r', 's', 'i', 'o', 'n', '=', '"', '1', '.', '0', '"', '>', '\n']

/-- `"<init>\n"` -/
def sInit : Str := ['<', 'i', 'n', 'i', 't', '>', '\n']

/-- `"#\n</init>\n"` -/
def sInitEnd : Str := ['#', '\n', '<', '/', 'i', 'n', 'i', 't', '>', '\n']

/-- `"<eventgroup"` -/
def sGroup : Str := ['<', 'e', 'v', 'e', 'n', 't', 'g', 'r', 'o', 'u', 'p']

/-- `" nreal=\""` -/
def sNreal : Str := [' ', 'n', 'r', 'e', 'a', 'l', '=', '"']

/-- `" ncounter=\""` -/
def sNcounter : Str := [' ', 'n', 'c', 'o', 'u', 'n', 't', 'e', 'r', '=', '"']

/-- `"</eventgroup>\n"` -/
def sGroupEnd : Str := ['<', '/', 'e', 'v', 'e', 'n', 't', 'g', 'r', 'o', 'u', 'p', '>', '\n']

/-- `"<event>\n"` -/
def sEvent : Str := ['<', 'e', 'v', 'e', 'n', 't', '>', '\n']

/-- `"#\n</event>\n"` -/
def sEventEnd : Str := ['#', '\n', '<', '/', 'e', 'v', 'e', 'n', 't', '>', '\n']

/-- `"</LesHouchesEvents>\n"` -/
def sClose : Str := ['<', '/', 'L', 'e', 's', 'H', 'o', 'u', 'c', 'h', 'e', 's', 'E', 'v', 'e', 'n', 't', 's', '>',
  '\n']

/-- `"1.0"` -/
def v1 : Str := ['1', '.', '0']

/-- `"2.0"` -/
def v2 : Str := ['2', '.', '0']

/-- `"LesHouchesEvents"` -/
def nRoot : Str := ['L', 'e', 's', 'H', 'o', 'u', 'c', 'h', 'e', 's', 'E', 'v', 'e', 'n', 't', 's']

/-- `"init"` -/
def nInit : Str := ['i', 'n', 'i', 't']

/-- `"event"` -/
def nEvent : Str := ['e', 'v', 'e', 'n', 't']

/-- The notations of floating-point numbers: `%.6E`, `%.10E` and `%.f` of `fmt.Fprintf`, and the
conversion of a token in `fmt.Fscanf`. -/
structure Notation (F : Type) where
  fmt6 : F → Str
  fmt10 : F → Str
  fmt0 : F → Str
  parse : Str → Option F

/-- The fields of HEPRUP that are written, lhef/lhef.go:83-101; `neve` stands
for `XSecInfo.Neve`. -/
structure Run (F : Type) where
  idbmup : BitVec 64 × BitVec 64
  ebmup : F × F
  pdfgup : BitVec 32 × BitVec 32
  pdfsup : BitVec 32 × BitVec 32
  idwtup : BitVec 32
  nprup : BitVec 32
  xsecup : List F
  xerrup : List F
  xmaxup : List F
  lprup : List (BitVec 32)
  neve : Int

/-- `[5]float64` -/
abbrev V5 (F : Type) := F × F × F × F × F

/-- The fields of HEPEUP that are written, lhef/lhef.go:114-133; `sub` stands
for the number of events in `SubEvents`, of which only the two counters are written. -/
structure Event (F : Type) where
  nup : BitVec 32
  idprup : BitVec 32
  xwgtup : F
  scalup : F
  aqedup : F
  aqcdup : F
  idup : List (BitVec 64)
  istup : List (BitVec 32)
  mothup : List (BitVec 32 × BitVec 32)
  icolup : List (BitVec 32 × BitVec 32)
  pup : List (V5 F)
  vtimup : List F
  spinup : List F
  sub : Nat
  nreal : BitVec 32
  ncounter : BitVec 32

/-- One particle of an event. -/
structure Particle (F : Type) where
  id : BitVec 64
  ist : BitVec 32
  moth : BitVec 32 × BitVec 32
  icol : BitVec 32 × BitVec 32
  p : V5 F
  vtim : F
  spin : F

/-- One subprocess of a run. -/
structure Process (F : Type) where
  xsec : F
  xerr : F
  xmax : F
  lpr : BitVec 32

/-! ### Writing -/

section
variable {F : Type} (no : Notation F)

/-- `%d` -/
def fmtI {n : Nat} (x : BitVec n) : Str := formatInt x.toInt

/-- The reads of lhef/writer.go:83-86: none is a panic. -/
def Run.at (r : Run F) (i : Nat) : Option (Process F) :=
  match r.xsecup[i]?, r.xerrup[i]?, r.xmaxup[i]?, r.lprup[i]? with
  | some a, some b, some c, some d => some ⟨a, b, c, d⟩
  | _, _, _, _ => none

/-- The reads of lhef/writer.go:153-159: none is a panic. -/
def Event.at (e : Event F) (i : Nat) : Option (Particle F) :=
  match e.idup[i]?, e.istup[i]?, e.mothup[i]?, e.icolup[i]?, e.pup[i]?, e.vtimup[i]?, e.spinup[i]? with
  | some a, some b, some c, some d, some p, some v, some s => some ⟨a, b, c, d, p, v, s⟩
  | _, _, _, _, _, _, _ => none

/-- lhef/writer.go:66-74, without `<init>` and the newline before the line. -/
def runLine (r : Run F) : Str :=
  fieldsText [(7, fmtI r.idbmup.1), (7, fmtI r.idbmup.2), (13, no.fmt6 r.ebmup.1), (13, no.fmt6 r.ebmup.2),
    (5, fmtI r.pdfgup.1), (5, fmtI r.pdfgup.2), (5, fmtI r.pdfsup.1), (5, fmtI r.pdfsup.2),
    (5, fmtI r.idwtup), (5, fmtI r.nprup)] ++ ['\n']

/-- lhef/writer.go:80-87. -/
def processLine (p : Process F) : Str :=
  fieldsText [(13, no.fmt6 p.xsec), (13, no.fmt6 p.xerr), (13, no.fmt6 p.xmax), (5, fmtI p.lpr)] ++ ['\n']

/-- lhef/writer.go:135-144, without `<event>` and the newline before the line. -/
def eventLine (e : Event F) : Str :=
  fieldsText [(5, fmtI e.nup), (5, fmtI e.idprup), (13, no.fmt6 e.xwgtup), (13, no.fmt6 e.scalup),
    (13, no.fmt6 e.aqedup), (13, no.fmt6 e.aqcdup)] ++ ['\n']

/-- lhef/writer.go:150-160. -/
def particleLine (p : Particle F) : Str :=
  fieldsText [(7, fmtI p.id), (4, fmtI p.ist), (4, fmtI p.moth.1), (4, fmtI p.moth.2), (4, fmtI p.icol.1),
    (4, fmtI p.icol.2), (17, no.fmt10 p.p.1), (17, no.fmt10 p.p.2.1), (17, no.fmt10 p.p.2.2.1),
    (17, no.fmt10 p.p.2.2.2.1), (17, no.fmt10 p.p.2.2.2.2),
    (0, padL 1 (no.fmt0 p.vtim) ++ ['.']), (0, padL 1 (no.fmt0 p.spin) ++ ['.'])] ++ ['\n']

/-- The loops of lhef/writer.go:79-91 and 149-164: one text for every index below a number. -/
def loop {α : Type} (get : Nat → Option α) (text : α → Str) (i : Nat) : Nat → Option Str
  | 0 => some []
  | n + 1 =>
    match get i with
    | none => none
    | some x => (loop get text (i + 1) n).map (text x ++ ·)

/-- The number of turns of `for i := range int(n)`. -/
def turns (n : BitVec 32) : Nat := n.toInt.toNat

/-- lhef/writer.go:51-64. -/
def headerText (h : Str) : Str :=
  if h = [] then []
  else sHeader ++ (if h.getLast? = some '\n' then h.dropLast else h) ++ sHeaderEnd

/-- lhef/writer.go:31-103, `init`; none is a panic. -/
def initText (h : Str) (r : Run F) : Option Str :=
  if r.neve > 0 then none
  else (loop r.at (processLine no) 0 (turns r.nprup)).map fun l =>
    sOpen ++ headerText h ++ sInit ++ runLine no r ++ l ++
      sInitEnd

/-- lhef/writer.go:112-133: the tag of a group is never ended. -/
def groupText (e : Event F) : Str :=
  if e.sub = 0 then []
  else sGroup ++
    (if e.nreal.toInt > 0 then sNreal ++ fmtI e.nreal ++ ['"'] else []) ++
    (if e.ncounter.toInt > 0 then sNcounter ++ fmtI e.ncounter ++ ['"'] else []) ++
    sGroupEnd

/-- lhef/writer.go:112-177: an event. -/
def eventText (e : Event F) : Option Str :=
  (loop e.at (particleLine no) 0 (turns e.nup)).map fun l =>
    groupText e ++ sEvent ++ eventLine no e ++ l ++ sEventEnd

/-- An Encoder, lhef/writer.go:15-21: `started` is the state of `once`. -/
structure Encoder (F : Type) where
  run : Run F
  header : Str
  started : Bool
  out : Str

/-- lhef/writer.go:24-29. -/
def newEncoder (run : Run F) (header : Str) : Encoder F := ⟨run, header, false, []⟩

/-- lhef/writer.go:105-177, `Encode`; none is a panic (also for the version 2 of the format, line 166). -/
def Encoder.encode (w : Encoder F) (e : Event F) : Option (Encoder F) :=
  match (if w.started then some [] else initText no w.header w.run), eventText no e with
  | some a, some b => if w.run.neve > 0 then none else some { w with started := true, out := w.out ++ a ++ b }
  | _, _ => none

/-- lhef/writer.go:179-193, `Close`. -/
def Encoder.close (w : Encoder F) : Str := w.out ++ sClose

/-- Several calls of `Encode`. -/
def Encoder.encodeAll (w : Encoder F) : List (Event F) → Option (Encoder F)
  | [] => some w
  | e :: l => (w.encode no e).bind fun w => w.encodeAll l

end

/-! ### XML -/

/-- The tokens of `xml.Decoder.Token`. -/
inductive Tok
  | start (name : Str) (attrs : List (Str × Str))
  | stop (name : Str)
  | char (s : Str)
  | comment
deriving DecidableEq

/-- How a text ends: with `io.EOF`, or with a syntax error. -/
inductive Fin
  | eof | bad
deriving DecidableEq

/-- The characters of names. -/
def nameChar (c : Char) : Bool := c.isAlphanum || c == '_' || c == '-' || c == '.'

/-- The attributes of a tag, after its name; the result tells if the element is empty (`/>`).  The first argument
bounds the number of attributes. -/
def attrs : Nat → Str → Option (List (Str × Str) × Bool)
  | 0, _ => none
  | n + 1, s =>
    match s.dropWhile isSpace with
    | [] => some ([], false)
    | ['/'] => some ([], true)
    | s =>
      if s.takeWhile nameChar = [] then none
      else
        match (s.dropWhile nameChar).dropWhile isSpace with
        | '=' :: r =>
          match r.dropWhile isSpace with
          | '"' :: r =>
            if (r.takeWhile (· ≠ '"')).any (fun c => c == '&' || c == '<') || ('"' ∉ r) then none
            else (attrs n ((r.dropWhile (· ≠ '"')).drop 1)).map fun x =>
              ((s.takeWhile nameChar, r.takeWhile (· ≠ '"')) :: x.1, x.2)
          | _ => none
        | _ => none

/-- What is between `<` and `>`: the tokens and the names of the open elements, the innermost first. -/
def tag (stack : List Str) : Str → Option (List Tok × List Str)
  | '/' :: r =>
    match stack with
    | [] => none
    | n :: stack =>
      if r.takeWhile nameChar = n ∧ (r.dropWhile nameChar).all isSpace then some ([.stop n], stack) else none
  | r =>
    let n := r.takeWhile nameChar
    if n = [] then none
    else
      match attrs (r.length + 1) (r.dropWhile nameChar) with
      | none => none
      | some (as, true) => some ([.start n as, .stop n], stack)
      | some (as, false) => some ([.start n as], n :: stack)

/-- Character data, when there is any. -/
def charTok (acc : Str) : List Tok := if acc = [] then [] else [.char acc.reverse]

/-- The tokens of a text, and how they end.  `intag` tells whether the reader is between `<` and `>`; `acc` is what
was read since the last token, backwards. -/
def tokens (stack : List Str) (intag : Bool) (acc : Str) : Str → List Tok × Fin
  | [] => if intag then ([], .bad) else (charTok acc, if stack = [] then .eof else .bad)
  | c :: s =>
    if intag then
      if c = '>' then
        match tag stack acc.reverse with
        | none => ([], .bad)
        | some (ts, stack) => (ts ++ (tokens stack false [] s).1, (tokens stack false [] s).2)
      else tokens stack true (c :: acc) s
    else
      if c = '<' then (charTok acc ++ (tokens stack true [] s).1, (tokens stack true [] s).2)
      else if c = '&' then ([], .bad)
      else if c = '>' ∧ [']', ']'].isPrefixOf acc then ([], .bad)
      else tokens stack false (c :: acc) s

/-- The tokens of a file. -/
def xml (s : Str) : List Tok × Fin := tokens [] false [] s

/-! ### Reading -/

/-- Outcomes: a value, `io.EOF`, another error, a panic. -/
inductive Out (α : Type)
  | ok (a : α) | eof | err | panic

section
variable {F : Type} (no : Notation F)

/-- The tokens after the first start tag with a name, none when there is none
(the loops of lhef/reader.go:71-92 and 166-183). -/
def find (name : Str) : List Tok → Option (List Tok)
  | [] => none
  | .start n _ :: l => if n = name then some l else find name l
  | _ :: l => find name l

/-- lhef/reader.go:188-201, `seek`: the tokens after the first end tag with a name. -/
def seek (name : Str) : List Tok → Option (List Tok)
  | [] => none
  | .stop n :: l => if n = name then some l else seek name l
  | _ :: l => seek name l

/-- What remains at the end of the tokens: `dec.Token` gives `io.EOF` or an error. -/
def atEnd {α : Type} : Fin → Out α
  | .eof => .eof
  | .bad => .err

def i64 (x : Int) : BitVec 64 := BitVec.ofInt 64 x
def i32 (x : Int) : BitVec 32 := BitVec.ofInt 32 x

/-- lhef/reader.go:108-121. -/
def runFmt : List Item :=
  .nl :: lineFmt [.int 64, .int 64, .flt, .flt, .int 32, .int 32, .int 32, .int 32, .int 32, .int 32]

def toRun : List (Val F) → Option (Run F)
  | [.int a, .int b, .flt c, .flt d, .int e, .int f, .int g, .int h, .int i, .int j] =>
    some ⟨(i64 a, i64 b), (c, d), (i32 e, i32 f), (i32 g, i32 h), i32 i, i32 j, [], [], [], [], 0⟩
  | _ => none

/-- lhef/reader.go:137-144. -/
def processFmt : List Item := lineFmt [.flt, .flt, .flt, .int 32]

def toProcess : List (Val F) → Option (Process F)
  | [.flt a, .flt b, .flt c, .int d] => some ⟨a, b, c, i32 d⟩
  | _ => none

/-- lhef/reader.go:234-243. -/
def eventFmt : List Item := .nl :: lineFmt [.int 32, .int 32, .flt, .flt, .flt, .flt]

def toEvent : List (Val F) → Option (Event F)
  | [.int a, .int b, .flt c, .flt d, .flt e, .flt f] =>
    some ⟨i32 a, i32 b, c, d, e, f, [], [], [], [], [], [], [], 0, 0, 0⟩
  | _ => none

/-- lhef/reader.go:262-275. -/
def particleFmt : List Item :=
  lineFmt [.int 64, .int 32, .int 32, .int 32, .int 32, .int 32, .flt, .flt, .flt, .flt, .flt, .flt, .flt]

def toParticle : List (Val F) → Option (Particle F)
  | [.int a, .int b, .int c, .int d, .int e, .int f, .flt g, .flt h, .flt i, .flt j, .flt k, .flt l, .flt m] =>
    some ⟨i64 a, i32 b, (i32 c, i32 d), (i32 e, i32 f), (g, h, i, j, k), l, m⟩
  | _ => none

/-- One call of `fmt.Fscanf` into the fields of a record. -/
def scanInto {α : Type} (parse : Str → Option F) (fmt : List Item) (conv : List (Val F) → Option α) (s : Str) :
    Option (α × Str) :=
  (scanf parse fmt s).bind fun x => (conv x.1).map fun a => (a, x.2)

/-- The loops of lhef/reader.go:136-148 and 261-280. -/
def scanMany {α : Type} (scan : Str → Option (α × Str)) : Nat → Str → Option (List α × Str)
  | 0, s => some ([], s)
  | n + 1, s => (scan s).bind fun x => (scanMany scan n x.2).map fun y => (x.1 :: y.1, y.2)

/-- lhef/reader.go:107-148: the text in the element `init`. -/
def readRun (s : Str) : Option (Run F) :=
  (scanInto no.parse runFmt toRun s).bind fun x =>
    if x.1.nprup.toInt < 0 then none
    else (scanMany (scanInto no.parse processFmt toProcess) (turns x.1.nprup) x.2).map fun l =>
      { x.1 with xsecup := l.1.map (·.xsec), xerrup := l.1.map (·.xerr), xmaxup := l.1.map (·.xmax),
                 lprup := l.1.map (·.lpr) }

/-- lhef/reader.go:228-280: the text in an element `event`. -/
def readEvent (s : Str) : Out (Event F) :=
  match scanInto no.parse eventFmt toEvent s with
  | none => .err
  | some (e, s) =>
    if e.nup.toInt < 0 then .panic
    else
      match scanMany (scanInto no.parse particleFmt toParticle) (turns e.nup) s with
      | none => .err
      | some (l, _) => .ok { e with
          idup := l.map (·.id), istup := l.map (·.ist), mothup := l.map (·.moth), icolup := l.map (·.icol)
          pup := l.map (·.p), vtimup := l.map (·.vtim), spinup := l.map (·.spin) }

/-- A Decoder, lhef/reader.go:19-25: the tokens not yet read. -/
structure Decoder (F : Type) where
  version : Int
  run : Run F
  toks : List Tok
  fin : Fin

/-- lhef/reader.go:56-63. -/
def versionOf (v : Str) : Int := if v = v1 then 1 else if v = v2 then 2 else -42

/-- lhef/reader.go:27-161, `NewDecoder`. -/
def newDecoder (x : List Tok × Fin) : Out (Decoder F) :=
  match x.1 with
  | [] => atEnd x.2
  | .start n as :: l =>
    if n ≠ nRoot then .err
    else
      match as with
      | [] => .panic
      | (_, v) :: _ =>
        match find nInit l with
        | none => atEnd x.2
        | some [] => atEnd x.2
        | some (.char s :: l) =>
          match readRun no s with
          | none => .err
          | some r =>
            match seek nInit l with
            | none => .err
            | some l => .ok ⟨versionOf v, r, l, x.2⟩
        | some (_ :: _) => .err
  | _ :: _ => .err

/-- lhef/reader.go:204-294, `Decode`: the outcome and the Decoder afterwards. -/
def Decoder.decode (d : Decoder F) : Out (Event F) × Decoder F :=
  match find nEvent d.toks with
  | none => (atEnd d.fin, { d with toks := [] })
  | some [] => (atEnd d.fin, { d with toks := [] })
  | some (.char s :: l) =>
    match readEvent no s with
    | .ok e =>
      match seek nEvent l with
      | none => (.err, { d with toks := [] })
      | some l => (.ok e, { d with toks := l })
    | o => (o, { d with toks := l })
  | some (_ :: l) => (.err, { d with toks := l })

/-- Several calls of `Decode`, whatever they give. -/
def Decoder.decodeAll (d : Decoder F) : Nat → List (Out (Event F)) × Decoder F
  | 0 => ([], d)
  | n + 1 => ((d.decode no).1 :: ((d.decode no).2.decodeAll n).1, ((d.decode no).2.decodeAll n).2)

end

end Verif.Lhef
