import Mathlib.Order.Defs.LinearOrder

/-!
# Model of recorded drawings and their JSON form (hplot/vgop, C170)

A drawing is recorded as a list of operations; it is replayed as a list of calls on another canvas. A colour is what
its `RGBA` method gives, four numbers of sixteen bits. Floats are an arbitrary type with a zero and a test
whether a value can be written in JSON (it is neither infinite nor NaN); simplified: the two zeros are one value.
JSON documents are trees; the text of a tree is read back as the same tree (encoding/json), except that strings go through
`fix`, which replaces bytes that are not UTF-8. Simplified: keys are matched exactly, a number written by an
integer type is not read by a float type. The PNG and base64 codecs are parameters.
-/

namespace Verif.Hplot.Vgop

abbrev Bytes := List UInt8

/-- A colour: the results of its `RGBA` method, hplot/vgop/ops.go:48-50. -/
structure Col where
  r : Nat
  g : Nat
  b : Nat
  a : Nat
deriving DecidableEq

structure Pt (F : Type) where
  x : F
  y : F
deriving DecidableEq

/-- A component of a path, hplot/vgop/json.go:276-283 without JSON. -/
structure Comp (F : Type) where
  type : Int
  pos : Pt F
  radius : F
  start : F
  angle : F
  ctl : List (Pt F)
deriving DecidableEq

/-- hplot/vgop/fonts.go:17-23 (`fontID`), the same fields as a font. -/
structure Font (F : Type) where
  typeface : Bytes
  variant : Bytes
  style : Int
  weight : Int
  size : F
deriving DecidableEq

/-- A font with its outlines; `none` is nil. -/
structure Face (F G : Type) where
  font : Font F
  face : Option G
deriving DecidableEq

/-- The operations of hplot/vgop/ops.go:26-278, and the calls of a canvas: `A` is the argument of `FillString`. -/
inductive Cmd (A F I : Type) where
  | width (w : F)
  | dash (ds : List F) (offs : F)
  | color (c : Col)
  | rotate (a : F)
  | translate (p : Pt F)
  | scale (x y : F)
  | push
  | pop
  | stroke (p : List (Comp F))
  | fill (p : List (Comp F))
  | text (f : A) (p : Pt F) (s : Bytes)
  | image (min max : Pt F) (i : I)
deriving DecidableEq

/-- hplot/vgop/canvas.go:30-35 (`Canvas`); the map of fonts is a list of pairs with different keys. -/
structure Canvas (F I G : Type) where
  w : F
  h : F
  ops : List (Cmd (Font F) F I)
  fonts : List (Font F × Face F G)

section Record

variable {F I G : Type} [DecidableEq F]

/-- hplot/vgop/canvas.go:47-58 (`New`). -/
def new (w h : F) : Canvas F I G := ⟨w, h, [], []⟩

/-- hplot/vgop/canvas.go:65-69 (`Reset`): the fonts stay. -/
def reset (c : Canvas F I G) : Canvas F I G := { c with ops := [] }

/-- hplot/vgop/canvas.go:88-95 (`add`). -/
def addFont (c : Canvas F I G) (f : Face F G) : Canvas F I G :=
  { c with fonts := (f.font, f) :: c.fonts.filter fun p => p.1 ≠ f.font }

/-- hplot/vgop/canvas.go:97-99 (`append`). -/
def app (c : Canvas F I G) (o : Cmd (Font F) F I) : Canvas F I G := { c with ops := c.ops ++ [o] }

/-- The methods of the canvas, hplot/vgop/canvas.go:101-170. -/
def call (c : Canvas F I G) : Cmd (Face F G) F I → Canvas F I G
  | .width w => app c (.width w)
  | .dash ds o => app c (.dash ds o)
  | .color x => app c (.color x)
  | .rotate a => app c (.rotate a)
  | .translate p => app c (.translate p)
  | .scale x y => app c (.scale x y)
  | .push => app c .push
  | .pop => app c .pop
  | .stroke p => app c (.stroke p)
  | .fill p => app c (.fill p)
  | .text f p s => app (addFont c f) (.text f.font p s)
  | .image a b i => app c (.image a b i)

/-- What an operation does on a canvas, hplot/vgop/ops.go:31-332; `none` is an error. -/
def opCall (fonts : List (Font F × Face F G)) : Cmd (Font F) F I → Option (Cmd (Face F G) F I)
  | .width w => some (.width w)
  | .dash ds o => some (.dash ds o)
  | .color x => some (.color x)
  | .rotate a => some (.rotate a)
  | .translate p => some (.translate p)
  | .scale x y => some (.scale x y)
  | .push => some .push
  | .pop => some .pop
  | .stroke p => some (.stroke p)
  | .fill p => some (.fill p)
  | .text f p s => (fonts.lookup f).map fun face => .text face p s
  | .image a b i => some (.image a b i)

/-- The calls that are made, and whether all could be. -/
def opCalls (fonts : List (Font F × Face F G)) : List (Cmd (Font F) F I) → List (Cmd (Face F G) F I) × Bool
  | [] => ([], true)
  | o :: os => match opCall fonts o with
    | none => ([], false)
    | some x => (x :: (opCalls fonts os).1, (opCalls fonts os).2)

/-- hplot/vgop/canvas.go:73-86 (`ReplayOn`). -/
def replayOn (c : Canvas F I G) : List (Cmd (Face F G) F I) × Bool := opCalls c.fonts c.ops

end Record

/-! ## JSON -/

/-- Keys and names: the constructors are the strings of the same name, see hplot/vgop/json.go:19-32 and the tags. -/
inductive Key where
  | SetLineWidth | SetLineDash | SetColor | Rotate | Translate | Scale | Push | Pop | Stroke | Fill | FillString
  | DrawImage
  | size | ops | fonts | width | height | type | value | x | y | pos | radius | start | angle | ctl | dashes | offsets
  | color | r | g | b | a | point | path | font | string | Rect | min | max | data | typeface | variant | style | weight
  | other (s : Bytes)
deriving DecidableEq

inductive J (F : Type) where
  | null
  | num (x : F)
  | int (i : Int)
  | str (s : Bytes)
  | name (k : Key)
  | arr (l : List (J F))
  | obj (l : List (Key × J F))

/-- The outcome of reading. -/
inductive Res (α : Type) where
  | ok (x : α)
  | err
  | panic
deriving DecidableEq

def Res.bind {α β : Type} : Res α → (α → Res β) → Res β
  | .ok x, f => f x
  | .err, _ => .err
  | .panic, _ => .panic

def Res.of {α : Type} : Option α → Res α
  | none => .err
  | some x => .ok x

/-- What is not part of the package: floats, encoding/json on strings, base64, PNG. -/
structure Ext (F I : Type) where
  zero : F
  finite : F → Bool
  fix : Bytes → Bytes
  b64 : Bytes → Bytes
  unb64 : Bytes → Option Bytes
  png : I → Option Bytes
  unpng : Bytes → Option I

def mapO {α β : Type} (f : α → Option β) : List α → Option (List β)
  | [] => some []
  | x :: xs => (f x).bind fun y => (mapO f xs).map fun ys => y :: ys

def mapR {α β : Type} (f : α → Res β) : List α → Res (List β)
  | [] => .ok []
  | x :: xs => (f x).bind fun y => (mapR f xs).bind fun ys => .ok (y :: ys)

section Json

variable {F I G : Type} [DecidableEq F] (X : Ext F I)

/-! ### Writing -/

/-- A float in JSON; also hplot/vgop/json.go:238-243 (`jsonPointFrom`), where the number is written first. -/
def mNum (x : F) : Option (J F) := if X.finite x then some (.num x) else none

/-- hplot/vgop/json.go:238-243 (`jsonPointFrom`), with the tags of hplot/vgop/json.go:233-236. -/
def mPt (p : Pt F) : Option (J F) :=
  (mNum X p.x).bind fun x => (mNum X p.y).map fun y => .obj [(.x, x), (.y, y)]

/-- A float with the tag omitempty. -/
def mOpt (k : Key) (x : F) : Option (List (Key × J F)) :=
  if x = X.zero then some [] else (mNum X x).map fun v => [(k, v)]

/-- The control points, with the tag omitempty, hplot/vgop/json.go:293-298. -/
def mCtl (l : List (Pt F)) : Option (List (Key × J F)) :=
  if l = [] then some [] else (mapO (mPt X) l).map fun v => [(.ctl, .arr v)]

/-- hplot/vgop/json.go:285-301 (`jsonPathCompFrom`), with the tags of hplot/vgop/json.go:276-283. -/
def mComp (c : Comp F) : Option (J F) :=
  (mPt X c.pos).bind fun pos => (mOpt X .radius c.radius).bind fun r => (mOpt X .start c.start).bind fun s =>
    (mOpt X .angle c.angle).bind fun a => (mCtl X c.ctl).map fun l =>
      .obj ([(.type, .int c.type), (.pos, pos)] ++ r ++ s ++ a ++ l)

/-- hplot/vgop/json.go:259-265 (`jsonPathFrom`), with the key of hplot/vgop/ops.go:168-175. -/
def mPath (p : List (Comp F)) : Option (J F) := (mapO (mComp X) p).map fun l => .obj [(.path, .arr l)]

/-- A string and an integer with the tag omitempty. -/
def mStr (k : Key) (s : Bytes) : List (Key × J F) := if s = [] then [] else [(k, .str (X.fix s))]

def mInt (k : Key) (i : Int) : List (Key × J F) := if i = 0 then [] else [(k, .int i)]

/-- hplot/vgop/fonts.go:17-23 (`fontID`). -/
def mFont (f : Font F) : Option (J F) :=
  (mOpt X .size f.size).map fun s =>
    .obj (mStr X .typeface f.typeface ++ mStr X .variant f.variant ++ mInt .style f.style ++
      mInt .weight f.weight ++ s)

/-- hplot/vgop/ops.go:52-64 (`opSetColor`). -/
def mCol (c : Col) : J F :=
  .obj [(.color, .obj [(.r, .int c.r), (.g, .int c.g), (.b, .int c.b), (.a, .int c.a)])]

/-- hplot/vgop/ops.go:280-299 (`opDrawImage`): the text in base64 is a list of bytes, written in base64 again. -/
def mImage (a b : Pt F) (i : I) : Option (J F) :=
  (mPt X a).bind fun a => (mPt X b).bind fun b => (X.png i).map fun p =>
    .obj [(.Rect, .obj [(.min, a), (.max, b)]), (.data, .str (X.b64 (X.b64 p)))]

/-- hplot/vgop/ops.go:234-245 (`opFillString`). -/
def mText (f : Font F) (p : Pt F) (s : Bytes) : Option (J F) :=
  (mFont X f).bind fun f => (mPt X p).map fun p => .obj [(.font, f), (.point, p), (.string, .str (X.fix s))]

/-- hplot/vgop/json.go:189-192 (`jsonOp`). -/
def tagged (k : Key) (v : J F) : J F := .obj [(.type, .name k), (.value, v)]

/-- hplot/vgop/json.go:194-231 (`jsonOpFrom`). -/
def mOp : Cmd (Font F) F I → Option (J F)
  | .width w => (mNum X w).map fun w => tagged .SetLineWidth (.obj [(.width, w)])
  | .dash ds o => (mapO (mNum X) ds).bind fun ds => (mNum X o).map fun o =>
      tagged .SetLineDash (.obj [(.dashes, .arr ds), (.offsets, o)])
  | .color c => some (tagged .SetColor (mCol c))
  | .rotate a => (mNum X a).map fun a => tagged .Rotate (.obj [(.angle, a)])
  | .translate p => (mPt X p).map fun p => tagged .Translate (.obj [(.point, p)])
  | .scale x y => (mNum X x).bind fun x => (mNum X y).map fun y => tagged .Scale (.obj [(.x, x), (.y, y)])
  | .push => some (tagged .Push (.obj []))
  | .pop => some (tagged .Pop (.obj []))
  | .stroke p => (mPath X p).map (tagged .Stroke)
  | .fill p => (mPath X p).map (tagged .Fill)
  | .text f p s => (mText X f p s).map (tagged .FillString)
  | .image a b i => (mImage X a b i).map (tagged .DrawImage)

/-- The fonts, with the tag omitempty. -/
def mFonts (l : List (J F)) : List (Key × J F) :=
  match l with
  | [] => []
  | l => [(.fonts, .arr l)]

/-- hplot/vgop/json.go:64-94 (`MarshalJSON`); `keys` are the sorted keys of the map of fonts. -/
def marshal (keys : List (Font F)) (c : Canvas F I G) : Option (J F) :=
  (mNum X c.w).bind fun w => (mNum X c.h).bind fun h => (mapO (mOp X) c.ops).bind fun ops =>
    (mapO (mFont X) keys).map fun fs =>
      .obj ([(.size, .obj [(.width, w), (.height, h)]), (.ops, .arr ops)] ++ mFonts fs)

/-- The order of the fonts, hplot/vgop/json.go:83-90: by name, then by size. -/
def less {N : Type} [LinearOrder N] [LinearOrder F] (name : Font F → N) (a b : Font F) : Bool :=
  if name a ≠ name b then decide (name a < name b) else decide (a.size < b.size)

/-! ### Reading -/

/-- A field of an object; none if it is not there. -/
def fld (o : List (Key × J F)) (k : Key) : J F := (o.lookup k).getD .null

def rObj : J F → Res (List (Key × J F))
  | .null => .ok []
  | .obj l => .ok l
  | _ => .err

def rArr : J F → Res (List (J F))
  | .null => .ok []
  | .arr l => .ok l
  | _ => .err

/-- A float: zero if it is not there. -/
def rNum : J F → Res F
  | .null => .ok X.zero
  | .num x => .ok x
  | _ => .err

def rInt : J F → Res Int
  | .null => .ok 0
  | .int x => .ok x
  | _ => .err

/-- An uint32. -/
def rU32 : J F → Res Nat
  | .null => .ok 0
  | .int x => if 0 ≤ x ∧ x < 2 ^ 32 then .ok x.toNat else .err
  | _ => .err

def rStr : J F → Res Bytes
  | .null => .ok []
  | .str s => .ok s
  | _ => .err

/-- A field that is a `json.Number`, converted by hplot/vgop/json.go:245-255 (`cnv`), which panics if it is not there. -/
def rNumber : J F → Res F
  | .null => .panic
  | .num x => .ok x
  | _ => .err

/-- hplot/vgop/json.go:233-236 (`jsonPoint`), hplot/vgop/json.go:245-255 (`cnv`). -/
def rPt (j : J F) : Res (Pt F) :=
  (rObj j).bind fun o => (rNumber (fld o .x)).bind fun x => (rNumber (fld o .y)).bind fun y => .ok ⟨x, y⟩

/-- hplot/vgop/json.go:276-283 (`jsonPathComp`), hplot/vgop/json.go:303-318 (`cnv`). -/
def rComp (j : J F) : Res (Comp F) :=
  (rObj j).bind fun o => (rInt (fld o .type)).bind fun t => (rPt (fld o .pos)).bind fun p =>
    (rNum X (fld o .radius)).bind fun r => (rNum X (fld o .start)).bind fun s => (rNum X (fld o .angle)).bind fun a =>
      (rArr (fld o .ctl)).bind fun l => (mapR rPt l).bind fun l => .ok ⟨t, p, r, s, a, l⟩

/-- hplot/vgop/ops.go:177-188 and hplot/vgop/ops.go:209-220 (`UnmarshalJSON`), hplot/vgop/json.go:267-274 (`cnv`). -/
def rPath (j : J F) : Res (List (Comp F)) :=
  (rObj j).bind fun o => (rArr (fld o .path)).bind fun l => mapR (rComp X) l

/-- hplot/vgop/fonts.go:17-23 (`fontID`). -/
def rFont (j : J F) : Res (Font F) :=
  (rObj j).bind fun o => (rStr (fld o .typeface)).bind fun t => (rStr (fld o .variant)).bind fun v =>
    (rInt (fld o .style)).bind fun s => (rInt (fld o .weight)).bind fun w => (rNum X (fld o .size)).bind fun z =>
      .ok ⟨t, v, s, w, z⟩

/-- A channel of a `color.RGBA` made from the number in the file by hplot/vgop/ops.go:80-85 (`uint8`), as its
`RGBA` method gives it: the byte, twice. -/
def chan (v : Nat) : Nat := (v % 256) ||| ((v % 256) <<< 8)

/-- hplot/vgop/ops.go:66-87 (`UnmarshalJSON`). -/
def rCol (j : J F) : Res Col :=
  (rObj j).bind fun o => (rObj (fld o .color)).bind fun o => (rU32 (fld o .r)).bind fun r =>
    (rU32 (fld o .g)).bind fun g => (rU32 (fld o .b)).bind fun b => (rU32 (fld o .a)).bind fun a =>
      .ok ⟨chan r, chan g, chan b, chan a⟩

/-- hplot/vgop/ops.go:247-262 (`UnmarshalJSON`). -/
def rText (j : J F) : Res (Cmd (Font F) F I) :=
  (rObj j).bind fun o => (rFont X (fld o .font)).bind fun f => (rPt (fld o .point)).bind fun p =>
    (rStr (fld o .string)).bind fun s => .ok (.text f p s)

/-- hplot/vgop/ops.go:301-327 (`UnmarshalJSON`). -/
def rImage (j : J F) : Res (Cmd (Font F) F I) :=
  (rObj j).bind fun o => (rObj (fld o .Rect)).bind fun q => (rStr (fld o .data)).bind fun d =>
    (Res.of (X.unb64 d)).bind fun d => (rPt (fld q .min)).bind fun a => (rPt (fld q .max)).bind fun b =>
      (Res.of (X.unb64 d)).bind fun d => (Res.of (X.unpng d)).bind fun i => .ok (.image a b i)

/-- The value of an operation of the given type, hplot/vgop/json.go:121-168. -/
def rValue (v : J F) : Key → Res (Cmd (Font F) F I)
  | .SetLineWidth => (rObj v).bind fun o => (rNum X (fld o .width)).bind fun w => .ok (.width w)
  | .SetLineDash => (rObj v).bind fun o => (rArr (fld o .dashes)).bind fun l => (mapR (rNum X) l).bind fun l =>
      (rNum X (fld o .offsets)).bind fun w => .ok (.dash l w)
  | .SetColor => (rCol v).bind fun c => .ok (.color c)
  | .Rotate => (rObj v).bind fun o => (rNum X (fld o .angle)).bind fun w => .ok (.rotate w)
  | .Translate => (rObj v).bind fun o => (rPt (fld o .point)).bind fun p => .ok (.translate p)
  | .Scale => (rObj v).bind fun o => (rNum X (fld o .x)).bind fun x => (rNum X (fld o .y)).bind fun y => .ok (.scale x y)
  | .Push => .ok .push
  | .Pop => .ok .pop
  | .Stroke => (rPath X v).bind fun p => .ok (.stroke p)
  | .Fill => (rPath X v).bind fun p => .ok (.fill p)
  | .FillString => rText X v
  | .DrawImage => rImage X v
  | _ => .err

def rName : J F → Res Key
  | .null => .ok (.other [])
  | .name k => .ok k
  | .str s => .ok (.other s)
  | _ => .err

/-- One operation, hplot/vgop/json.go:119-173. -/
def rOp (j : J F) : Res (Cmd (Font F) F I) :=
  (rObj j).bind fun o => (rName (fld o .type)).bind fun k => rValue X (fld o .value) k

/-- A font of the file: its face is nil, hplot/vgop/json.go:111-116. -/
def bare (f : Font F) : Font F × Face F G := (f, ⟨f, none⟩)

/-- hplot/vgop/json.go:96-176 (`UnmarshalJSON`); the canvas is `none` if the embedded pointer is nil. Simplified: on an
error nothing is said about the canvas. -/
def unmarshal (j : J F) : Option (Canvas F I G) → Res (Canvas F I G)
  | none => .panic
  | some _ => (rObj j).bind fun o => (rObj (fld o .size)).bind fun z => (rNum X (fld z .width)).bind fun w =>
      (rNum X (fld z .height)).bind fun h => (rArr (fld o .fonts)).bind fun fs => (mapR (rFont X) fs).bind fun fs =>
        (rArr (fld o .ops)).bind fun ops => (mapR (rOp X) ops).bind fun ops => .ok ⟨w, h, ops, fs.map bare⟩

end Json

end Verif.Hplot.Vgop
