import Verif.Rdict.Build

/-!
# Streamer infos of Go types

`rdict.StreamerOf` makes a streamer info for a Go struct type. Struct types are
known by name. Not modelled: pointers, types implementing `root.Object`,
`root.Float16` and `root.Double32`, defined types of basic kinds, arrays of arrays.
-/

namespace Verif.Rdict

open Verif.RBytes

/-- A Go type. -/
inductive GoT where
  | prim (k : Kind)
  | str
  | struct (name : List Char)
  | slice (t : GoT)

/-- The type of a field: as is, an array of fixed size, or a slice with the name
of the field that counts its elements in its `groot` tag. -/
inductive FieldT where
  | plain (t : GoT)
  | array (n : Nat) (t : GoT)
  | counted (count : List Char) (t : GoT)

/-- The names of basic types in groot/rdict/streamer.go:732-817 (`typenameOf`). -/
def kindName : Kind → List Char
  | .bool => "bool".toList
  | .i8 => "int8_t".toList | .i16 => "int16_t".toList | .i32 => "int32_t".toList | .i64 => "int64_t".toList
  | .u8 => "uint8_t".toList | .u16 => "uint16_t".toList | .u32 => "uint32_t".toList | .u64 => "uint64_t".toList
  | .f32 => "float".toList | .f64 => "double".toList

/-- The text `vector<`. -/
def vec : List Char := ['v', 'e', 'c', 't', 'o', 'r', '<']

/-- The text `string`. -/
def strName : List Char := ['s', 't', 'r', 'i', 'n', 'g']

/-- `if strings.HasSuffix(ename, ">") { ename += " " }` -/
def spaced (ename : List Char) : List Char :=
  if ename.getLast? = some '>' then ename ++ [' '] else ename

/-- groot/rdict/streamer.go:732-817 (`typenameOf`). -/
def typenameOf : GoT → List Char
  | .prim k => kindName k
  | .str => strName
  | .struct n => n
  | .slice t => vec ++ spaced (typenameOf t) ++ ['>']

/-- groot/rdict/streamer.go:74-155 (`genStdVectorOf`): contained type and type name.
Structs and slices have contained type `Any`, for which there is no operation. -/
def genStdVectorOf (name : List Char) : GoT → Elem
  | .prim k => .stl name .seq (some (.prim k)) (vec ++ kindName k ++ ['>'])
  | .str => .stl name .seq (some .str) (vec ++ strName ++ ['>'])
  | .struct n => .stl name .seq none (vec ++ n ++ ['>'])
  | .slice t => .stl name .seq none (vec ++ spaced (typenameOf (.slice t)) ++ ['>'])

/-- groot/rdict/streamer.go:182-327 (`genArrayOf`). -/
def genArrayOf (name : List Char) (n : Nat) : GoT → Option Elem
  | .prim k => some (.arrBasic name n k)
  | .str => some (.arrStr name n)
  | .struct s => some (.arrAny name n s)
  | .slice _ => none

/-- groot/rdict/streamer.go:329-426 (`genVarLenArrayOf`). -/
def genVarLenArrayOf (name count cls : List Char) : GoT → Option Elem
  | .prim k => some (.varr name k count)
  | .str => some (.loop name "TString*".toList count cls)
  | .struct s => some (.loop name (s ++ ['*']) count cls)
  | .slice _ => none

/-- groot/rdict/streamer.go:428-617 (`genField`). -/
def genField (cls name : List Char) : FieldT → Option Elem
  | .plain (.prim k) => some (.basic name k)
  | .plain .str => some (.stlstr name)
  | .plain (.struct s) => some (.any name s)
  | .plain (.slice t) => some (genStdVectorOf name t)
  | .array n t => genArrayOf name n t
  | .counted count t => genVarLenArrayOf name count cls t

/-- All fields of a struct. -/
def genFields (cls : List Char) : List (List Char × FieldT) → Option (List Elem)
  | [] => some []
  | (name, t) :: fs => (genField cls name t).bind fun e => (genFields cls fs).map (e :: ·)

/-- groot/rdict/streamer.go:51-71 (`genStreamer`), of a struct with the given fields
(the names are those of the `groot` tags). -/
def streamerOf (name : List Char) (fs : List (List Char × FieldT)) : Option Streamer :=
  (genFields name fs).map fun es => ⟨name, 1, es⟩

/-! ## Tags -/

/-- groot/rdict/streamer.go:647-657 (`nameOf`), with a `groot` tag. -/
def nameOf (tag : List Char) : List Char := tag.takeWhile (· != '[')

/-- The characters of groot/rdict/streamer.go:687-708 (`isIdent`). -/
def identChar (c : Char) : Bool :=
  ('A' ≤ c && c ≤ 'Z') || ('a' ≤ c && c ≤ 'z') || ('0' ≤ c && c ≤ '9') || c == '_'

/-- groot/rdict/streamer.go:687-708 (`isIdent`). -/
def isIdent : List Char → Bool
  | [] => false
  | c :: cs => !('0' ≤ c && c ≤ '9') && (c :: cs).all identChar

/-- The loop of groot/rdict/streamer.go:659-685 (`hasCount`). -/
def countLoop : List Char → Bool → List Char → Option (List Char)
  | [], _, _ => none
  | c :: cs, brack, count =>
    if c = '[' then countLoop cs true count
    else if c = ']' then if isIdent (trim count) then some (trim count) else none
    else countLoop cs brack (if brack then count ++ [c] else count)

/-- groot/rdict/streamer.go:659-685 (`hasCount`), with a `groot` tag. -/
def hasCount (tag : List Char) : Option (List Char) :=
  if '[' ∈ tag then countLoop tag false [] else none

end Verif.Rdict
