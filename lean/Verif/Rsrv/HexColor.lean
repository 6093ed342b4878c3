/-!
# Model of colours in hexadecimal notation (groot/rsrv/internal/hexcolor/hexcolor.go, C182)

Bytes are natural numbers; `strconv.ParseUint` and the format `%02X` are of the standard library, and modelled from their
documentation.
-/

namespace Verif.Rsrv.HexColor

/-- The value of a hexadecimal digit. -/
def hexVal (c : Char) : Option Nat :=
  if '0' ≤ c ∧ c ≤ '9' then some (c.toNat - 48)
  else if 'a' ≤ c ∧ c ≤ 'f' then some (c.toNat - 87)
  else if 'A' ≤ c ∧ c ≤ 'F' then some (c.toNat - 55)
  else none

def digits (acc : Nat) : List Char → Option Nat
  | [] => some acc
  | c :: s => (hexVal c).bind fun d => digits (16 * acc + d) s

/-- `ParseUint(s, 16, 32)` -/
def parseHex (s : List Char) : Option Nat :=
  if s = [] then none
  else (digits 0 s).bind fun n => if n < 2 ^ 32 then some n else none

/-- A digit of the format `%02X`. -/
def hexDigit (d : Nat) : Char := if d < 10 then Char.ofNat (48 + d) else Char.ofNat (55 + d)

/-- The format `%02X` of a byte. -/
def hex2 (v : Nat) : List Char := [hexDigit (v / 16), hexDigit (v % 16)]

structure RGBA where
  r : Nat
  g : Nat
  b : Nat
  a : Nat
deriving DecidableEq

/-- groot/rsrv/internal/hexcolor/hexcolor.go:47-52 (`RGBAToHex`) -/
def toHex (c : RGBA) : List Char :=
  if c.a = 255 then '#' :: (hex2 c.r ++ hex2 c.g ++ hex2 c.b) else '#' :: (hex2 c.r ++ hex2 c.g ++ hex2 c.b ++ hex2 c.a)

/-- groot/rsrv/internal/hexcolor/hexcolor.go:62 -/
def yellow : RGBA := ⟨0xBC, 0xB6, 0x04, 0x88⟩

/-- groot/rsrv/internal/hexcolor/hexcolor.go:59-61 -/
def strip : List Char → List Char
  | '#' :: s => s
  | s => s

/-- groot/rsrv/internal/hexcolor/hexcolor.go:70-94 (`switch`); the shifts and masks are written as divisions. -/
def split (len n : Nat) : RGBA :=
  if len = 3 then ⟨n / 256 % 16 * 17, n / 16 % 16 * 17, n % 16 * 17, 255⟩
  else if len = 4 then ⟨n / 4096 % 16 * 17, n / 256 % 16 * 17, n / 16 % 16 * 17, n % 16 * 17⟩
  else if len = 6 then ⟨n / 65536 % 256, n / 256 % 256, n % 256, 255⟩
  else if len = 8 then ⟨n / 16777216 % 256, n / 65536 % 256, n / 256 % 256, n % 256⟩
  else yellow

/-- groot/rsrv/internal/hexcolor/hexcolor.go:58-96 (`HexToRGBA`) -/
def ofHex (h : List Char) : RGBA :=
  match parseHex (strip h) with
  | none => yellow
  | some n => split (strip h).length n

/-- groot/rsrv/internal/hexcolor/hexcolor.go:31-34 (`RGBA`): 16 bits each. -/
def rgba16 (h : List Char) : RGBA := ⟨(ofHex h).r * 0x101, (ofHex h).g * 0x101, (ofHex h).b * 0x101, (ofHex h).a * 0x101⟩

/-- groot/rsrv/internal/hexcolor/hexcolor.go:37-43 (`hexModel`), of a colour that is not of this kind, given by its 16-bit
values. -/
def model (c : RGBA) : List Char := toHex ⟨c.r / 256 % 256, c.g / 256 % 256, c.b / 256 % 256, c.a / 256 % 256⟩

end Verif.Rsrv.HexColor
