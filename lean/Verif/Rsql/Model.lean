/-
Queries on ROOT trees: the values, the expressions and their evaluation
(groot/rsql/rsqldrv/expr.go, types.go, driver.go).

Not modelled: the SQL parser itself (github.com/xwb1989/sqlparser, a
dependency): the model starts from the syntax tree it hands to the driver.
Hexadecimal literals are left out (they count as `unsupported`).
Floating-point numbers are abstract types with abstract operations (`Flt`).
Text is a list of bytes, as Go compares strings byte by byte.
-/
import Verif.Common.Strconv

namespace Verif.Rsql

/-- The widths of the machine integers of Go. -/
inductive W
  | w8 | w16 | w32 | w64
  deriving DecidableEq, Repr

/-- The number of bits of a width. -/
def W.bits : W → Nat
  | .w8 => 8
  | .w16 => 16
  | .w32 => 32
  | .w64 => 64

/-- The dynamic Go types and values met by the evaluation
(groot/rsql/rsqldrv/types.go:15-19 for the three "ideal" types of literals and
arguments; the other ones are the element types of tree leaves).  `other`
stands for the values of types without any operation (slices, arrays); `tuple`
for the `[]any` of groot/rsql/rsqldrv/expr.go:1403-1415. -/
inductive Val (F32 F64 : Type)
  | iuint (x : BitVec 64)
  | iint (x : BitVec 64)
  | ifloat (x : F64)
  | bool (b : Bool)
  | int (w : W) (x : BitVec w.bits)
  | uint (w : W) (x : BitVec w.bits)
  | f32 (x : F32)
  | f64 (x : F64)
  | str (s : List UInt8)
  | other (id : Nat)
  | tuple (vs : List (Val F32 F64))

/-- The operations of one floating-point type, without any law. -/
structure Flt (F : Type) where
  lt : F → F → Bool
  le : F → F → Bool
  eq : F → F → Bool
  add : F → F → F
  sub : F → F → F
  mul : F → F → F
  div : F → F → F
  /-- conversion from an integer, `float64(n)` -/
  ofInt : Int → F

/-- The floating-point types of Go: `float32`, `float64`, the conversion
between them, and `strconv.ParseFloat`. -/
structure Floats (F32 F64 : Type) where
  s : Flt F32
  d : Flt F64
  to32 : F64 → F32
  parse : List Char → Option F64

/-- The comparison operators (groot/rsql/rsqldrv/expr.go:1203-1208). -/
inductive COp
  | lt | gt | le | ge | eq | ne
  deriving DecidableEq, Repr

/-- The arithmetic operators (groot/rsql/rsqldrv/expr.go:1197-1200). -/
inductive AOp
  | add | sub | mul | div
  deriving DecidableEq, Repr

/-- The compiled expressions (groot/rsql/rsqldrv/expr.go:33-39, 1292-1295,
1308-1311, 1389-1392).  `bit` is a binary expression with one of the operators
`&`, `|`, `^`, `<<`, `>>`, which exist but have no evaluation. -/
inductive Expr (F32 F64 : Type)
  | and (l r : Expr F32 F64)
  | or (l r : Expr F32 F64)
  | cmp (op : COp) (l r : Expr F32 F64)
  | arith (op : AOp) (l r : Expr F32 F64)
  | bit (l r : Expr F32 F64)
  | ident (name : List Char)
  | value (v : Val F32 F64)
  | tuple (es : List (Expr F32 F64))

section
variable {F32 F64 : Type} (fl : Floats F32 F64)

/-- The three ideal types (the type switches of
groot/rsql/rsqldrv/types.go:26-44). -/
def Val.ideal : Val F32 F64 → Bool
  | .iuint _ => true
  | .iint _ => true
  | .ifloat _ => true
  | _ => false

/-- groot/rsql/rsqldrv/types.go:47-171, `coerce1`: a literal takes the type of
the other operand when its value fits there, and stays as it is otherwise. -/
def coerce1 (x o : Val F32 F64) : Val F32 F64 :=
  match x with
  | .ifloat a =>
    match o with
    | .ifloat _ => .ifloat a
    | .f32 _ => .f32 (fl.to32 a)
    | .f64 _ => .f64 a
    | _ => .ifloat a
  | .iint a =>
    match o with
    | .ifloat _ => .ifloat (fl.d.ofInt a.toInt)
    | .iint _ => .iint a
    | .iuint _ => if 0 ≤ a.toInt then .iuint a else .iint a
    | .f32 _ => .f32 (fl.s.ofInt a.toInt)
    | .f64 _ => .f64 (fl.d.ofInt a.toInt)
    | .int .w8 _ => if -128 ≤ a.toInt ∧ a.toInt ≤ 127 then .int .w8 (a.setWidth 8) else .iint a
    | .int .w16 _ =>
      if -32768 ≤ a.toInt ∧ a.toInt ≤ 32767 then .int .w16 (a.setWidth 16) else .iint a
    | .int .w32 _ =>
      if -2147483648 ≤ a.toInt ∧ a.toInt ≤ 2147483647 then .int .w32 (a.setWidth 32) else .iint a
    | .int .w64 _ => .int .w64 a
    | .uint .w8 _ => if 0 ≤ a.toInt ∧ a.toInt ≤ 255 then .uint .w8 (a.setWidth 8) else .iint a
    | .uint .w16 _ =>
      if 0 ≤ a.toInt ∧ a.toInt ≤ 65535 then .uint .w16 (a.setWidth 16) else .iint a
    | .uint .w32 _ =>
      if 0 ≤ a.toInt ∧ a.toInt ≤ 4294967295 then .uint .w32 (a.setWidth 32) else .iint a
    | .uint .w64 _ => if 0 ≤ a.toInt then .uint .w64 a else .iint a
    | _ => .iint a
  | .iuint a =>
    match o with
    | .ifloat _ => .ifloat (fl.d.ofInt a.toNat)
    | .iint _ => if a.toNat ≤ 9223372036854775807 then .iint a else .iuint a
    | .iuint _ => .iuint a
    | .f32 _ => .f32 (fl.s.ofInt a.toNat)
    | .f64 _ => .f64 (fl.d.ofInt a.toNat)
    | .int .w8 _ => if a.toNat ≤ 127 then .int .w8 (a.setWidth 8) else .iuint a
    | .int .w16 _ => if a.toNat ≤ 32767 then .int .w16 (a.setWidth 16) else .iuint a
    | .int .w32 _ => if a.toNat ≤ 2147483647 then .int .w32 (a.setWidth 32) else .iuint a
    | .int .w64 _ => if a.toNat ≤ 9223372036854775807 then .int .w64 a else .iuint a
    | .uint .w8 _ => if a.toNat ≤ 255 then .uint .w8 (a.setWidth 8) else .iuint a
    | .uint .w16 _ => if a.toNat ≤ 65535 then .uint .w16 (a.setWidth 16) else .iuint a
    | .uint .w32 _ => if a.toNat ≤ 4294967295 then .uint .w32 (a.setWidth 32) else .iuint a
    | .uint .w64 _ => .uint .w64 a
    | _ => .iuint a
  | v => v

/-- Two ideal values of one type (the comparison of the dynamic types at
groot/rsql/rsqldrv/types.go:22-24 and 32-34, where only ideal values matter:
two other values are returned as they are in any case). -/
def sameIdeal : Val F32 F64 → Val F32 F64 → Bool
  | .iuint _, .iuint _ => true
  | .iint _, .iint _ => true
  | .ifloat _, .ifloat _ => true
  | _, _ => false

/-- groot/rsql/rsqldrv/types.go:21-45, `coerce`. -/
def coerce (a b : Val F32 F64) : Val F32 F64 × Val F32 F64 :=
  if sameIdeal a b then (a, b)
  else if a.ideal then
    if b.ideal then
      let x := coerce1 fl a b
      if sameIdeal x b then (x, b) else (a, coerce1 fl b a)
    else (coerce1 fl a b, b)
  else if b.ideal then (a, coerce1 fl b a)
  else (a, b)

/-- A comparison of two integers of one Go type. -/
def cmpInt (op : COp) (a b : Int) : Bool :=
  match op with
  | .lt => decide (a < b)
  | .gt => decide (a > b)
  | .le => decide (a ≤ b)
  | .ge => decide (a ≥ b)
  | .eq => decide (a = b)
  | .ne => decide (a ≠ b)

/-- A comparison of two floating-point numbers of one Go type. -/
def cmpFlt {F : Type} (f : Flt F) (op : COp) (a b : F) : Bool :=
  match op with
  | .lt => f.lt a b
  | .gt => f.lt b a
  | .le => f.le a b
  | .ge => f.le b a
  | .eq => f.eq a b
  | .ne => !f.eq a b

/-- The order of two strings, byte by byte. -/
def bytesLt : List UInt8 → List UInt8 → Bool
  | _, [] => false
  | [], _ :: _ => true
  | a :: s, b :: t => decide (a < b) || (decide (a = b) && bytesLt s t)

/-- A comparison of two strings. -/
def cmpStr (op : COp) (a b : List UInt8) : Bool :=
  match op with
  | .lt => bytesLt a b
  | .gt => bytesLt b a
  | .le => !bytesLt b a
  | .ge => !bytesLt a b
  | .eq => decide (a = b)
  | .ne => decide (a ≠ b)

/-- A comparison of two booleans: only `=` and `!=` exist. -/
def cmpBool (op : COp) (a b : Bool) : Option Bool :=
  match op with
  | .eq => some (decide (a = b))
  | .ne => some (decide (a ≠ b))
  | _ => none

/-- groot/rsql/rsqldrv/expr.go:122-764: the six comparisons, after the operands
were coerced.  Operands of two types, and types without the operation, panic;
the panic is recovered at lines 54-63 and becomes the error of the evaluation,
here `none`. -/
def compare (op : COp) : Val F32 F64 → Val F32 F64 → Option Bool
  | .iuint a, .iuint b => some (cmpInt op a.toNat b.toNat)
  | .iint a, .iint b => some (cmpInt op a.toInt b.toInt)
  | .ifloat a, .ifloat b => some (cmpFlt fl.d op a b)
  | .bool a, .bool b => cmpBool op a b
  | .int w a, .int w' b => if w = w' then some (cmpInt op a.toInt b.toInt) else none
  | .uint w a, .uint w' b => if w = w' then some (cmpInt op a.toNat b.toNat) else none
  | .f32 a, .f32 b => some (cmpFlt fl.s op a b)
  | .f64 a, .f64 b => some (cmpFlt fl.d op a b)
  | .str a, .str b => some (cmpStr op a b)
  | _, _ => none

/-- Arithmetic of signed machine integers: it wraps around, the quotient is
truncated, a division by zero panics. -/
def arithS (op : AOp) {n : Nat} (a b : BitVec n) : Option (BitVec n) :=
  match op with
  | .add => some (a + b)
  | .sub => some (a - b)
  | .mul => some (a * b)
  | .div => if b = 0 then none else some (a.sdiv b)

/-- Arithmetic of unsigned machine integers. -/
def arithU (op : AOp) {n : Nat} (a b : BitVec n) : Option (BitVec n) :=
  match op with
  | .add => some (a + b)
  | .sub => some (a - b)
  | .mul => some (a * b)
  | .div => if b = 0 then none else some (a / b)

/-- Arithmetic of floating-point numbers. -/
def arithF {F : Type} (f : Flt F) (op : AOp) (a b : F) : F :=
  match op with
  | .add => f.add a b
  | .sub => f.sub a b
  | .mul => f.mul a b
  | .div => f.div a b

/-- groot/rsql/rsqldrv/expr.go:766-1163: the four arithmetic operations, after
the operands were coerced.  Strings can be added. -/
def arithmetic (op : AOp) : Val F32 F64 → Val F32 F64 → Option (Val F32 F64)
  | .iuint a, .iuint b => (arithU op a b).map .iuint
  | .iint a, .iint b => (arithS op a b).map .iint
  | .ifloat a, .ifloat b => some (.ifloat (arithF fl.d op a b))
  | .int w a, .int w' b =>
    if h : w' = w then (arithS op a (h ▸ b)).map (.int w) else none
  | .uint w a, .uint w' b =>
    if h : w' = w then (arithU op a (h ▸ b)).map (.uint w) else none
  | .f32 a, .f32 b => some (.f32 (arithF fl.s op a b))
  | .f64 a, .f64 b => some (.f64 (arithF fl.d op a b))
  | .str a, .str b => if op = .add then some (.str (a ++ b)) else none
  | _, _ => none

/-- The two operands of a comparison or of an operation
(groot/rsql/rsqldrv/expr.go:1174-1177). -/
def coerced {γ : Type} (f : Val F32 F64 → Val F32 F64 → Option γ) (a b : Val F32 F64) : Option γ :=
  f (coerce fl a b).1 (coerce fl a b).2

/-- The contents of one entry of the tree: the columns by name
(`vctx` of groot/rsql/rsqldrv/driver.go:534-537). -/
abbrev Row (F32 F64 : Type) := List Char → Option (Val F32 F64)

/-- The truth value of a boolean. -/
def Val.asBool : Val F32 F64 → Option Bool
  | .bool b => some b
  | _ => none

mutual
/-- groot/rsql/rsqldrv/expr.go:53-1168, 1300-1306, 1385-1387, 1403-1415: the
evaluation of an expression; `none` is an error.  The binary operators whose
case is missing fall to the `panic("impossible")` of line 1167, which is
recovered too, without evaluating the operands. -/
def eval (row : Row F32 F64) : Expr F32 F64 → Option (Val F32 F64)
  | .and l r =>
    match eval row l with
    | some (.bool false) => some (.bool false)
    | some (.bool true) =>
      match eval row r with
      | some (.bool b) => some (.bool b)
      | _ => none
    | _ => none
  | .or l r =>
    match eval row l with
    | some (.bool true) => some (.bool true)
    | some (.bool false) =>
      match eval row r with
      | some (.bool b) => some (.bool b)
      | _ => none
    | _ => none
  | .cmp op l r =>
    match eval row l, eval row r with
    | some a, some b => (coerced fl (compare fl op) a b).map .bool
    | _, _ => none
  | .arith op l r =>
    match eval row l, eval row r with
    | some a, some b => coerced fl (arithmetic fl op) a b
    | _, _ => none
  | .bit _ _ => none
  | .ident name => row name
  | .value v => some v
  | .tuple es => (evalAll row es).map .tuple

/-- The elements of a tuple, up to the first error
(groot/rsql/rsqldrv/expr.go:1408-1413). -/
def evalAll (row : Row F32 F64) : List (Expr F32 F64) → Option (List (Val F32 F64))
  | [] => some []
  | e :: es =>
    match eval row e with
    | none => none
    | some v => (evalAll row es).map (v :: ·)
end

/-! ### From the syntax tree of the parser to expressions -/

/-- The operator strings of comparisons and of binary expressions known to
`operatorFrom` (groot/rsql/rsqldrv/expr.go:1214-1250); `unknown` is any other
one (`in`, `like`, `<=>`, `%`, ...). -/
inductive SqlOp
  | c (op : COp) | a (op : AOp) | bit | unknown
  deriving DecidableEq, Repr

/-- The syntax trees of the parser; `unsupported` is any other node (negation,
`between`, `is null`, calls, subqueries, ...). -/
inductive Sql
  | op (o : SqlOp) (l r : Sql)
  | paren (e : Sql)
  | and (l r : Sql)
  | or (l r : Sql)
  | col (name : List Char)
  | intLit (s : List Char)
  | floatLit (s : List Char)
  | strLit (s : List UInt8)
  | arg (n : List Char)
  | bool (b : Bool)
  | tuple (es : List Sql)
  | unsupported

/-- The arguments of a query, as database/sql passes them to the driver:
`other` stands for booleans, bytes, times and nil. -/
inductive Arg (F64 : Type)
  | int (x : BitVec 64) | float (x : F64) | str (s : List UInt8) | other

/-- Outcome of a function which returns an error or panics. -/
inductive Out (α : Type)
  | ok (a : α) | err | panic

/-- Sequencing of outcomes. -/
def Out.bind {α β : Type} : Out α → (α → Out β) → Out β
  | .ok a, f => f a
  | .err, _ => .err
  | .panic, _ => .panic

/-- groot/rsql/rsqldrv/expr.go:1366-1381, `idealValArgFrom`. -/
def idealArg : Arg F64 → Out (Val F32 F64)
  | .int x => .ok (.iint x)
  | .float x => .ok (.ifloat x)
  | .str s => .ok (.str s)
  | .other => .panic

/-- groot/rsql/rsqldrv/expr.go:1348-1361: the argument `:vN`, `N` being
counted from one; the index is not checked.  The text is what follows `:v`. -/
def argExpr (args : List (Arg F64)) (n : List Char) : Out (Expr F32 F64) :=
  match Strconv.parseInt 64 n with
  | none => .err
  | some i =>
    if i - 1 < 0 then .panic
    else
      match args[(i - 1).toNat]? with
      | none => .panic
      | some a => (idealArg (F32 := F32) a).bind fun v => .ok (.value v)

/-- The binary expression for an operator of the parser: `opInvalid` is
refused (groot/rsql/rsqldrv/driver.go:668-671 and 736-739). -/
def opExpr (o : SqlOp) (l r : Expr F32 F64) : Out (Expr F32 F64) :=
  match o with
  | .c op => .ok (.cmp op l r)
  | .a op => .ok (.arith op l r)
  | .bit => .ok (.bit l r)
  | .unknown => .err

mutual
/-- groot/rsql/rsqldrv/driver.go:664-756, `newExprFrom`, with
groot/rsql/rsqldrv/expr.go:1313-1364, `newValueExpr`.  A comparison checks its
operator before its operands are translated, a binary expression after: here
both check it after, which only decides which of two failures is reported. -/
def newExpr (args : List (Arg F64)) : Sql → Out (Expr F32 F64)
  | .op o l r =>
    (newExpr args l).bind fun l => (newExpr args r).bind fun r => opExpr o l r
  | .paren e => newExpr args e
  | .and l r => (newExpr args l).bind fun l => (newExpr args r).bind fun r => .ok (.and l r)
  | .or l r => (newExpr args l).bind fun l => (newExpr args r).bind fun r => .ok (.or l r)
  | .col name => .ok (.ident name)
  | .intLit s =>
    match Strconv.parseInt 64 s with
    | none => .err
    | some n => .ok (.value (.iint (BitVec.ofInt 64 n)))
  | .floatLit s =>
    match fl.parse s with
    | none => .err
    | some x => .ok (.value (.ifloat x))
  | .strLit s => .ok (.value (.str s))
  | .arg n => argExpr args n
  | .bool b => .ok (.value (.bool b))
  | .tuple es => (newExprs args es).bind fun l => .ok (.tuple l)
  | .unsupported => .err

/-- The elements of a tuple (groot/rsql/rsqldrv/driver.go:743-751). -/
def newExprs (args : List (Arg F64)) : List Sql → Out (List (Expr F32 F64))
  | [] => .ok []
  | e :: es => (newExpr args e).bind fun x => (newExprs args es).bind fun l => .ok (x :: l)
end

end

end Verif.Rsql
