import Verif.Rdict.Cxx
import Verif.Rdict.Ops

/-!
# Compiling streamer infos into operations

`groot/rdict` compiles a streamer info once for writing and once for reading; the
two compilers are separate functions here as they are there. The value `none` is a
panic or a type that is not modelled (see `Verif.Rdict.Ops`).

The compilers call each other through the names of types. The first argument of
`wopFrom` and `ropFrom` bounds the depth; a type that contains itself is compiled
at no depth (the program waits forever on its own `sync.Once`).
-/

namespace Verif.Rdict

open Verif.RBytes

/-- What the type codes of `groot/rmeta` mean to groot/rdict/wstreamer.go:1091-1132
(`wopFuncFor`); `other` are the codes that are handled there but not modelled. -/
inductive Enum where
  | prim (k : Kind)
  | str
  | other
deriving DecidableEq

/-- The tables of groot/rmeta/rmeta.go:88-141 (`TypeName2Enum`). -/
def enumTable : List (List String × Enum) :=
  [(["bool", "_Bool", "Bool_t"], .prim .bool),
   (["byte", "uint8", "uint8_t", "unsigned char", "UChar_t", "Byte_t"], .prim .u8),
   (["uint16", "uint16_t", "unsigned short", "UShort_t"], .prim .u16),
   (["uint32", "uint32_t", "unsigned", "unsigned int", "UInt_t"], .prim .u32),
   (["uint64", "uint64_t", "unsigned long", "unsigned long int", "ULong_t", "ULong64_t"], .prim .u64),
   (["char*"], .str),
   (["Bits_t"], .other),
   (["int8", "int8_t", "char", "Char_t"], .prim .i8),
   (["int16", "int16_t", "short", "Short_t", "Version_t", "Font_t", "Style_t", "Marker_t", "Width_t",
     "Color_t", "SCoord_t"], .prim .i16),
   (["int32", "int32_t", "int", "Int_t"], .prim .i32),
   (["int64", "int64_t", "long", "long int", "Long_t", "Long64_t", "Seek_t"], .prim .i64),
   (["float32", "float", "Float_t", "float32_t", "Angle_t", "Size_t"], .prim .f32),
   (["float64", "double", "Double_t", "float64_t", "Coord_t"], .prim .f64),
   (["Float16_t", "Float16", "Double32_t", "Double32"], .other),
   (["TString", "Option_t"], .str),
   (["string", "std::string"], .str),
   (["TObject", "TNamed"], .other)]

/-- groot/rmeta/rmeta.go:88-141 (`TypeName2Enum`). -/
def typeName2Enum (name : List Char) : Option Enum :=
  (enumTable.find? fun e => (e.1.map String.toList).contains name).map (·.2)

/-- groot/rdict/type.go:596-605 (`hasStdPrefix`): `p<` or `std::p<`. -/
def hasStdPrefix (name : List Char) (ps : List String) : Bool :=
  ps.any fun p => (p.toList ++ ['<']).isPrefixOf name || ("std::".toList ++ p.toList ++ ['<']).isPrefixOf name

/-- The keys of groot/rmeta/cxx.go:52-140 (`CxxBuiltins`). -/
def cxxBuiltins : List String :=
  ["bool", "int8_t", "int16_t", "int32_t", "int64_t", "uint8_t", "uint16_t", "uint32_t", "uint64_t",
   "unsigned", "unsigned char", "unsigned short", "unsigned int", "unsigned long", "char", "short", "int",
   "long", "float", "double", "string", "Bool_t", "Byte_t", "Char_t", "UChar_t", "Short_t", "UShort_t",
   "Int_t", "UInt_t", "Seek_t", "Long_t", "ULong_t", "Long64_t", "ULong64_t", "Float_t", "Float16_t",
   "Double_t", "Double32_t", "Version_t", "Option_t", "Ssiz_t", "Real_t", "Axis_t", "Stat_t", "Font_t",
   "Style_t", "Marker_t", "Width_t", "Color_t", "SCoord_t", "Coord_t", "Angle_t", "Size_t"]

/-- groot/rdict/wstreamer.go:772-780 (`wstreamHeader`): is there a header? -/
def hasHeaderW (name : List Char) : Bool :=
  !((cxxBuiltins.map String.toList).contains name && name != "string".toList) && name != "TString".toList

/-- groot/rdict/rstreamer.go:786-794 (`rstreamHeader`): is there a header? -/
def hasHeaderR (name : List Char) : Bool :=
  !((cxxBuiltins.map String.toList).contains name && name != "string".toList) && name != "TString".toList

/-- `strconv.Atoi` of the size of a bitset; signs and overflow are left out. -/
def atoi (s : List Char) : Option Nat :=
  if s = [] then none
  else s.foldl (fun acc c => acc.bind fun n =>
    if '0' ≤ c ∧ c ≤ '9' then some (10 * n + (c.toNat - '0'.toNat)) else none) (some 0)

/-- The kinds of containers of `StreamerSTL` elements. -/
inductive STL where
  | seq      -- vector, list, deque
  | set      -- set, multiset, unordered
  | map      -- map, multimap, unordered
  | bitset
deriving DecidableEq

/-- A streamer element: the class of the element together with its type code,
as told apart in groot/rdict/wstreamer.go:117-538 (`makeWOp`). -/
inductive Elem where
  | base (name : List Char) (vers : Int)
  | basic (name : List Char) (k : Kind)
  | counter (name : List Char) (esize : Nat)
  | str (name : List Char)
  | stlstr (name : List Char)
  | stl (name : List Char) (st : STL) (ct : Option Enum) (ename : List Char)
  | arrBasic (name : List Char) (n : Nat) (k : Kind)
  | arrStr (name : List Char) (n : Nat)
  | arrAny (name : List Char) (n : Nat) (ename : List Char)
  | any (name : List Char) (ename : List Char)
  | varr (name : List Char) (k : Kind) (count : List Char)
  | loop (name : List Char) (ename count cclass : List Char)

/-- `se.Name()` -/
def Elem.name : Elem → List Char
  | .base n _ | .basic n _ | .counter n _ | .str n | .stlstr n | .stl n _ _ _ | .arrBasic n _ _
  | .arrStr n _ | .arrAny n _ _ | .any n _ | .varr n _ _ | .loop n _ _ _ => n

/-- A streamer info. -/
structure Streamer where
  name : List Char
  vers : BitVec 16
  elems : List Elem

/-- What the compilers look things up in: the streamer infos by name and version
(negative: the latest), and the classes with hand-written methods. -/
structure Ctx where
  db : List Char → Int → Option Streamer
  factory : List Char → Bool

/-- First loop of groot/rdict/rdict.go:299-323 (`findField`): index of the element. -/
def fieldIdx : List Elem → List Char → Nat → Option Nat
  | [], _, _ => none
  | e :: es, name, i => if e.name = name then some i else fieldIdx es name (i + 1)

/-- Second loop of groot/rdict/rdict.go:299-323 (`findField`): search in base classes
with `sub`. Outer `none`: panic. -/
def baseIdx (ctx : Ctx) (sub : List Elem → Option (Option (List Nat))) :
    List Elem → Nat → Option (Option (List Nat))
  | [], _ => some none
  | .base n _ :: es, i => (ctx.db n (-1)).bind fun b => (sub b.elems).bind fun r =>
      match r with
      | some path => some (some (i :: path))
      | none => baseIdx ctx sub es (i + 1)
  | _ :: es, i => baseIdx ctx sub es (i + 1)

/-- groot/rdict/rdict.go:299-323 (`findField`). -/
def findField (ctx : Ctx) : Nat → List Elem → List Char → Option (Option (List Nat))
  | 0, _, _ => none
  | f + 1, es, name =>
    match fieldIdx es name 0 with
    | some i => some (some [i])
    | none => baseIdx ctx (fun es => findField ctx f es name) es 0

/-- The function `method` in groot/rdict/rdict.go:180-202 (`CountName`), for elements with a counter. -/
def methodOf (ctx : Ctx) (fuel : Nat) (si : Streamer) : Elem → Option (Option (List Nat))
  | .varr _ _ count => findField ctx fuel si.elems count
  | .loop _ _ count cclass => if cclass ≠ si.name then none else findField ctx fuel si.elems count
  | _ => some (some [0])

/-- `strings.TrimRight(s, "*")` -/
def trimStars (s : List Char) : List Char := (s.reverse.dropWhile (· == '*')).reverse

/-- The operation on the keys of a map. -/
def keyOp : Op → Option KOp
  | .prim k => some (.prim k)
  | .str => some .str
  | _ => none

/-! ## Writing -/

/-- groot/rdict/wstreamer.go:1091-1132 (`wopFuncFor`). -/
def wopFuncFor : Enum → Option Op
  | .prim k => some (.prim k)
  | .str => some .str
  | .other => none

/-- How `makeWOp` calls `wopFrom`: name, version, type code. -/
abbrev FromW := List Char → Int → Option Enum → Option (Op × BitVec 16)

/-- groot/rdict/wstreamer.go:830-836 (`wstreamStdMap`): the operation on a map from the
operations on keys and values. -/
def stdMapW (kname vname : List Char) (k v : Op × BitVec 16) : Option Op :=
  (keyOp k.1).map fun ko => .map (hasHeaderW kname) k.2 ko (hasHeaderW vname) v.2 v.1

/-- The containers in groot/rdict/wstreamer.go:203-262, 424-496 (`StreamerSTL`). -/
def makeSTLW (frm : FromW) (st : STL) (ct : Option Enum) (ename : List Char) : Option Op :=
  (cxxTemplateFrom ename).bind fun t =>
    match st, t.2 with
    | .seq, a :: _ => (frm a (-1) ct).map fun q => .typed (.slice q.1)
    | .set, a :: _ => (frm a (-1) ct).map fun q => .typed (.slice q.1)
    | .map, k :: v :: _ => (frm k (-1) ct).bind fun kq => (frm v (-1) ct).bind fun vq => stdMapW k v kq vq
    | .bitset, a :: _ => (atoi a).map fun n => .typed (.bitset n)
    | _, _ => none

/-- groot/rdict/wstreamer.go:117-538 (`makeWOp`). -/
def makeW (frm : FromW) (path : List Nat) (rest : Flds) : Elem → Option Flds
  | .base n vers => (frm n vers none).map fun q => .plain q.1 rest
  | .basic _ k => some (.plain (.prim k) rest)
  | .counter _ esize => if esize = 4 then some (.plain (.prim .i32) rest)
      else if esize = 8 then some (.plain (.prim .i64) rest) else none
  | .str _ => some (.plain .str rest)
  | .stlstr _ => some (.plain (.typed .str) rest)
  | .stl _ st ct ename => (makeSTLW frm st ct ename).map fun o => .plain o rest
  | .arrBasic _ n k => some (.plain (.array n (.prim k)) rest)
  | .arrStr _ n => some (.plain (.array n .str) rest)
  | .arrAny _ n ename => (frm ename (-1) none).map fun q => .plain (.array n q.1) rest
  | .any _ ename => (frm ename (-1) none).map fun q => .plain q.1 rest
  | .varr _ k _ => some (.varr k path rest)
  | .loop _ ename _ _ => (frm (trimStars ename) (-1) none).map fun q => .loop path q.1 rest

/-- groot/rdict/rdict.go:172-229 (`build`), the write operations of the remaining elements. -/
def buildElemsW (frm : FromW) (ctx : Ctx) (fuel : Nat) (si : Streamer) : List Elem → Option Flds
  | [] => some .nil
  | e :: es => ((methodOf ctx fuel si e).bind id).bind fun path =>
      (buildElemsW frm ctx fuel si es).bind fun rest => makeW frm path rest e

/-- groot/rdict/wstreamer.go:1134-1190 (`wopFrom`): operation and version. -/
def wopFrom (ctx : Ctx) : Nat → FromW
  | 0, _, _, _ => none
  | f + 1, name, vers, enum =>
    match typeName2Enum name with
    | some e => (wopFuncFor e).map fun o => (o, -1)
    | none => match enum with
      | some e => (wopFuncFor e).map fun o => (o, -1)
      | none =>
        if hasStdPrefix name ["vector", "list", "deque"] then
          (cxxTemplateFrom name).bind fun t => t.2.head?.bind fun a =>
            (wopFrom ctx f a (-1) none).map fun q => (.slice q.1, stlVers)
        else if hasStdPrefix name ["set", "multiset", "unordered_set", "unordered_multiset"] then
          (cxxTemplateFrom name).bind fun t => t.2.head?.bind fun a =>
            (wopFrom ctx f a (-1) none).map fun q => (.slice q.1, stlVers)
        else if hasStdPrefix name ["map", "multimap", "unordered_map", "unordered_multimap"] then
          (cxxTemplateFrom name).bind fun t => t.2.head?.bind fun k => t.2[1]?.bind fun v =>
            (wopFrom ctx f k (-1) none).bind fun kq => (wopFrom ctx f v (-1) none).bind fun vq =>
              (stdMapW k v kq vq).map fun o => (o, stlVers)
        else if hasStdPrefix name ["bitset"] then
          (cxxTemplateFrom name).bind fun t => t.2.head?.bind fun a => (atoi a).map fun n => (.bitset n, stlVers)
        else (ctx.db name vers).bind fun esi =>
          if ctx.factory esi.name then none
          else (buildElemsW (wopFrom ctx f) ctx f esi esi.elems).map fun fs => (.cat esi.vers fs, esi.vers)

/-- The write operations of a streamer info, groot/rdict/rdict.go:172-229 (`build`). -/
def buildW (ctx : Ctx) (fuel : Nat) (si : Streamer) : Option Info :=
  (buildElemsW (wopFrom ctx fuel) ctx fuel si si.elems).map fun fs => ⟨si.vers, fs⟩

/-! ## Reading -/

/-- groot/rdict/rstreamer.go:1240-1281 (`ropFuncFor`). -/
def ropFuncFor : Enum → Option Op
  | .prim k => some (.prim k)
  | .str => some .str
  | .other => none

/-- How `makeROp` calls `ropFrom`. -/
abbrev FromR := List Char → Int → Option Enum → Option Op

/-- groot/rdict/rstreamer.go:851-855 (`rstreamStdMap`); no versions are checked. -/
def stdMapR (kname vname : List Char) (k v : Op) : Option Op :=
  (keyOp k).map fun ko => .map (hasHeaderR kname) 0 ko (hasHeaderR vname) 0 v

/-- The containers in groot/rdict/rstreamer.go:212-264, 469-526 (`StreamerSTL`). -/
def makeSTLR (frm : FromR) (st : STL) (ct : Option Enum) (ename : List Char) : Option Op :=
  (cxxTemplateFrom ename).bind fun t =>
    match st, t.2 with
    | .seq, a :: _ => (frm a (-1) ct).map fun o => .typed (.slice o)
    | .set, a :: _ => (frm a (-1) ct).map fun o => .typed (.slice o)
    | .map, k :: v :: _ => (frm k (-1) ct).bind fun ko => (frm v (-1) ct).bind fun vo => stdMapR k v ko vo
    | .bitset, a :: _ => (atoi a).map fun n => .typed (.bitset n)
    | _, _ => none

/-- groot/rdict/rstreamer.go:126-575 (`makeROp`); conversions (`Conv`) are left out,
`build` never asks for them. -/
def makeR (frm : FromR) (path : List Nat) (rest : Flds) : Elem → Option Flds
  | .base n vers => (frm n vers none).map fun o => .plain o rest
  | .basic _ k => some (.plain (.prim k) rest)
  | .counter _ esize => if esize = 4 then some (.plain (.prim .i32) rest)
      else if esize = 8 then some (.plain (.prim .i64) rest) else none
  | .str _ => some (.plain .str rest)
  | .stlstr _ => some (.plain (.typed .str) rest)
  | .stl _ st ct ename => (makeSTLR frm st ct ename).map fun o => .plain o rest
  | .arrBasic _ n k => some (.plain (.array n (.prim k)) rest)
  | .arrStr _ n => some (.plain (.array n .str) rest)
  | .arrAny _ n ename => (frm ename (-1) none).map fun o => .plain (.array n o) rest
  | .any _ ename => (frm ename (-1) none).map fun o => .plain o rest
  | .varr _ k _ => some (.varr k path rest)
  | .loop _ ename _ _ => (frm (trimStars ename) (-1) none).map fun o => .loop path o rest

/-- groot/rdict/rdict.go:172-229 (`build`), the read operations of the remaining elements. -/
def buildElemsR (frm : FromR) (ctx : Ctx) (fuel : Nat) (si : Streamer) : List Elem → Option Flds
  | [] => some .nil
  | e :: es => ((methodOf ctx fuel si e).bind id).bind fun path =>
      (buildElemsR frm ctx fuel si es).bind fun rest => makeR frm path rest e

/-- groot/rdict/rstreamer.go:1283-1339 (`ropFrom`). -/
def ropFrom (ctx : Ctx) : Nat → FromR
  | 0, _, _, _ => none
  | f + 1, name, vers, enum =>
    match typeName2Enum name with
    | some e => ropFuncFor e
    | none => match enum with
      | some e => ropFuncFor e
      | none =>
        if hasStdPrefix name ["vector", "list", "deque"] then
          (cxxTemplateFrom name).bind fun t => t.2.head?.bind fun a =>
            (ropFrom ctx f a (-1) none).map fun o => .slice o
        else if hasStdPrefix name ["set", "multiset", "unordered_set", "unordered_multiset"] then
          (cxxTemplateFrom name).bind fun t => t.2.head?.bind fun a =>
            (ropFrom ctx f a (-1) none).map fun o => .slice o
        else if hasStdPrefix name ["map", "multimap", "unordered_map", "unordered_multimap"] then
          (cxxTemplateFrom name).bind fun t => t.2.head?.bind fun k => t.2[1]?.bind fun v =>
            (ropFrom ctx f k (-1) none).bind fun ko => (ropFrom ctx f v (-1) none).bind fun vo =>
              stdMapR k v ko vo
        else if hasStdPrefix name ["bitset"] then
          (cxxTemplateFrom name).bind fun t => t.2.head?.bind fun a => (atoi a).map fun n => .bitset n
        else (ctx.db name vers).bind fun esi =>
          if ctx.factory esi.name then none
          else (buildElemsR (ropFrom ctx f) ctx f esi esi.elems).map fun fs => .cat esi.vers fs

/-- The read operations of a streamer info, groot/rdict/rdict.go:172-229 (`build`). -/
def buildR (ctx : Ctx) (fuel : Nat) (si : Streamer) : Option Info :=
  (buildElemsR (ropFrom ctx fuel) ctx fuel si si.elems).map fun fs => ⟨si.vers, fs⟩

/-! ## Building once -/

/-- A streamer info in memory: `si.init` and the operations. -/
structure SI where
  st : Streamer
  done : Bool
  woops : Flds
  roops : Flds

/-- Are all counters there? First loop of groot/rdict/rdict.go:179-206 (`method`). -/
def countersFound (ctx : Ctx) (fuel : Nat) (si : Streamer) : Bool :=
  si.elems.all fun e => ((methodOf ctx fuel si e).bind id).isSome

/-- groot/rdict/rdict.go:164-229 (`BuildStreamers`, `build`): the state afterwards, and whether
there was no error. Later calls do nothing and return no error. `none`: panic. -/
def SI.buildStreamers (ctx : Ctx) (fuel : Nat) (s : SI) : Option (Bool × SI) :=
  if s.done then some (true, s)
  else if countersFound ctx fuel s.st then
    (buildW ctx fuel s.st).bind fun w => (buildR ctx fuel s.st).map fun r =>
      (true, { s with done := true, woops := w.fs, roops := r.fs })
  else some (false, { s with done := true, woops := .nil, roops := .nil })

/-- groot/rdict/rdict.go:247-261 (`NewEncoder`), object-wise: the encoder unless there is an error. -/
def SI.newEncoder (ctx : Ctx) (fuel : Nat) (s : SI) : Option (Option Info × SI) :=
  (s.buildStreamers ctx fuel).map fun q => (if q.1 then some ⟨q.2.st.vers, q.2.woops⟩ else none, q.2)

/-- groot/rdict/rdict.go:231-245 (`NewDecoder`), object-wise. -/
def SI.newDecoder (ctx : Ctx) (fuel : Nat) (s : SI) : Option (Option Info × SI) :=
  (s.buildStreamers ctx fuel).map fun q => (if q.1 then some ⟨q.2.st.vers, q.2.roops⟩ else none, q.2)

end Verif.Rdict
