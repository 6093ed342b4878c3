import Verif.RTree.Model
import Verif.Common.Decimal

/-!
# Leaves: the values of write variables and of read variables

Model of how the leaves of `groot/rtree` put the value of a write variable into the buffer of
a basket, and how the leaves of a reader take it out of the buffer they are handed.  Write
variables which are a boolean, a number or a string, an array of them (of any dimensions) or a
slice with a count variable are modelled; structs and slices without a count (written as
`std::vector`) go through the streamers of the `Rdict` model, and the compressed `Float16` and
`Double32` are left out.

Simplifications common to this file:

* a number is the word of its bits (two's complement, IEEE 754);
* the capacity of a slice which is written is its length;
* what a reused slice shows behind its old length is taken to be zero;
* the variables of one tree or reader do not share memory;
* Go panics and errors are `none`.
-/

namespace Verif.RTree.Leaf

abbrev Name := List UInt8

/-- The Go types of elements: groot/rtree/leaf.go:677-825 (`kind`). -/
inductive Ty where
  | bool | i8 | i16 | i32 | i64 | u8 | u16 | u32 | u64 | f32 | f64 | str
deriving DecidableEq, Repr

/-- The `etype` constants of the leaves: groot/rtree/leaf_gen.go:34-44 (`etype`),
221-231, 440-450, 659-669, 2098-2108 and the like. -/
def Ty.width : Ty → Nat
  | .bool => 1 | .i8 => 1 | .u8 => 1 | .i16 => 2 | .u16 => 2 | .i32 => 4 | .u32 => 4
  | .i64 => 8 | .u64 => 8 | .f32 => 4 | .f64 => 8 | .str => 1

/-- Which leaves are a `leafCount`: groot/rtree/rtree.go:83-87 (`leafCount`) is implemented by
the leaves of integers, groot/rtree/leaf_gen.go:266-274 (`ivalue`), 485-493, 704-712, 923-931. -/
def Ty.counts : Ty → Bool
  | .i8 => true | .u8 => true | .i16 => true | .u16 => true | .i32 => true | .u32 => true
  | .i64 => true | .u64 => true | _ => false

/-- The Go type of the hidden variable for a count: groot/rtree/reader.go:286-299 (`ptr`). -/
def Ty.signed : Ty → Ty
  | .u8 => .i8 | .u16 => .i16 | .u32 => .i32 | .u64 => .i64 | t => t

/-- Whether an integer type has a sign. -/
def Ty.hasSign : Ty → Bool
  | .i8 => true | .i16 => true | .i32 => true | .i64 => true | _ => false

/-- An element: a boolean, the bits of a number, or a string. -/
inductive Elem where
  | bool (b : Bool) | word (n : Nat) | str (s : Bytes)
deriving DecidableEq, Repr

/-- The value of a variable: one element, or the elements of an array (row by row) or slice. -/
inductive Value where
  | val (e : Elem) | list (es : List Elem)
deriving DecidableEq, Repr

/-! ## Elements in a buffer -/

/-- groot/rbytes/wbuffer.go:434-451 (`WriteString`). -/
def writeString (s : Bytes) : Bytes :=
  if s.length < 255 then UInt8.ofNat s.length :: s
  else 255 :: (beEnc 4 s.length ++ s)

/-- One element: groot/rtree/leaf_gen.go:168-193 (`WriteBool`), 384-412 (`WriteI8`), 2235-2270
(`WriteString`); the arrays write the same for every element. -/
def writeElem (t : Ty) : Elem → Bytes
  | .bool b => [if b then 1 else 0]
  | .word n => beEnc t.width n
  | .str s => writeString s

/-- groot/rbytes/wbuffer.go:549-562 (`WriteArrayString`), and the arrays of numbers. -/
def writeElems (t : Ty) (es : List Elem) : Bytes := (es.map (writeElem t)).flatten

/-- The bytes of a string after its length: `n` of them, the first of which must not be zero;
what is missing is zero (groot/rbytes/rbuffer.go:169-175 (`read`)). -/
def readBody (n : Nat) : Bytes → Option (Elem × Bytes)
  | [] => if n = 0 then some (.str [], []) else none
  | v :: r =>
    if n = 0 then some (.str [], v :: r)
    else if v = 0 then some (.str [], r)
    else some (.str (v :: (r ++ List.replicate n 0).take (n - 1)), r.drop (n - 1))

/-- groot/rbytes/rbuffer.go:233-261 (`ReadString`). -/
def readString : Bytes → Option (Elem × Bytes)
  | [] => none
  | b :: r =>
    if b = 255 then
      if r.length < 4 then none else readBody (beDec (r.take 4)) (r.drop 4)
    else readBody b.toNat r

/-- groot/rbytes/rbuffer.go:286-289 (`readBool`). -/
def readBool : Bytes → Option (Elem × Bytes)
  | [] => none
  | b :: r => some (.bool (b != 0), r)

/-- groot/rbytes/rbuffer_gen.go:266-274 (`ReadI32`) and its like: beyond the end of the buffer
a slice expression panics. -/
def readWord (w : Nat) (buf : Bytes) : Option (Elem × Bytes) :=
  if buf.length < w then none else some (.word (beDec (buf.take w)), buf.drop w)

/-- One element. -/
def readElem : Ty → Bytes → Option (Elem × Bytes)
  | .bool, buf => readBool buf
  | .str, buf => readString buf
  | t, buf => readWord t.width buf

/-- The loop of groot/rbytes/rbuffer.go:498-500 (`range`) and of the other arrays. -/
def readElems (t : Ty) : Nat → Bytes → Option (List Elem)
  | 0, _ => some []
  | n + 1, buf =>
    match readElem t buf with
    | none => none
    | some r => (readElems t n r.2).map (r.1 :: ·)

/-- groot/rbytes/rbuffer.go:489-501 (`ReadArrayString`), groot/rbytes/rbuffer.go:418-430
(`ReadArrayBool`): nothing is read when the buffer has fewer bytes than the array elements. -/
def readArray (t : Ty) (old : List Elem) (buf : Bytes) : Option (List Elem) :=
  if old.length = 0 ∨ buf.length < old.length then some old else readElems t old.length buf

/-- The word of an integer as a signed number. -/
def signed (w n : Nat) : Int := if n < 2 ^ (8 * w - 1) then (n : Int) else (n : Int) - 2 ^ (8 * w)

/-! ## Writing -/

/-- What kind of value a write variable has: a single one, an array, or a slice with a count.
groot/rtree/branch.go:88-113 (`Kind`). -/
inductive Form where
  | val | arr (dims : List Nat) | sli (count : Name)
deriving DecidableEq, Repr

/-- groot/rtree/wvar.go:15-19 (`WriteVar`), with the type its value points to. -/
structure Var where
  name : Name
  ty   : Ty
  form : Form
deriving DecidableEq, Repr

/-- The branch of the variable: groot/rtree/branch.go:88-113 (`entryOffsetLen`). An array of
strings gets no offset table either. -/
def Var.kind (v : Var) : Kind :=
  match v.form with
  | .val => if v.ty = .str then .counted else .fixed v.ty.width
  | .arr dims => .fixed (dims.foldl (· * ·) 1 * v.ty.width)
  | .sli _ => .counted

/-- A leaf being written: groot/rtree/leaf.go:23-33 (`tleaf`) and groot/rtree/leaf_gen.go:212-219
(`LeafB`).  `ptr` tells whether the pointer to a single value is set (else the slice is), `count`
is the number of the count leaf in the tree.  The `max` of the leaves of numbers which are no
counts is not kept. -/
structure WLeaf where
  name  : Name
  title : Bytes
  ty    : Ty
  len   : Nat
  count : Option Nat
  ptr   : Bool
  max   : Int
deriving DecidableEq

/-- The brackets of groot/rtree/leaf.go:44-49 (`dim`): decimal dimensions. -/
def dimsTitle : List Nat → Bytes
  | [] => []
  | d :: ds => 91 :: (decEnc d ++ 93 :: dimsTitle ds)

/-- groot/rtree/leaf.go:581-830 (`newLeafFromWVar`) with groot/rtree/leaf.go:35-62 (`newLeaf`): the
count is looked up in the leaves of the tree so far
(groot/rtree/tree.go:145-152 (`Leaf`)); a count which is not there makes the variable a
`std::vector`, which is not modelled. -/
def newLeaf (ls : List WLeaf) (v : Var) : Option WLeaf :=
  match v.form with
  | .val => some ⟨v.name, v.name, v.ty, 1, none, true, 0⟩
  | .arr dims =>
    some ⟨v.name, v.name ++ dimsTitle dims, v.ty, dims.foldl (· * ·) 1, none, false, 0⟩
  | .sli c =>
    match ls.findIdx? (fun l => l.name == c) with
    | none => none
    | some i =>
      match ls[i]? with
      | none => none
      | some lc =>
        if lc.ty.counts then
          some ⟨v.name, v.name ++ 91 :: (lc.name ++ [93]), v.ty, 1, some i, false, 0⟩
        else none

/-- groot/rtree/writer.go:159-166 (`vars`): the leaves of the tree, one for every variable. -/
def newLeaves : List WLeaf → List Var → Option (List WLeaf)
  | ls, [] => some ls
  | ls, v :: vs =>
    match newLeaf ls v with
    | none => none
    | some l => newLeaves (ls ++ [l]) vs

/-- What a leaf notes of a single value it wrote: groot/rtree/leaf_gen.go:391-396 (`max`),
groot/rtree/leaf_gen.go:2242-2251 (`max`) for strings. -/
def WLeaf.bump (l : WLeaf) : Elem → WLeaf
  | .bool _ => l
  | .word n =>
    if l.ty.counts then
      { l with max := if l.max < signed l.ty.width n then signed l.ty.width n else l.max }
    else l
  | .str s =>
    { l with max := if l.max ≤ (s.length : Int) then (s.length : Int) + 1 else l.max,
             len := if l.len ≤ s.length then s.length + 1 else l.len }

/-- The number of elements the count leaf asks for: groot/rtree/leaf_gen.go:397-403 (`ivalue`);
the leaf of an array has no single value to point to. -/
def countOf (ls : List WLeaf) (row : List Value) (c : Nat) : Option Int :=
  match ls[c]?, row[c]? with
  | some lc, some (.val (.word n)) =>
    if lc.ptr then
      some (if lc.max < signed lc.ty.width n then lc.max else signed lc.ty.width n)
    else none
  | _, _ => none

/-- groot/rtree/leaf_gen.go:384-412 (`writeToBuffer`) and its like: the bytes, and the leaf after. -/
def writeLeaf (ls : List WLeaf) (row : List Value) (l : WLeaf) (v : Value) :
    Option (Bytes × WLeaf) :=
  match v with
  | .val e => if l.ptr then some (writeElem l.ty e, l.bump e) else none
  | .list es =>
    if l.ptr then none
    else
      match l.count with
      | none => if l.len ≤ es.length then some (writeElems l.ty (es.take l.len), l) else none
      | some c =>
        match countOf ls row c with
        | none => none
        | some n =>
          if 0 ≤ (l.len : Int) * n ∧ (l.len : Int) * n ≤ es.length then
            some (writeElems l.ty (es.take ((l.len : Int) * n).toNat), l)
          else none

/-- groot/rtree/writer.go:196-214 (`Write`): the leaves from the `i`-th on, branch after branch. -/
def writeFrom (row : List Value) : List WLeaf → Nat → List Value → Option (List Bytes × List WLeaf)
  | ls, _, [] => some ([], ls)
  | ls, i, v :: vs =>
    match ls[i]? with
    | none => none
    | some l =>
      match writeLeaf ls row l v with
      | none => none
      | some r =>
        match writeFrom row (ls.set i r.2) (i + 1) vs with
        | none => none
        | some r' => some (r.1 :: r'.1, r'.2)

/-- All rows, one call of `Write` each. -/
def writeRows : List WLeaf → List (List Value) → Option (List (List Bytes) × List WLeaf)
  | ls, [] => some ([], ls)
  | ls, row :: rows =>
    match writeFrom row ls 0 row with
    | none => none
    | some r =>
      match writeRows r.2 rows with
      | none => none
      | some r' => some (r.1 :: r'.1, r'.2)

/-! ## The leaves in the file -/

/-- What groot/rtree/leaf.go:151-166 (`MarshalROOT`) stores of a leaf, and its class. -/
structure Desc where
  name  : Name
  title : Bytes
  ty    : Ty
  len   : Nat
  count : Option Name
deriving DecidableEq

/-- groot/rtree/leaf.go:151-166 (`MarshalROOT`); the count leaf is stored as an object.  The class
and the sign flag make the type. -/
def WLeaf.desc (ls : List WLeaf) (l : WLeaf) : Desc :=
  ⟨l.name, l.title, l.ty, l.len, l.count.bind fun i => (ls[i]?).map (·.name)⟩

/-- groot/rtree/leaf.go:168-195 (`UnmarshalROOT`): a length of zero becomes one. -/
def Desc.read (d : Desc) : Desc := { d with len := if d.len = 0 then 1 else d.len }

/-- The occurrences of digits in brackets in a title: the expression of
groot/rtree/leaf.go:513-515 (`reLeafDims`).  The second argument is the bracket read so far. -/
def brackets : Bytes → Option Bytes → List Bytes
  | [], _ => []
  | b :: bs, st =>
    if b = 91 then brackets bs (some [])
    else
      match st with
      | none => brackets bs none
      | some ds =>
        if b = 93 then ds :: brackets bs none
        else if isDigit b then brackets bs (some (ds ++ [b]))
        else brackets bs none

/-- groot/rtree/leaf.go:517-539 (`leafDims`); an empty bracket is -1. -/
def leafDims (title : Bytes) : List Int :=
  (brackets title none).map fun ds => if ds = [] then -1 else (digitsVal ds : Int)

/-- What the value of a read variable is for a leaf: a pointer to a single value, a string of a
leaf which noted a length (read as an array of one), an array of so many elements, or a slice. -/
inductive RForm where
  | val | one | arr (n : Nat) | sli
deriving DecidableEq, Repr

/-- groot/rtree/rvar.go:324-394 (`newValue`) for groot/rtree/rleaf_gen.go:411-467 (`newRLeafI32`)
and its like.  Counted leaves with further dimensions are not modelled (no write variable makes
them, unless the name of the count is made of digits). -/
def Desc.form (d : Desc) : Option RForm :=
  match d.count with
  | some _ => if leafDims d.title = [] then some .sli else none
  | none =>
    if 1 < d.len then
      if d.ty = .str then (if (leafDims d.title).length ≤ 1 then some .one else none)
      else some (.arr ((leafDims d.title).foldl (· * ·) 1).toNat)
    else some .val

/-! ## Reading -/

/-- A leaf of a reader: groot/rtree/rleaf_gen.go:509-514 (`rleafSliI32`).  `ty` is the type of
the Go variable, `count` the number of the leaf of the reader which gives the count. -/
structure RLeaf where
  name  : Name
  ty    : Ty
  form  : RForm
  len   : Nat
  count : Option Nat
deriving DecidableEq

/-- The hidden variable for the count of a slice, when the user did not ask for it:
groot/rtree/reader.go:279-307 (`rcounts`). -/
def hiddenOf (ds : List Desc) (sel : List Name) (s : Name) : Option (Name × Bool) :=
  match ds.find? (fun d => d.name == s) with
  | none => none
  | some d =>
    match d.count with
    | none => none
    | some c => if c ∈ sel then none else some (c, true)

/-- The variables of a reader: groot/rtree/reader.go:279-309 (`rcounts`).  A name with `true` is
the hidden variable of a count. -/
def withCounts (ds : List Desc) (sel : List Name) : List (Name × Bool) :=
  sel.filterMap (hiddenOf ds sel) ++ sel.map fun s => (s, false)

/-- groot/rtree/rleaf.go:35-176 (`rleafFrom`), with groot/rtree/reader.go:375-407 (`rcountFunc`) over
the leaves made so far. -/
def newRLeaf (ds : List Desc) (lvs : List RLeaf) (s : Name × Bool) : Option RLeaf :=
  match ds.find? (fun d => d.name == s.1) with
  | none => none
  | some d =>
    match d.form with
    | none => none
    | some .sli =>
      match d.count with
      | none => none
      | some c =>
        match lvs.findIdx? (fun l => l.name == c) with
        | none => none
        | some p =>
          match lvs[p]? with
          | none => none
          | some lc =>
            if lc.form = .val ∧ lc.ty.counts = true then
              some ⟨d.name, d.ty, .sli, d.len, some p⟩
            else none
    | some fm => some ⟨d.name, if s.2 then d.ty.signed else d.ty, fm, d.len, none⟩

/-- groot/rtree/reader.go:311-315 (`lvs`). -/
def newRLeaves (ds : List Desc) : List RLeaf → List (Name × Bool) → Option (List RLeaf)
  | lvs, [] => some lvs
  | lvs, s :: ss =>
    match newRLeaf ds lvs s with
    | none => none
    | some l => newRLeaves ds (lvs ++ [l]) ss

/-- One more leaf, number `p`, of the branch `b`: groot/rtree/reader.go:320-328 (`brs`). -/
def addGroup : List (Name × List Nat) → Name → Nat → List (Name × List Nat)
  | [], b, p => [(b, [p])]
  | g :: gs, b, p => if g.1 = b then (g.1, g.2 ++ [p]) :: gs else g :: addGroup gs b p

/-- groot/rtree/reader.go:317-328 (`brs`): the leaves by branch, in the order of their first
appearance.  `p` is the number of the first of the given leaves. -/
def groupsFrom (gs : List (Name × List Nat)) : Nat → List RLeaf → List (Name × List Nat)
  | _, [] => gs
  | p, l :: lvs => groupsFrom (addGroup gs l.name p) (p + 1) lvs

/-- The zero value of an element. -/
def Ty.zero : Ty → Elem
  | .bool => .bool false | .str => .str [] | _ => .word 0

/-- The zero value a read variable starts with: groot/rtree/rvar.go:393-393 (`New`). -/
def RLeaf.zero (l : RLeaf) : Value :=
  match l.form with
  | .val => .val l.ty.zero
  | .one => .val l.ty.zero
  | .arr n => .list (List.replicate n l.ty.zero)
  | .sli => .list []

/-- groot/rbytes/sliceops.go:38-45 (`ResizeI32`). -/
def resize (t : Ty) (old : List Elem) (n : Nat) : List Elem :=
  (old ++ List.replicate n t.zero).take n

/-- The elements of a value. -/
def Value.elems : Value → List Elem
  | .val e => [e]
  | .list es => es

/-- The count a slice leaf asks for: groot/rtree/rleaf_gen.go:476-476 (`ivalue`). -/
def rcount (lvs : List RLeaf) (st : List Value) (p : Nat) : Option Int :=
  match lvs[p]?, st[p]? with
  | some lc, some (.val (.word n)) =>
    some (if lc.ty.hasSign then signed lc.ty.width n else (n : Int))
  | _, _ => none

/-- groot/rtree/rleaf_gen.go:478-481 (`ReadI32`), 499-502 (`ReadArrayI32`), 522-529
(`ResizeI32`). -/
def readLeaf (lvs : List RLeaf) (st : List Value) (l : RLeaf) (old : Value) (buf : Bytes) :
    Option Value :=
  match l.form with
  | .val => (readElem l.ty buf).map fun r => .val r.1
  | .one => ((readArray l.ty old.elems buf).bind (·.head?)).map .val
  | .arr _ => (readArray l.ty old.elems buf).map .list
  | .sli =>
    match l.count.bind (rcount lvs st) with
    | none => none
    | some n =>
      if 0 ≤ (l.len : Int) * n then
        (readArray l.ty (resize l.ty old.elems ((l.len : Int) * n).toNat) buf).map .list
      else none

/-- The leaves of one branch: groot/rtree/rbranch.go:42-69 (`leaves`) with
groot/rtree/rbasket.go:26-35 (`loadRLeaf`). -/
def readGroup (lvs : List RLeaf) (buf : Bytes) : List Nat → List Value → Option (List Value)
  | [], st => some st
  | p :: ps, st =>
    match lvs[p]?, st[p]? with
    | some l, some old =>
      match readLeaf lvs st l old buf with
      | none => none
      | some v => readGroup lvs buf ps (st.set p v)
    | _, _ => none

/-- groot/rtree/reader.go:453-462 (`read`): one entry, the buffers of the branches being given. -/
def readEntry (lvs : List RLeaf) : List (Name × List Nat) → List Bytes → List Value →
    Option (List Value)
  | [], [], st => some st
  | g :: gs, b :: bs, st =>
    match readGroup lvs b g.2 st with
    | none => none
    | some st' => readEntry lvs gs bs st'
  | _, _, _ => none

/-- groot/rtree/reader.go:438-448 (`read`): the values the callback sees at every entry; `h` is
the number of hidden variables. -/
def readEntries (lvs : List RLeaf) (gs : List (Name × List Nat)) (h : Nat) :
    List (Nat × List Bytes) → List Value → Option (List (Nat × List Value))
  | [], _ => some []
  | o :: os, st =>
    match readEntry lvs gs o.2 st with
    | none => none
    | some st' => (readEntries lvs gs h os st').map ((o.1, st'.drop h) :: ·)

/-- The table of the branch of a name: groot/rtree/tree.go:112-139 (`Branch`). -/
def tableOf (ds : List Desc) (ts : List Tables) (b : Name) : Option Tables :=
  match ds.findIdx? (fun d => d.name == b) with
  | none => none
  | some i => ts[i]?

/-- A whole reader: groot/rtree/reader.go:269-337 (`newRTree`) and
groot/rtree/reader.go:424-451 (`run`) over the entries `[beg, fin)`, for the variables `sel` with
values as groot/rtree/rvar.go:33-49 (`NewReadVars`) makes them. -/
def readVars (f : File) (ds : List Desc) (ts : List Tables) (sel : List Name) (beg fin : Nat) :
    Option (List (Nat × List Value)) :=
  match newRLeaves ds [] (withCounts ds sel) with
  | none => none
  | some lvs =>
    match (groupsFrom [] 0 lvs).mapM (fun g => tableOf ds ts g.1) with
    | none => none
    | some rts =>
      match readTree f rts 0 beg fin with
      | none => none
      | some out =>
        readEntries lvs (groupsFrom [] 0 lvs) (lvs.length - sel.length) out (lvs.map RLeaf.zero)

end Verif.RTree.Leaf
