import Verif.Common.Bytes

/-!
# brio-gen: the (un)marshalling code written for a struct

Model of `Generator.genMarshal`, `genMarshalType`, `genUnmarshal` and `genUnmarshalType`
of brio/cmd/brio-gen/internal/gen/gen.go:54-494.  The generator prints Go text.  The model gives
the meaning of the printed text, construct by construct, and, apart, which of the printed texts
the Go compiler takes.

What is kept of the text:

* the name of the place that is written (`o.f`, `oi.f`, `x[i]`, `v`): a *place* is a pair of
  functions, reading and writing a value inside the object, that depend on the current value of
  the variable `i`, since the names printed contain `[i]` and every loop of the text calls its
  variable `i`;
* the variables `i` and `n` that the code for booleans and for byte arrays mentions.

Simplified: names of types are not followed (no named basic types, no types of other packages,
whose names are printed with their import paths); `int` has 64 bits; a slice expression past the
length is a panic (Go allows it up to the capacity); an error of a nested call and a panic are
both `none`; one foreign type in the model is one that is a struct in Go (`time.Time`).
-/
namespace Verif.Brio

abbrev Data := List UInt8

mutual
/-- The types of fields for which brio/cmd/brio-gen/internal/gen/gen.go:95-290 has a case.
`word w` stands for the integers and floats of `w` bytes other than `byte` (`uint8`), `anon` for
a struct type without a name, `named` for a named struct for which brio-gen is run as well and
that has no methods yet, `ext` for a type that implements `encoding.BinaryMarshaler` and
`encoding.BinaryUnmarshaler` when the generator runs. -/
inductive Ty where
  | bool
  | byte
  | word (w : Nat)
  | c64
  | c128
  | str
  | anon (fs : Flds)
  | named (fs : Flds)
  | ext (k : Nat)
  | arr (n : Nat) (e : Ty)
  | sli (e : Ty)
  | ptr (e : Ty)
/-- The fields of a struct, in the order of the declaration. -/
inductive Flds where
  | nil
  | cons (t : Ty) (fs : Flds)
end

/-- The foreign types: values, zero values and the two methods, as `MarshalBinary` and
`UnmarshalBinary` called in brio/cmd/brio-gen/internal/gen/gen.go:96-104 and
brio/cmd/brio-gen/internal/gen/gen.go:310-318.  Simplified: decoding does not look at the
previous value of the object. -/
structure Ext where
  T : Nat → Type
  zero : ∀ k, T k
  enc : ∀ k, T k → Option Data
  dec : ∀ k, Data → Option (T k)

section
variable (X : Ext)

mutual
/-- The values of a type.  A number is its bits, a string its bytes, a nil pointer `none`; the
length of an array is a condition on the value (`Ok`). -/
def Ty.Val : Ty → Type
  | .bool => Bool
  | .byte => UInt8
  | .word w => BitVec (8 * w)
  | .c64 => BitVec 32 × BitVec 32
  | .c128 => BitVec 64 × BitVec 64
  | .str => List UInt8
  | .anon fs => fs.Val
  | .named fs => fs.Val
  | .ext k => X.T k
  | .arr _ e => List e.Val
  | .sli e => List e.Val
  | .ptr e => Option e.Val
def Flds.Val : Flds → Type
  | .nil => Unit
  | .cons t fs => t.Val × fs.Val
end

mutual
/-- The zero value of a type, as `make` and `var v T` give it
(brio/cmd/brio-gen/internal/gen/gen.go:447, brio/cmd/brio-gen/internal/gen/gen.go:474). -/
def zeroT : (t : Ty) → t.Val X
  | .bool => false
  | .byte => (0 : UInt8)
  | .word w => (0 : BitVec (8 * w))
  | .c64 => ((0 : BitVec 32), (0 : BitVec 32))
  | .c128 => ((0 : BitVec 64), (0 : BitVec 64))
  | .str => ([] : List UInt8)
  | .anon fs => zeroF fs
  | .named fs => zeroF fs
  | .ext k => X.zero k
  | .arr n e => List.replicate n (zeroT e)
  | .sli e => ([] : List (e.Val X))
  | .ptr e => (none : Option (e.Val X))
def zeroF : (fs : Flds) → fs.Val X
  | .nil => ()
  | .cons t fs => (zeroT t, zeroF fs)
end

/-- The bytes of a sub-object behind their number
(brio/cmd/brio-gen/internal/gen/gen.go:97-102). -/
def sized (b : Data) : Data := leEnc 8 b.length ++ b

/-- The loop of `genMarshalType` over the elements of an array or slice
(brio/cmd/brio-gen/internal/gen/gen.go:249-256). -/
def each {α : Type} (f : α → Option Data) : List α → Option Data
  | [] => some []
  | x :: xs => (f x).bind fun a => (each f xs).map fun b => a ++ b

def bit (b : Bool) : UInt8 := if b then 1 else 0

mutual
/-- The bytes that the printed marshalling code appends for a value
(`genMarshalType`, brio/cmd/brio-gen/internal/gen/gen.go:95-290).  A nil pointer panics
(`v := *n`).  The loops of the text bind `o` anew, hence no place is needed here; bytes of a
`[]byte` are appended at once (brio/cmd/brio-gen/internal/gen/gen.go:265-266), which is the same
as one by one. -/
def marT : (t : Ty) → t.Val X → Option Data
  | .bool, v => some [bit v]
  | .byte, v => some [v]
  | .word w, v => some (leEnc w (BitVec.toNat v))
  | .c64, v => some (leEnc 4 (BitVec.toNat v.1) ++ leEnc 4 (BitVec.toNat v.2))
  | .c128, v => some (leEnc 8 (BitVec.toNat v.1) ++ leEnc 8 (BitVec.toNat v.2))
  | .str, v => some (sized v)
  | .anon fs, v => marF fs v
  | .named fs, v => (marF fs v).map sized
  | .ext k, v => (X.enc k v).map sized
  | .arr _ e, v => each (marT e) v
  | .sli e, v => (each (marT e) v).map fun b => leEnc 8 (List.length v) ++ b
  | .ptr e, v => Option.bind v (marT e)
/-- `MarshalBinary` as printed by `genMarshal`
(brio/cmd/brio-gen/internal/gen/gen.go:78-93): the fields in order. -/
def marF : (fs : Flds) → fs.Val X → Option Data
  | .nil, _ => some []
  | .cons t fs, v => (marT t v.1).bind fun a => (marF fs v.2).map fun b => a ++ b
end

/-! ## Reading -/

/-- A place in an object `S` that holds an `α`; the name of the place may contain the variable
`i`, whose current value is the first argument. -/
structure LV (S α : Type) where
  get : Nat → S → Option α
  set : Nat → α → S → Option S

/-- The object itself (`v`, or the receiver `o`). -/
def whole (α : Type) : LV α α := ⟨fun _ s => some s, fun _ v _ => some v⟩

/-- The first field of a struct place (`n+"."+elem.Name()`,
brio/cmd/brio-gen/internal/gen/gen.go:414-419). -/
def LV.fst {S α β : Type} (l : LV S (α × β)) : LV S α :=
  ⟨fun i s => (l.get i s).map Prod.fst, fun i a s => (l.get i s).bind fun p => l.set i (a, p.2) s⟩

/-- The other fields of a struct place. -/
def LV.snd {S α β : Type} (l : LV S (α × β)) : LV S β :=
  ⟨fun i s => (l.get i s).map Prod.snd, fun i b s => (l.get i s).bind fun p => l.set i (p.1, b) s⟩

/-- The place `n[i]` (`nn := n + "[i]"`, brio/cmd/brio-gen/internal/gen/gen.go:428): both the `i`
of the index and those inside the name `n` are the `i` of the innermost loop. -/
def LV.ix {S α : Type} (l : LV S (List α)) : LV S α :=
  ⟨fun i s => (l.get i s).bind fun xs => xs[i]?,
   fun i a s => (l.get i s).bind fun xs => if i < xs.length then l.set i (xs.set i a) s else none⟩

/-- The place behind `oi := &n[i]` (brio/cmd/brio-gen/internal/gen/gen.go:433-436): the value of
`i` is that of the moment when the pointer was taken. -/
def LV.pin {S α : Type} (l : LV S (List α)) (j : Nat) : LV S α :=
  ⟨fun _ s => l.ix.get j s, fun _ a s => l.ix.set j a s⟩

/-- `data[:k]` and `data = data[k:]`. -/
def cut (k : Nat) (d : Data) : Option (Data × Data) :=
  if k ≤ d.length then some (d.take k, d.drop k) else none

/-- `n := int(binary.LittleEndian.Uint64(data[:8]))` and `data = data[8:]`
(brio/cmd/brio-gen/internal/gen/gen.go:312-313); a negative `n` panics in the slice expressions
and in `make` that follow. -/
def getLen (d : Data) : Option (Nat × Data) :=
  (cut 8 d).bind fun p => if leDec p.1 < 2 ^ 63 then some (leDec p.1, p.2) else none

/-- A number read and stored (brio/cmd/brio-gen/internal/gen/gen.go:332-380). -/
def getWord {S : Type} (w : Nat) (l : LV S (BitVec (8 * w))) (i : Nat) (s : S) (d : Data) :
    Option (S × Data) :=
  (cut w d).bind fun p => (l.set i (BitVec.ofNat _ (leDec p.1)) s).map fun s' => (s', p.2)

def getPair {S : Type} (w b : Nat) (l : LV S (BitVec b × BitVec b)) (i : Nat) (s : S) (d : Data) :
    Option (S × Data) :=
  (cut w d).bind fun p => (cut w p.2).bind fun q =>
    (l.set i (BitVec.ofNat _ (leDec p.1), BitVec.ofNat _ (leDec q.1)) s).map fun s' => (s', q.2)

/-- A boolean (brio/cmd/brio-gen/internal/gen/gen.go:327-330): the byte looked at is `data[i]`,
the byte removed is the first. -/
def getBool {S : Type} (l : LV S Bool) (i : Nat) (s : S) (d : Data) : Option (S × Data) :=
  (d[i]?).bind fun x => (l.set i (x != 0) s).bind fun s' => (cut 1 d).map fun p => (s', p.2)

def getByte {S : Type} (l : LV S UInt8) (i : Nat) (s : S) (d : Data) : Option (S × Data) :=
  (d[0]?).bind fun x => (l.set i x s).bind fun s' => (cut 1 d).map fun p => (s', p.2)

/-- A string (brio/cmd/brio-gen/internal/gen/gen.go:392-398). -/
def getStr {S : Type} (l : LV S (List UInt8)) (i : Nat) (s : S) (d : Data) : Option (S × Data) :=
  (getLen d).bind fun p => (cut p.1 p.2).bind fun q => (l.set i q.1 s).map fun s' => (s', q.2)

/-- A nested `UnmarshalBinary(data[:n])` (brio/cmd/brio-gen/internal/gen/gen.go:406-413) on the
object at the place. -/
def getSub {S α : Type} (l : LV S α) (f : α → Data → Option α) (i : Nat) (s : S) (d : Data) :
    Option (S × Data) :=
  (getLen d).bind fun p => (cut p.1 p.2).bind fun q =>
    (l.get i s).bind fun v => (f v q.1).bind fun v' => (l.set i v' s).map fun s' => (s', q.2)

/-- Method called through a pointer that is a field
(brio/cmd/brio-gen/internal/gen/gen.go:310-319 for a pointer type): nothing allocates the object
it points to. -/
def viaPtr {α : Type} (f : α → Data → Option α) (v : Option α) (d : Data) : Option (Option α) :=
  v.bind fun x => (f x d).map some

/-- Bytes of an array (brio/cmd/brio-gen/internal/gen/gen.go:423-425): the number of bytes copied
and removed is the variable `n` of the surrounding code. -/
def getBytesArr {S : Type} (l : LV S (List UInt8)) (i n : Nat) (s : S) (d : Data) :
    Option (S × Data) :=
  (cut n d).bind fun p => (l.get i s).bind fun xs =>
    (l.set i (p.1.take xs.length ++ xs.drop p.1.length) s).map fun s' => (s', p.2)

/-- Bytes of a slice (brio/cmd/brio-gen/internal/gen/gen.go:444-451):
`make([]byte, n)`, then `append`. -/
def getBytesSli {S : Type} (l : LV S (List UInt8)) (i : Nat) (s : S) (d : Data) :
    Option (S × Data) :=
  (getLen d).bind fun p => (cut p.1 p.2).bind fun q =>
    (l.set i (List.replicate p.1 0 ++ q.1) s).map fun s' => (s', q.2)

/-- `for i := range n { ... }`: `k` more turns, the next one with `i = j`. -/
def loop {S : Type} (f : Nat → S → Data → Option (S × Data)) :
    Nat → Nat → S → Data → Option (S × Data)
  | _, 0, s, d => some (s, d)
  | j, k + 1, s, d => (f j s d).bind fun p => loop f (j + 1) k p.1 p.2

/-- The types whose `Underlying` is a struct (brio/cmd/brio-gen/internal/gen/gen.go:433). -/
def Ty.isStruct : Ty → Bool
  | .anon _ => true
  | .named _ => true
  | .ext _ => true
  | _ => false

/-- The name under which the code for an element is printed
(brio/cmd/brio-gen/internal/gen/gen.go:428-436). -/
def elemPlace {S α : Type} (st : Bool) (l : LV S (List α)) (j : Nat) : LV S α :=
  if st then l.pin j else l.ix

/-- The slice is made, then filled (brio/cmd/brio-gen/internal/gen/gen.go:444-469). -/
def getSli {S α : Type} (l : LV S (List α)) (z : α)
    (f : Nat → Nat → S → Data → Option (S × Data)) (i : Nat) (s : S) (d : Data) :
    Option (S × Data) :=
  (getLen d).bind fun p => (l.set i (List.replicate p.1 z) s).bind fun s' =>
    loop (f p.1) 0 p.1 s' p.2

/-- The variable `v` is filled, then its address is stored
(brio/cmd/brio-gen/internal/gen/gen.go:471-477). -/
def getPtr {S α : Type} (l : LV S (Option α)) (r : Option (α × Data)) (i : Nat) (s : S) :
    Option (S × Data) :=
  r.bind fun p => (l.set i (some p.1) s).map fun s' => (s', p.2)

mutual
/-- The printed unmarshalling code (`genUnmarshalType`,
brio/cmd/brio-gen/internal/gen/gen.go:309-486), run with the place `l`, the variables `i` and `n`
of the surrounding code, on an object and the remaining data.  The code for arrays and slices of
pointers does not compile (`uC`) and has no meaning here. -/
def unT : (t : Ty) → {S : Type} → LV S (t.Val X) → Nat → Nat → S → Data → Option (S × Data)
  | .bool, _, l, i, _, s, d => getBool l i s d
  | .byte, _, l, i, _, s, d => getByte l i s d
  | .word w, _, l, i, _, s, d => getWord w l i s d
  | .c64, _, l, i, _, s, d => getPair 4 32 l i s d
  | .c128, _, l, i, _, s, d => getPair 8 64 l i s d
  | .str, _, l, i, _, s, d => getStr l i s d
  | .anon fs, _, l, i, n, s, d => unF fs l i n s d
  | .named fs, _, l, i, _, s, d =>
    getSub l (fun v b => (unF fs (whole (fs.Val X)) 0 0 v b).map Prod.fst) i s d
  | .ext k, _, l, i, _, s, d => getSub l (fun _ b => X.dec k b) i s d
  | .arr _ .byte, _, l, i, n, s, d => getBytesArr l i n s d
  | .arr m e, _, l, _, n, s, d =>
    loop (fun j s d => unT e (elemPlace e.isStruct l j) j n s d) 0 m s d
  | .sli .byte, _, l, i, _, s, d => getBytesSli l i s d
  | .sli e, _, l, i, _, s, d =>
    getSli l (zeroT X e) (fun n j s d => unT e (elemPlace e.isStruct l j) j n s d) i s d
  | .ptr (.ext k), _, l, i, _, s, d => getSub l (viaPtr fun _ b => X.dec k b) i s d
  | .ptr e, _, l, i, n, s, d => getPtr l (unT e (whole (e.Val X)) i n (zeroT X e) d) i s
def unF : (fs : Flds) → {S : Type} → LV S (fs.Val X) → Nat → Nat → S → Data → Option (S × Data)
  | .nil, _, _, _, _, s, d => some (s, d)
  | .cons t fs, _, l, i, n, s, d =>
    (unT t (LV.fst l) i n s d).bind fun p => unF fs (LV.snd l) i n p.1 p.2
end

/-- `MarshalBinary` of the struct. -/
def marshal (fs : Flds) (v : fs.Val X) : Option Data := marF X fs v

/-- `UnmarshalBinary` of the struct (`genUnmarshal`,
brio/cmd/brio-gen/internal/gen/gen.go:292-307); what is left of the data is ignored. -/
def unmarshal (fs : Flds) (z : fs.Val X) (d : Data) : Option (fs.Val X) :=
  (unF X fs (whole (fs.Val X)) 0 0 z d).map Prod.fst

end

/-! ## What the compiler takes -/

mutual
/-- The printed code mentions the name of the place at all: an unused `o`, `oi` or `v` is an
error of the compiler. -/
def usesT : Ty → Bool
  | .anon fs => usesF fs
  | _ => true
def usesF : Flds → Bool
  | .nil => false
  | .cons t fs => usesT t || usesF fs
end

mutual
/-- The printed marshalling code mentions `buf` and `binary`: `genMarshal` declares `buf` and
imports encoding/binary in every case (brio/cmd/brio-gen/internal/gen/gen.go:46-81), and
an unused variable or import is an error of the compiler. -/
def bufT : Ty → Bool
  | .bool => false
  | .byte => false
  | .word w => w != 1
  | .c64 => true
  | .c128 => true
  | .str => true
  | .anon fs => bufF fs
  | .named _ => true
  | .ext _ => true
  | .arr _ .byte => false
  | .arr _ e => bufT e
  | .sli _ => true
  | .ptr e => bufT e
def bufF : Flds → Bool
  | .nil => false
  | .cons t fs => bufT t || bufF fs
end

mutual
/-- The printed unmarshalling code compiles.  `hi`, `hn`: the variables `i`, `n` are in scope;
`inV`: the name of the place begins with `v`, which the code for a pointer hides behind its own
`v`.  An element of a pointer type is declared as `var oi T` and stored where a `*T` is wanted
(brio/cmd/brio-gen/internal/gen/gen.go:429-440). -/
def uC : Ty → (hi hn inV : Bool) → Bool
  | .bool, hi, _, _ => hi
  | .byte, _, _, _ => true
  | .word _, _, _, _ => true
  | .c64, _, _, _ => true
  | .c128, _, _, _ => true
  | .str, _, _, _ => true
  | .anon fs, hi, hn, v => uCF fs hi hn v
  | .named _, _, _, _ => true
  | .ext _, _, _, _ => true
  | .arr _ .byte, _, hn, _ => hn
  | .arr _ (.ptr _), _, _, _ => false
  | .arr _ e, _, hn, v => usesT e && uC e true hn (v && !e.isStruct)
  | .sli .byte, _, _, _ => true
  | .sli (.ptr _), _, _, _ => false
  | .sli e, _, _, v => usesT e && uC e true true (v && !e.isStruct)
  | .ptr (.ext _), _, _, _ => true
  | .ptr e, hi, hn, v => !v && uC e hi hn true
def uCF : Flds → (hi hn inV : Bool) → Bool
  | .nil, _, _, _ => true
  | .cons t fs, hi, hn, v => uC t hi hn v && uCF fs hi hn v
end

mutual
/-- The printed marshalling code compiles.  `p`: the name of the place is a pointer to the value,
as inside a loop, where `o := &n[i]` (brio/cmd/brio-gen/internal/gen/gen.go:249-255): fields,
methods, array elements and array slices can be had through the pointer, a conversion, `len`,
`range` over a slice cannot.  `binary.LittleEndian.PutUint64(buf[:4], math.Float32bits(..))`
(brio/cmd/brio-gen/internal/gen/gen.go:190-201) gives a `uint32` where a `uint64` is wanted.
For a named struct both of its own methods are printed by the same run. -/
def mC : Ty → (p : Bool) → Bool
  | .bool, p => !p
  | .byte, p => !p
  | .word _, p => !p
  | .c64, _ => false
  | .c128, p => !p
  | .str, p => !p
  | .anon fs, _ => mCF fs
  | .named fs, _ => mCF fs && uCF fs false false false && bufF fs
  | .ext _, _ => true
  | .arr _ .byte, _ => true
  | .arr _ (.ptr e), _ => mC (.ptr e) false
  | .arr _ e, _ => usesT e && mC e true
  | .sli .byte, p => !p
  | .sli (.ptr e), p => !p && mC (.ptr e) false
  | .sli e, p => !p && usesT e && mC e true
  | .ptr (.ext _), _ => true
  | .ptr e, _ => usesT e && mC e false
def mCF : Flds → Bool
  | .nil => true
  | .cons t fs => mC t false && mCF fs
end

/-- The methods printed for a struct with the fields `fs` compile. -/
def compiles (fs : Flds) : Bool := mCF fs && uCF fs false false false && bufF fs

end Verif.Brio
