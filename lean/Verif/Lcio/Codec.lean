import Verif.Sio.Pointers
import Verif.Sio.Values

/-!
# Writing and reading the collections of `lcio`

`MarshalSio` methods are lists of calls on an encoder, `UnmarshalSio` methods are programs on
a decoder.  Words are bit vectors, floating-point numbers are their bits, strings are lists of
bytes.  The pointers of a structure are a type parameter: references to objects when
writing, the identifiers found when reading, and pointers to the new objects in the end.
-/

namespace Verif.Lcio

open Verif.Sio (Bytes WOp)

abbrev W16 := BitVec 16
abbrev W32 := BitVec 32
abbrev W64 := BitVec 64
abbrev Str := List UInt8

/-- A pointer as a key of the maps of `sio.writer` (sio/sio.go:151-157): the address of an element of a
collection of the event, given by the numbers of the collection and of the element; of an
element of a slice inside it; of anything else; or the `nil` of some type. -/
inductive Ref
  | obj (blk idx : Nat)
  | sub (blk idx j : Nat)
  | other (n : Nat)
  | nil (ty : Nat)
deriving DecidableEq, Repr

/-- Calls of an encoder. -/
abbrev Ws := List (WOp Ref)

/-! ## Values -/

/-- Values `sio` handles by itself: what `bwrite` (sio/encoder.go:64-147) writes and `bread`
(sio/decoder.go:66-160) makes of it.  `Small` restricts the numbers of elements to those the format can tell. -/
class Bin (α : Type) where
  enc : α → Bytes
  dec : Bytes → Option (α × Bytes)
  Small : α → Prop
  law : ∀ v rest, Small v → dec (enc v ++ rest) = some (v, rest)

/-- `encoding/binary` on a word of `k` bytes. -/
def decWord (k n : Nat) (s : Bytes) : Option (BitVec n × Bytes) :=
  match readFull k s with
  | .ok v s => some (BitVec.ofNat n (beDec v), s)
  | _ => none

theorem decWord_enc (k n : Nat) (h : n = 8 * k) (v : BitVec n) (rest : Bytes) :
    decWord k n (beEnc k v.toNat ++ rest) = some (v, rest) := by
  unfold decWord
  rw [readFull_append _ (length_beEnc ..)]
  simp only []
  rw [beDec_beEnc_of_lt]
  · simp
  · calc v.toNat < 2 ^ n := v.isLt
      _ = 256 ^ k := by rw [h, Nat.pow_mul]

instance : Bin W16 := ⟨fun v => beEnc 2 v.toNat, decWord 2 16, fun _ => True, fun v r _ => decWord_enc 2 16 rfl v r⟩
instance : Bin W32 := ⟨fun v => beEnc 4 v.toNat, decWord 4 32, fun _ => True, fun v r _ => decWord_enc 4 32 rfl v r⟩
instance : Bin W64 := ⟨fun v => beEnc 8 v.toNat, decWord 8 64, fun _ => True, fun v r _ => decWord_enc 8 64 rfl v r⟩

/-- Strings, with zeros up to a multiple of four bytes. -/
instance : Bin Str :=
  ⟨fun v => beEnc 4 v.length ++ (v ++ Sio.pad v.length), Sio.decStr, fun v => v.length < 2 ^ 31,
    fun v r h => Sio.decStr_enc v h r⟩

/-- The elements one after the other. -/
def encAll {α : Type} [Bin α] (l : List α) : Bytes := l.flatMap Bin.enc

theorem decList_all {α : Type} [Bin α] (l : List α) (h : ∀ x ∈ l, Bin.Small x) (rest : Bytes) :
    Sio.decList Bin.dec l.length (encAll l ++ rest) = some (l, rest) := by
  induction l with
  | nil => rfl
  | cons x l ih =>
    rw [List.length_cons, Sio.decList, encAll, List.flatMap_cons, List.append_assoc,
      Bin.law x _ (h x (List.mem_cons_self ..))]
    simp only []
    rw [show (l.flatMap Bin.enc) = encAll l from rfl, ih fun y hy => h y (List.mem_cons_of_mem _ hy)]

/-- Arrays. -/
structure Arr (n : Nat) (α : Type) where
  val : List α
  len : val.length = n
deriving DecidableEq, Repr

theorem Arr.ext {n : Nat} {α : Type} {a b : Arr n α} (h : a.val = b.val) : a = b := by
  cases a; cases b; cases h; rfl

instance {n : Nat} {α : Type} [Inhabited α] : Inhabited (Arr n α) := ⟨⟨List.replicate n default, by simp⟩⟩

/-- Reading the elements of an array. -/
def decArr {α : Type} [Bin α] (n : Nat) (s : Bytes) : Option (Arr n α × Bytes) :=
  match Sio.decList Bin.dec n s with
  | some (l, s) => if h : l.length = n then some (⟨l, h⟩, s) else none
  | none => none

instance {n : Nat} {α : Type} [Bin α] : Bin (Arr n α) :=
  ⟨fun v => encAll v.val, decArr n, fun v => ∀ x ∈ v.val, Bin.Small x, by
    intro v rest h
    obtain ⟨l, rfl⟩ := v
    unfold decArr
    rw [decList_all l h]
    simp⟩

/-- Slices, after their lengths. -/
instance {α : Type} [Bin α] : Bin (List α) :=
  ⟨fun v => beEnc 4 v.length ++ encAll v, Sio.decMany Bin.dec, fun v => v.length < 2 ^ 31 ∧ ∀ x ∈ v, Bin.Small x, by
    intro v rest h
    unfold Sio.decMany
    rw [List.append_assoc, readFull_append _ (length_beEnc ..)]
    simp only []
    rw [beDec_beEnc_of_lt (show v.length < 256 ^ 4 from Nat.lt_trans h.1 (by decide))]
    exact decList_all v h.2 rest⟩

/-- Structures of two fields. -/
instance {α β : Type} [Bin α] [Bin β] : Bin (α × β) :=
  ⟨fun v => Bin.enc v.1 ++ Bin.enc v.2, Sio.decPair Bin.dec Bin.dec, fun v => Bin.Small v.1 ∧ Bin.Small v.2, by
    intro v rest h
    unfold Sio.decPair
    rw [List.append_assoc, Bin.law _ _ h.1]
    simp only []
    rw [Bin.law _ _ h.2]⟩

/-! ## Encoders -/

/-- sio/encoder.go:23-28 (`Encoder.Encode`). -/
def encode {α : Type} [Bin α] (v : α) : Ws := [.data (Bin.enc v)]

/-- `enc.Encode(int32(len(l)))`. -/
def encLen (n : Nat) : Ws := [.data (beEnc 4 n)]

/-- sio/encoder.go:30-35 (`Encoder.Tag`). -/
def encTag (k : Ref) : Ws := [.tag k]

/-- sio/encoder.go:37-42 (`Encoder.Pointer`). -/
def encPtr (k : Ref) : Ws := [.ptr k]

/-- Calls made under a condition. -/
def onlyIf (c : Bool) (w : Ws) : Ws := if c then w else []

/-- The calls for the elements of a slice, numbered from `i`. -/
def eachFrom {α : Type} (f : Nat → α → Ws) : Nat → List α → Ws
  | _, [] => []
  | i, x :: l => f i x ++ eachFrom f (i + 1) l

/-- `for i := range l`. -/
def each {α : Type} (l : List α) (f : Nat → α → Ws) : Ws := eachFrom f 0 l

/-! ## Decoders -/

/-- sio/sio.go:68-73 (`reader`): the bytes left, and the objects tagged with their identifiers.  The pointer
variables met are kept in the structures read, as identifiers. -/
structure RS where
  buf : Bytes
  tags : List (Ref × Nat)

/-- A program on a decoder; `none` is an error, which stops every later call (sio/decoder.go:23-29), or a
panic. -/
def Rd (α : Type) := RS → Option (α × RS)

instance : Monad Rd where
  pure v := fun s => some (v, s)
  bind p f := fun s =>
    match p s with
    | none => none
    | some (v, s) => f v s

/-- sio/decoder.go:23-29 (`Decoder.Decode`). -/
def decode {α : Type} [Bin α] : Rd α := fun s => (Bin.dec s.buf).map fun p => (p.1, ⟨p.2, s.tags⟩)

/-- Decoding an `int32` used as a length in `make`; a negative one panics. -/
def decLen : Rd Nat := fun s =>
  match readFull 4 s.buf with
  | .ok v rest => if beDec v < 2 ^ 31 then some (beDec v, ⟨rest, s.tags⟩) else none
  | _ => none

/-- sio/sio.go:105-116 (`reader.Tag`). -/
def decTag (o : Ref) : Rd Unit := fun s =>
  match readFull 4 s.buf with
  | .ok v rest => if beDec v = 0xffffffff then some ((), ⟨rest, s.tags⟩) else some ((), ⟨rest, s.tags ++ [(o, beDec v)]⟩)
  | _ => none

/-- sio/sio.go:118-135 (`reader.Pointer`): the identifier, 0 for none. -/
def decPtr : Rd Nat := fun s =>
  match readFull 4 s.buf with
  | .ok v rest => some (beDec v, ⟨rest, s.tags⟩)
  | _ => none

/-- A value read under a condition. -/
def readIf {α : Type} (c : Bool) (p : Rd α) (d : α) : Rd α := if c then p else pure d

/-- Reading elements numbered from `i`. -/
def repFrom {α : Type} (f : Nat → Rd α) : Nat → Nat → Rd (List α)
  | _, 0 => pure []
  | i, n + 1 => f i >>= fun x => repFrom f (i + 1) n >>= fun l => pure (x :: l)

/-- `for i := range make([]T, n)`. -/
def rep {α : Type} (n : Nat) (f : Nat → Rd α) : Rd (List α) := repFrom f 0 n

/-! ## Reading what was written -/

/-- The bytes of calls, with given identifiers. -/
def bytes (id : Ref → Nat) : Ws → Bytes
  | [] => []
  | .tag k :: w => beEnc 4 (id k) ++ bytes id w
  | .ptr k :: w => beEnc 4 (id k) ++ bytes id w
  | .data b :: w => b ++ bytes id w

/-- The objects tagged by calls. -/
def tagged : Ws → List Ref
  | [] => []
  | .tag k :: w => k :: tagged w
  | _ :: w => tagged w

theorem bytes_append (id : Ref → Nat) (a b : Ws) : bytes id (a ++ b) = bytes id a ++ bytes id b := by
  induction a with
  | nil => rfl
  | cons o a ih => cases o <;> simp [bytes, ih]

theorem tagged_append (a b : Ws) : tagged (a ++ b) = tagged a ++ tagged b := by
  induction a with
  | nil => rfl
  | cons o a ih => cases o <;> simp [tagged, ih]

/-- A program reads what the calls have written: it takes exactly their bytes, delivers `v`
and registers the objects they tagged. -/
def Reads (id : Ref → Nat) {α : Type} (p : Rd α) (w : Ws) (v : α) : Prop :=
  ∀ rest tags, p ⟨bytes id w ++ rest, tags⟩ = some (v, ⟨rest, tags ++ (tagged w).map fun k => (k, id k)⟩)

section
variable {id : Ref → Nat} {α β : Type}

theorem Reads.pure (v v' : α) (h : v = v') : Reads id (Pure.pure v) [] v' := by
  subst h
  intro rest tags
  simp [bytes, tagged]; rfl

theorem Reads.bind {p : Rd α} {f : α → Rd β} {a b : Ws} {v : α} {w : β} (h1 : Reads id p a v)
    (h2 : Reads id (f v) b w) : Reads id (p >>= f) (a ++ b) w := by
  intro rest tags
  show (match p _ with | none => none | some (v, s) => f v s) = _
  rw [bytes_append, List.append_assoc, h1]
  simp only []
  rw [h2, tagged_append, List.map_append, List.append_assoc]

theorem Reads.cons {p : Rd α} {f : α → Rd β} {a : Ws} {l : List Ws} {v : α} {w : β} (h1 : Reads id p a v)
    (h2 : Reads id (f v) l.flatten w) : Reads id (p >>= f) (a :: l).flatten w := by
  rw [List.flatten_cons]
  exact Reads.bind h1 h2

theorem Reads.nil (v v' : α) (h : v = v') : Reads id (Pure.pure v) ([] : List Ws).flatten v' := Reads.pure v v' h

theorem Reads.decode [Bin α] (v : α) (h : Bin.Small v) : Reads id (Lcio.decode : Rd α) (encode v) v := by
  intro rest tags
  simp only [Lcio.decode, encode, bytes, tagged, List.append_nil]
  rw [Bin.law v _ h]; simp

theorem Reads.len (n : Nat) (h : n < 2 ^ 31) : Reads id decLen (encLen n) n := by
  intro rest tags
  simp only [decLen, encLen, bytes, List.append_nil]
  rw [readFull_append _ (length_beEnc ..)]
  simp only []
  rw [beDec_beEnc_of_lt (show n < 256 ^ 4 from Nat.lt_trans h (by decide)), if_pos h]
  simp [tagged]

theorem Reads.ptr (hid : ∀ k, id k < 2 ^ 32 - 1) (k : Ref) : Reads id decPtr (encPtr k) (id k) := by
  intro rest tags
  simp only [decPtr, encPtr, bytes, List.append_nil]
  rw [readFull_append _ (length_beEnc ..)]
  simp only []
  rw [beDec_beEnc_of_lt (show id k < 256 ^ 4 by have := hid k; omega)]
  simp [tagged]

theorem Reads.tag (hid : ∀ k, id k < 2 ^ 32 - 1) (k : Ref) : Reads id (decTag k) (encTag k) () := by
  intro rest tags
  simp only [decTag, encTag, bytes, List.append_nil]
  rw [readFull_append _ (length_beEnc ..)]
  simp only []
  rw [beDec_beEnc_of_lt (show id k < 256 ^ 4 by have := hid k; omega), if_neg (by have := hid k; omega)]
  simp [tagged]

theorem Reads.ite {c c' : Bool} {p : Rd α} {d v v' : α} {w : Ws} (hc : c = c') (h : c' = true → Reads id p w v)
    (hv : v' = if c' then v else d) : Reads id (readIf c p d) (onlyIf c' w) v' := by
  subst hc hv
  cases c with
  | true => exact h rfl
  | false => exact Reads.pure _ _ rfl

theorem Reads.eachFrom {f : Nat → Rd β} {g : Nat → α → Ws} {φ : α → β} (l : List α) (i : Nat)
    (h : ∀ j, ∀ x ∈ l, Reads id (f j) (g j x) (φ x)) :
    Reads id (repFrom f i l.length) (Lcio.eachFrom g i l) (l.map φ) := by
  induction l generalizing i with
  | nil => exact Reads.pure _ _ rfl
  | cons x l ih =>
    rw [List.length_cons]
    refine Reads.bind (h i x (List.mem_cons_self ..)) ?_
    have := Reads.bind (f := fun l => (Pure.pure (φ x :: l) : Rd (List β))) (ih (i + 1) fun j y hy => h j y (List.mem_cons_of_mem _ hy)) (Reads.pure (id := id) _ _ rfl)
    rw [List.append_nil] at this
    exact this

theorem Reads.each {f : Nat → Rd β} {g : Nat → α → Ws} {φ : α → β} (l : List α)
    (h : ∀ j, ∀ x ∈ l, Reads id (f j) (g j x) (φ x)) : Reads id (rep l.length f) (each l g) (l.map φ) :=
  Reads.eachFrom l 0 h

end

end Verif.Lcio
