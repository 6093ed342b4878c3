import Verif.RTree.LeafModel
import Mathlib.Data.List.Nodup

/-!
# C145: what is written to the variables of a tree, and what must be read

A specification of the values of the variables of a tree, and lemmas on the bytes of elements.
-/

namespace Verif.RTree.Leaf

/-- An element of a type: the bits of a number have the width of the type, a string does not
start with a zero byte and is shorter than 4 GiB. -/
def ElemOK (t : Ty) : Elem → Prop
  | .bool _ => t = .bool
  | .word n => t ≠ .bool ∧ t ≠ .str ∧ n < 256 ^ t.width
  | .str s => t = .str ∧ s.length < 2 ^ 32 ∧ s.head? ≠ some 0

instance (t : Ty) (e : Elem) : Decidable (ElemOK t e) := by
  cases e <;> unfold ElemOK <;> infer_instance

/-- The integer types. -/
def IntTy (t : Ty) : Prop :=
  t = .i8 ∨ t = .i16 ∨ t = .i32 ∨ t = .i64 ∨ t = .u8 ∨ t = .u16 ∨ t = .u32 ∨ t = .u64

instance (t : Ty) : Decidable (IntTy t) := by unfold IntTy; infer_instance

/-- The number of elements of an array. -/
def size (dims : List Nat) : Nat := dims.foldr (· * ·) 1

/-- Variables a tree can be made of: their names are different and have no brackets, arrays have
at least two elements and are not of strings, and the count of a slice is an earlier variable,
an integer, whose name is not made of digits only. -/
structure VarsOK (vars : List Var) : Prop where
  nodup : (vars.map (·.name)).Nodup
  plain : ∀ v ∈ vars, 91 ∉ v.name ∧ 93 ∉ v.name
  arr : ∀ v ∈ vars, ∀ dims, v.form = .arr dims → v.ty ≠ .str ∧ 1 < size dims
  sli : ∀ (i : Nat) (v : Var) (c : Name), vars[i]? = some v → v.form = .sli c →
    ∃ (j : Nat) (vc : Var), j < i ∧ vars[j]? = some vc ∧ vc.name = c ∧ vc.form = .val ∧ IntTy vc.ty ∧
      ∃ b ∈ c, isDigit b = false

/-- The value the variable `c` has in a row, as a number. -/
def countVal (vars : List Var) (row : List Value) (c : Name) : Nat :=
  match (vars.zip row).find? (fun p => p.1.name == c) with
  | some (_, .val (.word n)) => n
  | _ => 0

/-- A value fits its variable: it has the type, an array has its number of elements, and a slice
has at least as many elements as its count says; the count is a number without sign. -/
def FitsVar (vars : List Var) (row : List Value) (v : Var) (x : Value) : Prop :=
  match v.form, x with
  | .val, .val e => ElemOK v.ty e
  | .arr dims, .list es => es.length = size dims ∧ ∀ e ∈ es, ElemOK v.ty e
  | .sli c, .list es => (∀ e ∈ es, ElemOK v.ty e) ∧ countVal vars row c ≤ es.length ∧
      ∀ vc ∈ vars, vc.name = c → countVal vars row c < 2 ^ (8 * vc.ty.width - 1)
  | _, _ => False

/-- A row of values for the variables. -/
def RowOK (vars : List Var) (row : List Value) : Prop :=
  row.length = vars.length ∧ ∀ p ∈ vars.zip row, FitsVar vars row p.1 p.2

/-- What a reader must see of a value: all of it, or as many elements of a slice as its count
says. -/
def seen (vars : List Var) (row : List Value) (v : Var) (x : Value) : Value :=
  match v.form, x with
  | .sli c, .list es => .list (es.take (countVal vars row c))
  | _, x => x

/-- What a reader must see of the variable `s`. -/
def lookup (vars : List Var) (row : List Value) (s : Name) : Value :=
  match (vars.zip row).find? (fun p => p.1.name == s) with
  | some p => seen vars row p.1 p.2
  | none => .list []

/-- The bytes of a row, by variable. -/
def rowBytes (vars : List Var) (row : List Value) : List Bytes :=
  (vars.zip row).map fun p => writeElems p.1.ty (seen vars row p.1 p.2).elems

/-- The variables a user may ask for: they are in the tree, and the count of a slice, when it is
asked for, comes before the slice. -/
def SelOK (vars : List Var) (sel : List Name) : Prop :=
  ∀ (k : Nat) (s : Name), sel[k]? = some s → ∃ v ∈ vars, v.name = s ∧
    ∀ c, v.form = .sli c → c ∈ sel → c ∈ sel.take k

/-! ## Elements -/

theorem readElem_word {t : Ty} (h1 : t ≠ .bool) (h2 : t ≠ .str) (buf : Bytes) :
    readElem t buf = readWord t.width buf := by
  cases t <;> first | rfl | exact absurd rfl h1 | exact absurd rfl h2

theorem readBody_cons (s rest : Bytes) (h : s.head? ≠ some 0) :
    readBody s.length (s ++ rest) = some (.str s, rest) := by
  cases s with
  | nil => cases rest <;> simp [readBody]
  | cons v s =>
    have hv : v ≠ 0 := by intro hv; apply h; simp [hv]
    simp only [List.cons_append, readBody, List.length_cons]
    rw [if_neg (by omega), if_neg hv]
    rw [Nat.add_sub_cancel, List.append_assoc, List.take_left', List.drop_left'] <;> rfl

theorem readElem_write (t : Ty) (e : Elem) (h : ElemOK t e) (rest : Bytes) :
    readElem t (writeElem t e ++ rest) = some (e, rest) := by
  cases e with
  | bool b =>
    simp only [ElemOK] at h; subst h
    cases b <;> rfl
  | word n =>
    obtain ⟨h1, h2, h3⟩ := h
    rw [readElem_word h1 h2]
    have hw : writeElem t (.word n) = beEnc t.width n := rfl
    rw [hw]
    unfold readWord
    rw [if_neg (by simp), List.take_left' (by simp), List.drop_left' (by simp),
      beDec_beEnc_of_lt h3]
  | str s =>
    obtain ⟨h1, h2, h3⟩ := h
    subst h1
    simp only [readElem, writeElem, writeString]
    split
    · next hl =>
      have hne : UInt8.ofNat s.length ≠ 255 := by
        intro hc
        have := congrArg UInt8.toNat hc
        simp at this
        omega
      simp only [List.cons_append, readString]
      rw [if_neg hne, show (UInt8.ofNat s.length).toNat = s.length by simp; omega]
      exact readBody_cons s rest h3
    · simp only [List.cons_append, readString, if_true, List.append_assoc]
      rw [if_neg (by simp), List.take_left' (by simp), List.drop_left' (by simp),
        beDec_beEnc_of_lt (by omega)]
      exact readBody_cons s rest h3

theorem writeElems_cons (t : Ty) (e : Elem) (es : List Elem) :
    writeElems t (e :: es) = writeElem t e ++ writeElems t es := by simp [writeElems]

theorem readElems_write (t : Ty) (es : List Elem) (h : ∀ e ∈ es, ElemOK t e) (rest : Bytes) :
    readElems t es.length (writeElems t es ++ rest) = some es := by
  induction es with
  | nil => rfl
  | cons e es ih =>
    rw [writeElems_cons, List.append_assoc]
    simp only [List.length_cons, readElems]
    rw [readElem_write t e (h e (by simp))]
    simp only
    rw [ih (fun x hx => h x (by simp [hx]))]
    rfl

theorem writeElem_pos (t : Ty) (e : Elem) (h : ElemOK t e) : 1 ≤ (writeElem t e).length := by
  cases e with
  | bool b => simp [writeElem]
  | word n => simp only [writeElem, length_beEnc]; cases t <;> simp [Ty.width]
  | str s => simp only [writeElem, writeString]; split <;> simp

theorem writeElems_long (t : Ty) (es : List Elem) (h : ∀ e ∈ es, ElemOK t e) :
    es.length ≤ (writeElems t es).length := by
  induction es with
  | nil => simp
  | cons e es ih =>
    rw [writeElems_cons, List.length_append, List.length_cons]
    have := ih (fun x hx => h x (by simp [hx]))
    have := writeElem_pos t e (h e (by simp))
    omega

theorem writeElem_width (t : Ty) (e : Elem) (h : ElemOK t e) (ht : t ≠ .str) :
    (writeElem t e).length = t.width := by
  cases e with
  | bool b => simp only [ElemOK] at h; subst h; rfl
  | word n => simp [writeElem]
  | str s => exact absurd h.1 ht

theorem writeElems_width (t : Ty) (es : List Elem) (h : ∀ e ∈ es, ElemOK t e) (ht : t ≠ .str) :
    (writeElems t es).length = es.length * t.width := by
  induction es with
  | nil => simp [writeElems]
  | cons e es ih =>
    rw [writeElems_cons, List.length_append, List.length_cons, ih (fun x hx => h x (by simp [hx])),
      writeElem_width t e (h e (by simp)) ht, Nat.add_mul]
    omega

/-- Reading an array of as many elements as were written. -/
theorem readArray_write (t : Ty) (old es : List Elem) (buf : Bytes) (hl : old.length = es.length)
    (h : ∀ e ∈ es, ElemOK t e) (hp : writeElems t es <+: buf) :
    readArray t old buf = some es := by
  obtain ⟨rest, rfl⟩ := hp
  unfold readArray
  have := writeElems_long t es h
  by_cases h0 : es.length = 0
  · rw [if_pos (Or.inl (by omega))]
    have h1 : es = [] := List.length_eq_zero_iff.mp h0
    have h2 : old = [] := List.length_eq_zero_iff.mp (by omega)
    rw [h1, h2]
  · rw [if_neg (by rw [List.length_append]; omega), hl]
    exact readElems_write t es h rest

theorem width_signed (t : Ty) : t.signed.width = t.width := by cases t <;> rfl

theorem readElem_signed (t : Ty) (buf : Bytes) : readElem t.signed buf = readElem t buf := by
  cases t <;> rfl

/-! ## Titles -/

theorem foldl_mul (l : List Nat) (a : Nat) : l.foldl (· * ·) a = a * size l := by
  induction l generalizing a with
  | nil => simp [size]
  | cons x l ih => rw [List.foldl_cons, ih]; simp [size, Nat.mul_assoc]

theorem foldl_mul_int (l : List Nat) (a : Nat) :
    (l.map (fun (d : Nat) => (d : Int))).foldl (· * ·) (a : Int) = ((a * size l : Nat) : Int) := by
  induction l generalizing a with
  | nil => simp [size]
  | cons x l ih =>
    rw [List.map_cons, List.foldl_cons, show (a : Int) * (x : Int) = ((a * x : Nat) : Int) by simp,
      ih]
    simp [size, Nat.mul_assoc]

theorem brackets_plain (n rest : Bytes) (h : 91 ∉ n) :
    brackets (n ++ rest) none = brackets rest none := by
  induction n with
  | nil => rfl
  | cons b n ih =>
    simp only [List.mem_cons, not_or] at h
    simp only [List.cons_append, brackets]
    rw [if_neg (fun hb => h.1 hb.symm)]
    exact ih h.2

theorem brackets_digits (ds acc rest : Bytes) (h : ds.all isDigit = true) :
    brackets (ds ++ 93 :: rest) (some acc) = (acc ++ ds) :: brackets rest none := by
  induction ds generalizing acc with
  | nil => simp [brackets]
  | cons b ds ih =>
    simp only [List.all_cons, Bool.and_eq_true] at h
    have h1 : b ≠ 91 := by intro hb; subst hb; exact absurd h.1 (by decide)
    have h2 : b ≠ 93 := by intro hb; subst hb; exact absurd h.1 (by decide)
    simp only [List.cons_append, brackets]
    rw [if_neg h1, if_neg h2, if_pos h.1, ih _ h.2]
    simp

theorem brackets_dims (dims : List Nat) : brackets (dimsTitle dims) none = dims.map decEnc := by
  induction dims with
  | nil => rfl
  | cons d dims ih =>
    simp only [dimsTitle, brackets, if_true, List.map_cons]
    rw [brackets_digits _ _ _ (decEnc_digits d), ih, List.nil_append]

/-- The dimensions of an array come back from the title of its leaf. -/
theorem leafDims_title (n : Name) (dims : List Nat) (h : 91 ∉ n) :
    leafDims (n ++ dimsTitle dims) = dims.map (fun (d : Nat) => (d : Int)) := by
  unfold leafDims
  rw [brackets_plain _ _ h, brackets_dims, List.map_map]
  apply List.map_congr_left
  intro d _
  simp only [Function.comp_apply]
  rw [if_neg (decEnc_ne_nil d), digitsVal_decEnc]

theorem brackets_word (c : Bytes) (acc : Bytes) (h1 : 91 ∉ c) (h2 : 93 ∉ c)
    (h : ∃ b ∈ c, isDigit b = false) : brackets (c ++ [93]) (some acc) = [] := by
  induction c generalizing acc with
  | nil => obtain ⟨b, hb, _⟩ := h; exact absurd hb (by simp)
  | cons b c ih =>
    simp only [List.mem_cons, not_or] at h1 h2
    simp only [List.cons_append, brackets]
    rw [if_neg (fun hb => h1.1 hb.symm), if_neg (fun hb => h2.1 hb.symm)]
    by_cases hd : isDigit b = true
    · rw [if_pos hd]
      apply ih _ h1.2 h2.2
      obtain ⟨x, hx, hxd⟩ := h
      rcases List.mem_cons.mp hx with rfl | hx
      · rw [hd] at hxd; exact absurd hxd (by simp)
      · exact ⟨x, hx, hxd⟩
    · rw [if_neg hd, brackets_plain c [93] h1.2]
      rfl

theorem leafDims_count (n c : Name) (hn : 91 ∉ n) (h1 : 91 ∉ c) (h2 : 93 ∉ c)
    (h : ∃ b ∈ c, isDigit b = false) : leafDims (n ++ 91 :: (c ++ [93])) = [] := by
  unfold leafDims
  rw [brackets_plain _ _ hn]
  simp only [brackets, if_true]
  rw [brackets_word c [] h1 h2 h]
  rfl

theorem leafDims_name (n : Name) (hn : 91 ∉ n) : leafDims n = [] := by
  have := leafDims_title n [] hn
  simpa [dimsTitle] using this

/-! ## Rows -/

theorem find_zip {vars : List Var} {row : List Value} (hn : (vars.map (·.name)).Nodup)
    {v : Var} {x : Value} (h : (v, x) ∈ vars.zip row) :
    (vars.zip row).find? (fun p => p.1.name == v.name) = some (v, x) := by
  induction vars generalizing row with
  | nil => simp at h
  | cons w vars ih =>
    cases row with
    | nil => simp at h
    | cons y row =>
      rw [List.map_cons, List.nodup_cons] at hn
      rw [List.zip_cons_cons] at h ⊢
      rcases List.mem_cons.mp h with h | h
      · cases h; simp
      · rw [List.find?_cons]
        have hne : (w.name == v.name) = false := by
          rw [beq_eq_false_iff_ne]
          intro he
          apply hn.1
          rw [he]
          exact List.mem_map.mpr ⟨v, (List.of_mem_zip h).1, rfl⟩
        simp only [hne]
        exact ih hn.2 h

theorem lookup_mem {vars : List Var} {row : List Value} (hn : (vars.map (·.name)).Nodup)
    {v : Var} {x : Value} (h : (v, x) ∈ vars.zip row) :
    lookup vars row v.name = seen vars row v x := by
  unfold lookup; rw [find_zip hn h]

theorem countVal_mem {vars : List Var} {row : List Value} (hn : (vars.map (·.name)).Nodup)
    {v : Var} {n : Nat} (h : (v, Value.val (.word n)) ∈ vars.zip row) :
    countVal vars row v.name = n := by
  unfold countVal; rw [find_zip hn h]

theorem mem_zip_get {α β : Type} {l : List α} {m : List β} {i : Nat} {a : α} {b : β}
    (h1 : l[i]? = some a) (h2 : m[i]? = some b) : (a, b) ∈ l.zip m := by
  apply List.mem_of_getElem? (i := i)
  rw [List.getElem?_zip_eq_some]
  exact ⟨h1, h2⟩

end Verif.RTree.Leaf
