import Verif.Lcio.CellID

/-!
# Cell-ID fields (C51) and their textual forms (C62)
-/

namespace Verif.Lcio

/-- A list of field descriptions a codec string can be made of. -/
def CodecOk (ds : List Desc) : Prop := ds ≠ [] ∧ ds.length ≤ 2 ^ 30 ∧ ∀ d ∈ ds, DescOk d

theorem newBitField64_text {ds : List Desc} (h : CodecOk ds) :
    newBitField64 (codecText ds) = some (fieldsOf (layout 0 ds)) := by
  obtain ⟨h1, h2, h3⟩ := h
  unfold newBitField64
  rw [splitOn_codec h1 h3, parseToks_text ds h3 0 h2 (by simp; omega)]

theorem bitsOf_top_iff (n off w : Nat) (hn : n < 2 ^ 64) (h : off + w ≤ 64) (hw : 0 < w) :
    2 * bitsOf n off w * 2 ^ off < 2 ^ 64 ↔ (off + w < 64 ∨ n < 2 ^ 63) := by
  have hm := bitsOf_lt n off w
  have hp := Nat.two_pow_pos off
  rcases Nat.lt_or_ge (off + w) 64 with hlt | hge
  · refine ⟨fun _ => .inl hlt, fun _ => ?_⟩
    have h1 : bitsOf n off w * 2 ^ off < 2 ^ w * 2 ^ off := Nat.mul_lt_mul_of_pos_right hm hp
    have h2 : (2 : Nat) ^ w * 2 ^ off ≤ 2 ^ 63 := by
      rw [← Nat.pow_add]; exact Nat.pow_le_pow_right (by omega) (by omega)
    rw [Nat.mul_assoc]; omega
  · have e : off + w = 64 := by omega
    have hpow : (2 : Nat) ^ off * 2 ^ w = 2 ^ 64 := by rw [← Nat.pow_add, e]
    have hb : bitsOf n off w = n / 2 ^ off := by
      unfold bitsOf
      apply Nat.mod_eq_of_lt
      rw [Nat.div_lt_iff_lt_mul hp, Nat.mul_comm, hpow]
      exact hn
    rw [hb]
    have hdm := Nat.div_add_mod n (2 ^ off)
    have hr := Nat.mod_lt n hp
    have e2 : 2 * (n / 2 ^ off) * 2 ^ off = 2 * (2 ^ off * (n / 2 ^ off)) := by
      rw [Nat.mul_assoc, Nat.mul_comm (n / 2 ^ off)]
    rw [e2]
    obtain ⟨k, hk⟩ : ∃ k, w = k + 1 := ⟨w - 1, by omega⟩
    have h63 : (2 : Nat) ^ 63 = 2 ^ off * 2 ^ k := by rw [← Nat.pow_add]; congr 1; omega
    constructor
    · intro h1
      right
      have h2 : 2 ^ off * (n / 2 ^ off) < 2 ^ off * 2 ^ k := by omega
      have h3 : n / 2 ^ off < 2 ^ k := Nat.lt_of_mul_lt_mul_left h2
      have h4 : 2 ^ off * (n / 2 ^ off + 1) ≤ 2 ^ off * 2 ^ k := Nat.mul_le_mul_left _ h3
      rw [Nat.mul_add, Nat.mul_one] at h4
      omega
    · rintro (h1 | h1) <;> omega

/-- **C51** (exact extent): the value computed for a field is the value of its bits
exactly when the field ends below bit 63, or bit 63 of the cell id is clear, or the
field is the whole signed word, or its width is zero.  A field reaching bit 63 is wrong
for every cell id with that bit set. -/
theorem C51_value_exact (name : List UInt8) (off : Nat) (width : Int) (n : BitVec 64)
    (h : off + width.natAbs ≤ 64) :
    ((mkField name off width).value n).toInt = fieldSpec n.toNat off width ↔
      (off + width.natAbs < 64 ∨ n.toNat < 2 ^ 63 ∨ width = -64 ∨ width = 0) := by
  by_cases h0 : width = 0
  · subst h0
    refine ⟨fun _ => by simp, fun _ => ?_⟩
    have hz : (mkField name (off : Int) 0).value n = 0#64 := by
      unfold Field.value mkField
      have e : ∀ k, shl 0#64 k = 0#64 := by intro k; unfold shl; split <;> simp
      have e2 : ∀ k, sar 0#64 k = 0#64 := by intro k; unfold sar; split <;> simp
      have e1 : shl 1#64 (shiftCount (iabs 0)) - 1#64 = 0#64 := by decide
      simp only [e1, e, BitVec.and_zero, e2]
      simp
    rw [hz]
    simp [fieldSpec, bitsOf, Nat.mod_one]
  · obtain ⟨h1, h2⟩ := value_cases name off width n h h0
    have ht := bitsOf_top_iff n.toNat off width.natAbs n.isLt h (by omega)
    constructor
    · intro he
      by_contra hc
      simp only [not_or] at hc
      obtain ⟨c1, c2, c3, -⟩ := hc
      refine h2 ?_ c3 he
      apply Nat.not_lt.mp
      rw [ht]; tauto
    · rintro (hc | hc | hc | hc)
      · exact h1 (.inl (ht.mpr (.inl hc)))
      · exact h1 (.inl (ht.mpr (.inr hc)))
      · exact h1 (.inr hc)
      · exact absurd hc h0

/-- **C51** (part): a decoder made from a codec string returns, for the name of a field
(the last one of that name) lying within the lowest 63 bits, or for a hit whose bit 63
is clear, the unsigned or two's complement value of the field's bits in the 64-bit cell
id.  Fields without an offset follow the previous one.  Missing: fields reaching bit 63,
for which the value is wrong, see `C51_value_exact` and the counterexample. -/
theorem C51_get_partial (ds : List Desc) (hds : CodecOk ds) (i : Nat) (name : List UInt8) (off : Nat) (width : Int)
    (hi : (layout 0 ds)[i]? = some (name, (off : Int), width))
    (hlast : ∀ j : Nat, i < j → ∀ x, (layout 0 ds)[j]? = some x → x.1 ≠ name)
    (id0 id1 : BitVec 32) (hfit : off + width.natAbs ≤ 63 ∨ (off + width.natAbs ≤ 64 ∧ id1.toNat < 2 ^ 31)) :
    ∃ fs, newBitField64 (codecText ds) = some fs ∧
      get fs id0 id1 name = some (fieldSpec (id0.toNat + 2 ^ 32 * id1.toNat) off width) := by
  refine ⟨_, newBitField64_text hds, ?_⟩
  have hf : (fieldsOf (layout 0 ds))[i]? = some (mkField name off width) := by
    simp [fieldsOf, List.getElem?_map, hi]
  have hdrop : ∀ g ∈ (fieldsOf (layout 0 ds)).drop (i + 1), g.name ≠ name := by
    intro g hg
    obtain ⟨k, hk⟩ := List.mem_iff_getElem?.mp hg
    rw [List.getElem?_drop] at hk
    simp only [fieldsOf, List.getElem?_map, Option.map_eq_some_iff] at hk
    obtain ⟨x, hx, rfl⟩ := hk
    exact hlast _ (by omega) x hx
  unfold get
  rw [indexFrom_last (name := name) hf rfl hdrop, Nat.zero_add, hf]
  simp only
  have hv := hitValue_toNat id0 id1
  rw [← hv]
  congr 1
  rw [C51_value_exact _ _ _ _ (by omega), hv]
  have := id0.isLt
  omega

/-- The codec `id:48,x:16`, whose second field is the upper 16 bits. -/
def topCodec : List Desc := [⟨[105, 100], none, 48⟩, ⟨[120], none, 16⟩, ⟨[121], some 48, -16⟩]

/-- **C51** fails for fields reaching bit 63: the unsigned field made of the upper 16 bits
of a cell id with all of them set reads as `-1` instead of `65535`, and the signed one as
`-65537` instead of `-1`.  The name of a field that does not exist gives the value of the
first field. -/
theorem C51_top_field_counterexample :
    ∃ fs, newBitField64 (codecText topCodec) = some fs ∧
      get fs 5 0xffff0000 [120] = some (-1) ∧ fieldSpec 0xffff000000000005 48 16 = 65535 ∧
      get fs 5 0xffff0000 [121] = some (-65537) ∧ fieldSpec 0xffff000000000005 48 (-16) = -1 ∧
      get fs 5 0xffff0000 [122] = some 5 := by
  refine ⟨fieldsOf (layout 0 topCodec), newBitField64_text ?_, ?_⟩
  · refine ⟨by decide, by decide, ?_⟩
    intro d hd
    simp only [topCodec, List.mem_cons, List.not_mem_nil, or_false] at hd
    rcases hd with rfl | rfl | rfl
    · exact ⟨by decide, by decide, by decide, by simp⟩
    · exact ⟨by decide, by decide, by decide, by simp⟩
    · exact ⟨by decide, by decide, by decide, by intro o ho; simp at ho; subst ho; decide⟩
  · decide +kernel

/-! ## Textual forms -/

theorem layout_length (ds : List Desc) (c : Int) : (layout c ds).length = ds.length := by
  induction ds generalizing c with
  | nil => rfl
  | cons d ds ih => simp [layout, ih]

theorem layout_names (ds : List Desc) (c : Int) : ∀ x ∈ layout c ds, ∃ d ∈ ds, x.1 = d.name ∧ x.2.2 = d.width := by
  induction ds generalizing c with
  | nil => simp [layout]
  | cons d ds ih =>
    intro x hx
    rcases List.mem_cons.mp hx with rfl | hx
    · exact ⟨d, by simp, rfl, rfl⟩
    · obtain ⟨e, he, h⟩ := ih _ x hx
      exact ⟨e, by simp [he], h⟩

/-- The explicit description of a layout. -/
def explicitDescs (l : List (List UInt8 × Int × Int)) : List Desc := l.map fun x => ⟨x.1, some x.2.1, x.2.2⟩

theorem mkField_signed_width (name : List UInt8) (o w : Int) (h : w.natAbs ≤ 2 ^ 31) :
    (if (mkField name o w).signed then i64 (-(mkField name o w).width) else (mkField name o w).width) = w := by
  simp only [mkField, decide_eq_true_eq]
  rw [iabs_small _ (by omega)]
  split
  · rw [i64_small _ (by omega) (by omega)]; omega
  · omega

theorem description_text (l : List (List UInt8 × Int × Int)) (h : ∀ x ∈ l, x.2.2.natAbs ≤ 2 ^ 31) :
    description (fieldsOf l) = codecText (explicitDescs l) := by
  induction l with
  | nil => rfl
  | cons x l ih =>
    have hx := mkField_signed_width x.1 x.2.1 x.2.2 (h x (by simp))
    have ih := ih (fun y hy => h y (by simp [hy]))
    cases l with
    | nil =>
      simp only [fieldsOf, List.map_cons, List.map_nil, description, explicitDescs, codecText, Desc.text]
      rw [hx]; rfl
    | cons y l =>
      simp only [fieldsOf, List.map_cons, description, explicitDescs, codecText, Desc.text] at ih ⊢
      rw [hx, ih]; rfl

theorem layout_explicit (l : List (List UInt8 × Int × Int)) (c : Int) : layout c (explicitDescs l) = l := by
  induction l generalizing c with
  | nil => rfl
  | cons x l ih => simp only [explicitDescs, List.map_cons, layout, Option.getD_some]; rw [← explicitDescs, ih]

/-- **C62**: the description of the fields of a codec, given back as a codec, has the same
fields. -/
theorem C62_description (ds : List Desc) (hds : CodecOk ds)
    (hoff : ∀ x ∈ layout 0 ds, x.2.1.natAbs ≤ 2 ^ 31) :
    ∃ fs, newBitField64 (codecText ds) = some fs ∧ newBitField64 (description fs) = some fs := by
  refine ⟨_, newBitField64_text hds, ?_⟩
  have hw : ∀ x ∈ layout 0 ds, x.2.2.natAbs ≤ 2 ^ 31 := by
    intro x hx
    obtain ⟨d, hd, -, e⟩ := layout_names ds 0 x hx
    rw [e]; exact (hds.2.2 d hd).2.2.1
  rw [description_text _ hw, newBitField64_text, layout_explicit]
  refine ⟨?_, ?_, ?_⟩
  · intro hc
    have : (layout 0 ds).length = 0 := by
      rw [← List.length_map (f := fun x => (⟨x.1, some x.2.1, x.2.2⟩ : Desc))]
      exact congrArg List.length hc
    rw [layout_length] at this
    exact hds.1 (List.length_eq_zero_iff.mp this)
  · simp only [explicitDescs, List.length_map, layout_length]
    exact hds.2.1
  · intro d hd
    obtain ⟨x, hx, rfl⟩ := List.mem_map.mp hd
    obtain ⟨e, he, h1, h2⟩ := layout_names ds 0 x hx
    have hde := hds.2.2 e he
    refine ⟨by rw [h1]; exact hde.1, by rw [h1]; exact hde.2.1, hw x hx, ?_⟩
    intro o ho
    simp only [Option.some.injEq] at ho
    subst ho
    exact hoff x hx

/-- **C62** (values): splitting the text of a cell id at the commas gives one item per field,
in order, made of the field's name, a colon and the value of its bits in decimal, for
fields within the lowest 63 bits. -/
theorem C62_value_string (ds : List Desc) (hds : CodecOk ds)
    (hfit : ∀ x ∈ layout 0 ds, 0 ≤ x.2.1 ∧ x.2.1 + x.2.2.natAbs ≤ 63) (n : BitVec 64) :
    ∃ fs, newBitField64 (codecText ds) = some fs ∧
      splitOn 44 (valueString n fs) =
        (layout 0 ds).map fun x => x.1 ++ 58 :: intEnc (fieldSpec n.toNat x.2.1.toNat x.2.2) := by
  refine ⟨_, newBitField64_text hds, ?_⟩
  have hne : layout 0 ds ≠ [] := by
    intro hc
    have := layout_length ds 0
    rw [hc] at this
    exact hds.1 (List.length_eq_zero_iff.mp this.symm)
  have hnames : ∀ x ∈ layout 0 ds, (44 : UInt8) ∉ x.1 := by
    intro x hx
    obtain ⟨d, hd, h1, -⟩ := layout_names ds 0 x hx
    rw [h1]; exact (hds.2.2 d hd).1
  have hs : ∀ z, (44 : UInt8) ∉ intEnc z := not_mem_intEnc (by decide) (by decide)
  generalize layout 0 ds = l at hfit hne hnames
  have hval : ∀ x ∈ l, ((mkField x.1 x.2.1 x.2.2).value n).toInt = fieldSpec n.toNat x.2.1.toNat x.2.2 := by
    intro x hx
    obtain ⟨h1, h2⟩ := hfit x hx
    have e : x.2.1 = (x.2.1.toNat : Int) := by omega
    have := (C51_value_exact x.1 x.2.1.toNat x.2.2 n (by omega)).mpr (.inl (by omega))
    rw [← e] at this
    exact this
  induction l with
  | nil => exact absurd rfl hne
  | cons x l ih =>
    have hitem : (44 : UInt8) ∉ x.1 ++ 58 :: intEnc (fieldSpec n.toNat x.2.1.toNat x.2.2) := by
      simp [hnames x (by simp), hs]
    cases l with
    | nil =>
      simp only [fieldsOf, List.map_cons, List.map_nil, valueString]
      rw [hval x (by simp)]
      exact splitOn_no_sep _ _ hitem
    | cons y l =>
      have ih := ih (fun z hz => hfit z (by simp [hz])) (by simp) (fun z hz => hnames z (by simp [hz]))
        (fun z hz => hval z (by simp [hz]))
      simp only [fieldsOf, List.map_cons, valueString] at ih ⊢
      rw [hval x (by simp)]
      refine (splitOn_append _ _ _ hitem).trans ?_
      rw [ih]

/-! ## Examples -/

/-- The codec `a:4,b:-3,c:32:16`. -/
def exCodec : List Desc := [⟨[97], none, 4⟩, ⟨[98], none, -3⟩, ⟨[99], some 32, 16⟩]

theorem exCodec_ok : CodecOk exCodec := by
  refine ⟨by decide, by decide, ?_⟩
  intro d hd
  simp only [exCodec, List.mem_cons, List.not_mem_nil, or_false] at hd
  rcases hd with rfl | rfl | rfl
  · exact ⟨by decide, by decide, by decide, by simp⟩
  · exact ⟨by decide, by decide, by decide, by simp⟩
  · exact ⟨by decide, by decide, by decide, by intro o ho; simp at ho; subst ho; decide⟩

example : codecText exCodec = "a:4,b:-3,c:32:16".toUTF8.toList := by decide +kernel

example : ∃ fs, newBitField64 (codecText exCodec) = some fs ∧
    get fs 0x5f 0x1234 [98] = some (-3) := by
  obtain ⟨fs, h1, h2⟩ := C51_get_partial exCodec exCodec_ok 1 [98] 4 (-3) rfl
    (by intro j hj x hx
        match j, hj, hx with
        | 2, _, hx => simp [exCodec, layout] at hx; subst hx; decide
        | n + 3, _, hx => simp [exCodec, layout] at hx) 0x5f 0x1234 (by decide)
  exact ⟨fs, h1, by rw [h2]; decide⟩

example : ∃ fs, newBitField64 (codecText exCodec) = some fs ∧ newBitField64 (description fs) = some fs :=
  C62_description exCodec exCodec_ok (by decide)

example : ∃ fs, newBitField64 (codecText exCodec) = some fs ∧
    splitOn 44 (valueString 0x12340000005f#64 fs) = ["a:15".toUTF8.toList, "b:-3".toUTF8.toList, "c:4660".toUTF8.toList] := by
  obtain ⟨fs, h1, h2⟩ := C62_value_string exCodec exCodec_ok (by decide) 0x12340000005f#64
  exact ⟨fs, h1, by rw [h2]; decide +kernel⟩

example : ((mkField [120] (48 : Nat) 16).value 0x7fff000000000000#64).toInt = 32767 := by decide

end Verif.Lcio
