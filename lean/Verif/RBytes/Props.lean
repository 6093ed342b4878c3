import Verif.RBytes.Lemmas

/-!
# Properties of the ROOT buffers (C01–C05, C57, C58)

Specifications used below:
* `w.bytes`: what `WBuffer.Bytes()` returns;
* `WBuf.Healthy w`: position inside the slice and no error (true of `NewWBuffer`
  and preserved by every successful write);
* a reader positioned at `pos` over `data` is `readerAt data hid pos off`.
-/

namespace Verif.RBytes

/-- Healthy writer. -/
def WBuf.Healthy (w : WBuf) : Prop := w.c ≤ w.p.length ∧ w.err = false

/-- A reader without error, over `data` (spare capacity `hid`), at index `pos`. -/
def readerAt (data hid : List UInt8) (pos off : Nat) : RBuf := ⟨data, hid, pos, off, false⟩

/-- Width in bytes of a value of the given kind. -/
def Kind.width : Kind → Nat
  | .bool | .u8 | .i8 => 1
  | .u16 | .i16 => 2
  | .u32 | .i32 | .f32 => 4
  | .u64 | .i64 | .f64 => 8

/-- The zero value of a kind. -/
def Kind.zero : Kind → Prim
  | .bool => .bool false
  | .u8 => .u8 0 | .u16 => .u16 0 | .u32 => .u32 0 | .u64 => .u64 0
  | .i8 => .i8 0 | .i16 => .i16 0 | .i32 => .i32 0 | .i64 => .i64 0
  | .f32 => .f32 0 | .f64 => .f64 0

theorem WBuf.Healthy.wf {w : WBuf} (h : w.Healthy) : w.WF := ⟨h.1, h.2⟩

/-- A freshly created buffer is healthy. -/
theorem newWBuffer_healthy (data : List UInt8) (off : Nat) (junk : Nat → UInt8) :
    (newWBuffer data off junk).Healthy := ⟨Nat.zero_le _, rfl⟩

/-! ## From byte-level lemmas to round-trip statements -/

/-- Round trip of one write operation against one read operation, whatever was
written before (`w`), whatever follows (`post`) and whatever offset is used. -/
def RoundTrip (wr : WBuf → Option WBuf) (rd : RBuf → Option (α × RBuf)) (v : α) : Prop :=
  ∀ w : WBuf, w.Healthy →
    ∃ w', wr w = some w' ∧ w'.Healthy ∧ w.bytes <+: w'.bytes ∧
      ∀ post hid off, rd (readerAt (w'.bytes ++ post) hid w.bytes.length off)
        = some (v, readerAt (w'.bytes ++ post) hid w'.bytes.length off)

theorem roundTrip_of {wr : WBuf → Option WBuf} {rd : RBuf → Option (α × RBuf)} {v : α}
    {bs : List UInt8} (h1 : Appends wr bs) (h2 : Parses rd bs v) : RoundTrip wr rd v := by
  intro w hw
  obtain ⟨w', e, hwf, hb, ho⟩ := h1 w hw.wf
  refine ⟨w', e, ⟨hwf.1, hwf.2⟩, ⟨bs, hb.symm⟩, ?_⟩
  intro post hid off
  have := h2 w.bytes post hid off
  rw [hb]
  simpa [readerAt] using this

/-- Bytes of a primitive. -/
def primEnc : Prim → List UInt8
  | .bool v => [if v then 1 else 0]
  | .u8 v => beEnc 1 v.toNat | .i8 v => beEnc 1 v.toNat
  | .u16 v => beEnc 2 v.toNat | .i16 v => beEnc 2 v.toNat
  | .u32 v => beEnc 4 v.toNat | .i32 v => beEnc 4 v.toNat | .f32 v => beEnc 4 v.toNat
  | .u64 v => beEnc 8 v.toNat | .i64 v => beEnc 8 v.toNat | .f64 v => beEnc 8 v.toNat

theorem writePrim_appends (v : Prim) : Appends (WBuf.writePrim v) (primEnc v) := by
  cases v <;> first | exact writeBool_appends _ | exact writeBE_appends _ _

theorem readPrim_parses (v : Prim) : Parses (RBuf.readPrim v.kind) (primEnc v) v := by
  have hbv : ∀ {n} (v : BitVec n), BitVec.ofNat n v.toNat = v := by intro n v; simp
  cases v with
  | bool v => exact (readBool_parses v).map Prim.bool
  | u8 v =>
    have := (readU8_parses_enc (n := v.toNat) v.isLt).map (fun n => Prim.u8 (BitVec.ofNat 8 n))
    rwa [hbv] at this
  | i8 v =>
    have := (readU8_parses_enc (n := v.toNat) v.isLt).map (fun n => Prim.i8 (BitVec.ofNat 8 n))
    rwa [hbv] at this
  | u16 v =>
    have := (readBE_parses_enc (k := 2) (n := v.toNat) v.isLt).map (fun n => Prim.u16 (BitVec.ofNat 16 n))
    rwa [hbv] at this
  | i16 v =>
    have := (readBE_parses_enc (k := 2) (n := v.toNat) v.isLt).map (fun n => Prim.i16 (BitVec.ofNat 16 n))
    rwa [hbv] at this
  | u32 v =>
    have := (readBE_parses_enc (k := 4) (n := v.toNat) v.isLt).map (fun n => Prim.u32 (BitVec.ofNat 32 n))
    rwa [hbv] at this
  | i32 v =>
    have := (readBE_parses_enc (k := 4) (n := v.toNat) v.isLt).map (fun n => Prim.i32 (BitVec.ofNat 32 n))
    rwa [hbv] at this
  | f32 v =>
    have := (readBE_parses_enc (k := 4) (n := v.toNat) v.isLt).map (fun n => Prim.f32 (BitVec.ofNat 32 n))
    rwa [hbv] at this
  | u64 v =>
    have := (readBE_parses_enc (k := 8) (n := v.toNat) v.isLt).map (fun n => Prim.u64 (BitVec.ofNat 64 n))
    rwa [hbv] at this
  | i64 v =>
    have := (readBE_parses_enc (k := 8) (n := v.toNat) v.isLt).map (fun n => Prim.i64 (BitVec.ofNat 64 n))
    rwa [hbv] at this
  | f64 v =>
    have := (readBE_parses_enc (k := 8) (n := v.toNat) v.isLt).map (fun n => Prim.f64 (BitVec.ofNat 64 n))
    rwa [hbv] at this

theorem writePrims_appends (vs : List Prim) :
    Appends (WBuf.writePrims vs) ((vs.map primEnc).flatten) := by
  induction vs with
  | nil => exact nil_appends
  | cons v vs ih => exact seq_appends (writePrim_appends v) ih

theorem readPrims_parses (vs : List Prim) :
    Parses (RBuf.readPrims (vs.map Prim.kind)) ((vs.map primEnc).flatten) vs := by
  induction vs with
  | nil => exact Parses.pure _
  | cons v vs ih =>
    have := (readPrim_parses v).bind
      (g := fun q r => (r.readPrims (vs.map Prim.kind)).bind fun s => some (q :: s.1, s.2))
      (ih.map (fun s => v :: s))
    exact this

/-! ## C01 -/

/-- **C01**: any sequence of primitive values reads back unchanged. -/
theorem C01_primitive_sequence_roundtrip (vs : List Prim) :
    RoundTrip (WBuf.writePrims vs) (RBuf.readPrims (vs.map Prim.kind)) vs :=
  roundTrip_of (writePrims_appends vs) (readPrims_parses vs)

/-- A concrete instance: values at the edges of their types, written after an
existing byte; the hypotheses of C01 hold. -/
example : ({ p := [7, 9], c := 1, offset := 3, err := false, junk := fun _ => 42 } : WBuf).Healthy ∧
    (WBuf.writePrims [.i16 (-2), .bool true, .f64 0x7ff8000000000001]
      { p := [7, 9], c := 1, offset := 3, err := false, junk := fun _ => 42 }).map WBuf.bytes
    = some [7, 0xff, 0xfe, 1, 0x7f, 0xf8, 0, 0, 0, 0, 0, 1] := by
  refine ⟨⟨by decide, rfl⟩, by decide⟩

/-! ## C02 -/

/-- **C02** (part): a string that does not start with a NUL byte and is shorter
than 4 GiB reads back unchanged. Missing: strings starting with NUL, for which
the claim is false (`C02_leading_nul_counterexample`). -/
theorem C02_string_roundtrip_partial (v : List UInt8) (hlen : v.length < 2 ^ 32)
    (h0 : v.head? ≠ some 0) : RoundTrip (WBuf.writeString v) RBuf.readString v :=
  roundTrip_of (writeString_appends v) (readString_parses v hlen h0)

/-- A 300-byte string (long encoding) meets the hypotheses. -/
example : (List.replicate 300 (65 : UInt8)).length < 2 ^ 32 ∧
    (List.replicate 300 (65 : UInt8)).head? ≠ some 0 := by
  constructor
  · rw [List.length_replicate]; decide
  · rw [List.head?_replicate]; decide

/-- The string `"\x00ab"` reads back as the empty string and leaves the reader in
the middle of its bytes. -/
theorem C02_leading_nul_counterexample :
    ∃ w', (newWBuffer [] 0 (fun _ => 0)).writeString [0, 97, 98] = some w' ∧ w'.err = false ∧
      RBuf.readString (readerAt w'.bytes [] 0 0) = some ([], readerAt w'.bytes [] 2 0) ∧
      w'.bytes.length = 4 := by
  refine ⟨_, rfl, rfl, by decide, by decide⟩

/-! ## C03 -/

/-- **C03**, one object: after `WriteHeader`, any payload and `SetHeader`, the
reader gets back the version, and `CheckHeader` at index `c` succeeds exactly if
`c` is the first byte after the payload. The payload is any write operation that
appends bytes. Domain: versions without the member-wise bit, at most the
accepted maximum; payloads below 1 GiB (the width of the byte count). -/
theorem C03_header_delimits_payload (vers : BitVec 16) (hv : vers &&& streamedMemberWise = 0)
    (vmax : Int) (hm : vmax < 0 ∨ vers.toInt ≤ vmax)
    (body : WBuf → Option WBuf) (bs : List UInt8)
    (hbody : ∀ w : WBuf, w.Healthy → ∃ w', body w = some w' ∧ w'.Healthy ∧
      w'.bytes = w.bytes ++ bs ∧ w'.offset = w.offset)
    (hlen : bs.length + 2 < 2 ^ 30) (w : WBuf) (hw : w.Healthy) :
    ∃ w', ((w.writeHeader vers).bind fun q => (body q.2).bind fun w => w.setHeader q.1) = some w' ∧
      w'.Healthy ∧ w'.bytes.length = w.bytes.length + 6 + bs.length ∧
      w.bytes <+: w'.bytes ∧ bs <:+ w'.bytes ∧
      ∀ post hid off, ∃ hdr,
        (readerAt (w'.bytes ++ post) hid w.bytes.length off).readHeader vmax
          = some (hdr, readerAt (w'.bytes ++ post) hid (w.bytes.length + 6) off) ∧
        hdr.vers = vers ∧
        ∀ c, ((readerAt (w'.bytes ++ post) hid c off).checkHeader hdr).err = false
          ↔ c = w'.bytes.length := by
  have hA : Appends body bs := by
    intro w h
    obtain ⟨w', a, b, c, d⟩ := hbody w ⟨h.1, h.2⟩
    exact ⟨w', a, b.wf, c, d⟩
  obtain ⟨w', e, hwf, hb, ho⟩ := object_appends vers hA hlen w hw.wf
  have hl : w'.bytes.length = w.bytes.length + 6 + bs.length := by
    rw [hb]; simp [hdrEnc]; omega
  refine ⟨w', e, ⟨hwf.1, hwf.2⟩, hl, ⟨_, hb.symm⟩, ?_, ?_⟩
  · rw [hb, ← List.append_assoc]; exact List.suffix_append _ _
  intro post hid off
  refine ⟨⟨vers, w.bytes.length + off, BitVec.ofNat 32 (bs.length + 2), false⟩, ?_, rfl, ?_⟩
  · have := readHeader_parses vmax vers bs.length hlen hv hm w.bytes (bs ++ post) hid off
    rw [hb]
    simpa [readerAt] using this
  · intro c
    rw [checkHeader_ok hlen _ _ _ rfl, hl]
    simp [readerAt, RBuf.pos]
    omega

/-- The hypotheses of `C03_header_delimits_payload` are met by a payload of two
values and version 3 with maximum version 4. -/
example : (3#16 &&& streamedMemberWise = 0) ∧ ((4 : Int) < 0 ∨ (3#16).toInt ≤ 4) ∧
    (∀ w : WBuf, w.Healthy → ∃ w', WBuf.writePrims [.u8 1, .i32 (-1)] w = some w' ∧ w'.Healthy ∧
      w'.bytes = w.bytes ++ [1, 0xff, 0xff, 0xff, 0xff] ∧ w'.offset = w.offset) := by
  refine ⟨by decide, by decide, ?_⟩
  intro w hw
  obtain ⟨w', a, b, c, d⟩ := writePrims_appends [.u8 1, .i32 (-1)] w hw.wf
  exact ⟨w', a, ⟨b.1, b.2⟩, c, d⟩

mutual
/-- Composite values covered by the nesting theorem: strings as in C02, versions
without the member-wise bit, every object below 1 GiB. -/
def Item.Ok : Item → Prop
  | .val _ => True
  | .str v => v.length < 2 ^ 32 ∧ v.head? ≠ some 0
  | .obj vers body => vers &&& streamedMemberWise = 0 ∧ Item.sizes body + 2 < 2 ^ 30 ∧ Item.Oks body
def Item.Oks : List Item → Prop
  | [] => True
  | i :: is => i.Ok ∧ Item.Oks is
/-- Number of bytes of a composite value on disk. -/
def Item.size : Item → Nat
  | .val v => v.kind.width
  | .str v => if v.length < 255 then 1 + v.length else 5 + v.length
  | .obj _ body => 6 + Item.sizes body
def Item.sizes : List Item → Nat
  | [] => 0
  | i :: is => i.size + Item.sizes is
end

theorem length_primEnc (v : Prim) : (primEnc v).length = v.kind.width := by
  cases v <;> simp [primEnc, Prim.kind, Kind.width]

mutual
theorem item_codec : ∀ i : Item, i.Ok →
    ∃ bs : List UInt8, bs.length = i.size ∧ Appends (writeItem i) bs ∧ Parses (readItem i.shape) bs i
  | .val v, _ => ⟨primEnc v, length_primEnc v, writePrim_appends v,
      (readPrim_parses v).map Item.val⟩
  | .str v, h => ⟨strEnc v, by simp only [strEnc, Item.size]; split <;> simp <;> omega,
      writeString_appends v, (readString_parses v h.1 h.2).map Item.str⟩
  | .obj vers body, h => by
    obtain ⟨bs, hl, ha, hp⟩ := items_codec body h.2.2
    have hsz : bs.length + 2 < 2 ^ 30 := by rw [hl]; exact h.2.1
    refine ⟨hdrEnc vers bs.length ++ bs, by simp [hdrEnc, Item.size, hl]; omega,
      object_appends vers ha hsz, ?_⟩
    intro pre post hid off
    have h1 := readHeader_parses (-1) vers bs.length hsz h.1 (by omega) pre (bs ++ post) hid off
    have h2 := hp (pre ++ hdrEnc vers bs.length) post hid off
    have hl6 : (hdrEnc vers bs.length).length = 6 := by simp [hdrEnc]
    simp only [List.append_assoc, List.length_append, hl6] at h1 h2 ⊢
    simp only [Item.shape, readItem, h1, Option.bind_some, h2]
    rw [checkHeader_eq hsz _ _ _ rfl (by simp [RBuf.pos]; omega)]
    simp; omega
theorem items_codec : ∀ is : List Item, Item.Oks is →
    ∃ bs : List UInt8, bs.length = Item.sizes is ∧ Appends (writeItems is) bs ∧
      Parses (readItems (Item.shapes is)) bs is
  | [], _ => ⟨[], rfl, nil_appends, Parses.pure _⟩
  | i :: is, h => by
    obtain ⟨b1, l1, a1, p1⟩ := item_codec i h.1
    obtain ⟨b2, l2, a2, p2⟩ := items_codec is h.2
    refine ⟨b1 ++ b2, by simp [l1, l2, Item.sizes], seq_appends a1 a2, ?_⟩
    have := p1.bind (g := fun q r => (readItems (Item.shapes is) r).bind fun s => some (q :: s.1, s.2))
      (p2.map (fun s => i :: s))
    exact this
end

/-- **C03**, nesting: arbitrarily nested objects with primitive and string members
read back unchanged, every byte count checks, and the size on disk is exact. -/
theorem C03_nested_objects_roundtrip (i : Item) (h : i.Ok) :
    RoundTrip (writeItem i) (readItem i.shape) i ∧
    ∀ w : WBuf, w.Healthy → ∀ w', writeItem i w = some w' → w'.bytes.length = w.bytes.length + i.size := by
  obtain ⟨bs, hl, ha, hp⟩ := item_codec i h
  refine ⟨roundTrip_of ha hp, ?_⟩
  intro w hw w' e
  obtain ⟨w'', e', _, hb, _⟩ := ha w hw.wf
  rw [e] at e'
  cases e'
  rw [hb, List.length_append, hl]

/-- A nested object meeting the hypotheses. -/
example : (Item.obj 2 [.val (.u8 1), .obj 5 [.str [104, 105], .val (.i64 (-1))], .str []]).Ok := by
  simp [Item.Ok, Item.Oks, Item.size, Item.sizes, Kind.width, Prim.kind, streamedMemberWise]

/-- The 1 GiB bound is sharp: for every payload of 2^30-2 bytes, writing succeeds,
but the header read back has length zero and `CheckHeader` accepts every position. -/
theorem C03_size_limit_counterexample (vers : BitVec 16) (hv : vers &&& streamedMemberWise = 0)
    (body : WBuf → Option WBuf) (bs : List UInt8) (hbody : Appends body bs)
    (hlen : bs.length = 2 ^ 30 - 2) (w : WBuf) (hw : w.Healthy) :
    ∃ w', ((w.writeHeader vers).bind fun q => (body q.2).bind fun w => w.setHeader q.1) = some w' ∧
      w'.Healthy ∧ ∀ post hid off, ∃ hdr r,
        (readerAt (w'.bytes ++ post) hid w.bytes.length off).readHeader (-1) = some (hdr, r) ∧
        ∀ c, ((readerAt (w'.bytes ++ post) hid c off).checkHeader hdr).err = false := by
  have h := hw.wf
  obtain ⟨w1, e1, h1, b1, o1⟩ := writeHeader_spec vers h
  obtain ⟨w2, e2, h2, b2, o2⟩ := hbody w1 h1
  have hpos : w.pos = w.bytes.length + w2.offset := by
    rw [WBuf.length_bytes h, o2, o1]; rfl
  obtain ⟨w3, e3, h3, b3, o3⟩ := setHeader_spec h2 vers w.bytes (beEnc 4 0)
    (beEnc 2 vers.toNat ++ bs) (by simp) (by rw [b2, b1]; simp) (by simp; omega)
  have hn : (beEnc 2 vers.toNat ++ bs).length = 2 ^ 30 := by simp; omega
  rw [hn] at b3
  refine ⟨w3, ?_, ⟨h3.1, h3.2⟩, ?_⟩
  · simp only [e1, Option.bind_some, e2]
    rw [hpos]; exact e3
  intro post hid off
  have p1 := (readBE_parses_enc (k := 4) (n := 2 ^ 30 ||| 2 ^ 30) (by decide)) w.bytes
    (beEnc 2 vers.toNat ++ (bs ++ post)) hid off
  have p2 := (readBE_parses_enc (k := 2) (n := vers.toNat) (by have := vers.isLt; omega))
    (w.bytes ++ beEnc 4 (2 ^ 30 ||| 2 ^ 30)) (bs ++ post) hid off
  simp only [List.append_assoc, List.length_append, length_beEnc] at p1 p2
  refine ⟨⟨vers, w.bytes.length + off, 0, false⟩,
    readerAt (w3.bytes ++ post) hid (w.bytes.length + 4 + 2) off, ?_, ?_⟩
  · unfold RBuf.readHeader readerAt
    simp only [Bool.false_eq_true, if_false, Option.bind_eq_bind, b3, List.append_assoc, p1, p2,
      Option.bind_some]
    rw [if_pos (by decide)]
    rw [show BitVec.ofNat 32 (2 ^ 30 ||| 2 ^ 30) &&& ~~~ kByteCountMask = 0 by decide]
    simp only [Option.bind_some, BitVec.ofNat_toNat, BitVec.setWidth_eq, hv, ne_eq,
      not_true_eq_false, if_false, decide_false]
    rw [if_neg (by omega)]
    simp [RBuf.pos]
  · intro c
    simp [readerAt, RBuf.checkHeader]

/-! ## C04 -/

/-- **C04** (part): with no spare capacity behind the slice, reading a primitive
from too few remaining bytes fails (run-time panic) instead of returning a value.
Missing: slices with spare capacity, see `C04_spare_capacity_counterexample`. -/
theorem C04_truncated_primitive_fails_partial (k : Kind) (data : List UInt8) (pos off : Nat)
    (h : data.length < pos + k.width) : (readerAt data [] pos off).readPrim k = none := by
  have hs : ∀ n, data.length < pos + n → (readerAt data [] pos off).readBE n = none := by
    intro n hn
    simp [readerAt, RBuf.readBE, RBuf.slice, Nat.not_le.mpr hn]
  have h1 : data.length < pos + 1 → (readerAt data [] pos off).readU8 = none := by
    intro hn
    simp [readerAt, RBuf.readU8, List.getElem?_eq_none (by omega : data.length ≤ pos)]
  have h2 : data.length < pos + 1 → (readerAt data [] pos off).readBool = none := by
    intro hn
    simp [readerAt, RBuf.readBool, List.getElem?_eq_none (by omega : data.length ≤ pos)]
  cases k <;> simp only [Kind.width] at h <;> simp only [RBuf.readPrim] <;>
    first | rw [hs _ h]; rfl | rw [h1 h]; rfl | rw [h2 h]; rfl

example : [1, 2, 3].length < 1 + Kind.u32.width := by decide

/-- With spare capacity behind the slice, a truncated 32-bit read returns a value
made of bytes that do not belong to the data. -/
theorem C04_spare_capacity_counterexample :
    (readerAt [1, 2] [3, 4] 0 0).readPrim .u32
      = some (.u32 0x01020304, readerAt [1, 2] [3, 4] 4 0) := by decide

/-- A truncated string is silently padded with NUL bytes: no failure, no error. -/
theorem C04_truncated_string_counterexample :
    (readerAt [5, 97, 98] [] 0 0).readString
      = some ([97, 98, 0, 0, 0], readerAt [5, 97, 98] [] 3 0) := by decide

/-- **C04**, sticky errors: in the error state every read returns the zero value and
leaves the buffer (position and error included) as it is. -/
theorem C04_error_state_is_sticky (r : RBuf) (h : r.err = true) :
    (∀ k, r.readPrim k = some (k.zero, r)) ∧ r.readString = some ([], r) ∧
    (∀ n, r.readCString n = some ([], r)) ∧
    (∀ k n, r.readArray k n = some (List.replicate n 0, r)) ∧
    (∀ n, r.readArrayString n = some (List.replicate n [], r)) ∧
    (∀ hdr, r.checkHeader hdr = r) := by
  refine ⟨?_, ?_, ?_, ?_, ?_, ?_⟩
  · intro k
    cases k <;> simp [RBuf.readPrim, RBuf.readBool, RBuf.readU8, RBuf.readBE, h, Kind.zero]
  all_goals intros; simp [RBuf.readString, RBuf.readCString, RBuf.readArray, RBuf.readArrayString,
    RBuf.checkHeader, h]

example : (RBuf.mk [1, 2, 3] [] 1 0 true).err = true := rfl

/-! ## C05 -/

/-- **C05**: arrays of `k`-byte elements (1, 2, 4 or 8) read back unchanged. -/
theorem C05_array_roundtrip (k : Nat) (hk : 0 < k) (ns : List Nat) (h : ∀ n ∈ ns, n < 256 ^ k) :
    RoundTrip (WBuf.writeArray k ns) (RBuf.readArray k ns.length) ns :=
  roundTrip_of (writeArray_appends k ns) (readArray_parses hk ns h)

example : ∀ n ∈ [0, 65535, 258], n < 256 ^ 2 := by decide

/-! ## C57: slices of strings -/

theorem writeStringNoGrow_spec {w : WBuf} (h : w.WF) (v : List UInt8)
    (hr : w.c + strlen v ≤ w.p.length) (hs : v ≠ [] ∨ w.c + 1 < w.p.length) :
    ∃ w', w.writeStringNoGrow v = some w' ∧ w'.WF ∧ w'.bytes = w.bytes ++ strEnc v ∧
      w'.offset = w.offset ∧ w'.p.length = w.p.length + v.length ∧ w'.c = w.c + strlen v := by
  unfold WBuf.writeStringNoGrow strEnc
  simp only [h.no_err, Bool.false_eq_true, if_false]
  unfold strlen at *
  split
  · rename_i hl
    simp only [hl, if_true] at hr
    obtain ⟨w1, e1, h1, b1, o1, l1, c1⟩ := WBuf.put_spec h (beEnc 1 v.length) (by simp; omega)
    obtain ⟨a, b, c, d, e⟩ := WBuf.write_spec h1 v (by
      rcases hs with hs | hs
      · exact Or.inl hs
      · right; simp at c1; omega)
    simp only [Option.bind_eq_bind, e1, Option.bind_some]
    refine ⟨_, rfl, a, by rw [b, b1]; simp, by rw [c, o1], by rw [d, l1], ?_⟩
    rw [e, c1]; simp; omega
  · rename_i hl
    simp only [hl, if_false] at hr
    obtain ⟨w1, e1, h1, b1, o1, l1, c1⟩ := WBuf.put_spec h (beEnc 1 255) (by simp; omega)
    obtain ⟨w2, e2, h2, b2, o2, l2, c2⟩ := WBuf.put_spec h1 (beEnc 4 v.length)
      (by simp at c1 ⊢; omega)
    obtain ⟨a, b, c, d, e⟩ := WBuf.write_spec h2 v
      (Or.inl (List.ne_nil_of_length_pos (by omega)))
    simp only [Option.bind_eq_bind, e1, e2, Option.bind_some]
    refine ⟨_, rfl, a, by rw [b, b2, b1]; simp, by rw [c, o2, o1], by rw [d, l2, l1], ?_⟩
    rw [e, c2, c1]; simp; omega

theorem le_sum_of_mem {n : Nat} {ns : List Nat} (h : n ∈ ns) : n ≤ ns.sum := by
  induction ns with
  | nil => simp at h
  | cons m ms ih =>
    rcases List.mem_cons.mp h with rfl | h
    · simp
    · have := ih h; simp; omega

theorem strlen_pos (v : List UInt8) : 0 < strlen v := by unfold strlen; split <;> omega

theorem writeStringsNoGrow_spec (vs : List (List UInt8)) (w : WBuf) (h : w.WF)
    (hr : w.c + (vs.map strlen).sum ≤ w.p.length)
    (hs : vs = [] ∨ (∃ v ∈ vs, v ≠ []) ∨ w.c + (vs.map strlen).sum < w.p.length) :
    ∃ w', w.writeStringsNoGrow vs = some w' ∧ w'.WF ∧
      w'.bytes = w.bytes ++ (vs.map strEnc).flatten ∧ w'.offset = w.offset := by
  induction vs generalizing w with
  | nil => exact ⟨w, rfl, h, by simp, rfl⟩
  | cons v vs ih =>
    simp only [List.map_cons, List.sum_cons] at hr hs
    have hex : v ≠ [] ∨ w.c + 1 < w.p.length := by
      by_cases hv : v = []
      · right
        subst hv
        have h1 : strlen [] = 1 := rfl
        rcases hs with hs | ⟨u, hu, hne⟩ | hs
        · simp at hs
        · rcases List.mem_cons.mp hu with rfl | hu
          · exact absurd rfl hne
          · have : strlen u ≤ (vs.map strlen).sum := le_sum_of_mem (List.mem_map_of_mem hu)
            have := strlen_pos u
            omega
        · omega
      · exact Or.inl hv
    obtain ⟨w1, e1, h1, b1, o1, l1, c1⟩ := writeStringNoGrow_spec h v (by omega) hex
    obtain ⟨w2, e2, h2, b2, o2⟩ := ih w1 h1 (by omega) (by
      by_cases hv : v = []
      · subst hv
        rcases hs with hs | ⟨u, hu, hne⟩ | hs
        · simp at hs
        · rcases List.mem_cons.mp hu with rfl | hu
          · exact absurd rfl hne
          · exact Or.inr (Or.inl ⟨u, hu, hne⟩)
        · right; right; omega
      · have : 0 < v.length := List.length_pos_iff.mpr hv
        right; right; omega)
    refine ⟨w2, by simp [WBuf.writeStringsNoGrow, e1, e2], h2, by simp [b2, b1], by rw [o2, o1]⟩

theorem readStrings_parses (vs : List (List UInt8))
    (hv : ∀ v ∈ vs, v.length < 2 ^ 32 ∧ v.head? ≠ some 0) :
    Parses (RBuf.readStrings vs.length) ((vs.map strEnc).flatten) vs := by
  induction vs with
  | nil => exact Parses.pure _
  | cons v vs ih =>
    have h := hv v (by simp)
    have := (readString_parses v h.1 h.2).bind
      (g := fun q r => (r.readStrings vs.length).bind fun s => some (q :: s.1, s.2))
      ((ih (fun u hu => hv u (by simp [hu]))).map (fun s => v :: s))
    exact this

theorem length_le_flatten_strEnc (vs : List (List UInt8)) :
    vs.length ≤ ((vs.map strEnc).flatten).length := by
  induction vs with
  | nil => simp
  | cons v vs ih =>
    have : 0 < (strEnc v).length := by unfold strEnc; split <;> simp <;> omega
    simp at ih ⊢; omega

/-- **C57** (part): a slice of strings (each as in C02) reads back unchanged,
provided at least one string is non-empty or the buffer has slack. Missing: slices
of empty strings on a full buffer, see `C57_empty_strings_counterexample`. -/
theorem C57_string_slice_roundtrip_partial (vs : List (List UInt8))
    (hv : ∀ v ∈ vs, v.length < 2 ^ 32 ∧ v.head? ≠ some 0) (w : WBuf) (hw : w.Healthy)
    (hs : vs = [] ∨ (∃ v ∈ vs, v ≠ []) ∨ w.c < w.p.length) :
    ∃ w', w.writeArrayString vs = some w' ∧ w'.Healthy ∧ w.bytes <+: w'.bytes ∧
      ∀ post hid off,
        (readerAt (w'.bytes ++ post) hid w.bytes.length off).readArrayString vs.length
          = some (vs, readerAt (w'.bytes ++ post) hid w'.bytes.length off) := by
  have hle := hw.1
  obtain ⟨w', e, hwf, hb, ho⟩ := writeStringsNoGrow_spec vs (w.grow ((vs.map strlen).sum))
    (WBuf.grow_wf hw.wf _) (by simp [WBuf.grow]; omega) (by
      rcases hs with hs | hs | hs
      · exact Or.inl hs
      · exact Or.inr (Or.inl hs)
      · right; right; simp [WBuf.grow]; omega)
  rw [WBuf.grow_bytes hw.wf] at hb
  refine ⟨w', by simpa [WBuf.writeArrayString, hw.2] using e, ⟨hwf.1, hwf.2⟩, ⟨_, hb.symm⟩, ?_⟩
  intro post hid off
  unfold readerAt RBuf.readArrayString
  simp only [Bool.false_eq_true, if_false]
  by_cases hz : vs = []
  · subst hz
    simp at hb
    simp [hb]
  · have hl := length_le_flatten_strEnc vs
    have hlen0 : vs.length ≠ 0 := by simpa using hz
    rw [if_neg]
    · have := readStrings_parses vs hv w.bytes post hid off
      rw [hb]
      simpa using this
    · intro hc
      rcases hc with hc | hc
      · exact hlen0 hc
      · simp only [RBuf.len, hb, List.length_append] at hc; omega

example : (∃ v ∈ [[], [104, 105], []], v ≠ ([] : List UInt8)) := ⟨[104, 105], by decide, by decide⟩

/-- Writing `[]string{""}` to a fresh buffer fails with `io.EOF`. -/
theorem C57_empty_strings_counterexample (junk : Nat → UInt8) :
    ∃ w', (newWBuffer [] 0 junk).writeArrayString [[]] = some w' ∧ w'.err = true :=
  ⟨_, rfl, rfl⟩

/-! ## C58: recycling a read buffer -/

/-- **C58** (part): resetting a buffer without error is the same as making a new one.
Missing: a buffer with a pending error, see the counterexample. -/
theorem C58_reset_is_new_partial (r : RBuf) (h : r.err = false) (data hid : List UInt8) (off : Nat) :
    r.reset data hid off = newRBuffer data hid off := by
  simp [RBuf.reset, newRBuffer, h]

example : (RBuf.mk [1] [2] 1 7 false).err = false := rfl

/-- After an error, a recycled buffer stays in the error state: reading its new,
valid data yields zero values. -/
theorem C58_reset_counterexample :
    (((RBuf.mk [] [] 0 0 true).reset [0, 42] [] 0).readPrim .u16).map (·.1) = some (.u16 0) ∧
    ((newRBuffer [0, 42] [] 0).readPrim .u16).map (·.1) = some (.u16 42) := by decide

end Verif.RBytes
