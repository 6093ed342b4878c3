import Verif.Riofs.Records

/-!
# Properties of ROOT file records (C10, C15, C16, C59)

`RoundTrip wr rd v` (from the buffer area): whatever was written before and follows
after, writing succeeds, and reading at the start of what was written returns `v`
and stops exactly at its end.
-/

namespace Verif.Riofs

open Verif.RBytes Verif.FreeList

/-- A string that the ROOT string encoding represents faithfully (see C02). -/
def StrOk (v : List UInt8) : Prop := v.length < 2 ^ 31 ∧ v.head? ≠ some 0

/-- A time that the packed representation carries faithfully (see C08). -/
def TimeOk (t : Civil) : Prop := t.Valid ∧ 1995 ≤ t.year ∧ t.year ≤ 2058

/-- A key in the range of its record: non-negative record length, `keylen` fits the
16 bits it is stored on, a known version (the 64-bit layout adds 1000 to it); offsets are
unrestricted, except that the parent directory may lie beyond 2 GB only if the key does
too or already has the 64-bit layout. -/
structure Key.Ok (k : Key) : Prop where
  nbytes : 0 ≤ k.nbytes ∧ k.nbytes < 2 ^ 31
  rvers : (1 ≤ k.rvers ∧ k.rvers < 1000) ∨ (1000 < k.rvers ∧ k.rvers < 2000)
  objlen : FitsS 4 k.objlen
  datetime : TimeOk k.datetime
  keylen : FitsS 2 k.keylen
  cycle : FitsS 2 k.cycle
  seekkey : 0 ≤ k.seekkey ∧ k.seekkey < 2 ^ 63
  seekpdir : 0 ≤ k.seekpdir ∧ k.seekpdir < 2 ^ 63
  pdirBig : k.seekpdir > 2000000000 → k.seekkey > 2000000000 ∨ k.rvers > 1000
  cls : StrOk k.cls
  name : StrOk k.name
  title : StrOk k.title

def seekEnc (k : Key) : List UInt8 :=
  if k.rvers > 1000 then beEnc 8 (toU 8 k.seekkey) ++ beEnc 8 (toU 8 k.seekpdir)
  else beEnc 4 (toU 4 (wrapS 4 k.seekkey)) ++ beEnc 4 (toU 4 (wrapS 4 k.seekpdir))

def fieldsEnc (k : Key) (d : BitVec 32) : List UInt8 :=
  beEnc 2 (toU 2 k.rvers) ++ (beEnc 4 (toU 4 k.objlen) ++ (beEnc 4 d.toNat ++
    (beEnc 2 (toU 2 (wrapS 2 k.keylen)) ++ (beEnc 2 (toU 2 k.cycle) ++ (seekEnc k ++
      (strEnc k.cls ++ (strEnc k.name ++ strEnc k.title)))))))

theorem marshalFields_appends (k : Key) (d : BitVec 32) (hd : time2datime k.datetime = some d) :
    Appends k.marshalFields (fieldsEnc k d) := by
  unfold Key.marshalFields fieldsEnc seekEnc Key.isBigFile
  simp only [hd, Option.bind_some, decide_eq_true_eq]
  refine seq_appends (writeInt_appends _ _) ?_
  refine seq_appends (writeInt_appends _ _) ?_
  refine seq_appends (writeBE_appends _ _) ?_
  refine seq_appends (writeInt_appends _ _) ?_
  refine seq_appends (writeInt_appends _ _) ?_
  refine seq_appends ?_ ?_
  · split
    · exact seq_appends (writeInt_appends _ _) (writeInt_appends _ _)
    · exact seq_appends (writeInt_appends _ _) (writeInt_appends _ _)
  · exact seq_appends (writeString_appends _) (seq_appends (writeString_appends _) (writeString_appends _))

theorem marshal_appends (k : Key) (d : BitVec 32) (hd : time2datime k.datetime = some d)
    (hn : 0 ≤ k.nbytes) :
    Appends k.marshal (beEnc 4 (toU 4 k.nbytes) ++ fieldsEnc k.bump d) := by
  have hb : time2datime k.bump.datetime = some d := by
    unfold Key.bump; split <;> exact hd
  intro w h
  have := (seq_appends (writeInt_appends 4 k.nbytes) (marshalFields_appends k.bump d hb)) w h
  unfold Key.marshal
  rw [h.no_err]
  simp only [Bool.false_eq_true, if_false, if_neg (show ¬ k.nbytes < 0 by omega)]
  exact this

theorem bump_eq (k : Key) : k.bump = { k with rvers := k.bump.rvers } := by
  unfold Key.bump; split <;> rfl

theorem Key.Ok.bump_rvers {k : Key} (h : k.Ok) : FitsS 2 k.bump.rvers := by
  have := h.rvers
  unfold Key.bump
  split
  · rw [fitsS2]; dsimp only; omega
  · rw [fitsS2]; omega

theorem Key.Ok.big_iff {k : Key} (h : k.Ok) :
    k.bump.rvers > 1000 ↔ (k.rvers > 1000 ∨ k.seekkey > kStartBigFile) := by
  have := h.rvers
  unfold Key.bump
  split <;> (try dsimp only) <;> omega

theorem Key.Ok.seekBig {k : Key} (h : k.Ok) (_ : k.bump.rvers > 1000) :
    FitsS 8 k.seekkey ∧ FitsS 8 k.seekpdir := by
  have h1 := h.seekkey
  have h2 := h.seekpdir
  rw [fitsS8, fitsS8]
  omega

theorem Key.Ok.seekSmall {k : Key} (h : k.Ok) (hb : ¬ k.bump.rvers > 1000) :
    FitsS 4 k.seekkey ∧ FitsS 4 k.seekpdir := by
  have h1 := h.seekkey
  have h2 := h.seekpdir
  have h3 := h.pdirBig
  rw [h.big_iff] at hb
  unfold kStartBigFile at hb
  rw [fitsS4, fitsS4]
  omega

theorem unmarshal_parses (k : Key) (h : k.Ok) (d : BitVec 32)
    (hd2 : datime2time d = k.datetime) :
    Parses Key.unmarshal (beEnc 4 (toU 4 k.nbytes) ++ fieldsEnc k.bump d) k.bump := by
  have hrv := h.bump_rvers
  have hsb := h.seekBig
  have hss := h.seekSmall
  obtain ⟨hnb, _, hol, hdt, hkl, hcy, _, _, _, hc, hn, ht⟩ := h
  have ebump := bump_eq k
  generalize hk' : k.bump = k' at *
  rw [ebump]
  unfold Key.unmarshal fieldsEnc
  pstep (readInt_parses_fits (fitsS4.mpr (by omega)))
  simp only [if_neg (show ¬ k.nbytes < 0 by omega)]
  pstep (readInt_parses_fits hrv)
  pstep (readInt_parses_fits hol)
  pstep (readBE_parses_enc (k := 4) (n := d.toNat) d.isLt)
  rw [show wrapS 2 k.keylen = k.keylen from hkl]
  pstep (readInt_parses_fits hkl)
  pstep (readInt_parses_fits hcy)
  refine Parses.bind' (x := (k.seekkey, k.seekpdir)) ?_ ?_
  · unfold seekEnc
    by_cases hb : k'.rvers > 1000
    · simp only [hb, if_true]
      pstep (readInt_parses_fits (hsb hb).1)
      exact (readInt_parses_fits (hsb hb).2).last (fun r => rfl)
    · have h1 := hss hb
      simp only [hb, if_false]
      rw [show wrapS 4 k.seekkey = k.seekkey from h1.1, show wrapS 4 k.seekpdir = k.seekpdir from h1.2]
      pstep (readInt_parses_fits h1.1)
      exact (readInt_parses_fits h1.2).last (fun r => rfl)
  · dsimp +instances only
    pstep (readString_parses k.cls (by have := hc.1; omega) hc.2)
    pstep (readString_parses k.name (by have := hn.1; omega) hn.2)
    refine (readString_parses k.title (by have := ht.1; omega) ht.2).last ?_
    intro r
    simp only [BitVec.ofNat_toNat, BitVec.setWidth_eq, hd2]

/-- What a key reads back as: itself, its version announcing the 64-bit layout if the
offset requires it or if it already did. -/
def Key.readBack (k : Key) : Key :=
  { k with rvers := if k.rvers < 1000 ∧ 2000000000 < k.seekkey then k.rvers + 1000 else k.rvers }

/-- **C10** (contents): a key in range, wherever it is in the file, reads back with
every field unchanged. -/
theorem C10_key_roundtrip_partial (k : Key) (h : k.Ok) : RoundTrip k.marshal Key.unmarshal k.readBack := by
  have hrb : k.readBack = k.bump := by
    unfold Key.readBack Key.bump kStartBigFile
    by_cases hc : k.rvers < 1000 ∧ 2000000000 < k.seekkey
    · rw [if_pos hc, if_pos ⟨hc.2, hc.1⟩]
    · rw [if_neg hc, if_neg (fun h => hc ⟨h.2, h.1⟩)]
  rw [hrb]
  obtain ⟨d, hd, hd2⟩ := C08_datime_roundtrip_partial k.datetime h.datetime.1 h.datetime.2.1 h.datetime.2.2
  exact roundTrip_of (marshal_appends k d hd h.nbytes.1) (unmarshal_parses k h d hd2)

theorem strEnc_length (v : List UInt8) (h : v.length < 2 ^ 31) :
    ((strEnc v).length : Int) = tstringSizeof v := by
  unfold tstringSizeof strEnc
  have : wrapS 4 v.length = v.length := fitsS4.mpr (by omega)
  simp only [this]
  split <;> split <;> simp <;> omega

/-- A key whose length was computed by the library for the place it is stored at, the end
of the file at that time, in a directory of kind `dirBig`; the version asks for the 64-bit
layout if the directory does, and only if the directory or the place does. -/
def Key.LenOk (k : Key) (dirBig : Bool) : Prop :=
  k.keylen = keylenFor k.name k.title k.cls dirBig k.seekkey ∧
  (dirBig = true → k.rvers > 1000) ∧ (k.rvers > 1000 → dirBig = true ∨ k.seekkey > 2000000000)

/-- **C10** (length): for a key whose announced length was computed with the layout
it is written in, the number of bytes written is the announced length (basket keys
announce 19 more bytes, taken by the basket fields that follow). -/
theorem C10_key_length_partial (k : Key) (h : k.Ok) (dirBig : Bool)
    (hl : k.LenOk dirBig) (w : WBuf) (hw : w.Healthy) :
    ∃ w', k.marshal w = some w' ∧
      (w'.bytes.length : Int) = w.bytes.length + k.keylen - (if k.cls = tBasket then 19 else 0) := by
  obtain ⟨eof, heof⟩ : ∃ eof, eof = k.seekkey := ⟨_, rfl⟩
  replace hl : k.keylen = keylenFor k.name k.title k.cls dirBig eof ∧
      (k.bump.rvers > 1000 ↔ (dirBig = true ∨ eof > kStartBigFile)) := by
    obtain ⟨a, b, c⟩ := hl
    subst heof
    refine ⟨a, ?_⟩
    rw [h.big_iff]
    unfold kStartBigFile
    constructor
    · rintro (hc | hc)
      · exact c hc
      · exact Or.inr hc
    · rintro (hc | hc)
      · exact Or.inl (b hc)
      · exact Or.inr hc
  obtain ⟨d, hd, hd2⟩ := C08_datime_roundtrip_partial k.datetime h.datetime.1 h.datetime.2.1 h.datetime.2.2
  obtain ⟨w', e, _, hb, _⟩ := marshal_appends k d hd h.nbytes.1 w hw.wf
  refine ⟨w', e, ?_⟩
  rw [hb, hl.1]
  have hstr : k.bump.cls = k.cls ∧ k.bump.name = k.name ∧ k.bump.title = k.title := by
    rw [bump_eq]; exact ⟨rfl, rfl, rfl⟩
  have h1 := strEnc_length k.cls h.cls.1
  have h2 := strEnc_length k.name h.name.1
  have h3 := strEnc_length k.title h.title.1
  have hs : ((seekEnc k.bump).length : Int) = 8 + (if dirBig || decide (eof > kStartBigFile) then 8 else 0) := by
    unfold seekEnc
    by_cases hbig : k.bump.rvers > 1000
    · have := hl.2.mp hbig
      rw [if_pos hbig, if_pos (by simpa using this)]
      simp
    · have : ¬ (dirBig = true ∨ eof > kStartBigFile) := fun hc => hbig (hl.2.mpr hc)
      rw [if_neg hbig, if_neg (by simpa using this)]
      simp
  clear hl heof
  unfold fieldsEnc keylenFor
  generalize (if (dirBig || decide (eof > kStartBigFile)) = true then (8 : Int) else 0) = z at *
  simp only [hstr.1, hstr.2.1, hstr.2.2, List.length_append, length_beEnc, Int.natCast_add]
  split <;> omega

/-- A key created by Put in a small file: hypotheses of both theorems. -/
example : let k : Key := ⟨4, 100, 60, ⟨2024, 2, 29, 13, 5, 59⟩, 38, 2, 1234, 100, [84, 72], [104, 49], [116, 105, 116, 108, 101]⟩
    k.Ok ∧ k.LenOk false ∧ (k.marshal (newWBuffer [] 0 (fun _ => 7))).map (fun w => w.bytes.length) = some 38 := by
  refine ⟨⟨by simp, by simp, by decide, ⟨⟨by decide, by decide, by decide, by decide, by decide⟩, by decide, by decide⟩,
    by decide, by decide, by simp, by simp, by decide, ⟨by decide, by decide⟩, ⟨by decide, by decide⟩, ⟨by decide, by decide⟩⟩, ⟨by decide, by decide, by decide⟩, by decide⟩

/-- The 64-bit layout: a key stored beyond 2 GB although its version was that of a small file. -/
example : let k : Key := ⟨4, 100, 60, ⟨2024, 2, 29, 13, 5, 59⟩, 46, 2, 5000000000, 4000000000, [84, 72], [104, 49], [116, 105, 116, 108, 101]⟩
    k.Ok ∧ k.LenOk false ∧ k.readBack.rvers = 1004 := by
  refine ⟨⟨by decide, by decide, by decide, ⟨⟨by decide, by decide, by decide, by decide, by decide⟩, by decide, by decide⟩,
    by decide, by decide, by simp, by simp, by decide, ⟨by decide, by decide⟩, ⟨by decide, by decide⟩, ⟨by decide, by decide⟩⟩, ⟨by decide, by decide, by decide⟩, by decide⟩

/-- The length of a key whose name is long does not fit the 16 bits it is stored on:
every key with a name of 32750 to 65000 bytes announces a wrong (negative) length. -/
theorem C10_long_name_counterexample (name title cls : List UInt8) (eof : Int) (dirBig : Bool)
    (h : 32750 ≤ name.length) (h2 : name.length ≤ 65000) (ht : title.length ≤ 100) (hc : cls.length ≤ 100) :
    wrapS 2 (keylenFor name title cls dirBig eof) < 0 := by
  have e1 : wrapS 4 name.length = name.length := fitsS4.mpr (by omega)
  have e2 : wrapS 4 title.length = title.length := fitsS4.mpr (by omega)
  have e3 : wrapS 4 cls.length = cls.length := fitsS4.mpr (by omega)
  have hz : (if (dirBig || decide (eof > kStartBigFile)) = true then (8 : Int) else 0) = 8 ∨
    (if (dirBig || decide (eof > kStartBigFile)) = true then (8 : Int) else 0) = 0 := by split <;> simp
  have hb : (if cls = tBasket then (2 + 4 + 4 + 4 + 4 + 1 : Int) else 0) = 19 ∨
    (if cls = tBasket then (2 + 4 + 4 + 4 + 4 + 1 : Int) else 0) = 0 := by split <;> simp
  have hx : 32768 ≤ keylenFor name title cls dirBig eof ∧ keylenFor name title cls dirBig eof < 65536 := by
    unfold keylenFor tstringSizeof
    simp only [e1, e2, e3, if_pos (show (name.length : Int) > 254 by omega),
      if_neg (show ¬ (title.length : Int) > 254 by omega), if_neg (show ¬ (cls.length : Int) > 254 by omega)]
    omega
  unfold wrapS
  rw [Int.bmod_def]
  simp
  omega

/-! ### C15 -/

/-- **C15**: a free segment whose offsets fit the layout selected by its end reads
back unchanged, and the bytes written are those announced. -/
theorem C15_segment_roundtrip_partial (s : Seg) (hbig : s.last > kStartBigFile → FitsS 8 s.first ∧ FitsS 8 s.last)
    (hsmall : ¬ s.last > kStartBigFile → FitsS 4 s.first ∧ FitsS 4 s.last) :
    RoundTrip (segMarshal s) segUnmarshal s ∧
    ∀ w : WBuf, w.Healthy → ∃ w', segMarshal s w = some w' ∧
      (w'.bytes.length : Int) = w.bytes.length + segSizeof s := by
  have hgrow : ∀ (n : Nat) {op : WBuf → Option WBuf} {bs : List UInt8}, Appends op bs →
      Appends (fun w => op (w.grow n)) bs := by
    intro n op bs h w hw
    obtain ⟨w', a, b, c, d⟩ := h (w.grow n) (WBuf.grow_wf hw n)
    exact ⟨w', a, b, by rw [c, WBuf.grow_bytes hw], by rw [d]; rfl⟩
  have herr : ∀ {op : WBuf → Option WBuf} {bs : List UInt8}, Appends op bs →
      Appends (fun w => if w.err then some w else op w) bs := by
    intro op bs h w hw
    simpa [hw.no_err] using h w hw
  by_cases hb : s.last > kStartBigFile
  · have hf := hbig hb
    have ha : Appends (segMarshal s) (beEnc 2 (toU 2 (1 + 1000)) ++ (beEnc 8 (toU 8 s.first) ++ beEnc 8 (toU 8 s.last))) := by
      unfold segMarshal
      simp only [hb, if_true]
      exact herr (hgrow _ (seq_appends (writeInt_appends _ _) (seq_appends (writeInt_appends _ _) (writeInt_appends _ _))))
    constructor
    · refine roundTrip_of ha ?_
      unfold segUnmarshal
      pstep (readInt_parses_fits (k := 2) (x := 1 + 1000) (by decide))
      simp only [show ((1 : Int) + 1000 > 1000) by decide, if_true]
      pstep (readInt_parses_fits hf.1)
      exact (readInt_parses_fits hf.2).last (fun r => rfl)
    · intro w hw
      obtain ⟨w', e, _, b, _⟩ := ha w hw.wf
      refine ⟨w', e, ?_⟩
      rw [b]
      simp [segSizeof, hb]
  · have hf := hsmall hb
    have ha : Appends (segMarshal s) (beEnc 2 (toU 2 1) ++ (beEnc 4 (toU 4 s.first) ++ beEnc 4 (toU 4 s.last))) := by
      unfold segMarshal
      simp only [hb, if_false, show ¬ ((1 : Int) > 1000) by decide]
      rw [show wrapS 4 s.first = s.first from hf.1, show wrapS 4 s.last = s.last from hf.2]
      exact herr (hgrow _ (seq_appends (writeInt_appends _ _) (seq_appends (writeInt_appends _ _) (writeInt_appends _ _))))
    constructor
    · refine roundTrip_of ha ?_
      unfold segUnmarshal
      pstep (readInt_parses_fits (k := 2) (x := 1) (by decide))
      simp only [show ¬ ((1 : Int) > 1000) by decide, if_false]
      pstep (readInt_parses_fits hf.1)
      exact (readInt_parses_fits hf.2).last (fun r => rfl)
    · intro w hw
      obtain ⟨w', e, _, b, _⟩ := ha w hw.wf
      refine ⟨w', e, ?_⟩
      rw [b]
      simp [segSizeof, hb]

/-- The two layouts, at the boundary. -/
example : (let s : Seg := ⟨1000, kStartBigFile⟩; ¬ s.last > kStartBigFile ∧ FitsS 4 s.first ∧ FitsS 4 s.last) ∧
    (let s : Seg := ⟨3000000000, kStartBigFile + 1⟩; s.last > kStartBigFile ∧ FitsS 8 s.first ∧ FitsS 8 s.last) := by
  decide

/-- The last segment of a file that has grown beyond 2^31 bytes ([end, 2000000000],
as left by `setEnd`) is written with the 32-bit layout and reads back with a
negative start. -/
theorem C15_big_file_counterexample :
    ((segMarshal ⟨3000000000, kStartBigFile⟩ (newWBuffer [] 0 (fun _ => 0))).bind fun w =>
      (segUnmarshal (readerAt w.bytes [] 0 0)).map Prod.fst) = some ⟨-1294967296, kStartBigFile⟩ := by
  decide

/-! ### C16 -/

/-- File header fields in range. Negative offsets never occur. -/
structure FileHdr.Ok (f : FileHdr) : Prop where
  version : 0 ≤ f.version ∧ f.version < 1000000
  begin : FitsS 4 f.begin
  end_ : 0 ≤ f.end_ ∧ FitsS 8 f.end_
  seekfree : 0 ≤ f.seekfree ∧ FitsS 8 f.seekfree
  seekinfo : 0 ≤ f.seekinfo ∧ FitsS 8 f.seekinfo
  nbytesfree : FitsS 4 f.nbytesfree
  nfree : FitsS 4 f.nfree
  nbytesname : FitsS 4 f.nbytesname
  units : f.units < 256
  compression : FitsS 4 f.compression
  nbytesinfo : FitsS 4 f.nbytesinfo
  uuid : f.uuid.length = 16

def FileHdr.endEnc (f : FileHdr) : List UInt8 :=
  if f.wversion < 1000000 then beEnc 4 (toU 4 (wrapS 4 f.end_)) ++ beEnc 4 (toU 4 (wrapS 4 f.seekfree))
  else beEnc 8 (toU 8 f.end_) ++ beEnc 8 (toU 8 f.seekfree)

def FileHdr.infoEnc (f : FileHdr) : List UInt8 :=
  if f.wversion < 1000000 then beEnc 4 (toU 4 (wrapS 4 f.seekinfo)) else beEnc 8 (toU 8 f.seekinfo)

def FileHdr.enc (f : FileHdr) (u : List UInt8) : List UInt8 :=
  rootMagic ++ (beEnc 4 (toU 4 f.wversion) ++ (beEnc 4 (toU 4 (wrapS 4 f.begin)) ++ (f.endEnc ++
    (beEnc 4 (toU 4 f.nbytesfree) ++ (beEnc 4 (toU 4 f.nfree) ++ (beEnc 4 (toU 4 f.nbytesname) ++
      (beEnc 1 f.wunits ++ (beEnc 4 (toU 4 f.compression) ++ (f.infoEnc ++
        (beEnc 4 (toU 4 f.nbytesinfo) ++ u))))))))))

theorem uuid_appends (u : List UInt8) (h : u.length = 16) :
    Appends (uuidMarshal u) (beEnc 2 1 ++ u) := by
  intro w hw
  have := seq_appends (writeBE_appends 2 1) (write_appends u (by intro he; simp [he] at h)) w hw
  simpa [uuidMarshal, hw.no_err] using this

theorem fileHdr_appends (f : FileHdr) (h : f.uuid.length = 16) :
    Appends f.marshal (f.enc (beEnc 2 1 ++ f.uuid)) := by
  unfold FileHdr.marshal FileHdr.enc FileHdr.endEnc FileHdr.infoEnc
  refine seq_appends (write_appends rootMagic (by decide)) ?_
  refine seq_appends (writeInt_appends _ _) ?_
  refine seq_appends (writeInt_appends _ _) ?_
  refine seq_appends ?_ ?_
  · split <;> exact seq_appends (writeInt_appends _ _) (writeInt_appends _ _)
  refine seq_appends (writeInt_appends _ _) ?_
  refine seq_appends (writeInt_appends _ _) ?_
  refine seq_appends (writeInt_appends _ _) ?_
  refine seq_appends (writeBE_appends _ _) ?_
  refine seq_appends (writeInt_appends _ _) ?_
  refine seq_appends ?_ ?_
  · split <;> exact writeInt_appends _ _
  refine seq_appends (writeInt_appends _ _) ?_
  exact uuid_appends f.uuid h

theorem wversion_lt (f : FileHdr) (h : f.Ok) : f.wversion < 1000000 ↔ ¬ f.big := by
  have := h.version
  unfold FileHdr.wversion
  split
  · rename_i hh
    constructor
    · intro; omega
    · intro hn; exact absurd hh.1 hn
  · rename_i hh
    constructor
    · intro _ hb; exact hh ⟨hb, this.2⟩
    · intro _; exact this.2

theorem fileHdr_parses (f : FileHdr) (h : f.Ok) (u : List UInt8) (hu : u.length = 16) :
    Parses FileHdr.unmarshal (f.enc u) { f with units := f.wunits, uuid := u } := by
  have hv := h.version
  have hwv : FitsS 4 f.wversion := by
    rw [fitsS4]; unfold FileHdr.wversion; split <;> omega
  have hmod : f.wversion.tmod 1000000 = f.version := by
    unfold FileHdr.wversion
    split
    · rw [Int.tmod_eq_emod_of_nonneg (by omega)]; omega
    · rw [Int.tmod_eq_emod_of_nonneg (by omega)]; omega
  have hwu : f.wunits < 256 := by
    have := h.units
    unfold FileHdr.wunits; split <;> omega
  have hsmall : f.wversion < 1000000 → FitsS 4 f.end_ ∧ FitsS 4 f.seekfree ∧ FitsS 4 f.seekinfo := by
    intro hlt
    have := (wversion_lt f h).mp hlt
    unfold FileHdr.big kStartBigFile at this
    have h1 := h.end_.1
    have h2 := h.seekfree.1
    have h3 := h.seekinfo.1
    simp only [fitsS4]
    omega
  unfold FileHdr.unmarshal FileHdr.enc
  pstep (readFull_parses rootMagic)
  simp only [ne_eq, not_true_eq_false, if_false]
  pstep (readInt_parses_fits hwv)
  rw [show wrapS 4 f.begin = f.begin from h.begin]
  pstep (readInt_parses_fits h.begin)
  refine Parses.bind' (x := (f.end_, f.seekfree)) ?_ ?_
  · unfold FileHdr.endEnc
    split
    · rename_i hlt
      obtain ⟨h1, h2, h3⟩ := hsmall hlt
      rw [show wrapS 4 f.end_ = f.end_ from h1, show wrapS 4 f.seekfree = f.seekfree from h2]
      pstep (readInt_parses_fits h1)
      exact (readInt_parses_fits h2).last (fun r => rfl)
    · pstep (readInt_parses_fits h.end_.2)
      exact (readInt_parses_fits h.seekfree.2).last (fun r => rfl)
  dsimp +instances only
  pstep (readInt_parses_fits h.nbytesfree)
  pstep (readInt_parses_fits h.nfree)
  pstep (readInt_parses_fits h.nbytesname)
  pstep (readU8_parses_enc hwu)
  pstep (readInt_parses_fits h.compression)
  refine Parses.bind' (x := f.seekinfo) ?_ ?_
  · unfold FileHdr.infoEnc
    split
    · rename_i hlt
      obtain ⟨h1, h2, h3⟩ := hsmall hlt
      rw [show wrapS 4 f.seekinfo = f.seekinfo from h3]
      exact readInt_parses_fits h3
    · exact readInt_parses_fits h.seekinfo.2
  dsimp +instances only
  pstep (readInt_parses_fits h.nbytesinfo)
  rw [← hu]
  refine (readFull_parses u).last ?_
  intro r
  simp only [hmod]

/-- **C16** (part): reading back the header bytes gives every field as written (the
pointer size is forced to 8 in the 64-bit layout), *except the identifier*: the
writer stores a 2-byte version before the 16 identifier bytes and the reader does
not skip it. -/
theorem C16_file_header_roundtrip_partial (f : FileHdr) (h : f.Ok) (w : WBuf) (hw : w.Healthy) :
    ∃ w', f.marshal w = some w' ∧ w.bytes <+: w'.bytes ∧
      ∀ post hid off, FileHdr.unmarshal (readerAt (w'.bytes ++ post) hid w.bytes.length off)
        = some ({ f with units := if f.big then 8 else f.units, uuid := 0 :: 1 :: f.uuid.take 14 },
                readerAt (w'.bytes ++ post) hid (w'.bytes.length - 2) off) := by
  obtain ⟨w', e, _, b, _⟩ := fileHdr_appends f h.uuid w hw.wf
  refine ⟨w', e, ⟨_, b.symm⟩, ?_⟩
  intro post hid off
  have hu := h.uuid
  have hp := fileHdr_parses f h (0 :: 1 :: f.uuid.take 14) (by simp [hu]) w.bytes (f.uuid.drop 14 ++ post) hid off
  have happ : ∀ a c, f.enc (a ++ c) = f.enc a ++ c := by
    intro a c; simp [FileHdr.enc]
  have henc : f.enc (beEnc 2 1 ++ f.uuid) = f.enc (0 :: 1 :: f.uuid.take 14) ++ f.uuid.drop 14 := by
    rw [← happ]
    congr 1
    conv => lhs; rw [← List.take_append_drop 14 f.uuid]
    simp [beEnc]
  rw [b, henc]
  simp only [readerAt, List.append_assoc, List.length_append, List.length_drop, hu] at hp ⊢
  rw [hp]
  rw [show w.bytes.length + ((f.enc (0 :: 1 :: List.take 14 f.uuid)).length + (16 - 14)) - 2
    = w.bytes.length + (f.enc (0 :: 1 :: List.take 14 f.uuid)).length by omega]
  rfl

/-- The identifier of a file does not survive: any identifier not of the special
form 00 01 00 01 ... is changed by writing and re-reading. -/
theorem C16_uuid_counterexample (f : FileHdr) (h : f.Ok) (hne : f.uuid ≠ (List.replicate 8 [0, 1]).flatten)
    (w : WBuf) (hw : w.Healthy) :
    ∃ w' g r, f.marshal w = some w' ∧
      FileHdr.unmarshal (readerAt w'.bytes [] w.bytes.length 0) = some (g, r) ∧ g.uuid ≠ f.uuid := by
  obtain ⟨w', e, _, hr⟩ := C16_file_header_roundtrip_partial f h w hw
  have := hr [] [] 0
  rw [List.append_nil] at this
  refine ⟨w', _, _, e, this, ?_⟩
  simp only
  intro he
  apply hne
  have hu := h.uuid
  match hl : f.uuid, hu with
  | [a, b, c, d, e, f, g, h, i, j, k, l, m, n, o, p], _ =>
    rw [hl] at he
    simp at he
    obtain ⟨rfl, rfl, rfl, rfl, rfl, rfl, rfl, rfl, rfl, rfl, rfl, rfl, rfl, rfl, rfl, rfl⟩ := he
    rfl

/-- A header at the border between the two layouts. -/
example : (let f : FileHdr := ⟨63002, 100, 2000000001, 1999999000, 60, 1, 58, 4, 101, 500, 3000, List.replicate 16 7⟩
    f.big ∧ f.wversion = 1063002) ∧
    (let f : FileHdr := ⟨63002, 100, 2000000000, 1999999000, 60, 1, 58, 4, 101, 500, 3000, List.replicate 16 7⟩
    ¬ f.big ∧ f.wversion = 63002) := by decide

example : FileHdr.Ok ⟨63002, 100, 2000000001, 1999999000, 60, 1, 58, 4, 101, 500, 3000, List.replicate 16 7⟩ := by
  constructor <;> decide

/-! ### C59 -/

/-- Directory header fields in range of the layout selected by the version. -/
structure DirHdr.Ok (d : DirHdr) : Prop where
  rvers : FitsS 2 d.rvers ∧ 2 < d.rvers.tmod 1000
  ctime : TimeOk d.ctime
  mtime : TimeOk d.mtime
  nbyteskeys : FitsS 4 d.nbyteskeys
  nbytesname : FitsS 4 d.nbytesname
  big : d.rvers > 1000 → FitsS 8 d.seekdir ∧ FitsS 8 d.seekparent ∧ FitsS 8 d.seekkeys
  small : ¬ d.rvers > 1000 → FitsS 4 d.seekdir ∧ FitsS 4 d.seekparent ∧ FitsS 4 d.seekkeys
  uuid : d.uuid.length = 16

/-- The bytes of a directory header created at the packed time `c`, modified at `m`. -/
def DirHdr.enc (d : DirHdr) (c m : BitVec 32) : List UInt8 :=
  beEnc 2 (toU 2 d.rvers) ++ (beEnc 4 c.toNat ++ (beEnc 4 m.toNat ++
      (beEnc 4 (toU 4 d.nbyteskeys) ++ (beEnc 4 (toU 4 d.nbytesname) ++
      ((if d.rvers > 1000 then beEnc 8 (toU 8 d.seekdir) ++ (beEnc 8 (toU 8 d.seekparent) ++ beEnc 8 (toU 8 d.seekkeys))
        else beEnc 4 (toU 4 (wrapS 4 d.seekdir)) ++ (beEnc 4 (toU 4 (wrapS 4 d.seekparent)) ++ beEnc 4 (toU 4 (wrapS 4 d.seekkeys))))
      ++ (beEnc 2 1 ++ d.uuid))))))

theorem dirHdr_appends (d : DirHdr) (h : d.uuid.length = 16) (c m : BitVec 32) (hc : time2datime d.ctime = some c)
    (hm : time2datime d.mtime = some m) : Appends d.marshal (d.enc c m) := by
  have herr : ∀ {op : WBuf → Option WBuf} {bs : List UInt8}, Appends op bs →
      Appends (fun w => if w.err then some w else op w) bs := by
    intro op bs h w hw
    simpa [hw.no_err] using h w hw
  unfold DirHdr.marshal DirHdr.enc
  simp only [hc, hm, Option.bind_some]
  refine herr ?_
  refine seq_appends (writeInt_appends _ _) ?_
  refine seq_appends (writeBE_appends _ _) ?_
  refine seq_appends (writeBE_appends _ _) ?_
  refine seq_appends (writeInt_appends _ _) ?_
  refine seq_appends (writeInt_appends _ _) ?_
  refine seq_appends ?_ (uuid_appends d.uuid h)
  split <;> exact seq_appends (writeInt_appends _ _) (seq_appends (writeInt_appends _ _) (writeInt_appends _ _))

theorem dirHdr_parses (d : DirHdr) (h : d.Ok) (prev : List UInt8) (c m : BitVec 32)
    (hc2 : datime2time c = d.ctime) (hm2 : datime2time m = d.mtime) :
    Parses (DirHdr.unmarshal prev) (d.enc c m) d := by
  unfold DirHdr.unmarshal DirHdr.enc
  pstep (readInt_parses_fits h.rvers.1)
  pstep (readBE_parses_enc (k := 4) (n := c.toNat) c.isLt)
  pstep (readBE_parses_enc (k := 4) (n := m.toNat) m.isLt)
  pstep (readInt_parses_fits h.nbyteskeys)
  pstep (readInt_parses_fits h.nbytesname)
  refine Parses.bind' (x := (d.seekdir, d.seekparent, d.seekkeys)) ?_ ?_
  · split
    · rename_i hb
      obtain ⟨h1, h2, h3⟩ := h.big hb
      pstep (readInt_parses_fits h1)
      pstep (readInt_parses_fits h2)
      exact (readInt_parses_fits h3).last (fun r => rfl)
    · rename_i hb
      obtain ⟨h1, h2, h3⟩ := h.small hb
      rw [show wrapS 4 d.seekdir = d.seekdir from h1, show wrapS 4 d.seekparent = d.seekparent from h2,
        show wrapS 4 d.seekkeys = d.seekkeys from h3]
      pstep (readInt_parses_fits h1)
      pstep (readInt_parses_fits h2)
      exact (readInt_parses_fits h3).last (fun r => rfl)
  dsimp +instances only
  have h2 := h.rvers.2
  simp only [if_neg (show ¬ d.rvers.tmod 1000 = 2 by omega), if_pos (show d.rvers.tmod 1000 > 2 by omega)]
  unfold uuidUnmarshal
  refine Parses.last (x := d.uuid) ?_ ?_
  · pstep (readBE_parses_enc (k := 2) (n := 1) (by decide))
    rw [← h.uuid]
    exact readFull_parses d.uuid
  · intro r
    simp only [BitVec.ofNat_toNat, BitVec.setWidth_eq, hc2, hm2]

/-- **C59** (part): a directory header whose offsets fit the layout announced by its
version reads back unchanged. -/
theorem C59_dir_header_roundtrip_partial (d : DirHdr) (h : d.Ok) (prev : List UInt8) :
    RoundTrip d.marshal (DirHdr.unmarshal prev) d := by
  obtain ⟨c, hc, hc2⟩ := C08_datime_roundtrip_partial d.ctime h.ctime.1 h.ctime.2.1 h.ctime.2.2
  obtain ⟨m, hm, hm2⟩ := C08_datime_roundtrip_partial d.mtime h.mtime.1 h.mtime.2.1 h.mtime.2.2
  exact roundTrip_of (dirHdr_appends d h.uuid c m hc hm) (dirHdr_parses d h prev c m hc2 hm2)

/-- Headers of a small-file directory and of a big-file one. -/
example : DirHdr.Ok ⟨5, ⟨2024, 2, 29, 13, 5, 59⟩, ⟨2024, 2, 29, 13, 5, 59⟩, 300, 60, 100, 0, 5000, List.replicate 16 9⟩ ∧
    DirHdr.Ok ⟨1005, ⟨2024, 2, 29, 13, 5, 59⟩, ⟨2024, 2, 29, 13, 5, 59⟩, 300, 60, 100, 0, 5000000000, List.replicate 16 9⟩ := by
  constructor
  · exact ⟨by decide, ⟨⟨by decide, by decide, by decide, by decide, by decide⟩, by decide, by decide⟩, ⟨⟨by decide, by decide, by decide, by decide, by decide⟩, by decide, by decide⟩, by decide, by decide, by decide, by decide, by decide⟩
  · exact ⟨by decide, ⟨⟨by decide, by decide, by decide, by decide, by decide⟩, by decide, by decide⟩, ⟨⟨by decide, by decide, by decide, by decide, by decide⟩, by decide, by decide⟩, by decide, by decide, by decide, by decide, by decide⟩

/-- groot/riofs/dir.go:276-298 (`close`) bumps the version of the top directory only:
a sub-directory of a file larger than 2^31 bytes keeps version 5 and stores the
location of its key list on 32 bits; it reads back negative, i.e. the directory
reads back empty (groot/riofs/dir.go:230-274 (`readKeys`) returns no key then). -/
theorem C59_big_subdirectory_counterexample :
    let d : DirHdr := ⟨5, ⟨2024, 2, 29, 13, 5, 59⟩, ⟨2024, 2, 29, 13, 5, 59⟩, 300, 60, 1000, 100, 3000000000, List.replicate 16 9⟩
    ((d.marshal (newWBuffer [] 0 (fun _ => 0))).bind fun w =>
      (DirHdr.unmarshal [] (readerAt w.bytes [] 0 0)).map (fun q => q.1.seekkeys)) = some (-1294967296) := by
  decide

end Verif.Riofs
