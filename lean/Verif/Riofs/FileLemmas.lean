import Verif.Riofs.File
import Verif.Riofs.AllocProps
import Verif.Riofs.DirProps

/-!
# Lemmas on whole ROOT files: what is on disk where
-/

namespace Verif.Riofs

open Verif.RBytes Verif.FreeList Verif.Compress

/-- The bytes `bs` are on the disk at position `pos`. -/
def At (d : List UInt8) (pos : Nat) (bs : List UInt8) : Prop := bs <+: d.drop pos

theorem At.get? {d : List UInt8} {pos : Nat} {bs : List UInt8} (h : At d pos bs) (i : Nat) (hi : i < bs.length) :
    d[pos + i]? = bs[i]? := by
  obtain ⟨t, ht⟩ := h
  rw [← List.getElem?_drop, ← ht, List.getElem?_append_left hi]

theorem At.le {d : List UInt8} {pos : Nat} {bs : List UInt8} (h : At d pos bs) (hb : bs ≠ []) :
    pos + bs.length ≤ d.length := by
  have := h.length_le
  rw [List.length_drop] at this
  have : 0 < bs.length := List.length_pos_iff.mpr hb
  omega

theorem At_of_get? {d : List UInt8} {pos : Nat} {bs : List UInt8}
    (h : ∀ i, i < bs.length → d[pos + i]? = bs[i]?) : At d pos bs := by
  unfold At
  rw [List.prefix_iff_eq_take]
  apply List.ext_getElem?
  intro i
  by_cases hi : i < bs.length
  · rw [List.getElem?_take_of_lt hi, List.getElem?_drop, h i hi]
  · rw [List.getElem?_eq_none (by omega), List.getElem?_eq_none (by simp; omega)]

theorem writeAt_get? (d : List UInt8) (pos : Nat) (bs : List UInt8) (i : Nat) :
    (writeAt d pos bs)[i]? =
      if bs.length = 0 then d[i]? else if i < pos then (if i < d.length then d[i]? else some 0)
      else if i < pos + bs.length then bs[i - pos]? else d[i]? := by
  unfold writeAt
  by_cases hb : bs.length = 0
  · rw [if_pos hb, if_pos hb]
  · rw [if_neg hb, if_neg hb]
    have hl : ((d ++ List.replicate (pos - d.length) 0).take pos).length = pos := by simp; omega
    by_cases h1 : i < pos
    · rw [if_pos h1, List.append_assoc, List.getElem?_append_left (by omega), List.getElem?_take_of_lt h1]
      by_cases h2 : i < d.length
      · rw [if_pos h2, List.getElem?_append_left h2]
      · rw [if_neg h2, List.getElem?_append_right (by omega), List.getElem?_replicate, if_pos (by omega)]
    · rw [if_neg h1]
      by_cases h2 : i < pos + bs.length
      · rw [if_pos h2, List.getElem?_append_left (by simp; omega), List.getElem?_append_right (by omega), hl]
      · rw [if_neg h2, List.getElem?_append_right (by rw [List.length_append, hl]; omega), List.getElem?_drop,
          List.length_append, hl]
        congr 1; omega

theorem At_writeAt_self (d : List UInt8) (pos : Nat) (bs : List UInt8) : At (writeAt d pos bs) pos bs := by
  apply At_of_get?
  intro i hi
  rw [writeAt_get?, if_neg (by omega), if_neg (by omega), if_pos (by omega)]
  congr 1; omega

theorem At.write {d : List UInt8} {a : Nat} {x : List UInt8} (h : At d a x) {pos : Nat} {bs : List UInt8}
    (ho : a + x.length ≤ pos ∨ pos + bs.length ≤ a) : At (writeAt d pos bs) a x := by
  apply At_of_get?
  intro i hi
  have hg := h.get? i hi
  have hlt : a + i < d.length := by
    have := h.le (by intro h0; subst h0; simp at hi)
    omega
  rw [writeAt_get?]
  split
  · exact hg
  · split
    · first | exact hg | (rw [if_pos hlt]; exact hg)
    · rw [if_neg (by omega)]; exact hg

theorem At.left {d : List UInt8} {a : Nat} {x y : List UInt8} (h : At d a (x ++ y)) : At d a x :=
  (List.prefix_append x y).trans h

theorem At.right {d : List UInt8} {a : Nat} {x y : List UInt8} (h : At d a (x ++ y)) : At d (a + x.length) y := by
  obtain ⟨t, ht⟩ := h
  refine ⟨t, ?_⟩
  rw [← List.drop_drop, ← ht, List.append_assoc, List.drop_left]

theorem At.append {d : List UInt8} {a : Nat} {x y : List UInt8} (h1 : At d a x) (h2 : At d (a + x.length) y) :
    At d a (x ++ y) := by
  apply At_of_get?
  intro i hi
  rw [List.length_append] at hi
  by_cases hx : i < x.length
  · rw [List.getElem?_append_left hx]; exact h1.get? i hx
  · rw [List.getElem?_append_right (by omega), ← h2.get? (i - x.length) (by omega)]
    congr 1; omega

theorem At.drop {d : List UInt8} {a : Nat} {x : List UInt8} (h : At d a x) (n : Nat) (hn : n ≤ x.length) :
    At d (a + n) (x.drop n) := by
  have := (show At d a (x.take n ++ x.drop n) by rwa [List.take_append_drop]).right
  rwa [List.length_take, Nat.min_eq_left hn] at this

theorem At.readAt {d : List UInt8} {a : Nat} {x : List UInt8} (h : At d a x) : readAt d a x.length = some x := by
  unfold Riofs.readAt
  by_cases hx : x = []
  · subst hx; simp
  · rw [if_pos (h.le hx)]
    congr 1
    exact (List.prefix_iff_eq_take.mp h).symm

theorem At.readAtI {d : List UInt8} {a n : Int} {x : List UInt8} (h : At d a.toNat x) (ha : 0 ≤ a)
    (hn : n = x.length) : readAtI d a n = some x := by
  unfold Riofs.readAtI
  rw [if_neg (by omega), hn, Int.toNat_natCast]
  exact h.readAt

/-- What is on the disk from `a` on when it is long enough. -/
theorem At_of_long {d : List UInt8} {a n : Nat} (h : a + n ≤ d.length) :
    ∃ x, x.length = n ∧ At d a x := by
  refine ⟨(d.drop a).take n, by simp; omega, List.take_prefix _ _⟩

theorem At.unique {d : List UInt8} {a : Nat} {x y : List UInt8} (h1 : At d a x) (h2 : At d a y)
    (h : x.length ≤ y.length) : x <+: y := List.prefix_of_prefix_length_le h1 h2 h

/-- Running a parser on what is on disk. -/
theorem _root_.Verif.RBytes.Parses.start {α : Type} {op : RBuf → Option (α × RBuf)} {bs : List UInt8} {v : α} (h : Parses op bs v)
    (x : List UInt8) (hx : bs <+: x) :
    op (newRBuffer x [] 0) = some (v, ⟨x, [], bs.length, 0, false⟩) := by
  obtain ⟨t, rfl⟩ := hx
  have := h [] t [] 0
  simpa [newRBuffer] using this

theorem _root_.Verif.RBytes.Appends.start {op : WBuf → Option WBuf} {bs : List UInt8} (h : Appends op bs) (data : List UInt8) :
    ∃ w, op (newWBuffer data 0 (fun _ => 0)) = some w ∧ w.WF ∧ w.bytes = bs := by
  obtain ⟨w, e, hw, hb, _⟩ := h (newWBuffer data 0 (fun _ => 0)) ⟨Nat.zero_le _, rfl⟩
  exact ⟨w, e, hw, by simpa [newWBuffer, WBuf.bytes] using hb⟩

/-! ### Keys of a small file -/

/-- The bytes of a key. -/
def kbytes (k : Key) : List UInt8 := match time2datime k.datetime with
  | some d => beEnc 4 (toU 4 k.nbytes) ++ fieldsEnc k.bump d
  | none => []

/-- A key made by the library for a place in the first 2 GB. -/
structure SKey (k : Key) : Prop where
  ok : k.Ok
  rvers : k.rvers = 4
  small : k.seekkey ≤ kStartBigFile
  len : k.keylen = keylenFor k.name k.title k.cls false k.seekkey
  cls : k.cls ≠ tBasket

theorem SKey.bump {k : Key} (h : SKey k) : k.bump = k := by
  unfold Key.bump
  rw [if_neg]
  have := h.small
  omega

theorem SKey.appends {k : Key} (h : SKey k) : Appends k.marshal (kbytes k) := by
  obtain ⟨d, hd, _⟩ := C08_datime_roundtrip_partial k.datetime h.ok.datetime.1 h.ok.datetime.2.1 h.ok.datetime.2.2
  unfold kbytes
  rw [hd]
  exact marshal_appends k d hd h.ok.nbytes.1

theorem SKey.parses {k : Key} (h : SKey k) : Parses Key.unmarshal (kbytes k) k := by
  obtain ⟨d, hd, hd2⟩ := C08_datime_roundtrip_partial k.datetime h.ok.datetime.1 h.ok.datetime.2.1 h.ok.datetime.2.2
  unfold kbytes
  rw [hd]
  have := unmarshal_parses k h.ok d hd2
  rwa [h.bump] at this ⊢

theorem SKey.length {k : Key} (h : SKey k) : ((kbytes k).length : Int) = k.keylen := by
  obtain ⟨w, e, hl⟩ := C10_key_length_partial k h.ok false
    ⟨h.len, by simp, by rw [h.rvers]; intro hx; omega⟩ (newWBuffer [] 0 (fun _ => 0)) (newWBuffer_healthy _ _ _)
  obtain ⟨w', e', _, hb⟩ := h.appends.start []
  rw [e] at e'
  cases e'
  rw [hb, if_neg h.cls] at hl
  simpa [newWBuffer, WBuf.bytes] using hl

/-- Names short enough for the 16 bits of the key length. -/
structure NamesOk (name title cls : List UInt8) : Prop where
  len : name.length + title.length + cls.length ≤ 32000
  notBasket : cls ≠ tBasket
  name : StrOk name
  title : StrOk title
  cls : StrOk cls

theorem NamesOk.keylen {name title cls : List UInt8} (h : NamesOk name title cls) (big : Bool) (e : Int) :
    26 < keylenFor name title cls big e ∧ keylenFor name title cls big e ≤ 32068 := by
  have := keylenFor_bounds name title cls big e (by have := h.len; omega)
  have := h.len
  omega

theorem keylenFor_small (name title cls : List UInt8) (e : Int) (h : e ≤ kStartBigFile) :
    keylenFor name title cls false e = keylenFor name title cls false 0 := by
  unfold keylenFor
  rw [if_neg (by simp; omega), if_neg (c := (false || decide ((0 : Int) > kStartBigFile)) = true) (by simp [kStartBigFile])]

/-- groot/riofs/key.go:105-141 (`newKey`) in a small file. -/
theorem newKey_spec (sd : Int) (name title cls : List UInt8) (objlen : Int) (now : Civil) (w : WFile)
    (hn : NamesOk name title cls) (ho : 0 < objlen) (ho2 : objlen ≤ 2100000000) (hsd : 0 ≤ sd) (hsd2 : sd ≤ kStartBigFile)
    (h0 : 0 ≤ w.end_) (hK : w.end_ ≤ kStartBigFile) (ht : TimeOk now) :
    ∃ k : Key, newKey ⟨false, sd⟩ name title cls objlen now w = (⟨k, []⟩, { w with end_ := w.end_ + k.nbytes }) ∧
      SKey k ∧ k.seekkey = w.end_ ∧ k.objlen = objlen ∧ k.nbytes = objlen + k.keylen ∧
      k.keylen = keylenFor name title cls false 0 ∧
      k.name = name ∧ k.title = title ∧ k.cls = cls ∧ k.cycle = 1 ∧ k.seekpdir = sd := by
  have hk := hn.keylen false w.end_
  have hw : wrapS 4 (objlen + keylenFor name title cls false w.end_)
      = objlen + keylenFor name title cls false w.end_ := fitsS4.mpr (by omega)
  have hks := keylenFor_small name title cls w.end_ hK
  unfold newKey
  dsimp only
  rw [hw, if_pos ho, if_neg (by omega), if_pos ho]
  refine ⟨_, rfl, ?_, rfl, rfl, rfl, hks, rfl, rfl, rfl, rfl, rfl⟩
  unfold kStartBigFile at *
  refine ⟨⟨?_, ?_, ?_, ht, ?_, ?_, ?_, ?_, ?_, hn.cls, hn.name, hn.title⟩, rfl, hK, rfl, hn.notBasket⟩
  · dsimp only; omega
  · exact Or.inl (by dsimp only; omega)
  · dsimp only; rw [fitsS4]; omega
  · dsimp only; rw [fitsS2]; omega
  · dsimp only; decide
  · dsimp only; omega
  · dsimp only; omega
  · dsimp only; omega

/-- groot/riofs/key.go:222-274 (`newKeyFromBuf`) in a small file. -/
theorem newKeyFromBuf_spec (c : Codec) (spare : List UInt8) (hsp : spare.length ≤ 1000000) (sd : Int)
    (name title cls payload : List UInt8) (compr : Int) (now : Civil) (w : WFile)
    (hn : NamesOk name title cls) (hp : payload.length ≤ 2000000000) (hsd : 0 ≤ sd) (hsd2 : sd ≤ kStartBigFile)
    (h0 : 0 ≤ w.end_) (hK : w.end_ ≤ kStartBigFile) (ht : TimeOk now) (out : List UInt8)
    (hc : compress c [] spare payload compr = .ok out) :
    ∃ k : Key, newKeyFromBuf c spare ⟨false, sd⟩ name title cls 1 payload compr now w
        = .ok (⟨k, out⟩, { w with end_ := w.end_ + k.nbytes }) ∧
      SKey k ∧ k.seekkey = w.end_ ∧ k.objlen = payload.length ∧ k.nbytes = k.keylen + out.length ∧
      k.keylen = keylenFor name title cls false 0 ∧
      k.name = name ∧ k.title = title ∧ k.cls = cls ∧ k.cycle = 1 ∧ k.seekpdir = sd := by
  have hk := hn.keylen false w.end_
  have hl2 := compress_length_le c spare payload out compr hc hsp (by omega)
  have hw1 : wrapS 4 out.length = out.length := fitsS4.mpr (by omega)
  have hw : wrapS 4 (keylenFor name title cls false w.end_ + out.length)
      = keylenFor name title cls false w.end_ + out.length := fitsS4.mpr (by omega)
  have hwp : wrapS 4 payload.length = payload.length := fitsS4.mpr (by omega)
  have hks := keylenFor_small name title cls w.end_ hK
  unfold newKeyFromBuf
  dsimp only
  rw [hc]
  dsimp only
  rw [hw1, hw, hwp, if_neg (by omega)]
  refine ⟨_, rfl, ?_, rfl, rfl, rfl, hks, rfl, rfl, rfl, rfl, rfl⟩
  unfold kStartBigFile at *
  refine ⟨⟨?_, ?_, ?_, ht, ?_, ?_, ?_, ?_, ?_, hn.cls, hn.name, hn.title⟩, rfl, hK, rfl, hn.notBasket⟩
  · dsimp only; omega
  · exact Or.inl (by dsimp only; omega)
  · dsimp only; rw [fitsS4]; omega
  · dsimp only; rw [fitsS2]; omega
  · dsimp only; decide
  · dsimp only; omega
  · dsimp only; omega
  · dsimp only; omega

theorem SKey.withCycle {k : Key} (h : SKey k) (c : Int) (hc : FitsS 2 c) : SKey { k with cycle := c } :=
  ⟨{ h.ok with cycle := hc }, h.rvers, h.small, h.len, h.cls⟩

/-- groot/riofs/key.go:616-641 (`writeFile`). -/
theorem writeFile_spec (k : Key) (h : SKey k) (buf : List UInt8) (w : WFile) :
    writeFile ⟨k, buf⟩ w = some (⟨k, []⟩,
      { w with disk := writeAt (writeAt w.disk k.seekkey.toNat (kbytes k)) (k.seekkey.toNat + (kbytes k).length) buf }) := by
  obtain ⟨b, e, _, hb⟩ := h.appends.start []
  have hl := h.length
  have h0 := h.ok.seekkey.1
  unfold writeFile
  dsimp only
  rw [e]
  dsimp only
  rw [if_neg (by omega), hb, h.bump]
  rw [show (k.seekkey + k.keylen).toNat = k.seekkey.toNat + (kbytes k).length by omega]

/-- What is on disk after a record was written. -/
theorem At_record (d : List UInt8) (pos : Nat) (x y : List UInt8) :
    At (writeAt (writeAt d pos x) (pos + x.length) y) pos (x ++ y) :=
  ((At_writeAt_self d pos x).write (Or.inl (Nat.le_refl _))).append (At_writeAt_self _ _ _)

/-- What was on disk before the record remains. -/
theorem At.record {d : List UInt8} {a : Nat} {z : List UInt8} (h : At d a z) {pos : Nat} {x y : List UInt8}
    (ho : a + z.length ≤ pos ∨ pos + x.length + y.length ≤ a) :
    At (writeAt (writeAt d pos x) (pos + x.length) y) a z :=
  (h.write (by omega)).write (by omega)

/-! ### Headers of directories -/

/-- A header of a directory of a small file. -/
structure SHdr (h : DirHdr) : Prop where
  rvers : h.rvers = 5
  ctime : TimeOk h.ctime
  mtime : TimeOk h.mtime
  uuid : h.uuid = noUUID
  seekdir : 0 ≤ h.seekdir ∧ h.seekdir ≤ kStartBigFile
  seekparent : 0 ≤ h.seekparent ∧ h.seekparent ≤ kStartBigFile
  seekkeys : 0 ≤ h.seekkeys ∧ h.seekkeys ≤ kStartBigFile
  nbytesname : 0 ≤ h.nbytesname ∧ h.nbytesname ≤ 70000
  nbyteskeys : FitsS 4 h.nbyteskeys

theorem SHdr.ok {h : DirHdr} (s : SHdr h) : h.Ok := by
  obtain ⟨h1, h2, h3, h4, h5, h6, h7, h8, h9⟩ := s
  unfold kStartBigFile at *
  refine ⟨?_, h2, h3, h9, ?_, ?_, ?_, ?_⟩
  · rw [h1]; decide
  · rw [fitsS4]; omega
  · rw [h1]; intro hx; omega
  · intro _; simp only [fitsS4]; omega
  · rw [h4]; rfl

/-- The bytes of a directory header. -/
def hbytes (h : DirHdr) : List UInt8 := match time2datime h.ctime, time2datime h.mtime with
  | some c, some m => h.enc c m
  | _, _ => []

theorem SHdr.appends {h : DirHdr} (s : SHdr h) : Appends h.marshal (hbytes h) := by
  obtain ⟨c, hc, _⟩ := C08_datime_roundtrip_partial h.ctime s.ctime.1 s.ctime.2.1 s.ctime.2.2
  obtain ⟨m, hm, _⟩ := C08_datime_roundtrip_partial h.mtime s.mtime.1 s.mtime.2.1 s.mtime.2.2
  unfold hbytes
  rw [hc, hm]
  exact dirHdr_appends h s.ok.uuid c m hc hm

theorem SHdr.parses {h : DirHdr} (s : SHdr h) (prev : List UInt8) : Parses (DirHdr.unmarshal prev) (hbytes h) h := by
  obtain ⟨c, hc, hc2⟩ := C08_datime_roundtrip_partial h.ctime s.ctime.1 s.ctime.2.1 s.ctime.2.2
  obtain ⟨m, hm, hm2⟩ := C08_datime_roundtrip_partial h.mtime s.mtime.1 s.mtime.2.1 s.mtime.2.2
  unfold hbytes
  rw [hc, hm]
  exact dirHdr_parses h s.ok prev c m hc2 hm2

theorem SHdr.length {h : DirHdr} (s : SHdr h) : (hbytes h).length = 48 := by
  obtain ⟨c, hc, _⟩ := C08_datime_roundtrip_partial h.ctime s.ctime.1 s.ctime.2.1 s.ctime.2.2
  obtain ⟨m, hm, _⟩ := C08_datime_roundtrip_partial h.mtime s.mtime.1 s.mtime.2.1 s.mtime.2.2
  unfold hbytes
  rw [hc, hm]
  unfold DirHdr.enc
  rw [if_neg (by rw [s.rvers]; decide), s.uuid]
  simp [noUUID]

theorem dirPayload_spec (objlen : Int) (name title : List UInt8) (h : DirHdr) (s : SHdr h) :
    dirPayload objlen name title h = some (strEnc name ++ (strEnc title ++ hbytes h)) := by
  obtain ⟨w, e, _, hb⟩ := (seq_appends (writeString_appends name) (seq_appends (writeString_appends title) s.appends)).start
    (List.replicate objlen.toNat 0)
  unfold dirPayload
  have : ∀ (a : Option WBuf), (a.bind fun b => (b.writeString title).bind fun b => (h.marshal b).bind fun b => some b.bytes)
      = (a.bind fun b => (b.writeString title).bind h.marshal).bind fun b => some b.bytes := by
    intro a
    cases a with
    | none => rfl
    | some b =>
      simp only [Option.bind_some]
      cases b.writeString title <;> rfl
  rw [this, e]
  simp [hb]

/-! ### Reading -/

/-- groot/riofs/key.go:456-478 (`load`) of a payload on disk. -/
theorem load_obj (c : Codec) (hc : c.Lossless) (h4 : c.LZ4Saves) (spare payload out : List UInt8) (compr : Int)
    (hcomp : compress c [] spare payload compr = .ok out) (hcoll : out ≠ payload → out.length ≠ payload.length)
    (k : Key) (ho : k.objlen = payload.length) (hn : k.nbytes = k.keylen + out.length)
    (hlen : out.length < 2 ^ 31)
    (disk : List UInt8) (hd : At disk (k.seekkey + k.keylen).toNat out) (buf : List UInt8) (hb : buf.length = payload.length) :
    load c disk ⟨k, []⟩ buf = .ok payload := by
  have hw : wrapS 4 (k.nbytes - k.keylen) = out.length := by
    rw [show k.nbytes - k.keylen = out.length by omega]
    exact fitsS4.mpr (by omega)
  unfold load
  dsimp only
  rw [if_neg (by omega), if_neg (by simp)]
  unfold isCompressed
  rw [hw, ho]
  by_cases hraw : out = payload
  · subst hraw
    rw [if_neg (by simp), hb, hd.readAt]
  · have := hcoll hraw
    rw [if_pos (by simp; omega)]
    rw [show (k.nbytes - k.keylen).toNat = out.length by omega]
    rw [← List.prefix_iff_eq_take.mp hd]
    exact ((C13_roundtrip_partial c hc h4 [] spare payload compr out hcomp).resolve_left hraw) buf hb

/-- Loading what was stored without compression. -/
theorem load_raw (c : Codec) (k : Key) (n : Nat) (ho : k.objlen = n) (hn : k.nbytes = k.keylen + n) (hlt : n < 2 ^ 31)
    (disk bs : List UInt8) (hbs : bs.length = n) (hd : At disk (k.seekkey + k.keylen).toNat bs) :
    keyBytes c disk k = some bs := by
  have hw : wrapS 4 (k.nbytes - k.keylen) = n := by
    rw [show k.nbytes - k.keylen = n by omega]
    exact fitsS4.mpr (by omega)
  unfold keyBytes load
  dsimp only
  rw [if_neg (by omega), if_neg (by simp)]
  unfold isCompressed
  rw [hw, ho, if_neg (by simp), Int.toNat_natCast, List.length_replicate, ← hbs, hd.readAt]

/-- The class given to a key of a directory when reading. -/
def rkey (k : Key) : Key := if k.cls = tDirectory then { k with cls := tDirectoryFile } else k

theorem readKeysLoop_spec (ks : List Key) (hs : ∀ k ∈ ks, SKey k) (pre post : List UInt8) (hid : List UInt8) :
    readKeysLoop ks.length ⟨pre ++ ((ks.map kbytes).flatten ++ post), hid, pre.length, 0, false⟩ = some (ks.map rkey) := by
  induction ks generalizing pre with
  | nil => rfl
  | cons k ks ih =>
    have hk := hs k (by simp)
    have ih := ih (fun x hx => hs x (by simp [hx])) (pre ++ kbytes k)
    simp only [List.map_cons, List.flatten_cons, List.length_cons, readKeysLoop, List.append_assoc]
    rw [hk.parses pre _ hid 0]
    simp only [Option.bind_some, Bool.false_eq_true, if_false]
    simp only [List.append_assoc, List.length_append] at ih
    rw [ih]
    rfl

theorem readInt4_start (n : Int) (hf : FitsS 4 n) (y : List UInt8) :
    (newRBuffer (beEnc 4 (toU 4 n) ++ y) [] 0).readInt 4
      = some (n, ⟨beEnc 4 (toU 4 n) ++ y, [], (beEnc 4 (toU 4 n)).length, 0, false⟩) :=
  Parses.start (readInt_parses_fits hf) _ (List.prefix_append _ _)

/-- groot/riofs/dir.go:230-274 (`readKeys`) of a list of keys on disk. -/
theorem readKeys_spec (disk : List UInt8) (hdr : DirHdr) (hk : Key) (ks : List Key) (hs : SKey hk)
    (hks : ∀ k ∈ ks, SKey k) (hpos : 0 < hdr.seekkeys) (hn : hdr.nbyteskeys = hk.nbytes)
    (hnb : hk.nbytes = hk.objlen + hk.keylen) (hol : hk.objlen = 4 + ((ks.map kbytes).flatten.length : Int))
    (hlt : FitsS 4 ks.length)
    (hd : At disk hdr.seekkeys.toNat (kbytes hk ++ (beEnc 4 (toU 4 ks.length) ++ (ks.map kbytes).flatten))) :
    readKeys disk hdr = some (ks.map rkey) := by
  have hl := hs.length
  have h1 : readAtI disk hdr.seekkeys hdr.nbyteskeys = some (kbytes hk ++ (beEnc 4 (toU 4 ks.length) ++ (ks.map kbytes).flatten)) := by
    refine hd.readAtI (by omega) ?_
    rw [hn, hnb, hol]
    simp only [List.length_append, length_beEnc]
    omega
  have h2 : readAtI disk (hdr.seekkeys + hk.keylen) hk.objlen = some (beEnc 4 (toU 4 ks.length) ++ (ks.map kbytes).flatten) := by
    have := hd.right
    refine At.readAtI ?_ (by omega) ?_
    · rwa [show (hdr.seekkeys + hk.keylen).toNat = hdr.seekkeys.toNat + (kbytes hk).length by omega]
    · rw [hol]
      simp only [List.length_append, length_beEnc]
      omega
  have h3 := readInt4_start ks.length hlt (ks.map kbytes).flatten
  have h4 := hs.parses.start (kbytes hk ++ (beEnc 4 (toU 4 ks.length) ++ (ks.map kbytes).flatten)) (List.prefix_append _ _)
  have h5 := readKeysLoop_spec ks hks (beEnc 4 (toU 4 ks.length)) [] []
  rw [List.append_nil] at h5
  generalize kbytes hk ++ (beEnc 4 (toU 4 ks.length) ++ (ks.map kbytes).flatten) = B at *
  generalize beEnc 4 (toU 4 ks.length) ++ (ks.map kbytes).flatten = C at *
  unfold readKeys
  rw [if_neg (by omega), h1, Option.bind_some, h4, Option.bind_some, h2, Option.bind_some, h3, Option.bind_some,
    if_neg (Int.not_lt.mpr (Int.natCast_nonneg _)), Int.toNat_natCast]
  exact h5

theorem marshalKeys_appends (ks : List FKey) (hs : ∀ k ∈ ks, SKey k.key) :
    Appends (marshalKeys ks) ((ks.map FKey.key).map kbytes).flatten := by
  induction ks with
  | nil => intro w hw; exact ⟨w, rfl, hw, by simp, rfl⟩
  | cons k ks ih =>
    exact seq_appends (hs k (by simp)).appends (ih fun x hx => hs x (by simp [hx]))

theorem kbytes_sum (ks : List FKey) (hs : ∀ k ∈ ks, SKey k.key) :
    (((ks.map FKey.key).map kbytes).flatten.length : Int) = (ks.map (fun k => k.key.keylen)).sum := by
  induction ks with
  | nil => rfl
  | cons k ks ih =>
    have h1 := (hs k (by simp)).length
    have h2 := ih fun x hx => hs x (by simp [hx])
    simp only [List.map_cons, List.flatten_cons, List.length_append, List.sum_cons]
    omega

end Verif.Riofs
