import Verif.Riofs.FileClose

/-!
# Closing a file, and what opening it shows
-/

namespace Verif.Riofs

open Verif.RBytes Verif.FreeList Verif.Compress

/-! ### What is on the disk shows -/

/-- Everything the file `f` stored beyond its header is on the disk `D`. -/
def Kept (f : FFile) (D : List UInt8) : Prop :=
  ∀ (a : Nat) bs, 100 ≤ a → (a + bs.length : Int) ≤ f.w.end_ → At f.w.disk a bs → At D a bs

theorem rkey_fields (k : Key) : (rkey k).name = k.name ∧ (rkey k).cycle = k.cycle ∧ (rkey k).title = k.title ∧
    (rkey k).objlen = k.objlen ∧ (rkey k).nbytes = k.nbytes ∧ (rkey k).keylen = k.keylen ∧ (rkey k).seekkey = k.seekkey := by
  unfold rkey
  split <;> exact ⟨rfl, rfl, rfl, rfl, rfl, rfl, rfl⟩

theorem keys_count {c : Codec} {spare : List UInt8} {f : FFile} (hI : Inv c spare f) (d : FDir) (hd : d ∈ f.dirs) :
    FitsS 4 (d.keys.length : Int) := by
  have h1 := sum_ge_length d.keys (fun k hk => (hI.keys d hd k hk).1.keylen_pos)
  have h2 := (hI.dirs d hd).sum
  have h3 := hI.hi
  unfold kStartBigFile at h3
  rw [fitsS4]
  omega

/-- The keys of a saved directory are read back. -/
theorem saved_keys {c : Codec} {spare : List UInt8} {f : FFile} (hI : Inv c spare f) {D : List UInt8} (hK : Kept f D)
    (j : Nat) (d : FDir) (hd : f.dirs[j]? = some d) (hs : Saved f j) :
    readKeys D d.hdr = some ((d.keys.map FKey.key).map rkey) := by
  obtain ⟨d', hk, h1, h2, h3, h4, h5, h6, h7, h8, h9, h10⟩ := hs
  rw [hd] at h1
  cases h1
  have hdm := List.mem_of_getElem? hd
  have hsk : ∀ k ∈ d.keys, SKey k.key := fun k hk => (hI.keys d hdm k hk).1
  have hln := h2.length
  have hcnt := keys_count hI d hdm
  refine readKeys_spec D d.hdr hk (d.keys.map FKey.key) h2 ?_ (by omega) h4 h5 ?_ (by rwa [List.length_map]) ?_
  · intro k hk
    obtain ⟨x, hx, rfl⟩ := List.mem_map.mp hk
    exact hsk x hx
  · rw [h6]
    unfold listBytes
    rw [List.length_append, length_beEnc]
    exact Int.natCast_add _ _
  · rw [List.length_map]
    refine hK _ _ (by omega) ?_ h7
    have e1 : (((kbytes hk ++ (beEnc 4 (toU 4 (d.keys.length : Int)) ++ ((d.keys.map FKey.key).map kbytes).flatten)).length : Nat) : Int)
        = hk.nbytes := by
      rw [List.length_append, Int.natCast_add, h5, h6, hln]
      exact Int.add_comm _ _
    rw [e1]
    clear e1
    omega

/-- The header of a saved directory is read back. -/
theorem saved_dir {c : Codec} {spare : List UInt8} {f : FFile} (hI : Inv c spare f) {D : List UInt8} (hK : Kept f D)
    (hD : f.w.end_ ≤ D.length) (j : Nat) (d : FDir) (hd : f.dirs[j]? = some d) (hs : Saved f j) (k : Key)
    (hk1 : k.seekkey = d.hdr.seekdir) (hk2 : k.keylen = d.hdr.nbytesname) (hk3 : k.objlen = 60) (hk4 : k.nbytes = k.keylen + 60) :
    objectDir c D k = some ⟨k.name, k.name, d.hdr, (d.keys.map FKey.key).map rkey⟩ := by
  have hdm := List.mem_of_getElem? hd
  have hdi := hI.dirs d hdm
  have hlo := hdi.lo
  have hhi := hdi.hi
  have hnn := hdi.hdr.nbytesname
  have hkeys := saved_keys hI hK j d hd hs
  obtain ⟨d', hk, h1, h2, h3, h4, h5, h6, h7, h8, h9, h10⟩ := hs
  rw [hd] at h1
  cases h1
  have h48 := hdi.hdr.length
  have hlo' : d.hlo = d.hdr.seekdir + d.hdr.nbytesname := rfl
  have hat := hK _ _ (by omega) (by rw [h48]; omega) h10
  obtain ⟨x, hx1, hx2⟩ := At_of_long (d := D) (a := d.hlo.toNat) (n := 60) (by omega)
  have hpre := hat.unique hx2 (by omega)
  have hb := load_raw c k 60 hk3 hk4 (by decide) D x hx1 (by rw [hk1, hk2]; exact hx2)
  have hp := (hdi.hdr.parses noUUID).start x hpre
  unfold objectDir
  rw [hb, Option.bind_some, hp, Option.bind_some]
  dsimp only
  rw [if_neg (by simp), hkeys, Option.bind_some]

theorem shows_of {c : Codec} (hc : c.Lossless) (h4 : c.LZ4Saves) {spare : List UInt8} {f : FFile} (hI : Inv c spare f)
    (hS : ∀ j, j < f.dirs.length → Saved f j) {D : List UInt8} (hK : Kept f D) (hD : f.w.end_ ≤ D.length) :
    ∀ (n : Nat) (j : Nat) (d : FDir) (rd : RDir), f.dirs[j]? = some d → rd.keys = (d.keys.map FKey.key).map rkey →
      Shows c D f.view n rd j := by
  intro n
  induction n with
  | zero => intro j d rd _ _; trivial
  | succ n ih =>
    intro j d rd hd hrd
    have hdm := List.mem_of_getElem? hd
    refine ⟨d.keys.map FKey.entry, ?_, by rw [hrd]; simp, ?_⟩
    · unfold FFile.view
      rw [List.getElem?_map, hd]; rfl
    intro m k e hk he
    rw [hrd, List.getElem?_map, List.getElem?_map] at hk
    rw [List.getElem?_map] at he
    obtain ⟨x, hx, rfl⟩ := Option.map_eq_some_iff.mp he
    rw [hx] at hk
    simp only [Option.map_some, Option.some.injEq] at hk
    subst hk
    obtain ⟨r1, r2, r3, r4, r5, r6, r7⟩ := rkey_fields x.key
    obtain ⟨k1, k2, k3, k4⟩ := hI.keys d hdm x (List.mem_of_getElem? hx)
    refine ⟨r1, r2, r3, ?_⟩
    unfold FKey.entry
    dsimp only
    cases hw : x.what with
    | obj p =>
      rw [hw] at k4
      obtain ⟨q1, q2, out, q3, q4, q5, q6, q7⟩ := k4
      dsimp only
      have hhi := hI.hi
      have hkp := k1.keylen_pos
      unfold kStartBigFile at hhi
      have hre : rkey x.key = x.key := by unfold rkey; rw [if_neg q1]
      rw [hre]
      refine ⟨rfl, q2, ?_⟩
      intro buf hb
      exact load_obj c hc h4 spare p out f.w.compression q3 q4 x.key q2 q5 (by omega) D
        (hK _ _ (by omega) (by omega) q6) buf hb
    | dir i =>
      rw [hw] at k4
      obtain ⟨q1, q2, q3, d', q4, q5, q6, q7⟩ := k4
      dsimp only
      have hi : i < f.dirs.length := (List.getElem?_eq_some_iff.mp q4).1
      refine ⟨by unfold rkey; rw [if_pos q1], _, saved_dir hI hK hD i d' q4 (hS i hi) (rkey x.key) (by rw [r7, q6])
        (by rw [r6, q7]) (by rw [r4, q2]) (by rw [r5, r6, q3]), r1, ?_⟩
      exact ih i d' _ q4 rfl

/-! ### Opening -/

theorem SKey.split {k : Key} (h : SKey k) : ∃ p m, kbytes k = p ++ (beEnc 2 (toU 2 4) ++ (m ++ (strEnc k.cls ++ (strEnc k.name ++ strEnc k.title)))) ∧
    p.length = 4 ∧ m.length = 20 := by
  obtain ⟨d, hd, _⟩ := C08_datime_roundtrip_partial k.datetime h.ok.datetime.1 h.ok.datetime.2.1 h.ok.datetime.2.2
  unfold kbytes
  rw [hd, h.bump]
  refine ⟨beEnc 4 (toU 4 k.nbytes), beEnc 4 (toU 4 k.objlen) ++ (beEnc 4 d.toNat ++ (beEnc 2 (toU 2 (wrapS 2 k.keylen)) ++
    (beEnc 2 (toU 2 k.cycle) ++ seekEnc k))), ?_, by simp, ?_⟩
  · simp only [fieldsEnc, h.rvers, List.append_assoc]
  · unfold seekEnc
    rw [if_neg (by rw [h.rvers]; decide)]
    simp

/-- groot/riofs/dir.go:173-228 (`readDirInfo`). -/
theorem readDirInfo_spec (D : List UInt8) (h : FileHdr) (rk : Key) (hdr : DirHdr) (hv : h.version = rootVersion)
    (hb : h.begin = 100) (hnb : 10 ≤ h.nbytesname) (hn : hdr.nbytesname = h.nbytesname)
    (hs : SKey rk) (hh : SHdr hdr) (hl : rk.keylen ≤ h.nbytesname) (he : 100 + h.nbytesname + 60 ≤ h.end_) (hD : h.end_ ≤ D.length)
    (h1 : At D 100 (kbytes rk)) (h2 : At D (100 + h.nbytesname).toNat (hbytes hdr)) :
    readDirInfo D h = if h.nbytesname > 1000 then none else some ⟨rk.name, rk.title, hdr, []⟩ := by
  have hrec : recordSize h.version = 60 := by rw [hv]; decide
  have h48 := hh.length
  obtain ⟨x, hx1, hx2⟩ := At_of_long (d := D) (a := 100) (n := (h.nbytesname + 60).toNat) (by omega)
  have hread : readAtI D h.begin (h.nbytesname + 60) = some x := by
    rw [hb]; exact hx2.readAtI (by omega) (by omega)
  have hlen := hs.length
  have hpre := h1.unique hx2 (by omega)
  have hdrop := hx2.drop h.nbytesname.toNat (by omega)
  rw [show 100 + h.nbytesname.toNat = (100 + h.nbytesname).toNat by omega] at hdrop
  have hpre2 := h2.unique hdrop (by rw [List.length_drop]; omega)
  have hp := (hh.parses noUUID).start _ hpre2
  obtain ⟨p, m, hsp, hp4, hm20⟩ := hs.split
  rw [hsp] at hpre
  obtain ⟨t, rfl⟩ := hpre
  have hver : (newRBuffer ((p ++ (beEnc 2 (toU 2 4) ++ (m ++ (strEnc rk.cls ++ (strEnc rk.name ++ strEnc rk.title)))) ++ t).drop 4) [] 0).readInt 2
      = some (4, ⟨(p ++ (beEnc 2 (toU 2 4) ++ (m ++ (strEnc rk.cls ++ (strEnc rk.name ++ strEnc rk.title)))) ++ t).drop 4, [], 2, 0, false⟩) := by
    refine Parses.start (readInt_parses_fits (k := 2) (x := 4) (by decide)) _ ?_
    rw [List.append_assoc, ← hp4, List.drop_left, List.append_assoc]
    exact List.prefix_append _ _
  have hstr : (p ++ (beEnc 2 (toU 2 4) ++ (m ++ (strEnc rk.cls ++ (strEnc rk.name ++ strEnc rk.title)))) ++ t).drop 26
      = strEnc rk.cls ++ (strEnc rk.name ++ (strEnc rk.title ++ t)) := by
    have : (p ++ (beEnc 2 (toU 2 4) ++ m)).length = 26 := by simp [hp4, hm20]
    rw [← this, show p ++ (beEnc 2 (toU 2 4) ++ (m ++ (strEnc rk.cls ++ (strEnc rk.name ++ strEnc rk.title)))) ++ t
      = (p ++ (beEnc 2 (toU 2 4) ++ m)) ++ (strEnc rk.cls ++ (strEnc rk.name ++ (strEnc rk.title ++ t))) by
        simp only [List.append_assoc], List.drop_left]
  generalize (p ++ (beEnc 2 (toU 2 4) ++ (m ++ (strEnc rk.cls ++ (strEnc rk.name ++ strEnc rk.title)))) ++ t) = X at *
  have s1 := readString_parses rk.cls (Nat.lt_trans hs.ok.cls.1 (by decide)) hs.ok.cls.2 [] (strEnc rk.name ++ (strEnc rk.title ++ t)) [] 0
  have s2 := readString_parses rk.name (Nat.lt_trans hs.ok.name.1 (by decide)) hs.ok.name.2 (strEnc rk.cls) (strEnc rk.title ++ t) [] 0
  have s3 := readString_parses rk.title (Nat.lt_trans hs.ok.title.1 (by decide)) hs.ok.title.2 (strEnc rk.cls ++ strEnc rk.name) t [] 0
  simp only [List.nil_append, List.length_nil, Nat.zero_add, List.append_assoc, List.length_append] at s1 s2 s3
  unfold readDirInfo
  dsimp only
  rw [hrec, if_neg (by omega), hread, Option.bind_some, if_neg (by omega), hp, Option.bind_some]
  dsimp only
  rw [if_neg (by simp), hver, Option.bind_some]
  dsimp only
  rw [if_neg (by decide), hstr]
  unfold newRBuffer
  rw [s1, Option.bind_some]
  dsimp only
  rw [s2, Option.bind_some]
  dsimp only
  rw [s3, Option.bind_some]
  dsimp only
  rw [hn]
  by_cases hx : h.nbytesname > 1000
  · rw [if_pos (Or.inr hx), if_pos hx]
  · rw [if_neg (by omega), if_neg hx]

/-- The bytes of a free segment of a small file. -/
def segBytes (s : Seg) : List UInt8 := beEnc 2 (toU 2 1) ++ (beEnc 4 (toU 4 s.first) ++ beEnc 4 (toU 4 s.last))

theorem seg_spec (s : Seg) (h1 : 0 ≤ s.first ∧ s.first ≤ kStartBigFile) (h2 : 0 ≤ s.last ∧ s.last ≤ kStartBigFile) :
    Appends (segMarshal s) (segBytes s) ∧ Parses segUnmarshal (segBytes s) s := by
  unfold kStartBigFile at *
  have hb : ¬ s.last > kStartBigFile := by unfold kStartBigFile; omega
  have hf1 : FitsS 4 s.first := fitsS4.mpr (by omega)
  have hf2 : FitsS 4 s.last := fitsS4.mpr (by omega)
  constructor
  · intro w hw
    obtain ⟨w', a, b, c, d⟩ := (seq_appends (writeInt_appends 2 1) (seq_appends (writeInt_appends 4 (wrapS 4 s.first))
      (writeInt_appends 4 (wrapS 4 s.last)))) (w.grow (segSizeof s).toNat) (WBuf.grow_wf hw _)
    refine ⟨w', ?_, b, ?_, by rw [d]; rfl⟩
    · unfold segMarshal
      simp only [hb, hw.no_err, if_false, Bool.false_eq_true, show ¬ ((1 : Int) > 1000) by decide]
      exact a
    · rw [c, WBuf.grow_bytes hw, show wrapS 4 s.first = s.first from hf1, show wrapS 4 s.last = s.last from hf2]
      rfl
  · unfold segUnmarshal segBytes
    pstep (readInt_parses_fits (k := 2) (x := 1) (by decide))
    simp only [show ¬ ((1 : Int) > 1000) by decide, if_false]
    pstep (readInt_parses_fits hf1)
    exact (readInt_parses_fits hf2).last (fun r => rfl)

theorem segBytes_length (s : Seg) : (segBytes s).length = 10 := by simp [segBytes]

/-- groot/riofs/file.go:666-703 (`readFreeSegments`). -/
theorem readFree_spec (c : Codec) (D : List UInt8) (h : FileHdr) (fk : Key) (s : Seg) (hs : SKey fk)
    (h1 : 0 ≤ s.first ∧ s.first ≤ kStartBigFile) (h2 : 0 ≤ s.last ∧ s.last ≤ kStartBigFile)
    (ho : fk.objlen = 10) (hn : fk.nbytes = 10 + fk.keylen) (hsk : h.seekfree = fk.seekkey) (hnb : h.nbytesfree = fk.nbytes)
    (hd : At D fk.seekkey.toNat (kbytes fk ++ segBytes s)) : readFreeSegments c D h = some [s] := by
  have hl := hs.length
  have h0 := hs.ok.seekkey.1
  have hx : readAtI D h.seekfree h.nbytesfree = some (kbytes fk ++ segBytes s) := by
    rw [hsk, hnb]
    refine hd.readAtI h0 ?_
    rw [List.length_append, segBytes_length]
    omega
  have hb := load_raw c fk 10 ho (by omega) (by decide) D (segBytes s) (segBytes_length s)
    (by rw [show (fk.seekkey + fk.keylen).toNat = fk.seekkey.toNat + (kbytes fk).length by omega]; exact hd.right)
  have hp := hs.parses.start (kbytes fk ++ segBytes s) (List.prefix_append _ _)
  have hq := (seg_spec s h1 h2).2.start (segBytes s) (List.prefix_refl _)
  unfold readFreeSegments
  rw [hx, Option.bind_some, hp, Option.bind_some]
  dsimp only
  rw [hb, Option.bind_some, segBytes_length]
  have hlen := segBytes_length s
  unfold readSegsLoop
  rw [if_neg (by simp [RBuf.len, newRBuffer, hlen]), hq, Option.bind_some]
  dsimp only
  unfold readSegsLoop
  rw [if_pos (by simp [RBuf.len])]
  rfl

/-- groot/riofs/file.go:501-532 (`readStreamerInfo`). -/
theorem readInfo_spec (c : Codec) (hc : c.Lossless) (h4 : c.LZ4Saves) (spare si out : List UInt8) (compr : Int)
    (hcomp : compress c [] spare si compr = .ok out) (hcoll : out ≠ si → out.length ≠ si.length) (hlen : out.length < 2 ^ 31)
    (D : List UInt8) (h : FileHdr) (k : Key) (hs : SKey k) (ho : k.objlen = si.length) (hn : k.nbytes = k.keylen + out.length)
    (hpos : 0 < k.seekkey) (hlt : k.seekkey < h.end_) (hsk : h.seekinfo = k.seekkey) (hnb : h.nbytesinfo = k.nbytes)
    (hd : At D k.seekkey.toNat (kbytes k ++ out)) : readStreamerInfo c D h = some si := by
  have hl := hs.length
  have hx : readAtI D h.seekinfo h.nbytesinfo = some (kbytes k ++ out) := by
    rw [hsk, hnb]
    refine hd.readAtI (by omega) ?_
    rw [List.length_append]
    omega
  have hb : keyBytes c D k = some si := by
    unfold keyBytes
    rw [load_obj c hc h4 spare si out compr hcomp hcoll k ho hn hlen D
      (by rw [show (k.seekkey + k.keylen).toNat = k.seekkey.toNat + (kbytes k).length by omega]; exact hd.right)
      (List.replicate k.objlen.toNat 0) (by rw [List.length_replicate]; omega)]
  have hp := hs.parses.start (kbytes k ++ out) (List.prefix_append _ _)
  unfold readStreamerInfo
  rw [if_neg (by omega), hx, Option.bind_some, hp, Option.bind_some]
  exact hb

/-! ### Closing -/

theorem tFile_ok {name title : List UInt8} (h : NamesOk name title tDirectory) : NamesOk name title tFile := by
  obtain ⟨h1, h2, h3, h4, h5⟩ := h
  refine ⟨?_, by decide, h3, h4, ⟨by decide, by decide⟩⟩
  have e1 : tDirectory.length = 10 := rfl
  have e2 : tFile.length = 5 := rfl
  omega

theorem info_ok : NamesOk nameStreamerInfo listTitle tList :=
  ⟨by decide, by decide, ⟨by decide, by decide⟩, ⟨by decide, by decide⟩, ⟨by decide, by decide⟩⟩

theorem closeDir_lite (c : Codec) (spare : List UInt8) (now : Civil) (ht : TimeOk now) (f : FFile) (hI : Inv c spare f) :
    ∃ f', f.closeDir now = some f' ∧ f.w.end_ ≤ f'.w.end_ ∧ LFile f' ∧ core f' = core f ∧
      f'.w.compression = f.w.compression ∧ f'.id = f.id := by
  obtain ⟨d0, rk, t1, _⟩ := hI.top
  have h0 := (List.getElem?_eq_some_iff.mp t1).1
  have hhi := hI.hi
  unfold FFile.closeDir
  rw [t1]
  simp only [Option.bind_some]
  rw [if_neg (by omega)]
  have hset : f.dirs.set 0 d0 = f.dirs := by
    apply List.ext_getElem?
    intro j
    rw [set_get? t1]
    split
    · rename_i hj; subst hj; exact t1.symm
    · rfl
  rw [hset]
  exact save_lite now ht (f.dirs.length + 1) f 0 hI.lite hI.down h0 (by omega)

/-- groot/riofs/file.go:539-591 (`writeStreamerInfo`) never panics. -/
theorem info_lite (c : Codec) (spare : List UInt8) (hsp : spare.length ≤ 1000000) (now : Civil) (ht : TimeOk now) (f : FFile) (hL : LFile f)
    (h0 : f.dirs ≠ []) (si out : List UInt8) (hsi : si.length ≤ 2000000000)
    (hcomp : compress c [] spare si f.w.compression = .ok out) :
    ∃ f', f.writeStreamerInfo c spare si now = some f' ∧ f.w.end_ < f'.w.end_ ∧ f'.dirs = f.dirs := by
  obtain ⟨d, ds, hds⟩ := List.exists_cons_of_ne_nil h0
  have hd : f.dirs[0]? = some d := by rw [hds]; rfl
  have hkl := info_ok.keylen d.big f.w.end_
  have hl2 := compress_length_le c spare si out _ hcomp hsp (by omega)
  have hw1 : wrapS 4 out.length = out.length := fitsS4.mpr (by omega)
  have hw : wrapS 4 (keylenFor nameStreamerInfo listTitle tList d.big f.w.end_ + out.length)
      = keylenFor nameStreamerInfo listTitle tList d.big f.w.end_ + out.length := fitsS4.mpr (by omega)
  unfold FFile.writeStreamerInfo
  rw [hd, Option.bind_some]
  unfold newKeyFromBuf
  dsimp only
  rw [hcomp]
  dsimp only
  rw [hw1, hw]
  obtain ⟨q, e, _, q2, _⟩ := writeFile_isSome
    ⟨{ rvers := if f.w.end_ > kStartBigFile then 4 + 1000 else 4
       nbytes := keylenFor nameStreamerInfo listTitle tList d.big f.w.end_ + out.length
       objlen := wrapS 4 si.length, datetime := now, keylen := keylenFor nameStreamerInfo listTitle tList d.big f.w.end_
       cycle := 1, seekkey := f.w.end_, seekpdir := d.hdr.seekdir, cls := tList, name := nameStreamerInfo
       title := listTitle }, out⟩ ht hL.pos (by dsimp only; omega)
    (f.w.setEnd (f.w.end_ + (keylenFor nameStreamerInfo listTitle tList d.big f.w.end_ + out.length)))
  rw [e, Option.bind_some]
  refine ⟨_, rfl, ?_, rfl⟩
  dsimp only
  rw [q2]
  dsimp only [WFile.setEnd]
  omega

/-- groot/riofs/file.go:705-769 (`writeFreeSegments`) panics only when its record crosses the limit. -/
theorem free_lite (now : Civil) (ht : TimeOk now) (f : FFile) (hL : LFile f) (d : FDir) (hd : f.dirs[0]? = some d) :
    if f.w.end_ ≤ kStartBigFile ∧ f.w.end_ + 10 + keylenFor d.name d.title tFile f.topBig f.w.end_ > kStartBigFile
    then f.writeFreeSegments now = none
    else ∃ f', f.writeFreeSegments now = some f' ∧ f'.w.end_ = f.w.end_ + 10 + keylenFor d.name d.title tFile f.topBig f.w.end_ := by
  have hnames := tFile_ok (hL.dirs d (List.mem_of_getElem? hd)).names
  have hkl := hnames.keylen f.topBig f.w.end_
  have hsz : segSizeof ⟨f.w.end_, kStartBigFile⟩ = 10 := by
    unfold segSizeof; dsimp only; rw [if_neg (by omega)]
  have hw : wrapS 4 (10 + keylenFor d.name d.title tFile f.topBig f.w.end_)
      = 10 + keylenFor d.name d.title tFile f.topBig f.w.end_ := fitsS4.mpr (by omega)
  unfold FFile.writeFreeSegments
  rw [hd, Option.bind_some]
  dsimp only [newKey]
  rw [hsz, hw]
  simp only [show ((10 : Int) > 0) by decide, if_true, WFile.setEnd]
  by_cases hx : f.w.end_ ≤ kStartBigFile ∧ f.w.end_ + 10 + keylenFor d.name d.title tFile f.topBig f.w.end_ > kStartBigFile
  · rw [if_pos hx, if_pos ⟨by omega, by omega⟩]
  · rw [if_neg hx, if_neg (by omega)]
    have hseg : ∃ b, segMarshal ⟨f.w.end_ + (10 + keylenFor d.name d.title tFile f.topBig f.w.end_), kStartBigFile⟩
        (newWBuffer (List.replicate (10 : Int).toNat 0) 0 (fun _ => 0)) = some b := by
      have hw0 := (newWBuffer_healthy (List.replicate (10 : Int).toNat 0) 0 (fun _ => 0)).wf
      obtain ⟨b, e, _⟩ := seq_appends (writeInt_appends 2 1) (seq_appends (writeInt_appends 4 (wrapS 4 (f.w.end_ + (10 + keylenFor d.name d.title tFile f.topBig f.w.end_))))
        (writeInt_appends 4 (wrapS 4 kStartBigFile))) _ (WBuf.grow_wf hw0
          (segSizeof ⟨f.w.end_ + (10 + keylenFor d.name d.title tFile f.topBig f.w.end_), kStartBigFile⟩).toNat)
      refine ⟨b, ?_⟩
      unfold segMarshal
      dsimp only
      rw [hw0.no_err]
      simp only [Bool.false_eq_true, if_false, show ¬ (kStartBigFile > kStartBigFile) by omega, show ¬ ((1 : Int) > 1000) by decide]
      exact e
    obtain ⟨b, hb⟩ := hseg
    rw [hb, Option.bind_some]
    obtain ⟨q, e, _, q2, _⟩ := writeFile_isSome
      ⟨{ rvers := if f.w.end_ > kStartBigFile then 4 + 1000 else 4
         nbytes := 10 + keylenFor d.name d.title tFile f.topBig f.w.end_
         objlen := 10, datetime := now, keylen := keylenFor d.name d.title tFile f.topBig f.w.end_
         cycle := 1, seekkey := f.w.end_, seekpdir := d.hdr.seekdir, cls := tFile, name := d.name
         title := d.title }, b.bytes⟩ ht hL.pos (by dsimp only; omega)
      { f.w with end_ := f.w.end_ + (10 + keylenFor d.name d.title tFile f.topBig f.w.end_) }
    rw [e, Option.bind_some]
    refine ⟨_, rfl, ?_⟩
    dsimp only
    rw [q2]
    dsimp only
    omega

/-- The state of a closed file of less than `kStartBigFile` bytes. -/
theorem close_spec (c : Codec) (spare : List UInt8) (hsp : spare.length ≤ 1000000) (now : Civil) (ht : TimeOk now) (f f' : FFile)
    (hI : Inv c spare f) (si out : List UInt8) (hsi : si.length ≤ 2000000000)
    (hcomp : compress c [] spare si f.w.compression = .ok out)
    (h : f.close c spare si now = some f') (hK : f'.w.end_ ≤ kStartBigFile) :
    ∃ f1 ik fk, Inv c spare f1 ∧ f1.view = f.view ∧ f1.id = f.id ∧ f1.w.compression = f.w.compression ∧
      (∀ j, j < f1.dirs.length → Saved f1 j) ∧ Kept f1 f'.w.disk ∧
      SKey ik ∧ ik.objlen = si.length ∧ ik.nbytes = ik.keylen + out.length ∧ ik.seekkey = f1.w.end_ ∧
      At f'.w.disk ik.seekkey.toNat (kbytes ik ++ out) ∧
      SKey fk ∧ fk.objlen = 10 ∧ fk.nbytes = 10 + fk.keylen ∧ fk.seekkey = f1.w.end_ + ik.nbytes ∧
      f'.w.end_ = fk.seekkey + fk.nbytes ∧
      At f'.w.disk fk.seekkey.toNat (kbytes fk ++ segBytes ⟨f'.w.end_, kStartBigFile⟩) ∧
      At f'.w.disk 0 (fhbytes f') ∧ f'.seekinfo = ik.seekkey ∧ f'.nbytesinfo = ik.nbytes ∧
      f'.seekfree = fk.seekkey ∧ f'.nbytesfree = fk.nbytes ∧ f'.nbytesname = f1.nbytesname ∧
      f'.w.compression = f.w.compression ∧ f'.id = f.id := by
  obtain ⟨f1, e1, m1, L1, c1, p1, i1⟩ := closeDir_lite c spare now ht f hI
  have hne1 : f1.dirs ≠ [] := by
    intro hx
    have := core_length c1
    obtain ⟨d0, _, t1, _⟩ := hI.top
    have h0 := (List.getElem?_eq_some_iff.mp t1).1
    rw [hx] at this
    simp at this
    omega
  obtain ⟨f2, e2, m2, d2⟩ := info_lite c spare hsp now ht f1 L1 hne1 si out hsi (by rw [p1]; exact hcomp)
  unfold FFile.close at h
  rw [e1, Option.bind_some, e2, Option.bind_some] at h
  obtain ⟨f3, e3, e4⟩ := Option.bind_eq_some_iff.mp h
  rw [writeHeader_spec] at e4
  have hend4 : f'.w.end_ = f3.w.end_ := by cases e4; rfl
  -- all the sizes are small
  have L2 : LFile f2 := ⟨by have := L1.pos; omega, by rw [d2]; exact L1.dirs⟩
  obtain ⟨d, ds, hds⟩ := List.exists_cons_of_ne_nil hne1
  have hd1 : f1.dirs[0]? = some d := by rw [hds]; rfl
  have hd2 : f2.dirs[0]? = some d := by rw [d2]; exact hd1
  have hfl := free_lite now ht f2 L2 d hd2
  have hkl := (tFile_ok (L2.dirs d (List.mem_of_getElem? hd2)).names).keylen f2.topBig f2.w.end_
  have hm3 : f3.w.end_ = f2.w.end_ + 10 + keylenFor d.name d.title tFile f2.topBig f2.w.end_ := by
    split at hfl
    · rw [hfl] at e3; cases e3
    · obtain ⟨g, g1, g2⟩ := hfl
      rw [g1] at e3
      cases e3
      exact g2
  have hK1 : f1.w.end_ ≤ kStartBigFile := by omega
  have hK2 : f2.w.end_ ≤ kStartBigFile := by omega
  obtain ⟨I1, v1, S1, _, _⟩ := closeDir_spec c spare now ht f f1 hI e1 hK1
  have hdi := I1.dirs d (List.mem_of_getElem? hd1)
  have hbig : d.big = false := by unfold FDir.big; rw [hdi.hdr.rvers]; decide
  have hlo1 := I1.lo
  -- streamer infos
  obtain ⟨ik, k1, k2, k3, k4, k5, k6, _⟩ := newKeyFromBuf_spec c spare hsp d.hdr.seekdir nameStreamerInfo listTitle tList si
    f1.w.compression now f1.w info_ok hsi hdi.hdr.seekdir.1 hdi.hdr.seekdir.2 (by omega) hK1 ht out (by rw [p1]; exact hcomp)
  unfold FFile.writeStreamerInfo at e2
  rw [hd1, Option.bind_some, hbig, k1] at e2
  dsimp only at e2
  rw [writeFile_spec ik k2, Option.bind_some] at e2
  have hil := fun _ : Unit => k2.length
  have hikl := info_ok.keylen false 0
  rw [← k6] at hikl
  -- free segments
  have hnames := tFile_ok hdi.names
  have htop : f2.topBig = false := by
    unfold FFile.topBig
    rw [d2, hds]
    exact hbig
  obtain ⟨fk, q1, q2, q3, q4, q5, q6, _⟩ := newKey_spec d.hdr.seekdir d.name d.title tFile 10 now f2.w hnames (by decide) (by decide)
    hdi.hdr.seekdir.1 hdi.hdr.seekdir.2 (by omega) hK2 ht
  have hend2 : f2.w.end_ = f1.w.end_ + ik.nbytes := by cases e2; rfl
  unfold FFile.writeFreeSegments at e3
  simp only [hd2, Option.bind_some, htop, show segSizeof ⟨f2.w.end_, kStartBigFile⟩ = 10 from rfl, q1] at e3
  have hend3 : f3.w.end_ = f2.w.end_ + fk.nbytes := by
    rw [hm3, q5, q6, htop, keylenFor_small _ _ _ _ hK2, Int.add_assoc]
  clear hm3 hkl q6 k6
  rw [if_neg (by omega)] at e3
  have hl2 : 0 ≤ f2.w.end_ := by omega
  have hfkpos := q2.keylen_pos
  obtain ⟨b, b1, _, b2⟩ := (seg_spec ⟨f2.w.end_ + fk.nbytes, kStartBigFile⟩ (by dsimp only; omega) (by dsimp only; decide)).1.start
    (List.replicate (10 : Int).toNat 0)
  rw [b1, Option.bind_some, writeFile_spec fk q2, Option.bind_some, b2] at e3
  have hseg : (segBytes ⟨f2.w.end_ + fk.nbytes, kStartBigFile⟩).length = 10 := segBytes_length _
  have x2 : f2.w.disk = writeAt (writeAt f1.w.disk ik.seekkey.toNat (kbytes ik)) (ik.seekkey.toNat + (kbytes ik).length) out ∧
      f2.seekinfo = ik.seekkey ∧ f2.nbytesinfo = ik.nbytes ∧ f2.nbytesname = f1.nbytesname ∧ f2.w.compression = f1.w.compression ∧
      f2.id = f1.id := by
    cases e2; exact ⟨rfl, rfl, rfl, rfl, rfl, rfl⟩
  have x3 : f3.w.disk = writeAt (writeAt f2.w.disk fk.seekkey.toNat (kbytes fk)) (fk.seekkey.toNat + (kbytes fk).length)
        (segBytes ⟨f2.w.end_ + fk.nbytes, kStartBigFile⟩) ∧
      f3.seekinfo = f2.seekinfo ∧ f3.nbytesinfo = f2.nbytesinfo ∧ f3.seekfree = fk.seekkey ∧ f3.nbytesfree = fk.nbytes ∧
      f3.nbytesname = f2.nbytesname ∧ f3.w.compression = f2.w.compression ∧ f3.id = f2.id := by
    cases e3; exact ⟨rfl, rfl, rfl, rfl, rfl, rfl, rfl, rfl⟩
  have x4 : f'.w.disk = writeAt (writeAt f3.w.disk 0 (List.replicate 100 0)) 0 (fhbytes f3) ∧ fhbytes f' = fhbytes f3 ∧
      f'.seekinfo = f3.seekinfo ∧ f'.nbytesinfo = f3.nbytesinfo ∧ f'.seekfree = f3.seekfree ∧ f'.nbytesfree = f3.nbytesfree ∧
      f'.nbytesname = f3.nbytesname ∧ f'.w.compression = f3.w.compression ∧ f'.id = f3.id := by
    cases e4; exact ⟨rfl, rfl, rfl, rfl, rfl, rfl, rfl, rfl, rfl⟩
  clear e1 e2 e3 e4 h b1 b2 hfl q1 k1
  obtain ⟨a1, a2, a3, a4, a5, a6⟩ := x2
  obtain ⟨y1, y2, y3, y4, y5, y6, y7, y8⟩ := x3
  obtain ⟨z1, z2, z3, z4, z5, z6, z7, z8, z9⟩ := x4
  have hfh : (fhbytes f3).length = 63 := by
    apply fhbytes_length
    have h1 : f3.seekfree ≤ kStartBigFile := by rw [y4, q3]; exact hK2
    have h2 : f3.seekinfo ≤ kStartBigFile := by rw [y2, a2, k3]; exact hK1
    have h3 : f3.w.end_ ≤ kStartBigFile := by rw [← hend4]; exact hK
    unfold FileHdr.big FFile.hdr
    dsimp only
    omega
  -- the last write only touches the first hundred bytes
  have hkeep : ∀ (a : Nat) bs, 100 ≤ a → At f3.w.disk a bs → At f'.w.disk a bs := by
    intro a bs ha h
    rw [z1]
    refine (h.write (Or.inr ?_)).write (Or.inr ?_)
    · rw [List.length_replicate]; omega
    · rw [hfh]; omega
  have hrec2 : At f3.w.disk fk.seekkey.toNat (kbytes fk ++ segBytes ⟨f2.w.end_ + fk.nbytes, kStartBigFile⟩) := by
    rw [y1]; exact At_record _ _ _ _
  have hrec1 : At f3.w.disk ik.seekkey.toNat (kbytes ik ++ out) := by
    rw [y1]
    refine At.record (by rw [a1]; exact At_record _ _ _ _) (Or.inl ?_)
    have hx : (((kbytes ik ++ out).length : Nat) : Int) = ik.nbytes := by
      rw [List.length_append, Int.natCast_add, hil (), k5]
    generalize (kbytes ik ++ out).length = X at *
    omega
  refine ⟨f1, ik, fk, I1, v1, i1, p1, S1, ?_, k2, k4, k5, k3, hkeep _ _ (by omega) hrec1, q2, q4, q5, by rw [q3, hend2],
    by rw [hend4, hend3, q3], ?_, ?_, by rw [z3, y2, a2], by rw [z4, y3, a3], by rw [z5, y4], by rw [z6, y5],
    by rw [z7, y6, a4], by rw [z8, y7, a5, p1], by rw [z9, y8, a6, i1]⟩
  · intro a bs ha hle hat
    refine hkeep a bs ha ?_
    rw [y1]
    refine At.record ?_ (Or.inl ?_)
    · rw [a1]
      refine At.record hat (Or.inl ?_)
      omega
    · omega
  · rw [hend4, hend3]
    exact hkeep _ _ (by omega) hrec2
  · rw [z1, z2]
    exact At_writeAt_self _ _ _

/-- What `Open` finds in a file of less than `kStartBigFile` bytes. -/
theorem open_spec (c : Codec) (hc : c.Lossless) (h4 : c.LZ4Saves) (spare : List UInt8) (hsp : spare.length ≤ 1000000) (now : Civil)
    (ht : TimeOk now) (f f' : FFile) (hI : Inv c spare f) (hcf : FitsS 4 f.w.compression)
    (si out : List UInt8) (hsi : si.length ≤ 2000000000)
    (hcomp : compress c [] spare si f.w.compression = .ok out) (hcoll : out ≠ si → out.length ≠ si.length)
    (h : f.close c spare si now = some f') (hK : f'.w.end_ ≤ kStartBigFile) :
    (1000 < nbnFor f.id → openFile c f'.w.disk = none) ∧
    (nbnFor f.id ≤ 1000 → ∃ r, openFile c f'.w.disk = some r ∧ r.dir.name = f.id ∧ r.dir.title = [] ∧ r.sinfo = si ∧
      r.spans = [⟨f'.w.end_, kStartBigFile⟩] ∧ r.hdr.end_ = f'.w.end_ ∧ r.hdr.compression = f.w.compression ∧
      ∀ n, Shows c f'.w.disk f.view n r.dir 0) := by
  obtain ⟨f1, ik, fk, I1, v1, i1, p1, S1, hkept, k2, k4, k5, k3, hrec1, q2, q4, q5, q3, hend, hrec2, hhd, s1, s2, s3, s4, s5, s6, s7⟩ :=
    close_spec c spare hsp now ht f f' hI si out hsi hcomp h hK
  have hlo1 := I1.lo
  have hil := fun _ : Unit => k2.length
  have hfl := fun _ : Unit => q2.length
  have hip := k2.keylen_pos
  have hfp := q2.keylen_pos
  have hK' := hK
  unfold kStartBigFile at hK'
  have hlen : f'.w.end_ ≤ f'.w.disk.length := by
    have := hrec2.le (by intro hx; have := congrArg List.length hx; rw [List.length_append, segBytes_length] at this; simp at this)
    have hx : (((kbytes fk ++ segBytes ⟨f'.w.end_, kStartBigFile⟩).length : Nat) : Int) = fk.nbytes := by
      rw [List.length_append, Int.natCast_add, hfl (), segBytes_length, q5]
      exact Int.add_comm _ _
    generalize (kbytes fk ++ segBytes ⟨f'.w.end_, kStartBigFile⟩).length = X at *
    omega
  obtain ⟨d0, rk, t1, t2, t3, t4, t5, t6, t7, t8, t9, t10, t11⟩ := I1.top
  have hd0m := List.mem_of_getElem? t1
  have hd0 := I1.dirs d0 hd0m
  have h0 : 0 < f1.dirs.length := (List.getElem?_eq_some_iff.mp t1).1
  have hs0 := S1 0 h0
  have hhlo : d0.hlo = 100 + f1.nbytesname := by unfold FDir.hlo; rw [t2, t3]
  have hhi0 := hd0.hi
  have hrkl := fun _ : Unit => t6.length
  have hnbn1 : f1.nbytesname = nbnFor f.id := by rw [I1.nbn, i1]
  have hs1 := tstringSizeof_bounds f.id (by
    have := hd0.names.len
    rw [t4, i1] at this
    omega)
  have hs2 : tstringSizeof [] = 1 := by decide
  have hrk : rk.keylen = keylenFor f.id [] tFile false 0 := by
    rw [t6.len, t7, t8, t9, i1, keylenFor_small _ _ _ _ t6.small]
  have hrk2 : 26 < rk.keylen := by
    rw [hrk]
    have hn := tFile_ok hd0.names
    rw [t4, t5, i1] at hn
    exact (hn.keylen false 0).1
  have hnb : 10 ≤ nbnFor f.id ∧ rk.keylen ≤ nbnFor f.id := by
    have hnb : nbnFor f.id = rk.keylen + tstringSizeof f.id + 1 := by unfold nbnFor; rw [hrk, hs2]
    rw [hnb]
    clear hnb hrk
    generalize tstringSizeof f.id = T at *
    omega
  clear hs1 hs2 hrk
  have hnn0 := hd0.hdr.nbytesname
  rw [t3] at hnn0
  generalize nbnFor f.id = N at *
  -- the header
  have hok : f'.hdr.Ok := by
    refine ⟨?_, ?_, ⟨?_, ?_⟩, ⟨?_, ?_⟩, ⟨?_, ?_⟩, ?_, ?_, ?_, ?_, ?_, ?_, rfl⟩
    all_goals unfold FFile.hdr; dsimp only
    · decide
    · decide
    · omega
    · rw [fitsS8]; omega
    · omega
    · rw [fitsS8]; omega
    · omega
    · rw [fitsS8]; omega
    · rw [fitsS4]; omega
    · decide
    · rw [fitsS4]; omega
    · decide
    · rw [s6]; exact hcf
    · rw [fitsS4]; omega
  have hfb : fhbytes f' = f'.hdr.enc (0 :: 1 :: List.replicate 14 0) ++ [0, 0] := by
    unfold fhbytes
    have happ : ∀ a c, f'.hdr.enc (a ++ c) = f'.hdr.enc a ++ c := by
      intro a c; simp [FileHdr.enc]
    rw [← happ]
    rfl
  obtain ⟨x, hx1, hx2⟩ := At_of_long (d := f'.w.disk) (a := 0) (n := 76) (by omega)
  have hbig : ¬ f'.hdr.big := by
    unfold FileHdr.big FFile.hdr
    dsimp only
    rw [s1, s3]
    have := k2.small
    have := q2.small
    omega
  have h63 := fhbytes_length f' hbig
  have hpre : f'.hdr.enc (0 :: 1 :: List.replicate 14 0) <+: x := by
    refine List.IsPrefix.trans ?_ (hhd.unique hx2 (by omega))
    rw [hfb]
    exact List.prefix_append _ _
  have hph := (fileHdr_parses f'.hdr hok (0 :: 1 :: List.replicate 14 0) (by decide)).start x hpre
  have hrd : readAt f'.w.disk 0 76 = some x := by rw [← hx1]; exact hx2.readAt
  -- the top directory
  have hri := readDirInfo_spec f'.w.disk { f'.hdr with units := f'.hdr.wunits, uuid := 0 :: 1 :: List.replicate 14 0 } rk d0.hdr rfl rfl
    (by unfold FFile.hdr; dsimp only; rw [s5, hnbn1]; omega) (by unfold FFile.hdr; dsimp only; rw [s5, t3]) t6 hd0.hdr
    (by unfold FFile.hdr; dsimp only; rw [s5, hnbn1]; omega) (by unfold FFile.hdr; dsimp only; rw [s5]; omega)
    (by unfold FFile.hdr; dsimp only; omega)
    (hkept _ _ (by omega) (by rw [hrkl ()]; omega) t10)
    (by
      obtain ⟨d', hk, g1, _, _, _, _, _, _, _, _, g10⟩ := hs0
      rw [t1] at g1
      cases g1
      unfold FFile.hdr; dsimp only
      rw [s5, ← hhlo]
      refine hkept _ _ (by omega) ?_ g10
      rw [hd0.hdr.length]
      omega)
  have hrf := readFree_spec c f'.w.disk { f'.hdr with units := f'.hdr.wunits, uuid := 0 :: 1 :: List.replicate 14 0 } fk
    ⟨f'.w.end_, kStartBigFile⟩ q2 (by dsimp only; omega) (by dsimp only; decide) q4 q5 s3 s4 hrec2
  have hrs := readInfo_spec c hc h4 spare si out f.w.compression hcomp hcoll (by omega) f'.w.disk
    { f'.hdr with units := f'.hdr.wunits, uuid := 0 :: 1 :: List.replicate 14 0 } ik k2 k4 k5 (by omega)
    (by unfold FFile.hdr; dsimp only; omega) s1 s2 hrec1
  have hkeys := saved_keys I1 hkept 0 d0 t1 hs0
  have hshow := fun n => shows_of hc h4 I1 S1 hkept (by omega) n 0 d0
    ⟨rk.name, rk.title, d0.hdr, (d0.keys.map FKey.key).map rkey⟩ t1 rfl
  have hnE : f'.hdr.nbytesname = N := by unfold FFile.hdr; dsimp only; rw [s5, hnbn1]
  rw [hnE] at hri
  constructor
  · intro hN
    unfold openFile
    rw [hrd, Option.bind_some, hph, Option.bind_some]
    dsimp only
    rw [if_neg (by simp), hri, if_pos hN]
    rfl
  intro hN
  rw [if_neg (by omega)] at hri
  refine ⟨⟨{ f'.hdr with units := f'.hdr.wunits, uuid := 0 :: 1 :: List.replicate 14 0 },
    ⟨rk.name, rk.title, d0.hdr, (d0.keys.map FKey.key).map rkey⟩, [⟨f'.w.end_, kStartBigFile⟩], si⟩, ?_, ?_, t9, rfl, rfl, rfl, s6, ?_⟩
  · unfold openFile
    rw [hrd, Option.bind_some, hph, Option.bind_some]
    dsimp only
    rw [if_neg (by simp), hri, Option.bind_some,
      if_pos (by unfold FFile.hdr; dsimp only; rw [s3, q3]; omega), hrf, Option.bind_some,
      if_pos (by unfold FFile.hdr; dsimp only; rw [s1, k3]; omega), hrs, Option.bind_some]
    dsimp only
    rw [hkeys, Option.bind_some]
  · dsimp only; rw [t8, i1]
  · intro n
    rw [← v1]
    exact hshow n

end Verif.Riofs
