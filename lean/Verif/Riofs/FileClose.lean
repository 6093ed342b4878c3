import Verif.Riofs.FileInv

/-!
# Closing a ROOT file: key lists and headers of all directories end up on disk
-/

namespace Verif.Riofs

open Verif.RBytes Verif.FreeList Verif.Compress

theorem Frame.weaken {d : FDir} {dirs : List FDir} {e : Int} {x y : List UInt8} (h : Frame [d] e x y) (hd : d ∈ dirs) :
    Frame dirs e x y := by
  intro a bs h1 h2 h3
  exact h a bs h1 h2 (fun z hz => by rw [List.mem_singleton] at hz; rw [hz]; exact h3 d hd)

/-- The header of one directory changes, the file grows. -/
theorem Inv.upd {c : Codec} {spare : List UInt8} {f : FFile} (hI : Inv c spare f) (i : Nat) (d : FDir)
    (hd : f.dirs[i]? = some d) (h : DirHdr) (hh : SHdr h) (h1 : h.seekdir = d.hdr.seekdir) (h2 : h.nbytesname = d.hdr.nbytesname)
    (e' : Int) (he : f.w.end_ ≤ e') (hK : e' ≤ kStartBigFile) (disk' : List UInt8)
    (hF : Frame f.dirs f.w.end_ f.w.disk disk') :
    Inv c spare { f with w := { f.w with end_ := e', disk := disk' }, dirs := f.dirs.set i { d with hdr := h } } := by
  obtain ⟨i1, i2, i3, i4, i5, i6, i7, i8, i9, i10⟩ := hI
  have hget := set_get? hd { d with hdr := h }
  have hcase : ∀ (j : Nat) b, (f.dirs.set i { d with hdr := h })[j]? = some b →
      ∃ a, f.dirs[j]? = some a ∧ b.hlo = a.hlo ∧ b.hdr.seekdir = a.hdr.seekdir ∧ b.hdr.nbytesname = a.hdr.nbytesname ∧
        b.name = a.name ∧ b.title = a.title ∧ b.keys = a.keys ∧ b.subs = a.subs ∧ (b.hdr = a.hdr ∨ b.hdr = h) := by
    intro j b hb
    rw [hget] at hb
    split at hb
    · rename_i hij
      subst hij
      cases hb
      exact ⟨d, hd, by unfold FDir.hlo; dsimp only; rw [h1, h2], h1, h2, rfl, rfl, rfl, rfl, Or.inr rfl⟩
    · exact ⟨b, hb, rfl, rfl, rfl, rfl, rfl, rfl, rfl, Or.inl rfl⟩
  have hback : ∀ (j : Nat) a, f.dirs[j]? = some a → ∃ b, (f.dirs.set i { d with hdr := h })[j]? = some b ∧ b.name = a.name ∧
      b.hdr.seekdir = a.hdr.seekdir ∧ b.hdr.nbytesname = a.hdr.nbytesname ∧ b.title = a.title ∧ b.subs = a.subs := by
    intro j a ha
    rw [hget]
    split
    · rename_i hij
      subst hij
      rw [hd] at ha
      cases ha
      exact ⟨_, rfl, rfl, h1, h2, rfl, rfl⟩
    · exact ⟨a, ha, rfl, rfl, rfl, rfl, rfl⟩
  have hG : Grown f.dirs (f.dirs.set i { d with hdr := h }) f.w.end_ := by
    constructor
    · intro b hb
      obtain ⟨j, hj⟩ := List.getElem?_of_mem hb
      obtain ⟨a, ha, hba, _⟩ := hcase j b hj
      exact Or.inr ⟨a, List.mem_of_getElem? ha, hba⟩
    · intro j a ha
      obtain ⟨b, b1, b2, b3, b4, _⟩ := hback j a ha
      exact ⟨b, b1, b2, b3, b4⟩
  refine ⟨by dsimp only; omega, hK, ?_, ?_, ?_, ?_, i7, ?_, ?_, i10⟩
  · intro b hb
    obtain ⟨j, hj⟩ := List.getElem?_of_mem hb
    obtain ⟨a, ha, g1, g2, g3, g4, g5, g6, g7, g8⟩ := hcase j b hj
    obtain ⟨q1, q2, q3, q4, q5⟩ := i3 a (List.mem_of_getElem? ha)
    refine ⟨?_, by rw [g2]; exact q2, by rw [g1]; dsimp only; omega, by rw [g4, g5]; exact q4, by rw [g6]; dsimp only; omega⟩
    rcases g8 with g8 | g8
    · rw [g8]; exact q1
    · rw [g8]; exact hh
  · intro b hb k hk
    obtain ⟨j, hj⟩ := List.getElem?_of_mem hb
    obtain ⟨a, ha, g1, g2, g3, g4, g5, g6, g7, g8⟩ := hcase j b hj
    rw [g6] at hk
    exact (i4 a (List.mem_of_getElem? ha) k hk).mono he hF hG
  · intro j1 j2 b1 b2 hne hb1 hb2
    obtain ⟨a1, ha1, g1, _⟩ := hcase j1 b1 hb1
    obtain ⟨a2, ha2, g2, _⟩ := hcase j2 b2 hb2
    have := i5 j1 j2 a1 a2 hne ha1 ha2
    unfold Disj at this ⊢
    rw [g1, g2]; exact this
  · obtain ⟨d0, rk, t1, t2, t3, t4, t5, t6, t7, t8, t9, t10, t11⟩ := i6
    have hrk := t6.length
    have hrkle : 100 + rk.keylen ≤ f.w.end_ := by
      have q := t11 d0 (List.mem_of_getElem? t1)
      have q2 := (i3 d0 (List.mem_of_getElem? t1)).hi
      have q3 := (i3 d0 (List.mem_of_getElem? t1)).hdr.nbytesname
      unfold Disj FDir.hlo at q
      unfold FDir.hlo at q2
      clear hrk
      omega
    obtain ⟨d0', g1, g2, g3, g4, g5, g6⟩ := hback 0 d0 t1
    refine ⟨d0', rk, g1, by rw [g3, t2], by rw [g4, t3], by rw [g2, t4], by rw [g5, t5], t6, t7, t8, t9, ?_, ?_⟩
    · refine hF _ _ t10 (by rw [hrk]; clear hrk; omega) ?_
      intro z hz
      rw [hrk]; exact t11 z hz
    · intro b hb
      obtain ⟨j, hj⟩ := List.getElem?_of_mem hb
      obtain ⟨a, ha, g1, _⟩ := hcase j b hj
      have := t11 a (List.mem_of_getElem? ha)
      unfold Disj at this ⊢
      rw [g1]; exact this
  · intro j b hj hb
    obtain ⟨a, ha, _⟩ := hcase j b hb
    obtain ⟨p, dp, q1, q2, q3⟩ := i8 j a hj ha
    obtain ⟨b', b1, b2, b3, b4, b5, b6⟩ := hback p dp q2
    exact ⟨p, b', q1, b1, by rw [b6]; exact q3⟩
  · intro p b j hb hj
    obtain ⟨a, ha, _, _, _, _, _, _, g7, _⟩ := hcase p b hb
    rw [g7] at hj
    have := i9 p a j ha hj
    dsimp only
    rw [List.length_set]
    exact this

/-- The bytes of the list of keys of a directory. -/
def listBytes (ks : List FKey) : List UInt8 := beEnc 4 (toU 4 ks.length) ++ ((ks.map FKey.key).map kbytes).flatten

/-- The directory `j` is on disk: its list of keys and its header. -/
def Saved (f : FFile) (j : Nat) : Prop := ∃ d hk, f.dirs[j]? = some d ∧ SKey hk ∧ 100 ≤ d.hdr.seekkeys ∧
  d.hdr.nbyteskeys = hk.nbytes ∧ hk.nbytes = hk.objlen + hk.keylen ∧ hk.objlen = ((listBytes d.keys).length : Int) ∧
  At f.w.disk d.hdr.seekkeys.toNat (kbytes hk ++ listBytes d.keys) ∧ d.hdr.seekkeys + hk.nbytes ≤ f.w.end_ ∧
  (∀ b ∈ f.dirs, Disj b d.hdr.seekkeys hk.nbytes) ∧ At f.w.disk d.hlo.toNat (hbytes d.hdr)

theorem sum_ge_length (ks : List FKey) (h : ∀ k ∈ ks, 1 ≤ k.key.keylen) :
    (ks.length : Int) ≤ (ks.map (fun k => k.key.keylen)).sum := by
  induction ks with
  | nil => simp
  | cons k ks ih =>
    have h1 := h k (by simp)
    have h2 := ih fun x hx => h x (by simp [hx])
    simp only [List.map_cons, List.sum_cons, List.length_cons]
    omega

theorem SKey.keylen_pos {k : Key} (h : SKey k) : 1 ≤ k.keylen := by
  rw [h.len]
  unfold keylenFor tstringSizeof
  have h1 := h.ok.cls.1
  have h2 := h.ok.name.1
  have h3 := h.ok.title.1
  have e1 : wrapS 4 k.cls.length = k.cls.length := fitsS4.mpr (by omega)
  have e2 : wrapS 4 k.name.length = k.name.length := fitsS4.mpr (by omega)
  have e3 : wrapS 4 k.title.length = k.title.length := fitsS4.mpr (by omega)
  simp only [e1, e2, e3]
  repeat' split
  all_goals omega

theorem listBytes_length (ks : List FKey) (hs : ∀ k ∈ ks, SKey k.key) :
    ((listBytes ks).length : Int) = 4 + (ks.map (fun k => k.key.keylen)).sum := by
  unfold listBytes
  rw [List.length_append, Int.natCast_add, kbytes_sum ks hs, length_beEnc]
  rfl

theorem listBytes_appends (ks : List FKey) (hs : ∀ k ∈ ks, SKey k.key) (hf : FitsS 4 ks.length) (data : List UInt8) :
    ∃ w, ((newWBuffer data 0 (fun _ => 0)).writeInt 4 (wrapS 4 ks.length)).bind (marshalKeys ks) = some w ∧ w.bytes = listBytes ks := by
  obtain ⟨w, e, _, hb⟩ := (seq_appends (writeInt_appends 4 (wrapS 4 ks.length)) (marshalKeys_appends ks hs)).start data
  refine ⟨w, e, ?_⟩
  rw [hb, show wrapS 4 (ks.length : Int) = ks.length from hf]
  rfl

/-- groot/riofs/dir.go:316-328 (`saveSelf`). -/
theorem saveSelf_spec (c : Codec) (spare : List UInt8) (f : FFile) (hI : Inv c spare f) (i : Nat) (d : FDir)
    (hd : f.dirs[i]? = some d) (now : Civil) (ht : TimeOk now) :
    ∃ f', f.saveSelf i now = some f' ∧ f'.id = f.id ∧ f'.w.compression = f.w.compression ∧
      (∃ h, f'.dirs = f.dirs.set i { d with hdr := h }) ∧ f.w.end_ < f'.w.end_ ∧
      (f'.w.end_ ≤ kStartBigFile → Inv c spare f' ∧ Saved f' i ∧ ∀ j, j ≠ i → Saved f j → Saved f' j) := by
  have hdm : d ∈ f.dirs := List.mem_of_getElem? hd
  have hdi := hI.dirs d hdm
  have hlo := hI.lo
  have hhi := hI.hi
  have hsd := hdi.hdr.seekdir
  have hks : ∀ k ∈ d.keys, SKey k.key := fun k hk => (hI.keys d hdm k hk).1
  have hsum := sum_ge_length d.keys (fun k hk => (hks k hk).keylen_pos)
  have hsum2 := hdi.sum
  have hLl := listBytes_length d.keys hks
  have hfit : FitsS 4 d.keys.length := fitsS4.mpr (by unfold kStartBigFile at hhi; clear hLl; omega)
  obtain ⟨k, e1, k1, k2, k3, k4, k5, k6, k7, k8, k9, k10⟩ := newKey_spec d.hdr.seekdir d.name d.title tDirectory
    (4 + (d.keys.map (fun k => k.key.keylen)).sum) now f.w hdi.names (by clear hLl; omega)
    (by unfold kStartBigFile at hhi; clear hLl; omega) (by omega) hsd.2 (by omega) hhi ht
  have hkl := hdi.names.keylen false 0
  rw [← k5] at hkl
  obtain ⟨w, ew, hw⟩ := listBytes_appends d.keys hks hfit (List.replicate (4 + (d.keys.map (fun k => k.key.keylen)).sum).toNat 0)
  have hwk : f.writeKeys i d now = some { f with
      w := { f.w with end_ := f.w.end_ + k.nbytes, disk := writeAt (writeAt f.w.disk k.seekkey.toNat (kbytes k)) (k.seekkey.toNat + (kbytes k).length) (listBytes d.keys) }
      dirs := f.dirs.set i { d with hdr := { d.hdr with seekkeys := k.seekkey, nbyteskeys := k.nbytes } } } := by
    unfold FFile.writeKeys
    rw [if_neg (by omega), hI.topBig]
    simp only [Int.add_zero]
    rw [e1, ← Option.bind_assoc, ew]
    simp only [Option.bind_some]
    rw [hw, writeFile_spec k k1]
    rfl
  have hnb0 : 0 < k.nbytes := by clear hLl; omega
  have hnbFit : FitsS 4 k.nbytes := fitsS4.mpr (by have := k1.ok.nbytes; omega)
  generalize hrec : writeAt (writeAt f.w.disk k.seekkey.toNat (kbytes k)) (k.seekkey.toNat + (kbytes k).length) (listBytes d.keys) = disk1 at hwk
  have hset : (f.dirs.set i { d with hdr := { d.hdr with seekkeys := k.seekkey, nbyteskeys := k.nbytes } })[i]? =
      some { d with hdr := { d.hdr with seekkeys := k.seekkey, nbyteskeys := k.nbytes } } := by
    rw [set_get? hd, if_pos rfl]
  have hH : SHdr { d.hdr with seekkeys := k.seekkey, nbyteskeys := k.nbytes, mtime := now } := by
    obtain ⟨a1, a2, a3, a4, a5, a6, a7, a8, a9⟩ := hdi.hdr
    exact ⟨a1, a2, ht, a4, a5, a6, by dsimp only; rw [k2]; omega, a8, hnbFit⟩
  obtain ⟨wh, eh, _, hbh⟩ := hH.appends.start (List.replicate (recordSize rootVersion).toNat 0)
  have hhlo : 0 ≤ d.hlo := by
    have h1 := hdi.lo
    have h2 := hdi.hdr.nbytesname
    unfold FDir.hlo; omega
  have hself : f.saveSelf i now = some { f with
      w := { f.w with end_ := f.w.end_ + k.nbytes, disk := writeAt disk1 d.hlo.toNat (hbytes { d.hdr with seekkeys := k.seekkey, nbyteskeys := k.nbytes, mtime := now }) }
      dirs := f.dirs.set i { d with hdr := { d.hdr with seekkeys := k.seekkey, nbyteskeys := k.nbytes, mtime := now } } } := by
    unfold FFile.saveSelf
    rw [hd]
    simp only [Option.bind_some]
    rw [hwk]
    simp only [Option.bind_some]
    rw [hset]
    simp only [Option.bind_some]
    unfold FFile.writeDirHeader
    simp only
    rw [eh]
    simp only [Option.bind_some]
    rw [hbh, if_neg (by unfold FDir.hlo at hhlo; omega), List.set_set]
    rfl
  refine ⟨_, hself, rfl, rfl, ⟨_, rfl⟩, by dsimp only; omega, ?_⟩
  intro hK
  dsimp only at hK
  have hHl := hH.length
  have hlen := k1.length
  have hF1 : Frame [d] f.w.end_ f.w.disk disk1 := by
    rw [← hrec]
    exact Frame.of_record _ _ _ _ _ _ (by rw [k2]; omega)
  -- the header write
  have hF2 : ∀ (a : Nat) bs, At disk1 a bs → Disj d a bs.length →
      At (writeAt disk1 d.hlo.toNat (hbytes { d.hdr with seekkeys := k.seekkey, nbyteskeys := k.nbytes, mtime := now })) a bs := by
    intro a bs h1 h2
    refine h1.write ?_
    rw [hHl]
    unfold Disj at h2
    omega
  have hF : Frame [d] f.w.end_ f.w.disk (writeAt disk1 d.hlo.toNat (hbytes { d.hdr with seekkeys := k.seekkey, nbyteskeys := k.nbytes, mtime := now })) := by
    intro a bs h1 h2 h3
    exact hF2 a bs (hF1 a bs h1 h2 h3) (h3 d (by simp))
  have hnew := hI.upd i d hd _ hH rfl rfl (f.w.end_ + k.nbytes) (by omega) hK _ (hF.weaken hdm)
  have hhlos : ∀ b ∈ f.dirs.set i { d with hdr := { d.hdr with seekkeys := k.seekkey, nbyteskeys := k.nbytes, mtime := now } },
      ∃ a ∈ f.dirs, b.hlo = a.hlo := by
    intro b hb
    rcases mem_set_cases hb with rfl | hb
    · exact ⟨d, hdm, rfl⟩
    · exact ⟨b, hb, rfl⟩
  refine ⟨hnew, ?_, ?_⟩
  · refine ⟨{ d with hdr := { d.hdr with seekkeys := k.seekkey, nbyteskeys := k.nbytes, mtime := now } }, k, ?_, k1, ?_, rfl, ?_, ?_, ?_, ?_, ?_, ?_⟩
    · dsimp only
      rw [set_get? hd, if_pos rfl]
    · dsimp only; clear hlen hHl hLl; omega
    · rw [k4, k3]
    · rw [k3]; dsimp only; rw [hLl]
    · dsimp only
      refine hF2 _ _ ?_ ?_
      · rw [← hrec]
        exact At_record _ _ _ _
      · right
        have := hdi.hi
        rw [k2]
        clear hlen hHl hLl
        omega
    · dsimp only; rw [k2]; exact Int.le_refl _
    · intro b hb
      obtain ⟨a, ha, hba⟩ := hhlos b hb
      have := (hI.dirs a ha).hi
      right
      dsimp only
      clear hlen hHl hLl
      omega
    · dsimp only
      exact At_writeAt_self _ _ _
  · rintro j hji ⟨dj, hk, s1, s2, s3, s4, s5, s6, s7, s8, s9, s10⟩
    refine ⟨dj, hk, ?_, s2, s3, s4, s5, s6, ?_, by dsimp only; clear hlen hHl hLl; omega, ?_, ?_⟩
    · dsimp only
      rw [set_get? hd, if_neg (fun h => hji h.symm), s1]
    · dsimp only
      have hl1 : ((kbytes hk ++ listBytes dj.keys).length : Int) = hk.nbytes := by
        rw [List.length_append, Int.natCast_add, s2.length, ← s6, s5]
        omega
      have hz : ((dj.hdr.seekkeys.toNat : Nat) : Int) = dj.hdr.seekkeys := by clear hl1 hlen hHl hLl; omega
      refine hF _ _ s7 ?_ ?_
      · rw [hl1, hz]; exact s8
      · intro z hz'
        rw [List.mem_singleton] at hz'
        rw [hl1, hz, hz']
        exact s9 d hdm
    · intro b hb
      obtain ⟨a, ha, hba⟩ := hhlos b hb
      have := s9 a ha
      unfold Disj at this ⊢
      rw [hba]; exact this
    · dsimp only
      have hdj := hI.dirs dj (List.mem_of_getElem? s1)
      have hjl := hdj.hdr.length
      have hjh := hdj.hi
      have h1 := hdj.lo
      have h2 := hdj.hdr.nbytesname
      have hz : ((dj.hlo.toNat : Nat) : Int) = dj.hlo := by
        unfold FDir.hlo; clear hlen hHl hLl hjl; omega
      refine hF _ _ s10 ?_ ?_
      · rw [hjl, hz]; clear hlen hHl hLl hjl; omega
      · intro z hz'
        rw [List.mem_singleton] at hz'
        rw [hjl, hz, hz']
        have := hI.disj j i dj d hji s1 hd
        unfold Disj at this ⊢
        clear hlen hHl hLl hjl
        omega

/-! ### Saving always succeeds, and the file only grows -/

/-- What saving needs to know of a directory, whatever the size of the file. -/
structure LDir (d : FDir) : Prop where
  names : NamesOk d.name d.title tDirectory
  pos : 0 ≤ d.hlo
  ctime : TimeOk d.hdr.ctime
  uuid : d.hdr.uuid.length = 16
  times : ∀ k ∈ d.keys, TimeOk k.key.datetime
  sum : 0 ≤ (d.keys.map (fun k => k.key.keylen)).sum ∧ (d.keys.map (fun k => k.key.keylen)).sum ≤ 2000000000

structure LFile (f : FFile) : Prop where
  pos : 0 ≤ f.w.end_
  dirs : ∀ d ∈ f.dirs, LDir d

/-- What saving leaves alone. -/
def core (f : FFile) : List (List UInt8 × List UInt8 × List FKey × List Nat) :=
  f.dirs.map fun d => (d.name, d.title, d.keys, d.subs)

theorem core_set (f : FFile) (i : Nat) (d d' : FDir) (hd : f.dirs[i]? = some d)
    (h : (d'.name, d'.title, d'.keys, d'.subs) = (d.name, d.title, d.keys, d.subs)) :
    (f.dirs.set i d').map (fun d => (d.name, d.title, d.keys, d.subs)) = core f := by
  unfold core
  apply List.ext_getElem?
  intro j
  rw [List.getElem?_map, List.getElem?_map, set_get? hd]
  split
  · rename_i hij
    subst hij
    rw [hd]
    simp only [Option.map_some]
    rw [h]
  · rfl

theorem marshal_isSome (k : Key) (h : TimeOk k.datetime) (w : WBuf) (hw : w.WF) : ∃ w', k.marshal w = some w' ∧ w'.WF := by
  obtain ⟨d, hd, _⟩ := C08_datime_roundtrip_partial k.datetime h.1 h.2.1 h.2.2
  by_cases hn : k.nbytes < 0
  · obtain ⟨w', e, h', _⟩ := writeInt_appends 4 k.nbytes w hw
    refine ⟨w', ?_, h'⟩
    unfold Key.marshal
    rw [hw.no_err]
    simp only [Bool.false_eq_true, if_false]
    rw [e]
    simp [hn]
  · obtain ⟨w', e, h', _⟩ := marshal_appends k d hd (by omega) w hw
    exact ⟨w', e, h'⟩

theorem marshalKeys_isSome (ks : List FKey) (h : ∀ k ∈ ks, TimeOk k.key.datetime) (w : WBuf) (hw : w.WF) :
    ∃ w', marshalKeys ks w = some w' ∧ w'.WF := by
  induction ks generalizing w with
  | nil => exact ⟨w, rfl, hw⟩
  | cons k ks ih =>
    obtain ⟨w1, e1, h1⟩ := marshal_isSome k.key (h k (by simp)) w hw
    obtain ⟨w2, e2, h2⟩ := ih (fun x hx => h x (by simp [hx])) w1 h1
    exact ⟨w2, by simp [marshalKeys, e1, e2], h2⟩

theorem writeFile_isSome (k : MKey) (h : TimeOk k.key.datetime) (h0 : 0 ≤ k.key.seekkey) (h1 : 0 ≤ k.key.keylen) (w : WFile) :
    ∃ q, writeFile k w = some q ∧ q.1.key = k.key.bump ∧ q.2.end_ = w.end_ ∧ q.2.compression = w.compression := by
  obtain ⟨b, e, _⟩ := marshal_isSome k.key h (newWBuffer [] 0 (fun _ => 0)) (newWBuffer_healthy _ _ _).wf
  unfold writeFile
  rw [e]
  simp only
  rw [if_neg (by omega)]
  exact ⟨_, rfl, rfl, rfl, rfl⟩

theorem hdr_isSome (h : DirHdr) (hc : TimeOk h.ctime) (hm : TimeOk h.mtime) (hu : h.uuid.length = 16) (w : WBuf) (hw : w.WF) :
    ∃ w', h.marshal w = some w' ∧ w'.WF := by
  obtain ⟨c, e1, _⟩ := C08_datime_roundtrip_partial h.ctime hc.1 hc.2.1 hc.2.2
  obtain ⟨m, e2, _⟩ := C08_datime_roundtrip_partial h.mtime hm.1 hm.2.1 hm.2.2
  obtain ⟨w', e, h', _⟩ := dirHdr_appends h hu c m e1 e2 w hw
  exact ⟨w', e, h'⟩

theorem saveSelf_lite (f : FFile) (hL : LFile f) (i : Nat) (hi : i < f.dirs.length) (now : Civil) (ht : TimeOk now) :
    ∃ f', f.saveSelf i now = some f' ∧ f.w.end_ ≤ f'.w.end_ ∧ LFile f' ∧ core f' = core f ∧
      f'.w.compression = f.w.compression ∧ f'.id = f.id := by
  obtain ⟨d, hd⟩ : ∃ d, f.dirs[i]? = some d := ⟨f.dirs[i], List.getElem?_eq_getElem hi⟩
  have hdl := hL.dirs d (List.mem_of_getElem? hd)
  have h0 := hL.pos
  have hkl := hdl.names.keylen f.topBig f.w.end_
  have hsum := hdl.sum
  unfold FFile.saveSelf
  rw [hd]
  simp only [Option.bind_some]
  unfold FFile.writeKeys
  generalize hnb : 4 + (if f.w.end_ > kStartBigFile then (8 : Int) else 0) + (d.keys.map (fun k => k.key.keylen)).sum = nb
  have hnb1 : 0 < nb ∧ nb ≤ 2000000012 := by
    rw [← hnb]; split <;> omega
  have hw : wrapS 4 (nb + keylenFor d.name d.title tDirectory f.topBig f.w.end_)
      = nb + keylenFor d.name d.title tDirectory f.topBig f.w.end_ := fitsS4.mpr (by omega)
  simp only [newKey, hw, if_pos hnb1.1, WFile.setEnd]
  obtain ⟨b1, e1, w1, _⟩ := writeInt_appends 4 (wrapS 4 d.keys.length) (newWBuffer (List.replicate nb.toNat 0) 0 (fun _ => 0))
    (newWBuffer_healthy _ _ _).wf
  rw [e1]
  simp only [Option.bind_some]
  obtain ⟨b2, e2, w2⟩ := marshalKeys_isSome d.keys hdl.times b1 w1
  rw [e2]
  simp only [Option.bind_some]
  generalize hk : (if f.w.end_ > kStartBigFile then (4 + 1000 : Int) else 4) = rv
  obtain ⟨q, e3, _, q2, q3⟩ := writeFile_isSome
    ⟨{ rvers := rv, nbytes := nb + keylenFor d.name d.title tDirectory f.topBig f.w.end_, objlen := nb, datetime := now
       keylen := keylenFor d.name d.title tDirectory f.topBig f.w.end_, cycle := 1, seekkey := f.w.end_
       seekpdir := d.hdr.seekdir, cls := tDirectory, name := d.name, title := d.title }, b2.bytes⟩ ht h0 (by dsimp only; omega)
    { f.w with end_ := f.w.end_ + (nb + keylenFor d.name d.title tDirectory f.topBig f.w.end_) }
  dsimp only at e3
  rw [e3]
  simp only [Option.bind_some]
  rw [set_get? hd, if_pos rfl]
  simp only [Option.bind_some]
  unfold FFile.writeDirHeader
  simp only
  obtain ⟨b4, e4, w4⟩ := hdr_isSome
    { d.hdr with seekkeys := f.w.end_, nbyteskeys := nb + keylenFor d.name d.title tDirectory f.topBig f.w.end_, mtime := now }
    hdl.ctime ht hdl.uuid (newWBuffer (List.replicate (recordSize rootVersion).toNat 0) 0 (fun _ => 0)) (newWBuffer_healthy _ _ _).wf
  rw [e4]
  simp only [Option.bind_some]
  have hp := hdl.pos
  rw [if_neg (by unfold FDir.hlo at hp; omega), List.set_set]
  refine ⟨_, rfl, ?_, ⟨?_, ?_⟩, ?_, ?_, rfl⟩
  · dsimp only; rw [q2]; dsimp only; omega
  · dsimp only; rw [q2]; dsimp only; omega
  · intro b hb
    rcases mem_set_cases hb with rfl | hb
    · exact ⟨hdl.names, hdl.pos, hdl.ctime, hdl.uuid, hdl.times, hdl.sum⟩
    · exact hL.dirs b hb
  · exact core_set f i d _ hd rfl
  · dsimp only; rw [q3]

theorem core_length {f f' : FFile} (h : core f' = core f) : f'.dirs.length = f.dirs.length := by
  have := congrArg List.length h
  simpa [core] using this

theorem core_get {f f' : FFile} (h : core f' = core f) (i : Nat) (d : FDir) (hd : f.dirs[i]? = some d) :
    ∃ d', f'.dirs[i]? = some d' ∧ d'.name = d.name ∧ d'.title = d.title ∧ d'.keys = d.keys ∧ d'.subs = d.subs := by
  have := congrArg (fun l => l[i]?) h
  simp only [core, List.getElem?_map, hd, Option.map_some] at this
  obtain ⟨d', h1, h2⟩ := Option.map_eq_some_iff.mp this
  simp only [Prod.mk.injEq] at h2
  exact ⟨d', h1, h2.1, h2.2.1, h2.2.2.1, h2.2.2.2⟩

/-- Sub-directories come after their parents. -/
def Down (f : FFile) : Prop :=
  ∀ (p : Nat) (dp : FDir) j, f.dirs[p]? = some dp → j ∈ dp.subs → p < j ∧ j < f.dirs.length

theorem Down.of_core {f f' : FFile} (h : core f' = core f) (hD : Down f) : Down f' := by
  intro p dp j hp hj
  obtain ⟨d, h1, _, _, _, h2⟩ := core_get h.symm p dp hp
  rw [← h2] at hj
  rw [core_length h]
  exact hD p d j h1 hj

theorem save_lite (now : Civil) (ht : TimeOk now) : ∀ (fuel : Nat) (f : FFile) (i : Nat), LFile f → Down f → i < f.dirs.length →
    f.dirs.length ≤ i + fuel →
    ∃ f', f.save now fuel i = some f' ∧ f.w.end_ ≤ f'.w.end_ ∧ LFile f' ∧ core f' = core f ∧
      f'.w.compression = f.w.compression ∧ f'.id = f.id := by
  intro fuel
  induction fuel with
  | zero => intro f i _ _ h1 h2; omega
  | succ fuel ih =>
    intro f i hL hD hi hfu
    obtain ⟨f1, e1, m1, L1, c1, p1, d1⟩ := saveSelf_lite f hL i hi now ht
    unfold FFile.save
    rw [e1]
    simp only [Option.bind_some]
    have hi1 : i < f1.dirs.length := by rw [core_length c1]; exact hi
    obtain ⟨d, hd⟩ : ∃ d, f1.dirs[i]? = some d := ⟨f1.dirs[i], List.getElem?_eq_getElem hi1⟩
    rw [hd]
    simp only [Option.bind_some]
    have hD1 := hD.of_core c1
    have hsub : ∀ j ∈ d.subs, i < j ∧ j < f1.dirs.length := fun j hj => hD1 i d j hd hj
    have hlen1 := core_length c1
    -- the sub-directories, one after the other
    have : ∀ (js : List Nat) (g : FFile), LFile g → core g = core f1 → (∀ j ∈ js, i < j ∧ j < f1.dirs.length) →
        ∃ f', js.foldlM (fun f j => f.save now fuel j) g = some f' ∧ g.w.end_ ≤ f'.w.end_ ∧ LFile f' ∧ core f' = core g ∧
          f'.w.compression = g.w.compression ∧ f'.id = g.id := by
      intro js
      induction js with
      | nil => intro g hg _ _; exact ⟨g, rfl, Int.le_refl _, hg, rfl, rfl, rfl⟩
      | cons j js ihj =>
        intro g hg hc hj
        have hjl := hj j (by simp)
        have hgl := core_length hc
        obtain ⟨g1, e, a, b, c, p, d⟩ := ih g j hg (hD1.of_core hc) (by omega) (by omega)
        obtain ⟨g2, e', a', b', c', p', d'⟩ := ihj g1 b (c.trans hc) (fun x hx => hj x (by simp [hx]))
        refine ⟨g2, ?_, by omega, b', c'.trans c, p'.trans p, d'.trans d⟩
        rw [List.foldlM_cons, e]
        exact e'
    obtain ⟨f2, e2, m2, L2, c2, p2, d2⟩ := this d.subs f1 L1 rfl hsub
    exact ⟨f2, e2, by omega, L2, c2.trans c1, p2.trans p1, d2.trans d1⟩

theorem Inv.lite {c : Codec} {spare : List UInt8} {f : FFile} (hI : Inv c spare f) : LFile f := by
  refine ⟨by have := hI.lo; omega, ?_⟩
  intro d hd
  have h := hI.dirs d hd
  have hks : ∀ k ∈ d.keys, SKey k.key := fun k hk => (hI.keys d hd k hk).1
  have hsum := sum_ge_length d.keys (fun k hk => (hks k hk).keylen_pos)
  have h1 := h.lo
  have h2 := h.hdr.nbytesname
  refine ⟨h.names, by unfold FDir.hlo; omega, h.hdr.ctime, by rw [h.hdr.uuid]; rfl, fun k hk => (hks k hk).ok.datetime, ?_, ?_⟩
  · omega
  · have := h.sum
    have := hI.hi
    unfold kStartBigFile at this
    omega

/-! ### Everything is saved -/

/-- The sub-directories of a directory. -/
def subsOf (f : FFile) (i : Nat) : List Nat := match f.dirs[i]? with
  | some d => d.subs
  | none => []

theorem subsOf_core {f f' : FFile} (h : core f' = core f) : subsOf f' = subsOf f := by
  funext i
  unfold subsOf
  cases hd : f.dirs[i]? with
  | none =>
    have h1 := List.getElem?_eq_none_iff.mp hd
    rw [List.getElem?_eq_none (by rw [core_length h]; exact h1)]
  | some d =>
    obtain ⟨d', h1, _, _, _, h2⟩ := core_get h i d hd
    rw [h1]; exact h2

/-- The order in which directories are saved. -/
def order (subs : Nat → List Nat) : Nat → Nat → List Nat
  | 0, _ => []
  | n + 1, i => i :: (subs i).flatMap (order subs n)

theorem order_step (subs : Nat → List Nat) (n : Nat) (i p j : Nat) (h : p ∈ order subs n i) (hj : j ∈ subs p) :
    j ∈ order subs (n + 1) i := by
  induction n generalizing i with
  | zero => simp [order] at h
  | succ n ih =>
    rw [order] at h
    rw [order]
    rcases List.mem_cons.mp h with rfl | h
    · refine List.mem_cons_of_mem _ (List.mem_flatMap.mpr ⟨j, hj, ?_⟩)
      rw [order]; exact List.mem_cons_self
    · obtain ⟨x, hx, hpx⟩ := List.mem_flatMap.mp h
      exact List.mem_cons_of_mem _ (List.mem_flatMap.mpr ⟨x, hx, ih x hpx⟩)

theorem order_mono (subs : Nat → List Nat) (n : Nat) (i p : Nat) (h : p ∈ order subs n i) : p ∈ order subs (n + 1) i := by
  induction n generalizing i with
  | zero => simp [order] at h
  | succ n ih =>
    rw [order] at h
    rw [order]
    rcases List.mem_cons.mp h with rfl | h
    · exact List.mem_cons_self
    · obtain ⟨x, hx, hpx⟩ := List.mem_flatMap.mp h
      exact List.mem_cons_of_mem _ (List.mem_flatMap.mpr ⟨x, hx, ih x hpx⟩)

theorem order_mono' (subs : Nat → List Nat) (n m : Nat) (hnm : n ≤ m) (i p : Nat) (h : p ∈ order subs n i) : p ∈ order subs m i := by
  induction m with
  | zero => rw [show n = 0 by omega] at h; exact h
  | succ m ih =>
    by_cases he : n = m + 1
    · rw [← he]; exact h
    · exact order_mono _ _ _ _ (ih (by omega))

/-- Every directory is saved. -/
theorem order_all {c : Codec} {spare : List UInt8} {f : FFile} (hI : Inv c spare f) (j : Nat) (hj : j < f.dirs.length) :
    j ∈ order (subsOf f) (j + 1) 0 := by
  induction j using Nat.strongRecOn with
  | _ j ih =>
    by_cases h0 : j = 0
    · subst h0; rw [order]; exact List.mem_cons_self
    · obtain ⟨d, hd⟩ : ∃ d, f.dirs[j]? = some d := ⟨f.dirs[j], List.getElem?_eq_getElem hj⟩
      obtain ⟨p, dp, h1, h2, h3⟩ := hI.up j d (by omega) hd
      have := ih p h1 (by omega)
      have := order_mono' _ _ j (by omega) _ _ this
      refine order_step _ _ _ _ _ this ?_
      unfold subsOf
      rw [h2]; exact h3

theorem save_spec (c : Codec) (spare : List UInt8) (now : Civil) (ht : TimeOk now) : ∀ (fuel : Nat) (f : FFile) (i : Nat) (f' : FFile),
    Inv c spare f → i < f.dirs.length → f.dirs.length ≤ i + fuel →
    f.save now fuel i = some f' → f'.w.end_ ≤ kStartBigFile →
    Inv c spare f' ∧ core f' = core f ∧ (∀ j, Saved f j → Saved f' j) ∧ ∀ j ∈ order (subsOf f) fuel i, Saved f' j := by
  intro fuel
  induction fuel with
  | zero => intro f i f' _ h1 h2; omega
  | succ fuel ih =>
    intro f i f' hI hi hfu hs hK
    have hL := hI.lite
    obtain ⟨d0, hd0⟩ : ∃ d, f.dirs[i]? = some d := ⟨f.dirs[i], List.getElem?_eq_getElem hi⟩
    obtain ⟨f1, e1, m1, L1, c1, p1, _⟩ := saveSelf_lite f hL i hi now ht
    obtain ⟨f1', e1', _, _, _, _, s1⟩ := saveSelf_spec c spare f hI i d0 hd0 now ht
    rw [e1] at e1'
    cases e1'
    unfold FFile.save at hs
    rw [e1] at hs
    simp only [Option.bind_some] at hs
    have hi1 : i < f1.dirs.length := by rw [core_length c1]; exact hi
    obtain ⟨d, hd⟩ : ∃ d, f1.dirs[i]? = some d := ⟨f1.dirs[i], List.getElem?_eq_getElem hi1⟩
    rw [hd] at hs
    simp only [Option.bind_some] at hs
    have hD1 : Down f1 := Down.of_core c1 hI.down
    have hsub : ∀ j ∈ d.subs, i < j ∧ j < f1.dirs.length := fun j hj => hD1 i d j hd hj
    have hlen1 := core_length c1
    -- going forward only makes the file longer
    have hmono : ∀ (js : List Nat) (g g' : FFile), LFile g → core g = core f1 → (∀ j ∈ js, i < j ∧ j < f1.dirs.length) →
        js.foldlM (fun f j => f.save now fuel j) g = some g' → g.w.end_ ≤ g'.w.end_ := by
      intro js
      induction js with
      | nil => intro g g' _ _ _ h; cases h; exact Int.le_refl _
      | cons j js ihj =>
        intro g g' hg hc hj h
        have hjl := hj j (by simp)
        have hgl := core_length hc
        obtain ⟨g1, e, a, b, c', _⟩ := save_lite now ht fuel g j hg (Down.of_core hc hD1) (by omega) (by omega)
        rw [List.foldlM_cons, e] at h
        have := ihj g1 g' b (c'.trans hc) (fun x hx => hj x (by simp [hx])) h
        omega
    have hK1 : f1.w.end_ ≤ kStartBigFile := by
      have := hmono d.subs f1 f' L1 rfl hsub hs
      omega
    obtain ⟨I1, S1, S1'⟩ := s1 hK1
    have hstay : ∀ j, Saved f j → Saved f1 j := by
      intro j hj
      by_cases hji : j = i
      · rw [hji]; exact S1
      · exact S1' j hji hj
    have hfold : ∀ (js : List Nat) (g g' : FFile), Inv c spare g → core g = core f1 → (∀ j ∈ js, i < j ∧ j < f1.dirs.length) →
        js.foldlM (fun f j => f.save now fuel j) g = some g' → g'.w.end_ ≤ kStartBigFile →
        Inv c spare g' ∧ core g' = core g ∧ (∀ j, Saved g j → Saved g' j) ∧ ∀ j ∈ js.flatMap (order (subsOf f1) fuel), Saved g' j := by
      intro js
      induction js with
      | nil => intro g g' hg _ _ h _; cases h; exact ⟨hg, rfl, fun j h => h, by simp⟩
      | cons j js ihj =>
        intro g g' hg hc hj h hK'
        have hjl := hj j (by simp)
        have hgl := core_length hc
        obtain ⟨g1, e, a, b, c', _⟩ := save_lite now ht fuel g j hg.lite (Down.of_core hc hD1) (by omega) (by omega)
        rw [List.foldlM_cons, e] at h
        have hj' : ∀ x ∈ js, i < x ∧ x < f1.dirs.length := fun x hx => hj x (by simp [hx])
        have hle := hmono js g1 g' b (c'.trans hc) hj' h
        obtain ⟨q1, q2, q3, q4⟩ := ih g j g1 hg (by omega) (by omega) e (by omega)
        obtain ⟨r1, r2, r3, r4⟩ := ihj g1 g' q1 (q2.trans hc) hj' h hK'
        refine ⟨r1, r2.trans q2, fun x hx => r3 x (q3 x hx), ?_⟩
        intro x hx
        rw [List.flatMap_cons] at hx
        rcases List.mem_append.mp hx with hx | hx
        · rw [← subsOf_core hc] at hx
          exact r3 x (q4 x hx)
        · exact r4 x hx
    obtain ⟨r1, r2, r3, r4⟩ := hfold d.subs f1 f' I1 rfl hsub hs hK
    refine ⟨r1, r2.trans c1, fun j hj => r3 j (hstay j hj), ?_⟩
    intro j hj
    rw [order] at hj
    rcases List.mem_cons.mp hj with rfl | hj
    · exact r3 _ S1
    · rw [← subsOf_core c1] at hj
      have hsd : subsOf f1 i = d.subs := by unfold subsOf; rw [hd]
      rw [hsd] at hj
      exact r4 j hj

/-- groot/riofs/dir.go:276-298 (`close`). -/
theorem closeDir_spec (c : Codec) (spare : List UInt8) (now : Civil) (ht : TimeOk now) (f f' : FFile) (hI : Inv c spare f)
    (h : f.closeDir now = some f') (hK : f'.w.end_ ≤ kStartBigFile) :
    Inv c spare f' ∧ f'.view = f.view ∧ (∀ j, j < f'.dirs.length → Saved f' j) ∧ f'.w.compression = f.w.compression ∧ f'.id = f.id := by
  obtain ⟨d0, rk, t1, _⟩ := hI.top
  have h0 := (List.getElem?_eq_some_iff.mp t1).1
  have hhi := hI.hi
  unfold FFile.closeDir at h
  rw [t1] at h
  simp only [Option.bind_some] at h
  rw [if_neg (by omega)] at h
  have hset : f.dirs.set 0 d0 = f.dirs := by
    apply List.ext_getElem?
    intro j
    rw [set_get? t1]
    split
    · rename_i hj; subst hj; exact t1.symm
    · rfl
  rw [hset] at h
  obtain ⟨q1, q2, q3, q4⟩ := save_spec c spare now ht (f.dirs.length + 1) f 0 f' hI h0 (by omega) h hK
  obtain ⟨f2, e2, _, _, _, p2, i2⟩ := save_lite now ht (f.dirs.length + 1) f 0 hI.lite hI.down h0 (by omega)
  have h : f.save now (f.dirs.length + 1) 0 = some f' := h
  rw [h] at e2
  cases e2
  refine ⟨q1, ?_, ?_, p2, i2⟩
  · have : ∀ g : FFile, g.view = (core g).map (fun x => x.2.2.1.map FKey.entry) := by
      intro g; simp [FFile.view, core]
    rw [this, this, q2]
  · intro j hj
    rw [core_length q2] at hj
    exact q4 j (order_mono' _ _ _ (by omega) _ _ (order_all hI j hj))

end Verif.Riofs
