import Verif.Riofs.Alloc
import Verif.Riofs.RecordProps
import Verif.Compress.Props

/-!
# Properties of record allocation and payload loading (C12, C14)
-/

namespace Verif.Riofs

open Verif.RBytes Verif.FreeList Verif.Compress

/-! ### C12 -/

/-- A request for a record: with room for `objlen` bytes, or for a given payload. -/
inductive AllocOp where
  | raw (dir : DirRef) (name title cls : List UInt8) (objlen : Int) (now : Civil)
  | buf (dir : DirRef) (name title cls : List UInt8) (cycle : Int) (payload : List UInt8) (compr : Int) (now : Civil)

/-- Running a sequence of requests: the records given out and the resulting file.  Requests
without payload space, or whose payload cannot be compressed, give no record. -/
def runAllocs (c : Codec) (spare : List UInt8) : List AllocOp → WFile → List Key × WFile
  | [], f => ([], f)
  | .raw dir name title cls objlen now :: ops, f =>
    let r := newKey dir name title cls objlen now f
    let rest := runAllocs c spare ops r.2
    (if objlen > 0 then r.1.key :: rest.1 else rest.1, rest.2)
  | .buf dir name title cls cycle payload compr now :: ops, f =>
    match newKeyFromBuf c spare dir name title cls cycle payload compr now f with
    | .ok r =>
      let rest := runAllocs c spare ops r.2
      (r.1.key :: rest.1, rest.2)
    | _ => runAllocs c spare ops f

/-- Names and payload together stay below 2.1 GB. -/
def AllocOp.Small : AllocOp → Prop
  | .raw _ name title cls objlen _ =>
    (name.length + title.length + cls.length : Int) + objlen ≤ 2100000000
  | .buf _ name title cls _ payload _ _ =>
    name.length + title.length + cls.length + payload.length ≤ 2100000000

/-- The byte ranges of two records do not intersect. -/
def DisjointRecs (a b : Key) : Prop :=
  a.seekkey + a.nbytes ≤ b.seekkey ∨ b.seekkey + b.nbytes ≤ a.seekkey

theorem tstringSizeof_bounds (v : List UInt8) (h : v.length ≤ 2100000000) :
    0 < tstringSizeof v ∧ tstringSizeof v ≤ v.length + 5 := by
  unfold tstringSizeof
  have : wrapS 4 v.length = v.length := fitsS4.mpr (by omega)
  simp only [this]
  split <;> omega

theorem keylenFor_bounds (name title cls : List UInt8) (big : Bool) (eof : Int)
    (h : name.length + title.length + cls.length ≤ 2100000000) :
    26 < keylenFor name title cls big eof ∧
      keylenFor name title cls big eof ≤ name.length + title.length + cls.length + 68 := by
  have h1 := tstringSizeof_bounds name (by omega)
  have h2 := tstringSizeof_bounds title (by omega)
  have h3 := tstringSizeof_bounds cls (by omega)
  unfold keylenFor
  split <;> split <;> omega

theorem compressLoop_dst (c : Codec) (alg lvl : Int) : ∀ (n : Nat) (dst : List UInt8) (cur : Nat) (src : List UInt8)
    (d : List UInt8) (k : Nat), compressLoop c alg lvl n dst cur src = .ok (d, k) → d.length ≤ dst.length := by
  have hcopy : ∀ tgt bs : List UInt8, (copyInto tgt bs).length ≤ tgt.length := by
    intro tgt bs; simp [copyInto]; omega
  have hfin : ∀ (tgt : List UInt8) m0 m1 m2 payload (a b : Nat) t k,
      finishBlock tgt m0 m1 m2 payload a b = .ok (t, k) → t.length ≤ tgt.length := by
    intro tgt m0 m1 m2 payload a b t k h
    unfold finishBlock at h
    split at h
    · exact absurd h (by simp)
    · simp only [Res.ok.injEq, Prod.mk.injEq] at h
      rw [← h.1]; exact hcopy _ _
  have hstr : ∀ (tgt src : List UInt8) m0 m1 m2 t k,
      compressStream c alg lvl tgt src m0 m1 m2 = .ok (t, k) → t.length ≤ tgt.length := by
    intro tgt src m0 m1 m2 t k h
    unfold compressStream at h
    repeat' (first | (cases h; done) | (exact hfin _ _ _ _ _ _ _ _ _ h) | dsimp only at h | split at h)
  have hblk : ∀ (tgt src : List UInt8) t k,
      compressBlock c alg lvl tgt src = .ok (t, k) → t.length ≤ tgt.length := by
    intro tgt src t k h
    unfold compressBlock at h
    repeat' (first | (cases h; done) | (exact hfin _ _ _ _ _ _ _ _ _ h) | (exact hstr _ _ _ _ _ _ _ h) |
      dsimp only at h | split at h)
  intro n
  induction n with
  | zero =>
    intro dst cur src d k h
    simp only [compressLoop, Res.ok.injEq, Prod.mk.injEq] at h
    rw [h.1]; omega
  | succ n ih =>
    intro dst cur src d k h
    rw [compressLoop] at h
    by_cases h0 : src.length = 0
    · rw [if_pos h0] at h
      simp only [Res.ok.injEq, Prod.mk.injEq] at h
      rw [h.1]; omega
    rw [if_neg h0] at h
    by_cases h1 : cur > dst.length
    · rw [if_pos h1] at h; exact absurd h (by simp)
    rw [if_neg h1] at h
    cases hb : compressBlock c alg lvl (dst.drop cur) (src.take kMaxBlock) with
    | panic => simp [hb] at h
    | err => simp [hb] at h
    | noComp => simp [hb] at h
    | ok p =>
      obtain ⟨t, k'⟩ := p
      simp only [hb] at h
      have := hblk _ _ _ _ hb
      have h2 := ih _ _ _ _ _ h
      simp at h2 this
      omega

theorem compress_length (c : Codec) (spare src out : List UInt8) (compr : Int)
    (h : compress c [] spare src compr = .ok out) :
    out.length ≤ src.length + (src.length / kMaxBlock + 1) * hdrSize + spare.length := by
  unfold compress at h
  dsimp only at h
  split at h
  · simp only [Res.ok.injEq] at h
    subst h; omega
  · split at h
    · rename_i d cur hl
      have := compressLoop_dst _ _ _ _ _ _ _ _ _ hl
      split at h
      · exact absurd h (by simp)
      · simp only [Res.ok.injEq] at h
        subst h
        simp at this ⊢
        omega
    · simp only [Res.ok.injEq] at h
      subst h; omega
    · exact absurd h (by simp)
    · exact absurd h (by simp)

theorem compress_length_le (c : Codec) (spare src out : List UInt8) (compr : Int)
    (h : compress c [] spare src compr = .ok out) (hsp : spare.length ≤ 1000000) (hs : src.length ≤ 2100000000) :
    out.length ≤ src.length + 1001179 := by
  have hl := compress_length c spare src out compr h
  have hd : src.length / kMaxBlock ≤ 2100000000 / 16777215 := Nat.div_le_div_right hs
  have hm : (src.length / kMaxBlock + 1) * hdrSize ≤ 131 * 9 :=
    Nat.mul_le_mul (Nat.le_trans (Nat.succ_le_succ hd) (by decide)) (Nat.le_refl _)
  generalize (src.length / kMaxBlock + 1) * hdrSize = z at hl hm
  clear hd
  omega

/-- **C12**: in any sequence of requests of less than 2.1 GB each, the records are pairwise
disjoint, start at or after the initial end of the file (100 for a new file) and end at or
before the recorded end. -/
theorem C12_records_disjoint_partial (c : Codec) (spare : List UInt8) (hsp : spare.length ≤ 1000000)
    (ops : List AllocOp) (hops : ∀ op ∈ ops, op.Small) (f : WFile) :
    let r := runAllocs c spare ops f
    f.end_ ≤ r.2.end_ ∧
    (∀ k ∈ r.1, f.end_ ≤ k.seekkey ∧ 0 < k.nbytes ∧ k.seekkey + k.nbytes ≤ r.2.end_) ∧
    r.1.Pairwise DisjointRecs := by
  induction ops generalizing f with
  | nil => simp [runAllocs]
  | cons op ops ih =>
    have hsmall := hops op (by simp)
    have ih := fun f => ih (fun o ho => hops o (by simp [ho])) f
    cases op with
    | raw dir name title cls objlen now =>
      simp only [AllocOp.Small] at hsmall
      simp only [runAllocs]
      by_cases ho : objlen > 0
      · have hk := keylenFor_bounds name title cls dir.big f.end_ (by omega)
        have hw : wrapS 4 (objlen + keylenFor name title cls dir.big f.end_)
            = objlen + keylenFor name title cls dir.big f.end_ := fitsS4.mpr (by omega)
        have hi := ih (newKey dir name title cls objlen now f).2
        rw [if_pos ho]
        simp only [newKey, if_pos ho, hw, WFile.setEnd] at hi ⊢
        obtain ⟨h1, h2, h3⟩ := hi
        refine ⟨by omega, ?_, ?_⟩
        · intro k hk'
          rcases List.mem_cons.mp hk' with rfl | hk'
          · dsimp only; exact ⟨by omega, by omega, by omega⟩
          · have := h2 k hk'; exact ⟨by omega, by omega, by omega⟩
        · rw [List.pairwise_cons]
          refine ⟨?_, h3⟩
          intro k hk'
          have := h2 k hk'
          left; dsimp only; omega
      · rw [if_neg ho]
        have hi := ih (newKey dir name title cls objlen now f).2
        simp only [newKey, if_neg ho] at hi ⊢
        exact hi
    | buf dir name title cls cycle payload compr now =>
      simp only [AllocOp.Small] at hsmall
      simp only [runAllocs, newKeyFromBuf]
      cases hc : compress c [] spare payload compr with
      | panic => exact ih f
      | err => exact ih f
      | noComp => exact ih f
      | ok out =>
        have hk := keylenFor_bounds name title cls dir.big f.end_ (by omega)
        have hl2 := compress_length_le c spare payload out compr hc hsp (by omega)
        have hw1 : wrapS 4 out.length = out.length := fitsS4.mpr (by omega)
        have hw : wrapS 4 (keylenFor name title cls dir.big f.end_ + out.length)
            = keylenFor name title cls dir.big f.end_ + out.length := fitsS4.mpr (by omega)
        simp only [hw1, hw, WFile.setEnd]
        obtain ⟨h1, h2, h3⟩ := ih { f with end_ := f.end_ + (keylenFor name title cls dir.big f.end_ + out.length) }
        dsimp only at h1 h2 h3 ⊢
        refine ⟨by omega, ?_, ?_⟩
        · intro k hk'
          rcases List.mem_cons.mp hk' with rfl | hk'
          · dsimp only; exact ⟨by omega, by omega, by omega⟩
          · have := h2 k hk'; exact ⟨by omega, by omega, by omega⟩
        · rw [List.pairwise_cons]
          refine ⟨?_, h3⟩
          intro k hk'
          have := h2 k hk'
          left; dsimp only; omega

/-- A directory record, an empty request, an incompressible and a compressed payload. -/
example : let ops : List AllocOp := [.raw ⟨false, 100⟩ [97] [] [84] 60 ⟨2024, 2, 29, 13, 5, 59⟩,
      .raw ⟨false, 100⟩ [98] [] [84] 0 ⟨2024, 2, 29, 13, 5, 59⟩,
      .buf ⟨false, 100⟩ [99] [] [84] 1 [1, 2, 3] 101 ⟨2024, 2, 29, 13, 5, 59⟩,
      .buf ⟨false, 100⟩ [100] [] [84] 1 (List.replicate 600 7) 101 ⟨2024, 2, 29, 13, 5, 59⟩]
    (∀ op ∈ ops, op.Small) ∧
    ((runAllocs demoCodec [] ops ⟨100, [], 101⟩).1.map fun k => (k.seekkey, k.nbytes)) =
      [(100, 91), (191, 34), (225, 46)] ∧
    (runAllocs demoCodec [] ops ⟨100, [], 101⟩).2.end_ = 271 := by
  refine ⟨?_, by decide +kernel, by decide +kernel⟩
  intro op h
  simp only [List.mem_cons, List.not_mem_nil, or_false] at h
  rcases h with rfl | rfl | rfl | rfl <;> simp only [AllocOp.Small, List.length_replicate] <;> decide +kernel

/-- Beyond that size the recorded end of file moves backwards: storing a payload of just
under 2 GiB leaves the end of the file before the start of the record just allocated, so
the next record is written over existing ones. -/
theorem C12_large_payload_counterexample (c : Codec) (spare name title cls payload : List UInt8) (f : WFile)
    (hn : name.length ≤ 100) (ht : title.length ≤ 100) (hcl : cls.length ≤ 100)
    (h1 : 2147483622 ≤ payload.length) (h2 : payload.length < 2147483648) (now : Civil) :
    ∃ k f', newKeyFromBuf c spare ⟨false, 100⟩ name title cls 1 payload 0 now f = .ok (k, f') ∧
      f'.end_ < k.key.seekkey := by
  have hk := keylenFor_bounds name title cls false f.end_ (by omega)
  have hcomp : compress c [] spare payload 0 = .ok payload := by simp [compress, rootCompressAlgLvl]
  have hw1 : wrapS 4 payload.length = payload.length := fitsS4.mpr (by omega)
  have hneg : wrapS 4 (keylenFor name title cls false f.end_ + payload.length) < 0 := by
    unfold wrapS
    rw [Int.bmod_def]
    simp
    omega
  cases hr : newKeyFromBuf c spare ⟨false, 100⟩ name title cls 1 payload 0 now f with
  | ok r =>
    refine ⟨r.1, r.2, rfl, ?_⟩
    simp only [newKeyFromBuf, hcomp, Res.ok.injEq] at hr
    subst hr
    simp only [WFile.setEnd, hw1]
    omega
  | _ => simp [newKeyFromBuf, hcomp] at hr

/-! ### C14 -/

theorem writeAt_get (d : List UInt8) (pos : Nat) (bs : List UInt8) :
    ((writeAt d pos bs).drop pos).take bs.length = bs ∧ (bs ≠ [] → pos + bs.length ≤ (writeAt d pos bs).length) := by
  unfold writeAt
  by_cases h : bs.length = 0
  · have : bs = [] := List.length_eq_zero_iff.mp h
    subst this; simp
  · rw [if_neg h]
    have hl : ((d ++ List.replicate (pos - d.length) 0).take pos).length = pos := by simp; omega
    refine ⟨?_, ?_⟩
    · rw [List.append_assoc, List.drop_left' hl, List.take_left]
    · intro _; simp; omega

/-- A write outside of a range that lies within the file leaves that range alone. -/
theorem writeAt_other (d : List UInt8) (pos : Nat) (bs : List UInt8) (a n : Nat)
    (hin : a + n ≤ d.length) (hout : a + n ≤ pos ∨ pos + bs.length ≤ a) :
    ((writeAt d pos bs).drop a).take n = (d.drop a).take n ∧ a + n ≤ (writeAt d pos bs).length := by
  unfold writeAt
  by_cases h : bs.length = 0
  · rw [if_pos h]; exact ⟨rfl, hin⟩
  · rw [if_neg h]
    have hlen : a + n ≤ ((d ++ List.replicate (pos - d.length) 0).take pos ++ bs ++ d.drop (pos + bs.length)).length := by
      simp; omega
    refine ⟨?_, hlen⟩
    apply List.ext_getElem?
    intro i
    by_cases hi : i < n
    · rw [List.getElem?_take_of_lt hi, List.getElem?_take_of_lt hi, List.getElem?_drop, List.getElem?_drop]
      have hl : ((d ++ List.replicate (pos - d.length) 0).take pos).length = pos := by simp; omega
      rcases hout with ho | ho
      · rw [List.append_assoc, List.getElem?_append_left (by omega), List.getElem?_take_of_lt (by omega),
          List.getElem?_append_left (by omega)]
      · rw [List.getElem?_append_right (by simp; omega)]
        rw [List.getElem?_drop]
        congr 1
        rw [List.length_append, hl]; omega
    · rw [List.getElem?_eq_none (by simp; omega), List.getElem?_eq_none (by simp; omega)]

/-- Any later writes to the file. -/
def applyWrites (d : List UInt8) (ws : List (Nat × List UInt8)) : List UInt8 :=
  ws.foldl (fun d w => writeAt d w.1 w.2) d

theorem applyWrites_other (ws : List (Nat × List UInt8)) (d : List UInt8) (a n : Nat) (hin : a + n ≤ d.length)
    (hout : ∀ w ∈ ws, a + n ≤ w.1 ∨ w.1 + w.2.length ≤ a) :
    ((applyWrites d ws).drop a).take n = (d.drop a).take n ∧ a + n ≤ (applyWrites d ws).length := by
  induction ws generalizing d with
  | nil => exact ⟨rfl, hin⟩
  | cons w ws ih =>
    have h1 := writeAt_other d w.1 w.2 a n hin (hout w (by simp))
    have h2 := ih (writeAt d w.1 w.2) h1.2 (fun w' hw' => hout w' (by simp [hw']))
    exact ⟨h2.1.trans h1.1, h2.2⟩

/-- **C14**: a payload stored under any compression setting, written to the file, and
followed by any writes outside of its record, is loaded back as it was, into any buffer;
provided the compressed form, if any, does not happen to have the length of the payload. -/
theorem C14_load_partial (c : Codec) (hc : c.Lossless) (h4 : c.LZ4Saves) (spare : List UInt8)
    (hsp : spare.length ≤ 1000000) (dir : DirRef) (name title cls payload : List UInt8) (cycle compr : Int) (now : Civil)
    (f f1 f2 : WFile) (k k' : MKey) (ws : List (Nat × List UInt8)) (buf : List UInt8)
    (hsize : name.length + title.length + cls.length + payload.length ≤ 2100000000) (hend : 0 ≤ f.end_)
    (hnew : newKeyFromBuf c spare dir name title cls cycle payload compr now f = .ok (k, f1))
    (hwrite : writeFile k f1 = some (k', f2))
    (hlater : ∀ w ∈ ws, k.key.seekkey + k.key.nbytes ≤ w.1 ∨ (w.1 + w.2.length : Int) ≤ k.key.seekkey)
    (hcoll : ∀ out, compress c [] spare payload compr = .ok out → out ≠ payload → out.length ≠ payload.length)
    (hbuf : buf.length = payload.length) :
    load c (applyWrites f2.disk ws) k' buf = .ok payload := by
  unfold newKeyFromBuf at hnew
  dsimp only at hnew
  cases hcomp : compress c [] spare payload compr with
  | panic => simp [hcomp] at hnew
  | err => simp [hcomp] at hnew
  | noComp => simp [hcomp] at hnew
  | ok out =>
    simp only [hcomp, Res.ok.injEq, Prod.mk.injEq] at hnew
    have hk := keylenFor_bounds name title cls dir.big f.end_ (by omega)
    have hl2 := compress_length_le c spare payload out compr hcomp hsp (by omega)
    generalize keylenFor name title cls dir.big f.end_ = kl at *
    have hw1 : wrapS 4 out.length = out.length := fitsS4.mpr (by omega)
    have hw : wrapS 4 (kl + out.length) = kl + out.length := fitsS4.mpr (by omega)
    have hwp : wrapS 4 payload.length = payload.length := fitsS4.mpr (by omega)
    rw [hw1, hw, hwp] at hnew
    obtain ⟨hk1, hf1⟩ := hnew
    unfold writeFile at hwrite
    cases hm : k.key.marshal (newWBuffer [] 0 (fun _ => 0)) with
    | none => simp [hm] at hwrite
    | some w =>
      simp only [hm] at hwrite
      split at hwrite
      · exact absurd hwrite (by simp)
      rename_i hneg
      simp only [Option.some.injEq, Prod.mk.injEq] at hwrite
      obtain ⟨hk', hf2⟩ := hwrite
      have hbump := bump_eq k.key
      have hobj : k'.key.objlen = payload.length := by rw [← hk', hbump, ← hk1]
      have hnb : k'.key.nbytes = kl + out.length := by rw [← hk', hbump, ← hk1]
      have hkl : k'.key.keylen = kl := by rw [← hk', hbump, ← hk1]
      have hsk : k'.key.seekkey = f.end_ := by rw [← hk', hbump, ← hk1]
      have hkb : k'.buf = [] := by rw [← hk']
      have hkbuf : k.buf = out := by rw [← hk1]
      have hsk0 : k.key.seekkey = f.end_ := by rw [← hk1]
      have hkl0 : k.key.keylen = kl := by rw [← hk1]
      have hnb0 : k.key.nbytes = kl + out.length := by rw [← hk1]
      unfold load
      rw [if_neg (by rw [hobj]; exact Int.not_lt.mpr (Int.natCast_nonneg _)), hkb, if_neg (by simp)]
      simp only
      have hstart : (k'.key.seekkey + k'.key.keylen).toNat = (k.key.seekkey + k.key.keylen).toNat := by omega
      rw [hstart]
      have hget := writeAt_get (writeAt f1.disk k.key.seekkey.toNat w.bytes) (k.key.seekkey + k.key.keylen).toNat k.buf
      have hdisk : f2.disk = writeAt (writeAt f1.disk k.key.seekkey.toNat w.bytes) (k.key.seekkey + k.key.keylen).toNat k.buf := by
        rw [← hf2]
      rw [← hdisk, hkbuf] at hget
      have hsec : out ≠ [] → ((applyWrites f2.disk ws).drop (k.key.seekkey + k.key.keylen).toNat).take out.length = out ∧
          (k.key.seekkey + k.key.keylen).toNat + out.length ≤ (applyWrites f2.disk ws).length := by
        intro hne
        have := applyWrites_other ws f2.disk (k.key.seekkey + k.key.keylen).toNat out.length (hget.2 hne) (by
          intro w' hw'
          have := hlater w' hw'
          omega)
        rw [hget.1] at this
        exact this
      by_cases hraw : out = payload
      · subst hraw
        have : isCompressed k'.key = false := by
          unfold isCompressed
          rw [hobj, hnb, hkl, show kl + (out.length : Int) - kl = out.length by omega, hw1]
          simp
        rw [this]
        simp only [Bool.false_eq_true, if_false]
        unfold readAt
        by_cases hne : out = []
        · subst hne
          have : buf = [] := List.length_eq_zero_iff.mp hbuf
          subst this
          simp
        · have hs := hsec hne
          rw [hbuf, if_pos hs.2, hs.1]
      · have hlen := hcoll out hcomp hraw
        have : isCompressed k'.key = true := by
          unfold isCompressed
          rw [hobj, hnb, hkl, show kl + (out.length : Int) - kl = out.length by omega, hw1]
          simp only [ne_eq, decide_not, Bool.not_eq_true', decide_eq_false_iff_not]
          exact fun h => hlen (by exact_mod_cast h.symm)
        rw [this]
        simp only [if_true]
        have hd := (C13_roundtrip_partial c hc h4 [] spare payload compr out hcomp).resolve_left hraw
        rw [hnb, hkl, show (kl + (out.length : Int) - kl).toNat = out.length by omega]
        have hne : out ≠ [] := by
          intro he
          subst he
          have hb := hd (List.replicate payload.length 0) (by simp)
          unfold decompress at hb
          by_cases hp : payload.length = 0
          · exact hraw (List.length_eq_zero_iff.mp hp).symm
          · rw [decompressLoop, if_neg (by rw [List.length_replicate]; exact fun h => hp (Nat.le_zero.mp h)),
              if_pos (by simp [hdrSize])] at hb
            exact absurd hb (by simp)
        rw [(hsec hne).1]
        exact hd buf hbuf

def exKey : MKey :=
  ⟨⟨4, 46, 600, ⟨2024, 2, 29, 13, 5, 59⟩, 31, 1, 100, 100, [84], [97], []⟩, [90, 76, 8, 6, 0, 0, 88, 2, 0, 1, 7, 0, 0, 0, 0]⟩

def exDisk : List UInt8 :=
  List.replicate 100 0 ++ [0, 0, 0, 46, 0, 4, 0, 0, 2, 88, 116, 186, 209, 123, 0, 31, 0, 1, 0, 0, 0, 100, 0, 0, 0, 100, 1, 84, 1, 97, 0] ++
    exKey.buf

/-- Both a stored and a compressed payload meet the hypotheses, and load back. -/
example : let pay := List.replicate 600 (7 : UInt8)
    ∃ k f1 k' f2, newKeyFromBuf demoCodec [] ⟨false, 100⟩ [97] [] [84] 1 pay 101 ⟨2024, 2, 29, 13, 5, 59⟩ ⟨100, [], 101⟩ = .ok (k, f1) ∧
      writeFile k f1 = some (k', f2) ∧ k.buf.length = 15 ∧
      load demoCodec (applyWrites f2.disk [(0, [1, 2, 3]), (200, [9])]) k' (List.replicate 600 0) = .ok pay := by
  have h1 : newKeyFromBuf demoCodec [] ⟨false, 100⟩ [97] [] [84] 1 (List.replicate 600 7) 101
      ⟨2024, 2, 29, 13, 5, 59⟩ ⟨100, [], 101⟩ = .ok (exKey, ⟨146, [], 101⟩) := by decide +kernel
  have h2 : writeFile exKey ⟨146, [], 101⟩ = some (⟨exKey.key, []⟩, ⟨146, exDisk, 101⟩) := by decide +kernel
  exact ⟨_, _, _, _, h1, h2, by decide +kernel, by decide +kernel⟩

/-- A lossless streaming codec that saves nine bytes when a payload ends with nine zeros. -/
def nineCodec : Codec where
  stream _ _ src :=
    if src.drop (src.length - 9) = List.replicate 9 0 then some ([], [src.take (src.length - 9), []]) else none
  lz4 _ _ := some []
  hash _ := List.replicate 8 0
  inflate _ bs n := some (bs ++ List.replicate (n - bs.length) 0)
  unlz4 _ _ := none

/-- If compression saves exactly the nine bytes of the block header, the compressed record
has the length of the payload, is taken for an uncompressed one, and loading returns the
compressed bytes. -/
theorem C14_equal_length_counterexample :
    nineCodec.Lossless ∧ nineCodec.LZ4Saves ∧
    ∃ (pay got : List UInt8) (k k' : MKey) (f1 f2 : WFile),
      newKeyFromBuf nineCodec [] ⟨false, 100⟩ [97] [] [84] 1 pay 101 ⟨2024, 2, 29, 13, 5, 59⟩ ⟨100, [], 101⟩ = .ok (k, f1) ∧
      writeFile k f1 = some (k', f2) ∧
      load nineCodec f2.disk k' (List.replicate 600 0) = .ok got ∧ got ≠ pay := by
  refine ⟨⟨?_, fun _ _ _ h hne => by simp [nineCodec] at h; exact absurd h hne, fun _ => by simp [nineCodec]⟩,
    fun _ _ _ h => by simp [nineCodec] at h; exact Or.inr h, ?_⟩
  · intro k lvl src ws cs _ h cut h1 h2
    simp only [nineCodec] at h ⊢
    split at h
    · rename_i hd
      simp only [Option.some.injEq, Prod.mk.injEq] at h
      obtain ⟨rfl, rfl⟩ := h
      have hcut : cut = src.take (src.length - 9) := by
        obtain ⟨t, ht⟩ := h1
        obtain ⟨u, hu⟩ := h2
        simp at ht hu
        subst hu
        have : (src.take (src.length - 9)).length = (src.take (src.length - 9) ++ u ++ t).length := by rw [ht]
        simp only [List.length_append] at this
        have hu : u = [] := List.length_eq_zero_iff.mp (by omega)
        simp [hu]
      subst hcut
      have h2 : (src.drop (src.length - 9)).length = 9 := by rw [hd]; rfl
      rw [List.length_drop] at h2
      rw [List.length_take, show src.length - min (src.length - 9) src.length = 9 by omega, ← hd, List.take_append_drop]
    · exact absurd h (by simp)
  · refine ⟨List.replicate 591 5 ++ List.replicate 9 0, [90, 76, 8, 79, 2, 0, 88, 2, 0] ++ List.replicate 591 5,
      ⟨⟨4, 631, 600, ⟨2024, 2, 29, 13, 5, 59⟩, 31, 1, 100, 100, [84], [97], []⟩,
        [90, 76, 8, 79, 2, 0, 88, 2, 0] ++ List.replicate 591 5⟩, ⟨⟨4, 631, 600, ⟨2024, 2, 29, 13, 5, 59⟩, 31, 1, 100, 100, [84], [97], []⟩, []⟩,
      ⟨731, [], 101⟩, ⟨731, List.replicate 100 0 ++ [0, 0, 2, 119, 0, 4, 0, 0, 2, 88, 116, 186, 209, 123, 0, 31, 0, 1, 0, 0, 0, 100, 0, 0, 0, 100, 1, 84, 1, 97, 0] ++
        ([90, 76, 8, 79, 2, 0, 88, 2, 0] ++ List.replicate 591 5), 101⟩,
      by decide +kernel, by decide +kernel, by decide +kernel, by decide +kernel⟩

/-- Before the key was written to the file its bytes are those of the compressed payload. -/
theorem C14_unwritten_counterexample :
    ∃ (pay got : List UInt8) (k : MKey) (f1 : WFile),
      newKeyFromBuf demoCodec [] ⟨false, 100⟩ [97] [] [84] 1 pay 101 ⟨2024, 2, 29, 13, 5, 59⟩ ⟨100, [], 101⟩ = .ok (k, f1) ∧
      load demoCodec f1.disk k (List.replicate 600 0) = .ok got ∧ got ≠ pay := by
  refine ⟨List.replicate 600 7, [90, 76, 8, 6, 0, 0, 88, 2, 0] ++ [1, 7, 0, 0, 0, 0] ++ List.replicate 585 0,
    exKey, ⟨146, [], 101⟩, by decide +kernel,
    by decide +kernel, by decide +kernel⟩

end Verif.Riofs
