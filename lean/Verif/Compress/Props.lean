import Verif.Compress.Model

/-!
# Properties of payload compression (C13, C17)
-/

namespace Verif.Compress

open Verif

/-! ### Specification -/

/-- What is assumed of the codecs: decompressing what was compressed returns the source,
also if the end of the last chunk handed over (checksum or footer) was cut. -/
structure Codec.Lossless (c : Codec) : Prop where
  stream : ∀ k lvl src ws cs, (k = algZLIB ∨ k = algLZMA ∨ k = algZSTD) →
    c.stream k lvl src = some (ws, cs) →
    ∀ cut, cut <+: (ws ++ cs).flatten → (ws ++ cs).dropLast.flatten <+: cut →
      c.inflate k cut src.length = some src
  lz4 : ∀ lvl src bs, c.lz4 lvl src = some bs → bs ≠ [] → c.unlz4 bs src.length = some src
  hash : ∀ bs, (c.hash bs).length = 8

/-- LZ4 compression of a block saves at least the 8 bytes of the checksum. -/
def Codec.LZ4Saves (c : Codec) : Prop :=
  ∀ lvl src bs, c.lz4 lvl src = some bs → bs.length + 8 ≤ src.length ∨ bs = []

/-! ### Lemmas -/

theorem writeChunks_append (room : Nat) (c : List UInt8) (ws cs : List (List UInt8)) :
    writeChunks room c (ws ++ cs) = (writeChunks room c ws).bind (fun c1 => writeChunks room c1 cs) := by
  induction ws generalizing c with
  | nil => rfl
  | cons p ps ih =>
    simp only [List.cons_append, writeChunks]
    split
    · rfl
    · exact ih _

theorem writeChunks_spec {room : Nat} (ps : List (List UInt8)) (c out : List UInt8)
    (h : writeChunks room c ps = some out) (hc : c.length ≤ room) :
    out <+: c ++ ps.flatten ∧ c ++ ps.dropLast.flatten <+: out ∧ out.length ≤ room := by
  induction ps generalizing c with
  | nil =>
    simp only [writeChunks, Option.some.injEq] at h
    subst h
    simp [hc]
  | cons p ps ih =>
    simp only [writeChunks] at h
    split at h
    · exact absurd h (by simp)
    rename_i hlt
    have hc' : (c ++ p.take (room - c.length)).length ≤ room := by
      simp; omega
    have hi := ih _ h hc'
    cases ps with
    | nil =>
      simp only [writeChunks, Option.some.injEq] at h
      subst h
      refine ⟨?_, by simp, hc'⟩
      simpa using List.take_prefix _ _
    | cons q qs =>
      have hp : p.take (room - c.length) = p := by
        by_cases hge : (c ++ p.take (room - c.length)).length ≥ room
        · simp only [writeChunks, if_pos hge] at h
          exact absurd h (by simp)
        · simp at hge
          exact List.take_of_length_le (by omega)
      rw [hp] at hi
      simpa using hi

/-- `F` is a block holding `b`: decompressing it gives `b`. -/
structure IsFrame (c : Codec) (F b : List UInt8) : Prop where
  pos : b.length ≠ 0
  len : hdrSize ≤ F.length
  tgt : leDec ((F.drop 6).take 3) = b.length
  src : leDec ((F.drop 3).take 3) = F.length - hdrSize
  dec : ∀ old : List UInt8, old.length = b.length →
    decompressBlock c (kindOf (F.getD 0 0) (F.getD 1 0)) (F.drop hdrSize) old (F.length - hdrSize) b.length = .ok b

theorem copyInto_of_le {tgt bs : List UInt8} (h : bs.length ≤ tgt.length) :
    copyInto tgt bs = bs ++ tgt.drop bs.length := by
  simp [copyInto, List.take_of_length_le h]

theorem finishBlock_ok {tgt : List UInt8} {m0 m1 m2 : UInt8} {payload : List UInt8} {dstsz srcsz : Nat}
    {t : List UInt8} {n : Nat} (h : finishBlock tgt m0 m1 m2 payload dstsz srcsz = .ok (t, n))
    (hp : payload.length = dstsz) (hl : hdrSize + dstsz ≤ tgt.length) :
    ∃ F, F = [m0, m1, m2] ++ leEnc 3 dstsz ++ leEnc 3 srcsz ++ payload ∧ dstsz ≤ kMaxBlock ∧
      t = F ++ tgt.drop F.length ∧ n = F.length ∧ F.length = hdrSize + dstsz := by
  unfold finishBlock at h
  split at h
  · exact absurd h (by simp)
  · rename_i hk
    simp only [Res.ok.injEq, Prod.mk.injEq] at h
    have hlen : ([m0, m1, m2] ++ leEnc 3 dstsz ++ leEnc 3 srcsz ++ payload).length = hdrSize + dstsz := by
      simp [hp, hdrSize]; omega
    refine ⟨_, rfl, by omega, ?_, ?_, hlen⟩
    · rw [← h.1, copyInto_of_le (by omega)]
    · rw [← h.2, hlen]

theorem frame_fields (m0 m1 m2 : UInt8) (payload : List UInt8) (srcsz : Nat)
    (h1 : payload.length ≤ kMaxBlock) (h2 : srcsz ≤ kMaxBlock) (F : List UInt8)
    (hF : F = [m0, m1, m2] ++ leEnc 3 payload.length ++ leEnc 3 srcsz ++ payload) :
    leDec ((F.drop 6).take 3) = srcsz ∧ leDec ((F.drop 3).take 3) = payload.length ∧
    F.drop hdrSize = payload ∧ F.getD 0 0 = m0 ∧ F.getD 1 0 = m1 ∧ F.length = hdrSize + payload.length := by
  subst hF
  have e1 : leDec (leEnc 3 srcsz) = srcsz := leDec_leEnc_of_lt (by unfold kMaxBlock at h2; omega)
  have e2 : leDec (leEnc 3 payload.length) = payload.length := leDec_leEnc_of_lt (by unfold kMaxBlock at h1; omega)
  refine ⟨?_, ?_, ?_, by simp, by simp, by simp [hdrSize]; omega⟩
  · rw [show [m0, m1, m2] ++ leEnc 3 payload.length ++ leEnc 3 srcsz ++ payload
        = ([m0, m1, m2] ++ leEnc 3 payload.length) ++ (leEnc 3 srcsz ++ payload) by simp,
      List.drop_left' (by simp), List.take_left' (by simp), e1]
  · rw [show [m0, m1, m2] ++ leEnc 3 payload.length ++ leEnc 3 srcsz ++ payload
        = [m0, m1, m2] ++ (leEnc 3 payload.length ++ (leEnc 3 srcsz ++ payload)) by simp,
      List.drop_left' (by simp), List.take_left' (by simp), e2]
  · rw [List.drop_left' (by simp [hdrSize])]

theorem compressStream_ok {c : Codec} (hc : c.Lossless) {alg lvl : Int} {tgt src : List UInt8}
    {m0 m1 m2 : UInt8} {t : List UInt8} {n : Nat}
    (h : compressStream c alg lvl tgt src m0 m1 m2 = .ok (t, n)) (htgt : hdrSize ≤ tgt.length)
    (halg : alg = algZLIB ∨ alg = algLZMA ∨ alg = algZSTD) (hkind : kindOf m0 m1 = alg)
    (hpos : src.length ≠ 0) (hsrc : src.length ≤ kMaxBlock) :
    ∃ F, IsFrame c F src ∧ t = F ++ tgt.drop F.length ∧ n = F.length ∧ F.length ≤ tgt.length := by
  unfold compressStream at h
  cases hs : c.stream alg lvl src with
  | none => simp [hs] at h
  | some p =>
    obtain ⟨ws, cs⟩ := p
    cases h1 : writeChunks (tgt.length - hdrSize) [] ws with
    | none => simp [hs, h1] at h
    | some c1 =>
      cases h2 : writeChunks (tgt.length - hdrSize) c1 cs with
      | none => simp [hs, h1, h2] at h
      | some out =>
        simp only [hs, h1, h2] at h
        have hw : writeChunks (tgt.length - hdrSize) [] (ws ++ cs) = some out := by
          rw [writeChunks_append, h1]; exact h2
        have hspec := writeChunks_spec _ _ _ hw (by simp)
        rw [List.nil_append, List.nil_append] at hspec
        split at h
        · exact absurd h (by simp)
        obtain ⟨F, hF, hk, ht, hn, hl⟩ := finishBlock_ok h rfl (by have := hspec.2.2; omega)
        obtain ⟨f1, f2, f3, f4, f5, f6⟩ := frame_fields m0 m1 m2 out src.length hk hsrc F hF
        refine ⟨F, ⟨hpos, by omega, f1, by omega, ?_⟩, ht, hn, by have := hspec.2.2; omega⟩
        intro old hold
        rw [f3, f4, f5, hkind]
        unfold decompressBlock
        rw [if_pos halg, hc.stream alg lvl src ws cs halg hs out hspec.1 hspec.2.1]
        simp

theorem compressBlock_ok {c : Codec} (hc : c.Lossless) (h4 : c.LZ4Saves) {alg lvl : Int} {tgt src : List UInt8}
    {t : List UInt8} {n : Nat} (h : compressBlock c alg lvl tgt src = .ok (t, n))
    (hpos : src.length ≠ 0) (hsrc : src.length ≤ kMaxBlock)
    (hroom : alg = algLZ4 → hdrSize + src.length ≤ tgt.length) :
    ∃ F, IsFrame c F src ∧ t = F ++ tgt.drop F.length ∧ n = F.length ∧ F.length ≤ tgt.length ∧
      (alg = algLZ4 → F.length ≤ hdrSize + src.length) := by
  unfold compressBlock at h
  split at h
  · exact absurd h (by simp)
  rename_i htgt
  have htgt : hdrSize ≤ tgt.length := by omega
  split at h
  · rename_i ha
    obtain ⟨F, a, b, c', d⟩ := compressStream_ok hc h htgt (Or.inl ha) (by rw [ha]; rfl) hpos hsrc
    exact ⟨F, a, b, c', d, by intro h'; rw [ha] at h'; exact absurd h' (by decide)⟩
  split at h
  · rename_i ha
    obtain ⟨F, a, b, c', d⟩ := compressStream_ok hc h htgt (Or.inr (Or.inl ha)) (by rw [ha]; rfl) hpos hsrc
    exact ⟨F, a, b, c', d, by intro h'; rw [ha] at h'; exact absurd h' (by decide)⟩
  split at h
  · rename_i ha
    cases hs : c.lz4 lvl src with
    | none => simp [hs] at h
    | some bs =>
      simp only [hs] at h
      split at h
      · exact absurd h (by simp)
      rename_i hne
      have hne' : bs ≠ [] := fun h' => hne (by simp [h'])
      have hsave : bs.length + 8 ≤ src.length := (h4 lvl src bs hs).resolve_right hne'
      have hh := hc.hash bs
      have hroom := hroom ha
      have hw : (c.hash bs ++ bs).length = bs.length + 8 := by simp [hh]; omega
      rw [List.take_of_length_le (by omega)] at h
      obtain ⟨F, hF, hk, ht, hn, hl⟩ := finishBlock_ok h rfl (by omega)
      obtain ⟨f1, f2, f3, f4, f5, f6⟩ := frame_fields 76 52 1 (c.hash bs ++ bs) src.length hk hsrc F hF
      refine ⟨F, ⟨hpos, by omega, f1, by omega, ?_⟩, ht, hn, by omega, fun _ => by omega⟩
      intro old hold
      rw [f3, f4, f5]
      unfold decompressBlock
      rw [if_neg (by decide), if_pos (by decide), if_neg (by omega), if_neg (by omega),
        List.drop_left' hh, hc.lz4 lvl src bs hs hne']
      simp [copyInto, hold, List.take_of_length_le, List.drop_of_length_le]
  split at h
  · rename_i ha
    obtain ⟨F, a, b, c', d⟩ := compressStream_ok hc h htgt (Or.inr (Or.inr ha)) (by rw [ha]; rfl) hpos hsrc
    exact ⟨F, a, b, c', d, by intro h'; rw [ha] at h'; exact absurd h' (by decide)⟩
  · exact absurd h (by simp)

/-- `s` is a sequence of blocks holding the consecutive pieces of `p`. -/
inductive Framed (c : Codec) : List UInt8 → List UInt8 → Prop
  | nil : Framed c [] []
  | cons {F b s p : List UInt8} : IsFrame c F b → Framed c s p → Framed c (F ++ s) (b ++ p)

theorem decompressLoop_framed {c : Codec} {s p : List UInt8} (h : Framed c s p) :
    ∀ (n beg : Nat) (dst : List UInt8), s.length < n → dst.length = beg + p.length →
      decompressLoop c n beg dst s = .ok (dst.take beg ++ p) := by
  induction h with
  | nil =>
    intro n beg dst hn hd
    obtain ⟨n, rfl⟩ : ∃ m, n = m + 1 := ⟨n - 1, by simp at hn; omega⟩
    simp only [List.length_nil, Nat.add_zero] at hd
    rw [decompressLoop, if_pos (by omega), ← hd]
    simp
  | @cons F b s p hF _ ih =>
    intro n beg dst hn hd
    simp only [List.length_append] at hn hd
    have hlen := hF.len
    obtain ⟨n, rfl⟩ : ∃ m, n = m + 1 := ⟨n - 1, by omega⟩
    have h9 : hdrSize = 9 := rfl
    have hpos := hF.pos
    have e1 : ((F ++ s).drop 3).take 3 = (F.drop 3).take 3 := by
      rw [List.drop_append_of_le_length (by omega), List.take_append_of_le_length (by simp; omega)]
    have e2 : ((F ++ s).drop 6).take 3 = (F.drop 6).take 3 := by
      rw [List.drop_append_of_le_length (by omega), List.take_append_of_le_length (by simp; omega)]
    have e3 : (F ++ s).getD 0 0 = F.getD 0 0 := by
      simp only [List.getD_eq_getElem?_getD]; rw [List.getElem?_append_left (by omega)]
    have e4 : (F ++ s).getD 1 0 = F.getD 1 0 := by
      simp only [List.getD_eq_getElem?_getD]; rw [List.getElem?_append_left (by omega)]
    have e5 : ((F ++ s).drop hdrSize).take (F.length - hdrSize) = F.drop hdrSize := by
      rw [List.drop_append_of_le_length (by omega), List.take_left' (by simp)]
    have e6 : (F ++ s).drop (hdrSize + (F.length - hdrSize)) = s := by
      rw [List.drop_left' (by omega)]
    rw [decompressLoop, if_neg (by omega), if_neg (by simp; omega)]
    dsimp only
    rw [e1, e2, e3, e4, hF.src, hF.tgt, if_neg (by omega), e5, e6,
      hF.dec ((dst.drop beg).take b.length) (by simp; omega)]
    dsimp only
    rw [ih n _ _ (by omega) (by simp; omega)]
    rw [List.take_left' (by simp; omega)]
    simp

theorem compressLoop_ok {c : Codec} (hc : c.Lossless) (h4 : c.LZ4Saves) {alg lvl : Int} :
    ∀ (n : Nat) (dst : List UInt8) (cur : Nat) (src : List UInt8) (dst' : List UInt8) (cur' : Nat),
      compressLoop c alg lvl n dst cur src = .ok (dst', cur') → cur ≤ dst.length →
      src.length ≤ n * kMaxBlock →
      (alg = algLZ4 → cur + src.length + n * hdrSize ≤ dst.length) →
      ∃ s, Framed c s src ∧ cur' ≤ dst'.length ∧ dst'.take cur' = dst.take cur ++ s := by
  intro n
  induction n with
  | zero =>
    intro dst cur src dst' cur' h hcur hsrc _
    simp only [compressLoop, Res.ok.injEq, Prod.mk.injEq] at h
    obtain ⟨rfl, rfl⟩ := h
    have : src = [] := List.length_eq_zero_iff.mp (by omega)
    subst this
    exact ⟨[], .nil, hcur, by simp⟩
  | succ n ih =>
    intro dst cur src dst' cur' h hcur hsrc hroom
    rw [compressLoop] at h
    by_cases he : src.length = 0
    · rw [if_pos he] at h
      simp only [Res.ok.injEq, Prod.mk.injEq] at h
      obtain ⟨rfl, rfl⟩ := h
      have : src = [] := List.length_eq_zero_iff.mp he
      subst this
      exact ⟨[], .nil, hcur, by simp⟩
    · rw [if_neg he, if_neg (by omega)] at h
      have hk : kMaxBlock = 16777215 := rfl
      cases hb : compressBlock c alg lvl (dst.drop cur) (src.take kMaxBlock) with
      | panic => simp [hb] at h
      | err => simp [hb] at h
      | noComp => simp [hb] at h
      | ok p =>
        obtain ⟨tgt, k⟩ := p
        simp only [hb] at h
        have htl : (src.take kMaxBlock).length = min kMaxBlock src.length := List.length_take
        have hdl : (dst.drop cur).length = dst.length - cur := List.length_drop
        have h9 : hdrSize = 9 := rfl
        obtain ⟨F, hF, ht, hn, hle, hl4⟩ := compressBlock_ok hc h4 hb (by omega) (by omega)
          (by intro ha; have := hroom ha; rw [Nat.succ_mul] at this; omega)
        have hd' : (dst.take cur ++ tgt).length = dst.length := by
          rw [ht]; simp; omega
        obtain ⟨s, hs, hc', htake⟩ := ih _ _ _ _ _ h (by omega)
          (by rw [List.length_drop]; rw [Nat.succ_mul] at hsrc; omega)
          (by
            intro ha
            have h1 := hroom ha
            have h2 := hl4 ha
            rw [hd', List.length_drop]
            rw [Nat.succ_mul] at h1
            omega)
        refine ⟨F ++ s, ?_, hc', ?_⟩
        · have := Framed.cons hF hs
          rwa [List.take_append_drop] at this
        · rw [htake, ht, hn, ← List.append_assoc, ← List.append_assoc]
          rw [List.take_left' (by simp; omega)]

/-- **C13**: whatever the payload, the destination buffer offered and the compression
setting, if compression succeeds then either the payload itself is returned, or
decompressing into any buffer of the size of the payload gives the payload. -/
theorem C13_roundtrip_partial (c : Codec) (hc : c.Lossless) (h4 : c.LZ4Saves)
    (dst spare src : List UInt8) (compr : Int) (out : List UInt8)
    (h : compress c dst spare src compr = .ok out) :
    out = src ∨ ∀ buf : List UInt8, buf.length = src.length → decompress c buf out = .ok src := by
  unfold compress at h
  dsimp only at h
  split at h
  · left; simpa using h.symm
  · have h9 : hdrSize = 9 := rfl
    have hk : kMaxBlock = 16777215 := rfl
    have hdiv : src.length ≤ (src.length / kMaxBlock + 1) * kMaxBlock := by
      have := Nat.div_add_mod src.length kMaxBlock
      have := Nat.mod_lt src.length (show kMaxBlock > 0 by omega)
      rw [Nat.succ_mul, Nat.mul_comm]; omega
    split at h
    · rename_i d cur hl
      obtain ⟨s, hs, hcur, htake⟩ := compressLoop_ok hc h4 _ _ _ _ _ _ hl (by omega) hdiv
        (by intro _; simp; omega)
      split at h
      · exact absurd h (by simp)
      · right
        intro buf hbuf
        simp only [Res.ok.injEq] at h
        rw [List.take_append_of_le_length hcur, htake] at h
        simp only [List.take_zero, List.nil_append] at h
        subst h
        have := decompressLoop_framed hs (s.length + 1) 0 buf (by omega) (by omega)
        simpa [decompress] using this
    · left; simpa using h.symm
    · exact absurd h (by simp)
    · exact absurd h (by simp)

theorem finishBlock_le {tgt : List UInt8} {m0 m1 m2 : UInt8} {payload : List UInt8} {dstsz srcsz : Nat}
    {t : List UInt8} {n : Nat} (h : finishBlock tgt m0 m1 m2 payload dstsz srcsz = .ok (t, n)) :
    n ≤ hdrSize + kMaxBlock := by
  unfold finishBlock at h
  split at h
  · exact absurd h (by simp)
  · simp only [Res.ok.injEq, Prod.mk.injEq] at h
    omega

theorem finishBlock_no_panic (tgt : List UInt8) (m0 m1 m2 : UInt8) (payload : List UInt8) (dstsz srcsz : Nat) :
    finishBlock tgt m0 m1 m2 payload dstsz srcsz ≠ .panic := by
  unfold finishBlock
  split <;> simp

theorem compressStream_le {c : Codec} {alg lvl : Int} {tgt src : List UInt8} {m0 m1 m2 : UInt8}
    {t : List UInt8} {n : Nat} (h : compressStream c alg lvl tgt src m0 m1 m2 = .ok (t, n)) :
    n ≤ hdrSize + kMaxBlock := by
  unfold compressStream at h
  repeat' (first | (cases h; done) | (exact finishBlock_le h) | dsimp only at h | split at h)

theorem compressStream_no_panic (c : Codec) (alg lvl : Int) (tgt src : List UInt8) (m0 m1 m2 : UInt8) :
    compressStream c alg lvl tgt src m0 m1 m2 ≠ .panic := by
  unfold compressStream
  repeat' (first | (exact finishBlock_no_panic _ _ _ _ _ _ _) | (simp; done) | dsimp only | split)

theorem compressBlock_le {c : Codec} {alg lvl : Int} {tgt src : List UInt8}
    {t : List UInt8} {n : Nat} (h : compressBlock c alg lvl tgt src = .ok (t, n)) :
    n ≤ hdrSize + kMaxBlock := by
  unfold compressBlock at h
  repeat' (first | (cases h; done) | (exact finishBlock_le h) | (exact compressStream_le h) |
    dsimp only at h | split at h)

theorem compressBlock_no_panic (c : Codec) (alg lvl : Int) (tgt src : List UInt8) (h : hdrSize ≤ tgt.length) :
    compressBlock c alg lvl tgt src ≠ .panic := by
  unfold compressBlock
  rw [if_neg (by omega)]
  repeat' (first | (exact finishBlock_no_panic _ _ _ _ _ _ _) | (exact compressStream_no_panic _ _ _ _ _ _ _ _) |
    (simp; done) | dsimp only | split)

theorem compressLoop_no_panic {c : Codec} (hc : c.Lossless) (h4 : c.LZ4Saves) {alg lvl : Int} :
    ∀ (n : Nat) (dst : List UInt8) (cur : Nat) (src : List UInt8),
      cur ≤ dst.length → (src.length ≠ 0 → cur + src.length + n * hdrSize ≤ dst.length) →
      compressLoop c alg lvl n dst cur src ≠ .panic ∧
      ∀ dst' cur', compressLoop c alg lvl n dst cur src = .ok (dst', cur') → cur' ≤ dst'.length := by
  intro n
  induction n with
  | zero =>
    intro dst cur src hcur _
    simp only [compressLoop]
    refine ⟨by simp, ?_⟩
    rintro dst' cur' h
    simp only [Res.ok.injEq, Prod.mk.injEq] at h
    obtain ⟨rfl, rfl⟩ := h
    omega
  | succ n ih =>
    intro dst cur src hcur hroom
    rw [compressLoop]
    by_cases he : src.length = 0
    · rw [if_pos he]
      refine ⟨by simp, ?_⟩
      rintro dst' cur' h
      simp only [Res.ok.injEq, Prod.mk.injEq] at h
      obtain ⟨rfl, rfl⟩ := h
      omega
    · rw [if_neg he, if_neg (by omega)]
      have hroom := hroom he
      rw [Nat.succ_mul] at hroom
      have h9 : hdrSize = 9 := rfl
      have hk : kMaxBlock = 16777215 := rfl
      have htl : (src.take kMaxBlock).length = min kMaxBlock src.length := List.length_take
      have hdl : (dst.drop cur).length = dst.length - cur := List.length_drop
      have hnp := compressBlock_no_panic c alg lvl (dst.drop cur) (src.take kMaxBlock) (by omega)
      cases hb : compressBlock c alg lvl (dst.drop cur) (src.take kMaxBlock) with
      | panic => exact absurd hb hnp
      | err => simp
      | noComp => simp
      | ok p =>
        obtain ⟨tgt, k⟩ := p
        have hle := compressBlock_le hb
        obtain ⟨F, hF, ht, hn, hfle, -⟩ := compressBlock_ok hc h4 hb (by omega) (by omega) (by intro _; omega)
        have hd' : (dst.take cur ++ tgt).length = dst.length := by
          rw [ht]; simp; omega
        dsimp only
        refine ih _ _ _ (by omega) ?_
        intro hne
        rw [List.length_drop] at hne ⊢
        omega

/-- **C13** (totality): compressing never panics. -/
theorem C13_no_panic_partial (c : Codec) (hc : c.Lossless) (h4 : c.LZ4Saves)
    (dst spare src : List UInt8) (compr : Int) : compress c dst spare src compr ≠ .panic := by
  unfold compress
  dsimp only
  split
  · simp
  · have hinv := compressLoop_no_panic hc h4 (alg := (rootCompressAlgLvl compr).1) (lvl := (rootCompressAlgLvl compr).2)
      (src.length / kMaxBlock + 1)
      (dst ++ List.replicate (src.length + (src.length / kMaxBlock + 1) * hdrSize - dst.length) 0) 0 src
      (by omega) (by intro _; simp; omega)
    split
    · rename_i d cur hl
      have := hinv.2 _ _ hl
      rw [if_neg (by omega)]
      simp
    · simp
    · simp
    · rename_i hp
      exact absurd hp hinv.1

/-- A lossless codec which really compresses: runs of one byte become two bytes for zlib
(a chunk at close, a checksum after it) and LZ4; everything else is stored as it is. -/
def demoCodec : Codec where
  stream _ lvl src :=
    if lvl > 9 then none
    else if src.all (· == 7) then some ([[1]], [[7], [0, 0, 0, 0]]) else some ([[0], src], [[0, 0, 0, 0]])
  lz4 _ src := if src.all (· == 7) && decide (10 ≤ src.length) then some [1, 7] else some []
  hash _ := List.replicate 8 0
  inflate _ bs n := if bs.head? = some 1 then some (List.replicate n 7) else some ((bs.drop 1).take n)
  unlz4 _ n := some (List.replicate n 7)

theorem all_seven {src : List UInt8} (h : src.all (· == 7) = true) : src = List.replicate src.length 7 := by
  rw [List.eq_replicate_iff]
  exact ⟨rfl, by simpa using h⟩

theorem demo_lossless : demoCodec.Lossless ∧ demoCodec.LZ4Saves := by
  refine ⟨⟨?_, ?_, fun _ => by simp [demoCodec]⟩, ?_⟩
  · intro k lvl src ws cs _ h cut h1 h2
    simp only [demoCodec] at h ⊢
    split at h
    · exact absurd h (by simp)
    split at h
    · rename_i hall
      simp only [Option.some.injEq, Prod.mk.injEq] at h
      obtain ⟨rfl, rfl⟩ := h
      obtain ⟨t, rfl⟩ := h2
      simp [← all_seven hall]
    · simp only [Option.some.injEq, Prod.mk.injEq] at h
      obtain ⟨rfl, rfl⟩ := h
      obtain ⟨t, rfl⟩ := h2
      simp
  · intro lvl src bs h hne
    simp only [demoCodec] at h ⊢
    split at h
    · rename_i hall
      rw [Bool.and_eq_true] at hall
      rw [← all_seven hall.1]
    · simp at h
      exact absurd h hne
  · intro lvl src bs h
    simp only [demoCodec] at h
    split at h
    · rename_i hall
      rw [Bool.and_eq_true, decide_eq_true_eq] at hall
      simp only [Option.some.injEq] at h
      subst h
      left; simp; omega
    · right; simpa using h.symm

/-- The hypotheses are met by a codec that compresses, and compression takes place. -/
example : demoCodec.Lossless ∧ demoCodec.LZ4Saves ∧
    compress demoCodec [] [] (List.replicate 600 7) 101
      = .ok ([90, 76, 8, 6, 0, 0, 88, 2, 0] ++ [1, 7, 0, 0, 0, 0]) ∧
    compress demoCodec [] [] (List.replicate 600 3) 101 = .ok (List.replicate 600 3) :=
  ⟨demo_lossless.1, demo_lossless.2, by decide +kernel, by decide +kernel⟩

/-- A lossless LZ4-like codec that saves two bytes when a block ends with two zeros. -/
def tightCodec : Codec where
  stream _ _ _ := none
  lz4 _ src := if src.drop (src.length - 2) = [0, 0] then some (src.take (src.length - 2)) else some []
  hash _ := List.replicate 8 0
  inflate _ _ _ := none
  unlz4 bs n := some (bs ++ List.replicate (n - bs.length) 0)

/-- Without the saving, C13 fails: the compressed block and its checksum are larger than
the room left for them, the end of the block is cut off and nothing reports it.  With an
LZ4 output two bytes shorter than the payload, and a buffer whose capacity exceeds its
length, `Compress` succeeds and `Decompress` returns other data (in a buffer without spare
capacity it panics). -/
theorem C13_lz4_overflow_counterexample :
    tightCodec.Lossless ∧ ∃ src out buf : List UInt8, src.length = 512 ∧ buf.length = 512 ∧
      compress tightCodec [] (List.replicate 7 0) src 401 = .ok out ∧ out ≠ src ∧
      (∃ res, decompress tightCodec buf out = .ok res ∧ res ≠ src) ∧
      compress tightCodec [] [] src 401 = .panic := by
  refine ⟨⟨fun _ _ _ _ _ _ h => by simp [tightCodec] at h, ?_, fun _ => by simp [tightCodec]⟩, ?_⟩
  · intro lvl src bs h hne
    simp only [tightCodec] at h ⊢
    split at h
    · rename_i hd
      simp only [Option.some.injEq] at h
      subst h
      have h2 : (src.drop (src.length - 2)).length = 2 := by rw [hd]; rfl
      rw [List.length_drop] at h2
      rw [List.length_take, show src.length - min (src.length - 2) src.length = 2 by omega]
      rw [show List.replicate 2 (0 : UInt8) = src.drop (src.length - 2) from hd.symm, List.take_append_drop]
    · simp at h
      exact absurd h hne
  · refine ⟨List.replicate 510 1 ++ [0, 0], [76, 52, 1, 6, 2, 0, 0, 2, 0] ++ List.replicate 8 0 ++
      List.replicate 504 1 ++ List.replicate 6 0, List.replicate 512 0, by decide +kernel, by decide +kernel,
      by decide +kernel, by decide +kernel, ⟨List.replicate 504 1 ++ List.replicate 8 0, by decide +kernel, by decide +kernel⟩,
      by decide +kernel⟩

/-! ### C17 -/

/-- **C17**: encoding an algorithm and a non-negative level and decoding gives them back,
the level clamped to 99 (zstd with level 9 excepted). -/
theorem C17_settings_roundtrip_partial (s : Settings) (ha : 0 ≤ s.alg) (hl : 0 ≤ s.lvl)
    (hz : ¬ (s.alg = 5 ∧ s.lvl = 9)) :
    ∃ v, s.compression = some v ∧ settingsFrom v = { alg := s.alg, lvl := min s.lvl 99 } := by
  have key : ∀ l : Int, 0 ≤ l → l ≤ 99 → settingsFrom (s.alg * 100 + l) = { alg := s.alg, lvl := l } := by
    intro l h0 h1
    unfold settingsFrom rootCompressAlgLvl
    simp only [Settings.mk.injEq]
    constructor
    · rw [Int.tdiv_eq_ediv_of_nonneg (by omega)]; omega
    · rw [Int.tmod_eq_emod_of_nonneg (by omega)]; omega
  unfold Settings.compression
  dsimp only
  rw [if_neg (by omega)]
  by_cases h1 : s.lvl = 1
  · rw [if_pos h1]
    split
    · exact ⟨_, rfl, by rw [key 1 (by omega) (by omega), h1]; rfl⟩
    · exact ⟨_, rfl, by rw [key _ (by omega) (by omega), h1]; rfl⟩
  rw [if_neg h1]
  by_cases h9 : s.lvl = 9
  · rw [if_pos h9, if_neg (by intro h; exact hz ⟨h, h9⟩)]
    exact ⟨_, rfl, by rw [key _ (by omega) (by omega), h9]; rfl⟩
  rw [if_neg h9]
  split
  · exact ⟨_, rfl, by rw [key 99 (by omega) (by omega)]; congr 1; omega⟩
  · exact ⟨_, rfl, by rw [key _ (by omega) (by omega)]; congr 1; omega⟩

/-- The default level selects the algorithm's default. -/
theorem C17_default_level (a : Int) (h : a = 1 ∨ a = 2 ∨ a = 4 ∨ a = 5) :
    ∃ v, Settings.compression { alg := a, lvl := -1 } = some v ∧
      settingsFrom v = { alg := a, lvl := if a = 1 then 6 else 1 } := by
  rcases h with rfl | rfl | rfl | rfl <;> exact ⟨_, rfl, by decide⟩

example : (Settings.compression ⟨2, 120⟩ = some 299) ∧ settingsFrom 299 = ⟨2, 99⟩ := by decide

/-- zstd with level 9 (best compression) decodes as level 4. -/
theorem C17_zstd_best_counterexample :
    (Settings.compression ⟨5, 9⟩).map settingsFrom = some ⟨5, 4⟩ := by decide

/-- zlib with level -2 (Huffman only) decodes as "no algorithm": nothing gets compressed. -/
theorem C17_negative_level_counterexample :
    (Settings.compression ⟨1, -2⟩).map settingsFrom = some ⟨0, 98⟩ ∧
    ∀ (c : Codec) (dst spare src : List UInt8), compress c dst spare src 98 = .ok src := by
  refine ⟨by decide, ?_⟩
  intro c dst spare src
  simp [compress, rootCompressAlgLvl]

end Verif.Compress
