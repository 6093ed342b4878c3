import Verif.Rdict.OpsProps

/-!
# Truncated data
-/

namespace Verif.Rdict

open Verif.RBytes

/-! ## Truncated data -/

/-- The reader stays within its data. -/
def Inside (r : RBuf) : Prop := r.hid = [] ∧ r.err = false ∧ r.c ≤ r.p.length

/-- A successful read leaves the reader within the same data. -/
def Keeps (f : RBuf → Option (α × RBuf)) : Prop :=
  ∀ r x r', Inside r → f r = some (x, r') → Inside r' ∧ r'.p = r.p ∧ r'.offset = r.offset

theorem Keeps.bind {f : RBuf → Option (α × RBuf)} {g : α × RBuf → Option (β × RBuf)} (hf : Keeps f)
    (hg : ∀ x, Keeps (fun r => g (x, r))) : Keeps (fun r => (f r).bind g) := by
  intro r x r' hr h
  cases hfr : f r with
  | none => simp [hfr] at h
  | some q =>
    obtain ⟨y, s⟩ := q
    have h1 := hf r y s hr hfr
    simp only [hfr, Option.bind_some] at h
    have h2 := hg y s x r' h1.1 h
    exact ⟨h2.1, h2.2.1.trans h1.2.1, h2.2.2.trans h1.2.2⟩

theorem Keeps.pure (x : α) : Keeps (fun r => some (x, r)) := by
  intro r y r' hr h
  simp only [Option.some.injEq, Prod.mk.injEq] at h
  obtain ⟨-, rfl⟩ := h
  exact ⟨hr, rfl, rfl⟩

theorem Keeps.none : Keeps (fun _ => (Option.none : Option (α × RBuf))) := by
  intro r y r' hr h; simp at h

theorem Keeps.opt {o : Option γ} {g : γ → RBuf → Option (β × RBuf)} (hg : ∀ x, Keeps (g x)) :
    Keeps (fun r => o.bind fun x => g x r) := by
  cases o with
  | none => simpa using Keeps.none
  | some x => simpa using hg x

theorem Keeps.ite {p : Prop} {d : RBuf → Decidable p} {f g : RBuf → Option (α × RBuf)} (hf : Keeps f)
    (hg : Keeps g) : Keeps (fun r => @_root_.ite _ p (d r) (f r) (g r)) := by
  by_cases hp : p
  · have : (fun r => @_root_.ite _ p (d r) (f r) (g r)) = f := by funext r; rw [if_pos hp]
    rw [this]; exact hf
  · have : (fun r => @_root_.ite _ p (d r) (f r) (g r)) = g := by funext r; rw [if_neg hp]
    rw [this]; exact hg

theorem slice_inside {r : RBuf} (hr : Inside r) {n : Nat} {bs : List UInt8} (h : r.slice r.c n = some bs) :
    r.c + n ≤ r.p.length := by
  simp only [RBuf.slice, hr.1, List.append_nil] at h
  split at h
  · assumption
  · simp at h

theorem keeps_readBE (k : Nat) : Keeps (RBuf.readBE k) := by
  intro r x r' hr h
  simp only [RBuf.readBE] at h
  rw [if_neg (by simp [hr.2.1])] at h
  split at h
  · rename_i bs hs
    simp only [Option.some.injEq, Prod.mk.injEq] at h
    obtain ⟨-, rfl⟩ := h
    exact ⟨⟨hr.1, hr.2.1, slice_inside hr hs⟩, rfl, rfl⟩
  · simp at h

theorem keeps_readU8 : Keeps RBuf.readU8 := by
  intro r x r' hr h
  simp only [RBuf.readU8] at h
  rw [if_neg (by simp [hr.2.1])] at h
  split at h
  · rename_i b hs
    simp only [Option.some.injEq, Prod.mk.injEq] at h
    obtain ⟨-, rfl⟩ := h
    exact ⟨⟨hr.1, hr.2.1, (List.getElem?_eq_some_iff.mp hs).1⟩, rfl, rfl⟩
  · simp at h

theorem keeps_readBool : Keeps RBuf.readBool := by
  intro r x r' hr h
  simp only [RBuf.readBool] at h
  rw [if_neg (by simp [hr.2.1])] at h
  split at h
  · rename_i b hs
    simp only [Option.some.injEq, Prod.mk.injEq] at h
    obtain ⟨-, rfl⟩ := h
    exact ⟨⟨hr.1, hr.2.1, (List.getElem?_eq_some_iff.mp hs).1⟩, rfl, rfl⟩
  · simp at h

theorem keeps_read (n : Nat) : Keeps (RBuf.read n) := by
  intro r x r' hr h
  simp only [RBuf.read] at h
  rw [if_neg (by simp [hr.2.1])] at h
  split at h
  · simp only [Option.some.injEq, Prod.mk.injEq] at h
    obtain ⟨-, rfl⟩ := h
    refine ⟨⟨hr.1, hr.2.1, ?_⟩, rfl, rfl⟩
    have := hr.2.2
    simp only [List.length_take, List.length_drop]
    omega
  · simp at h

theorem keeps_readArray (k n : Nat) : Keeps (RBuf.readArray k n) := by
  intro r x r' hr h
  simp only [RBuf.readArray] at h
  rw [if_neg (by simp [hr.2.1])] at h
  split at h
  · simp only [Option.some.injEq, Prod.mk.injEq] at h
    obtain ⟨-, rfl⟩ := h
    exact ⟨hr, rfl, rfl⟩
  · split at h
    · rename_i bs hs
      simp only [Option.some.injEq, Prod.mk.injEq] at h
      obtain ⟨-, rfl⟩ := h
      exact ⟨⟨hr.1, hr.2.1, slice_inside hr hs⟩, rfl, rfl⟩
    · simp at h

/-- Takes a composed read apart. -/
syntax "keep" : tactic
macro_rules | `(tactic| keep) => `(tactic| (refine Keeps.opt fun _ => ?_))
macro_rules | `(tactic| keep) => `(tactic| (refine Keeps.ite ?_ ?_))
macro_rules | `(tactic| keep) => `(tactic| ((refine Keeps.bind ?_ fun _ => ?_) <;> try dsimp only))
macro_rules | `(tactic| keep) => `(tactic| exact Keeps.pure _)
macro_rules | `(tactic| keep) => `(tactic| exact Keeps.none)
macro_rules | `(tactic| keep) => `(tactic| exact keeps_readU8)
macro_rules | `(tactic| keep) => `(tactic| exact keeps_readBool)
macro_rules | `(tactic| keep) => `(tactic| exact keeps_readBE _)
macro_rules | `(tactic| keep) => `(tactic| exact keeps_read _)
macro_rules | `(tactic| keep) => `(tactic| exact keeps_readArray _ _)
macro_rules | `(tactic| keep) => `(tactic| assumption)

theorem keeps_readPrim (k : Kind) : Keeps (RBuf.readPrim k) := by
  cases k <;> (change Keeps (fun r => RBuf.readPrim _ r); simp only [RBuf.readPrim]; repeat keep)

macro_rules | `(tactic| keep) => `(tactic| exact keeps_readPrim _)

theorem keeps_readPrims : ∀ ks : List Kind, Keeps (RBuf.readPrims ks)
  | [] => Keeps.pure _
  | k :: ks => by
    have ih := keeps_readPrims ks
    change Keeps (fun r => RBuf.readPrims _ r)
    simp only [RBuf.readPrims]
    repeat keep

macro_rules | `(tactic| keep) => `(tactic| exact keeps_readPrims _)

theorem Keeps.onInside {f g : RBuf → Option (α × RBuf)} (hf : Keeps f) (h : ∀ r, Inside r → g r = f r) : Keeps g := by
  intro r x r' hr hg
  rw [h r hr] at hg
  exact hf r x r' hr hg

theorem keeps_readString : Keeps RBuf.readString := by
  have h1 : Keeps (fun r => r.readU8.bind fun q => (if q.1 = 255 then q.2.readBE 4 else some (q.1, q.2)).bind fun n =>
      if n.1 = 0 then some ([], n.2) else n.2.readU8.bind fun v =>
        if v.1 = 0 then some ([], v.2) else (v.2.read (n.1 - 1)).bind fun s =>
          some (UInt8.ofNat v.1 :: s.1, s.2)) := by
    repeat keep
  refine h1.onInside ?_
  intro r hr
  simp only [RBuf.readString]
  rw [if_neg (by simp [hr.2.1])]
  cases r.readU8 with
  | none => rfl
  | some q =>
    simp only [Option.bind_eq_bind, Option.bind_some]
    split <;> rfl

macro_rules | `(tactic| keep) => `(tactic| exact keeps_readString)

theorem keeps_readHeader (vmax : Int) : Keeps (RBuf.readHeader vmax) := by
  intro r x r' hr h
  simp only [RBuf.readHeader] at h
  rw [if_neg (by simp [hr.2.1])] at h
  cases h1 : r.readBE 4 with
  | none => simp [h1] at h
  | some q =>
    obtain ⟨b, s⟩ := q
    have k1 := keeps_readBE 4 r b s hr h1
    simp only [h1, Option.bind_eq_bind, Option.bind_some] at h
    have key : ∀ (m : Nat) (t : RBuf), (s.readBE 2 = some (m, t) ∨ (s.setPos r.pos).readBE 2 = some (m, t)) →
        Inside t ∧ t.p = r.p ∧ t.offset = r.offset := by
      rintro m t (ht | ht)
      · have k2 := keeps_readBE 2 s m t k1.1 ht
        exact ⟨k2.1, k2.2.1.trans k1.2.1, k2.2.2.trans k1.2.2⟩
      · have k2 := keeps_readBE 2 (s.setPos r.pos) m t ⟨k1.1.1, k1.1.2.1, by
          have := hr.2.2
          simp only [RBuf.setPos, RBuf.pos, k1.2.1, k1.2.2]; omega⟩ ht
        exact ⟨k2.1, k2.2.1.trans k1.2.1, k2.2.2.trans k1.2.2⟩
    have fin : ∀ (c : Prop) [Decidable c] (hd : Header) (t : RBuf), Inside t ∧ t.p = r.p ∧ t.offset = r.offset →
        (if c then Option.none else some (hd, t)) = some (x, r') → Inside r' ∧ r'.p = r.p ∧ r'.offset = r.offset := by
      intro c _ hd t ht he
      split at he
      · simp at he
      · simp only [Option.some.injEq, Prod.mk.injEq] at he
        rw [← he.2]; exact ht
    split at h
    · cases h2 : s.readBE 2 with
      | none => simp [h2] at h
      | some q2 =>
        simp only [h2, Option.bind_some] at h
        exact fin _ _ _ (key q2.1 q2.2 (.inl h2)) h
    · cases h2 : (s.setPos r.pos).readBE 2 with
      | none => simp [h2] at h
      | some q2 =>
        simp only [h2, Option.bind_some] at h
        exact fin _ _ _ (key q2.1 q2.2 (.inr h2)) h

theorem checked_inside {hdr : Header} {r r' : RBuf} (h : checked hdr r = some r') : r' = r := by
  simp only [checked] at h
  split at h
  · simp at h
  · rename_i he
    simp only [Option.some.injEq] at h
    subst h
    simp only [RBuf.checkHeader] at he ⊢
    split
    · rfl
    · split
      · rfl
      · split
        · rfl
        · rename_i h1 h2 h3
          rw [if_neg h1, if_neg h2, if_neg h3] at he
          simp at he

theorem keeps_checked (hdr : Header) (x : α) : Keeps (fun r => (checked hdr r).bind fun r => some (x, r)) := by
  intro r y r' hr h
  cases hc : checked hdr r with
  | none => simp [hc] at h
  | some s =>
    simp only [hc, Option.bind_some, Option.some.injEq, Prod.mk.injEq] at h
    obtain ⟨-, rfl⟩ := h
    rw [checked_inside hc]
    exact ⟨hr, rfl, rfl⟩

macro_rules | `(tactic| keep) => `(tactic| exact keeps_readHeader _)
macro_rules | `(tactic| keep) => `(tactic| exact keeps_checked _ _)

theorem keeps_inHeaderR {vmax : Int} {body : Header → RBuf → Option (α × RBuf)} (hb : ∀ h, Keeps (body h)) :
    Keeps (inHeaderR vmax body) := by
  unfold inHeaderR
  refine Keeps.bind (by keep) fun h => ?_
  dsimp only
  refine Keeps.bind (hb h) fun q => ?_
  dsimp only
  keep

theorem keeps_maybeHeaderR {h : Bool} {body : RBuf → Option (α × RBuf)} (hb : Keeps body) :
    Keeps (maybeHeaderR h body) :=
  Keeps.ite (keeps_inHeaderR fun _ => hb) hb

theorem keeps_readKey (k : KOp) : Keeps (readKey k) := by
  cases k <;> (change Keeps (fun r => readKey _ r); simp only [readKey]; repeat keep)

macro_rules | `(tactic| keep) => `(tactic| exact keeps_readKey _)

theorem keeps_readKeys (k : KOp) : ∀ n, Keeps (readKeys k n)
  | 0 => Keeps.pure _
  | n + 1 => by
    have ih := keeps_readKeys k n
    change Keeps (fun r => readKeys k _ r)
    simp only [readKeys]
    repeat keep

theorem keeps_readCount : Keeps readCount := by
  unfold readCount
  repeat keep

macro_rules | `(tactic| keep) => `(tactic| exact keeps_readCount)
macro_rules | `(tactic| keep) => `(tactic| exact keeps_readKeys _ _)

theorem keeps_readEach {f : Val → RBuf → Option (Val × RBuf)} (hf : ∀ v, Keeps (f v)) :
    ∀ vs, Keeps (readEach f vs)
  | [] => Keeps.pure _
  | v :: vs => by
    have h1 := hf v
    have ih := keeps_readEach hf vs
    change Keeps (fun r => readEach f _ r)
    simp only [readEach]
    repeat keep

theorem keeps_skip {mw : Bool} {g : RBuf → Option (α × RBuf)} (hg : Keeps g) :
    Keeps (fun r => (skipMemberWise mw r).bind g) := by
  cases mw with
  | false => simpa [skipMemberWise] using hg
  | true =>
    have h1 : Keeps (fun r => (r.readBE 2).bind fun q =>
        if (BitVec.ofNat 16 q.1).toInt ≤ 0 then (q.2.readBE 4).bind fun s => g s.2 else g q.2) := by
      repeat keep
    refine h1.onInside ?_
    intro r hr
    simp only [skipMemberWise, if_true, Option.bind_assoc]
    congr 1
    funext q
    split <;> simp [Option.bind_assoc]

theorem keeps_readEntries {kr : RBuf → Option (List Key × RBuf)} {vr : RBuf → Option (List Val × RBuf)}
    (hk : Keeps kr) (hv : Keeps vr) (n : Int) : Keeps (readEntries kr vr n) := by
  unfold readEntries
  repeat keep

mutual
theorem keeps_rrun : ∀ (o : Op) (v : Val), Keeps (fun r => rrun o v r)
  | .prim k, v => by simp only [rrun]; repeat keep
  | .str, v => by simp only [rrun]; repeat keep
  | .array n o, v => by
    have h := fun vs => keeps_readEach (fun v => keeps_rrun o v) vs
    simp only [rrun]
    repeat (first | exact h _ | keep)
  | .slice o, v => by
    have h := fun vs => keeps_readEach (fun v => keeps_rrun o v) vs
    simp only [rrun]
    repeat (first | exact h _ | keep)
  | .typed o, v => by
    simp only [rrun]
    exact keeps_inHeaderR fun _ => keeps_rrun o v
  | .map kh kv k vh vv o, v => by
    have h := fun vs => keeps_readEach (fun v => keeps_rrun o v) vs
    simp only [rrun]
    refine Keeps.opt fun os => Keeps.bind (keeps_inHeaderR fun hd => keeps_skip ?_) fun _ => by dsimp only; keep
    refine Keeps.bind keeps_readCount fun c => ?_
    dsimp only
    exact keeps_readEntries (keeps_maybeHeaderR (keeps_readKeys k _)) (keeps_maybeHeaderR (h _)) _
  | .bitset n, v => by
    simp only [rrun]
    repeat keep
  | .cat vers fs, v => by
    simp only [rrun]
    refine Keeps.opt fun os => Keeps.bind (keeps_inHeaderR fun h => Keeps.ite Keeps.none (keeps_rflds fs 0 os))
      fun _ => by dsimp only; keep
theorem keeps_rflds : ∀ (fs : Flds) (i : Nat) (cur : List Val), Keeps (fun r => rflds fs i cur r)
  | .nil, i, cur => by simp only [rflds]; keep
  | .plain o rest, i, cur => by
    simp only [rflds]
    refine Keeps.opt fun v => Keeps.bind (keeps_rrun o v) fun q => ?_
    dsimp only; exact keeps_rflds rest (i + 1) _
  | .varr k path rest, i, cur => by
    simp only [rflds]
    refine Keeps.bind keeps_readU8 fun b => Keeps.opt fun n => Keeps.opt fun _ => Keeps.bind ?_ fun q => ?_
    · dsimp only [readVarr]
      repeat keep
    · dsimp only; exact keeps_rflds rest (i + 1) _
  | .loop path o rest, i, cur => by
    have h := fun vs => keeps_readEach (fun v => keeps_rrun o v) vs
    simp only [rflds]
    refine Keeps.bind keeps_readU8 fun b => Keeps.opt fun n => Keeps.opt fun _ => Keeps.bind ?_ fun q => ?_
    · dsimp only [readLoop]
      repeat (first | exact h _ | keep)
    · dsimp only; exact keeps_rflds rest (i + 1) _
end

/-- Reading the header of truncated data. -/
theorem readHeader_truncated (vmax : Int) (vers : BitVec 16) (n : Nat) (hn : n + 2 < 2 ^ 30)
    (hv : vers &&& streamedMemberWise = 0) (hm : vmax < 0 ∨ vers.toInt ≤ vmax)
    (pre bs : List UInt8) (off m : Nat) (h : Header) (r : RBuf)
    (hr : (readerAt (pre ++ (hdrEnc vers n ++ bs).take m) [] pre.length off).readHeader vmax = some (h, r)) :
    h.pos = pre.length + off ∧ h.len = BitVec.ofNat 32 (n + 2) := by
  have hl : (hdrEnc vers n).length = 6 := by simp [hdrEnc]
  by_cases h6 : 6 ≤ m
  · have e : (hdrEnc vers n ++ bs).take m = hdrEnc vers n ++ bs.take (m - 6) := by
      rw [List.take_append, hl, List.take_of_length_le (by omega)]
    rw [e] at hr
    have := readHeader_parses vmax vers n hn hv hm pre (bs.take (m - 6)) [] off
    simp only [readerAt] at hr
    rw [this] at hr
    simp only [Option.some.injEq, Prod.mk.injEq] at hr
    rw [← hr.1]
    exact ⟨rfl, rfl⟩
  · exfalso
    have e : (hdrEnc vers n ++ bs).take m = (hdrEnc vers n).take m := by
      rw [List.take_append_of_le_length (by omega)]
    rw [e] at hr
    by_cases h4 : 4 ≤ m
    · -- the byte count is there, the version is not
      have e2 : (hdrEnc vers n).take m = beEnc 4 (2 ^ 30 + (n + 2)) ++ (beEnc 2 vers.toNat).take (m - 4) := by
        rw [hdrEnc, List.take_append, length_beEnc, List.take_of_length_le (by simp; omega)]
      rw [e2] at hr
      have h1 := (readBE_parses_enc (k := 4) (n := 2 ^ 30 + (n + 2)) (by omega)) pre
        ((beEnc 2 vers.toNat).take (m - 4)) [] off
      simp only [readerAt, RBuf.readHeader, Bool.false_eq_true, if_false, Option.bind_eq_bind, h1,
        Option.bind_some] at hr
      have hne : BitVec.ofNat 32 (2 ^ 30 + (n + 2)) &&& kByteCountMask ≠ 0 := by
        intro hc
        have := congrArg BitVec.toNat hc
        simp only [kByteCountMask, BitVec.toNat_and, BitVec.toNat_ofNat] at this
        rw [Nat.mod_eq_of_lt (by omega)] at this
        have e3 : BitVec.toNat (1073741824 : BitVec 32) = 2 ^ 30 := by decide
        rw [e3] at this
        have h2 := congrArg (fun x => Nat.testBit x 30) this
        simp only [Nat.testBit_and, Nat.testBit_two_pow_self, Bool.and_true] at h2
        rw [Nat.testBit_two_pow_add_eq, Nat.testBit_lt_two_pow hn] at h2
        simp at h2
      rw [if_pos hne] at hr
      have hz : (RBuf.mk (pre ++ (beEnc 4 (2 ^ 30 + (n + 2)) ++ (beEnc 2 vers.toNat).take (m - 4))) []
          (pre.length + (beEnc 4 (2 ^ 30 + (n + 2))).length) off false).readBE 2 = none := by
        simp only [RBuf.readBE, Bool.false_eq_true, if_false, RBuf.slice, List.append_nil]
        rw [if_neg (by simp; omega)]
      rw [hz] at hr
      simp at hr
    · have hz : (readerAt (pre ++ (hdrEnc vers n).take m) [] pre.length off).readBE 4 = none := by
        simp only [readerAt, RBuf.readBE, Bool.false_eq_true, if_false, RBuf.slice, List.append_nil]
        rw [if_neg (by simp [hl]; omega)]
      simp only [RBuf.readHeader] at hr
      rw [if_neg (by simp [readerAt]), hz] at hr
      simp at hr

/-- Data cut anywhere before the end of the encoded struct are never decoded to a value. -/
theorem C98_truncated_struct_partial (range : (Key → Option Val) → List (Key × Val)) (si : Info) (v old : Val)
    (hv : Has range (.cat si.vers si.fs) v) (w w' : WBuf) (hw : w.Healthy)
    (he : encode range si v w = some w') (n : Nat) (hlo : w.bytes.length ≤ n) (hn : n < w'.bytes.length)
    (off : Nat) : decode si old (readerAt (w'.bytes.take n) [] w.bytes.length off) = none := by
  obtain ⟨vs, rfl, hf, hmw, hsz⟩ := hv
  obtain ⟨bs, bl, ba, -⟩ := flds_codec range si.fs [] vs hf
  have hl : bs.length + 2 < 2 ^ 30 := by rw [bl]; exact hsz
  have happ : Appends (encode range si (.struct vs)) (hdrEnc si.vers bs.length ++ bs) :=
    (object_appends si.vers ba hl).congr
      (fun w => by simp only [encode, wrun, Val.struct?, Option.bind_some, inHeader]; rfl)
  obtain ⟨w2, e2, -, hb, -⟩ := happ w hw.wf
  rw [he] at e2
  obtain rfl : w' = w2 := Option.some.inj e2
  rw [hb] at hn ⊢
  rw [List.take_append, List.take_of_length_le hlo]
  generalize hm : n - w.bytes.length = m
  have hlen : m < 6 + bs.length := by
    simp only [List.length_append, hdrEnc, length_beEnc] at hn; omega
  cases hd : decode si old (readerAt (w.bytes ++ (hdrEnc si.vers bs.length ++ bs).take m) [] w.bytes.length off) with
  | none => rfl
  | some q =>
    exfalso
    simp only [decode, rrun] at hd
    cases hos : old.struct? with
    | none => simp [hos] at hd
    | some os =>
      simp only [hos, Option.bind_some, inHeaderR] at hd
      cases hh : (readerAt (w.bytes ++ (hdrEnc si.vers bs.length ++ bs).take m) [] w.bytes.length off).readHeader
          si.vers.toInt with
      | none => simp [hh] at hd
      | some h =>
        obtain ⟨h, r⟩ := h
        have hin : Inside (readerAt (w.bytes ++ (hdrEnc si.vers bs.length ++ bs).take m) [] w.bytes.length off) :=
          ⟨rfl, rfl, by simp [readerAt]⟩
        have k1 := keeps_readHeader _ _ _ _ hin hh
        obtain ⟨hp, hln⟩ := readHeader_truncated _ _ _ hl hmw (.inr (Int.le_refl _)) _ _ _ _ _ _ hh
        simp only [hh, Option.bind_some] at hd
        split at hd
        · simp at hd
        · cases hb2 : rflds si.fs 0 os r with
          | none => simp [hb2] at hd
          | some q2 =>
            obtain ⟨x, s⟩ := q2
            have k2 := keeps_rflds _ _ _ _ _ _ k1.1 hb2
            simp only [hb2, Option.bind_some] at hd
            cases hc : checked h s with
            | none => simp [hc] at hd
            | some t =>
              simp only [checked] at hc
              split at hc
              · simp at hc
              · rename_i hce
                apply hce
                simp only [RBuf.checkHeader]
                have hpos : h.len.toInt = (bs.length : Int) + 2 := by
                  rw [hln, toNat_count (by omega)]; omega
                rw [if_neg (by simp [k2.1.2.1]), if_neg (by omega), if_neg]
                have h1 := k2.1.2.2
                rw [k2.2.1, k1.2.1] at h1
                have h2 := k2.2.2.trans k1.2.2
                simp only [readerAt] at h1 h2
                simp only [RBuf.pos, h2, hp, hpos]
                simp only [List.length_append, List.length_take, hdrEnc, length_beEnc] at h1
                omega

/-- The encoded example, cut in the middle. -/
example : ∃ w', encode exRange exInfo exVal w0 = some w' ∧ 20 < w'.bytes.length ∧
    decode exInfo exOld (readerAt (w'.bytes.take 20) [] 0 0) = none := by
  obtain ⟨w', e, hl⟩ := (C97_struct_roundtrip_partial exRange exInfo exVal _ exVal_has (recv_zero _)).2 w0 w0_healthy
  have h0 : w0.bytes.length = 0 := by decide
  have hs : size exRange (.cat exInfo.vers exInfo.fs) exVal = 88 := by decide +kernel
  rw [h0, hs] at hl
  refine ⟨w', e, by omega, ?_⟩
  have := C98_truncated_struct_partial exRange exInfo exVal exOld exVal_has w0 w' w0_healthy e 20 (by omega) (by omega) 0
  rwa [h0] at this

end Verif.Rdict
