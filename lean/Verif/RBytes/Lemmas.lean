import Verif.RBytes.Model

/-!
# Helper lemmas for the ROOT buffers

`Appends op bs`: the write operation `op` always succeeds on a healthy buffer and
appends the bytes `bs`. `Parses op bs v`: the read operation `op`, positioned at
the bytes `bs` (anything before, anything after), returns `v` and consumes `bs`.
-/

namespace Verif.RBytes

/-- A healthy write buffer: position inside the slice, no error. -/
structure WBuf.WF (w : WBuf) : Prop where
  pos_le : w.c ≤ w.p.length
  no_err : w.err = false

def Appends (op : WBuf → Option WBuf) (bs : List UInt8) : Prop :=
  ∀ w, w.WF → ∃ w', op w = some w' ∧ w'.WF ∧ w'.bytes = w.bytes ++ bs ∧ w'.offset = w.offset

def Parses (op : RBuf → Option (α × RBuf)) (bs : List UInt8) (v : α) : Prop :=
  ∀ pre post hid off, op ⟨pre ++ (bs ++ post), hid, pre.length, off, false⟩
    = some (v, ⟨pre ++ (bs ++ post), hid, pre.length + bs.length, off, false⟩)

theorem WBuf.length_bytes {w : WBuf} (h : w.WF) : w.bytes.length = w.c := by
  simp [WBuf.bytes, h.pos_le]

/-! ### Writer -/

@[simp] theorem WBuf.grow_length (w : WBuf) (n : Nat) : (w.grow n).p.length = w.p.length + n := by
  simp [WBuf.grow]

theorem WBuf.grow_wf {w : WBuf} (h : w.WF) (n : Nat) : (w.grow n).WF := by
  refine ⟨?_, h.no_err⟩
  have := h.pos_le
  simp [WBuf.grow]; omega

theorem WBuf.grow_bytes {w : WBuf} (h : w.WF) (n : Nat) : (w.grow n).bytes = w.bytes := by
  simp [WBuf.grow, WBuf.bytes, List.take_append_of_le_length h.pos_le]

/-- What a successful store does, with the room left. -/
theorem WBuf.put_spec {w : WBuf} (h : w.WF) (bs : List UInt8) (hr : w.c + bs.length ≤ w.p.length) :
    ∃ w', w.put bs = some w' ∧ w'.WF ∧ w'.bytes = w.bytes ++ bs ∧ w'.offset = w.offset ∧
      w'.p.length = w.p.length ∧ w'.c = w.c + bs.length := by
  refine ⟨_, if_pos hr, ⟨?_, h.no_err⟩, ?_, rfl, ?_, rfl⟩
  · simp; omega
  · simp only [WBuf.bytes]
    rw [List.take_append_of_le_length (by simp; omega), List.take_of_length_le (by simp; omega)]
  · simp; omega

theorem grow_put_appends (n : Nat) (bs : List UInt8) (hn : bs.length ≤ n) :
    Appends (fun w => (w.grow n).put bs) bs := by
  intro w h
  have h1 := WBuf.grow_wf h n
  have hr : (w.grow n).c + bs.length ≤ (w.grow n).p.length := by
    have := h.pos_le
    simp [WBuf.grow]; omega
  obtain ⟨w', e, hw, hb, ho, _, _⟩ := WBuf.put_spec h1 bs hr
  exact ⟨w', e, hw, by rw [hb, WBuf.grow_bytes h], ho⟩

theorem writeBE_appends (k n : Nat) : Appends (WBuf.writeBE k n) (beEnc k n) := by
  intro w h
  obtain ⟨w', e, r⟩ := grow_put_appends k (beEnc k n) (by simp) w h
  refine ⟨w', ?_, r⟩
  simpa [WBuf.writeBE, h.no_err] using e

theorem writeBool_appends (b : Bool) : Appends (WBuf.writeBool b) [if b then 1 else 0] := by
  have := grow_put_appends 1 (beEnc 1 (if b then 1 else 0)) (by simp)
  cases b <;> exact this

/-- `w.write` on a non-empty slice, or when there is room left anyway. -/
theorem WBuf.write_spec {w : WBuf} (h : w.WF) (v : List UInt8)
    (hv : v ≠ [] ∨ w.c < w.p.length) :
    (w.write v).WF ∧ (w.write v).bytes = w.bytes ++ v ∧ (w.write v).offset = w.offset ∧
      (w.write v).p.length = w.p.length + v.length ∧ (w.write v).c = w.c + v.length := by
  have hlen := h.pos_le
  have hlt : ¬ (w.grow v.length).p.length ≤ (w.grow v.length).c := by
    have : v ≠ [] → 0 < v.length := List.length_pos_iff.mpr
    simp [WBuf.grow]
    rcases hv with hv | hv
    · have := this hv; omega
    · omega
  have hmin : min v.length ((w.grow v.length).p.length - (w.grow v.length).c) = v.length := by
    simp [WBuf.grow]; omega
  have e : w.write v = { (w.grow v.length) with
      p := (w.grow v.length).p.take w.c ++ v ++ (w.grow v.length).p.drop (w.c + v.length),
      c := w.c + v.length, err := false } := by
    simp only [WBuf.write, h.no_err, WBuf.rawWrite, if_neg hlt, hmin, List.take_length]
    simp [WBuf.grow]
  rw [e]
  refine ⟨⟨?_, rfl⟩, ?_, rfl, ?_, rfl⟩
  · simp; omega
  · have := WBuf.grow_bytes h v.length
    simp only [WBuf.bytes, WBuf.grow] at this ⊢
    rw [List.take_append_of_le_length (by simp; omega), List.take_of_length_le (by simp; omega),
      this]
  · simp; omega

theorem seq_appends {f g : WBuf → Option WBuf} {a b : List UInt8} (hf : Appends f a)
    (hg : Appends g b) : Appends (fun w => (f w).bind g) (a ++ b) := by
  intro w h
  obtain ⟨w1, e1, h1, b1, o1⟩ := hf w h
  obtain ⟨w2, e2, h2, b2, o2⟩ := hg w1 h1
  exact ⟨w2, by simp [e1, e2], h2, by rw [b2, b1, List.append_assoc], by rw [o2, o1]⟩

theorem nil_appends : Appends some [] := fun w h => ⟨w, rfl, h, by simp, rfl⟩

/-- Bytes produced by `WriteString`. -/
def strEnc (v : List UInt8) : List UInt8 :=
  if v.length < 255 then beEnc 1 v.length ++ v else beEnc 1 255 ++ (beEnc 4 v.length ++ v)

theorem writeString_appends (v : List UInt8) : Appends (WBuf.writeString v) (strEnc v) := by
  intro w h
  unfold WBuf.writeString strEnc
  simp only [h.no_err, Bool.false_eq_true, if_false]
  split
  · obtain ⟨w1, e1, h1, b1, o1⟩ := grow_put_appends (1 + v.length) (beEnc 1 v.length) (by simp) w h
    simp only at e1
    rw [e1]
    by_cases hv : v.length > 0
    · obtain ⟨a, b, c, d, e⟩ := WBuf.write_spec h1 v (Or.inl (List.ne_nil_of_length_pos hv))
      simp only [Option.bind_eq_bind, Option.bind_some, hv, if_true]
      refine ⟨_, rfl, a, ?_, by rw [c, o1]⟩
      rw [b, b1, List.append_assoc]
    · have : v = [] := by
        cases v with
        | nil => rfl
        | cons => simp at hv
      subst this
      simp only [Option.bind_eq_bind, Option.bind_some, List.length_nil]
      exact ⟨w1, rfl, h1, by rw [b1]; simp, o1⟩
  · rename_i hl
    have hg := WBuf.grow_wf h (1 + 4 + v.length)
    have hle := h.pos_le
    obtain ⟨w1, e1, h1, b1, o1, l1, c1⟩ := WBuf.put_spec hg (beEnc 1 255)
      (by simp [WBuf.grow]; omega)
    obtain ⟨w2, e2, h2, b2, o2, l2, c2⟩ := WBuf.put_spec h1 (beEnc 4 v.length)
      (by simp [WBuf.grow] at *; omega)
    obtain ⟨a, b, c, d, e⟩ := WBuf.write_spec h2 v
      (Or.inl (List.ne_nil_of_length_pos (by omega)))
    simp only [Option.bind_eq_bind, e1, e2, Option.bind_some]
    refine ⟨_, rfl, a, ?_, by rw [c, o2, o1]; rfl⟩
    rw [b, b2, b1, WBuf.grow_bytes h]
    simp [List.append_assoc]

theorem writeCString_appends (v : List UInt8) :
    Appends (WBuf.writeCString v) (v.takeWhile (· != 0) ++ [0]) := by
  intro w h
  obtain ⟨a, b, c, d, e⟩ := WBuf.write_spec h (v.takeWhile (· != 0) ++ [0]) (Or.inl (by simp))
  exact ⟨_, by simp [WBuf.writeCString, h.no_err], a, b, c⟩

theorem putAll_spec (k : Nat) (ns : List Nat) (w : WBuf) (h : w.WF)
    (hr : w.c + ns.length * k ≤ w.p.length) :
    ∃ w', w.putAll k ns = some w' ∧ w'.WF ∧ w'.bytes = w.bytes ++ (ns.map (beEnc k)).flatten ∧
      w'.offset = w.offset := by
  induction ns generalizing w with
  | nil => exact ⟨w, rfl, h, by simp, rfl⟩
  | cons n ns ih =>
    simp only [List.length_cons, Nat.add_mul, Nat.one_mul] at hr
    obtain ⟨w1, e1, h1, b1, o1, l1, c1⟩ := WBuf.put_spec h (beEnc k n) (by simp; omega)
    obtain ⟨w2, e2, h2, b2, o2⟩ := ih w1 h1 (by simp at c1; omega)
    refine ⟨w2, by simp [WBuf.putAll, e1, e2], h2, ?_, by rw [o2, o1]⟩
    simp [b2, b1]

theorem writeArray_appends (k : Nat) (ns : List Nat) :
    Appends (WBuf.writeArray k ns) ((ns.map (beEnc k)).flatten) := by
  intro w h
  have hle := h.pos_le
  obtain ⟨w', e, hw, hb, ho⟩ := putAll_spec k ns (w.grow (ns.length * k)) (WBuf.grow_wf h _)
    (by simp [WBuf.grow]; omega)
  exact ⟨w', by simpa [WBuf.writeArray, h.no_err] using e, hw,
    by rw [hb, WBuf.grow_bytes h], by rw [ho]; rfl⟩

/-! ### Reader -/

theorem slice_at (pre bs post hid : List UInt8) (off : Nat) :
    (RBuf.mk (pre ++ (bs ++ post)) hid pre.length off false).slice pre.length bs.length = some bs := by
  simp [RBuf.slice]

theorem readBE_parses {k : Nat} {bs : List UInt8} (h : bs.length = k) :
    Parses (RBuf.readBE k) bs (beDec bs) := by
  intro pre post hid off
  subst h
  simp only [RBuf.readBE, slice_at]
  simp

theorem readBE_parses_enc {k n : Nat} (h : n < 256 ^ k) : Parses (RBuf.readBE k) (beEnc k n) n := by
  have := readBE_parses (length_beEnc k n)
  rwa [beDec_beEnc_of_lt h] at this

theorem readU8_parses (b : UInt8) : Parses RBuf.readU8 [b] b.toNat := by
  intro pre post hid off
  simp [RBuf.readU8]

theorem beEnc_one (n : Nat) : beEnc 1 n = [UInt8.ofNat n] := by simp [beEnc]

theorem readU8_parses_enc {n : Nat} (h : n < 256) : Parses RBuf.readU8 (beEnc 1 n) n := by
  have := readU8_parses (UInt8.ofNat n)
  rw [beEnc_one]
  rwa [UInt8.toNat_ofNat', Nat.mod_eq_of_lt (by simpa using h)] at this

theorem readBool_parses (b : Bool) : Parses RBuf.readBool [if b then 1 else 0] b := by
  intro pre post hid off
  cases b <;> simp [RBuf.readBool]

theorem Parses.run {op : RBuf → Option (α × RBuf)} {bs : List UInt8} {v : α} (h : Parses op bs v)
    (pre post hid : List UInt8) (off : Nat) :
    op ⟨pre ++ (bs ++ post), hid, pre.length, off, false⟩
      = some (v, ⟨pre ++ (bs ++ post), hid, pre.length + bs.length, off, false⟩) := h pre post hid off

/-- Sequencing of two reads. -/
theorem Parses.bind {f : RBuf → Option (α × RBuf)} {g : α → RBuf → Option (β × RBuf)}
    {a b : List UInt8} {x : α} {y : β} (hf : Parses f a x) (hg : Parses (g x) b y) :
    Parses (fun r => (f r).bind (fun q => g q.1 q.2)) (a ++ b) y := by
  intro pre post hid off
  have h1 := hf pre (b ++ post) hid off
  have h2 := hg (pre ++ a) post hid off
  simp only [List.append_assoc, List.length_append, Nat.add_assoc] at h1 h2 ⊢
  rw [h1]
  exact h2

theorem Parses.pure (v : α) : Parses (fun r => some (v, r)) [] v := by
  intro pre post hid off
  simp

theorem Parses.map {f : RBuf → Option (α × RBuf)} {a : List UInt8} {x : α} (hf : Parses f a x)
    (g : α → β) : Parses (fun r => (f r).bind (fun q => some (g q.1, q.2))) a (g x) := by
  have := hf.bind (g := fun q r => some (g q, r)) (Parses.pure (g x))
  simpa using this

theorem read_parses (bs : List UInt8) : Parses (RBuf.read bs.length) bs bs := by
  intro pre post hid off
  simp [RBuf.read]

theorem readString_parses (v : List UInt8) (hlen : v.length < 2 ^ 32)
    (h0 : v.head? ≠ some 0) : Parses RBuf.readString (strEnc v) v := by
  unfold strEnc
  have body : ∀ n, n = v.length → n ≠ 0 →
      Parses (fun r : RBuf => (r.readU8).bind (fun q : Nat × RBuf =>
        if q.1 = 0 then some ([], q.2) else
        (q.2.read (n - 1)).bind (fun s => some (UInt8.ofNat q.1 :: s.1, s.2)))) v v := by
    intro n hn hn0
    cases v with
    | nil => simp at hn; omega
    | cons b v =>
      have hb : b.toNat ≠ 0 := by
        intro hb
        apply h0
        simp only [List.head?_cons, Option.some.injEq]
        exact UInt8.toNat.inj (by simpa using hb)
      have := (readU8_parses b).bind
        (g := fun q r => if q = 0 then some ([], r) else
          (r.read (n - 1)).bind (fun s => some (UInt8.ofNat q :: s.1, s.2)))
        (b := v) (y := b :: v) (by
          simp only [hb, if_false]
          subst hn
          have := (read_parses v).map (fun s => UInt8.ofNat b.toNat :: s)
          simpa using this)
      simpa using this
  split
  · rename_i hl
    intro pre post hid off
    have h1 := (readU8_parses_enc (n := v.length) (by omega)) pre (v ++ post) hid off
    simp only [List.append_assoc] at h1 ⊢
    unfold RBuf.readString
    simp only [Bool.false_eq_true, if_false, Option.bind_eq_bind, h1, Option.bind_some,
      show v.length ≠ 255 by omega]
    by_cases hz : v.length = 0
    · have : v = [] := List.length_eq_zero_iff.mp hz
      subst this
      simp
    · simp only [hz, if_false]
      have h2 := (body v.length rfl hz) (pre ++ beEnc 1 v.length) post hid off
      simp only [List.append_assoc, List.length_append, length_beEnc] at h2 ⊢
      simpa [Nat.add_assoc] using h2
  · rename_i hl
    intro pre post hid off
    have h1 := (readU8_parses_enc (n := 255) (by omega)) pre (beEnc 4 v.length ++ (v ++ post)) hid off
    have h1' := (readBE_parses_enc (k := 4) (n := v.length) (by simpa using hlen))
      (pre ++ beEnc 1 255) (v ++ post) hid off
    simp only [List.append_assoc, List.length_append, length_beEnc] at h1 h1' ⊢
    unfold RBuf.readString
    simp only [Bool.false_eq_true, if_false, Option.bind_eq_bind, h1, Option.bind_some, h1',
      if_true]
    have hz : v.length ≠ 0 := by omega
    simp only [hz, if_false]
    have h2 := (body v.length rfl hz) (pre ++ (beEnc 1 255 ++ beEnc 4 v.length)) post hid off
    simp only [List.append_assoc, List.length_append, length_beEnc] at h2
    rw [show pre.length + (1 + (4 + v.length)) = pre.length + (1 + 4) + v.length by omega]
    simpa only [Nat.add_assoc] using h2

theorem decAll_enc (k : Nat) (ns : List Nat) (h : ∀ n ∈ ns, n < 256 ^ k) (rest : List UInt8) :
    decAll k ns.length ((ns.map (beEnc k)).flatten ++ rest) = ns := by
  induction ns with
  | nil => rfl
  | cons n ns ih =>
    simp only [List.map_cons, List.flatten_cons, List.length_cons, decAll, List.append_assoc]
    rw [List.take_append_of_le_length (by simp), List.take_of_length_le (by simp),
      beDec_beEnc_of_lt (h n (by simp)), List.drop_append_of_le_length (by simp),
      List.drop_of_length_le (by simp), List.nil_append, ih (fun m hm => h m (by simp [hm]))]

theorem length_flatten_enc (k : Nat) (ns : List Nat) :
    ((ns.map (beEnc k)).flatten).length = k * ns.length := by
  induction ns with
  | nil => simp
  | cons n ns ih => simp [ih, Nat.mul_add, Nat.add_comm]

theorem readArray_parses {k : Nat} (hk : 0 < k) (ns : List Nat) (h : ∀ n ∈ ns, n < 256 ^ k) :
    Parses (RBuf.readArray k ns.length) ((ns.map (beEnc k)).flatten) ns := by
  intro pre post hid off
  unfold RBuf.readArray
  simp only [Bool.false_eq_true, if_false]
  by_cases hz : ns.length = 0
  · have : ns = [] := List.length_eq_zero_iff.mp hz
    subst this
    simp
  · have hl := length_flatten_enc k ns
    have hge : ns.length ≤ k * ns.length := Nat.le_mul_of_pos_left _ hk
    have hc : ¬ (ns.length = 0 ∨ (RBuf.mk (pre ++ ((ns.map (beEnc k)).flatten ++ post)) hid
        pre.length off false).len < ns.length) := by
      intro hc
      rcases hc with hc | hc
      · exact hz hc
      · simp only [RBuf.len, List.length_append, hl] at hc
        omega
    rw [if_neg hc]
    have := slice_at pre ((ns.map (beEnc k)).flatten) post hid off
    rw [hl] at this
    simp only [this, hl]
    have hd := decAll_enc k ns h []
    simp only [List.append_nil] at hd
    rw [hd]

/-! ### Headers -/

/-- The final bytes of an object header for a payload of `n` bytes. -/
def hdrEnc (vers : BitVec 16) (n : Nat) : List UInt8 :=
  beEnc 4 (2 ^ 30 + (n + 2)) ++ beEnc 2 vers.toNat

theorem writeHeader_spec (vers : BitVec 16) {w : WBuf} (h : w.WF) :
    ∃ w', w.writeHeader vers = some (⟨vers, w.pos, 0, false⟩, w') ∧ w'.WF ∧
      w'.bytes = w.bytes ++ (beEnc 4 0 ++ beEnc 2 vers.toNat) ∧ w'.offset = w.offset := by
  have hle := h.pos_le
  obtain ⟨w1, e1, h1, b1, o1, l1, c1⟩ := WBuf.put_spec (WBuf.grow_wf h 6) (beEnc 4 0)
    (by simp [WBuf.grow]; omega)
  obtain ⟨w2, e2, h2, b2, o2, l2, c2⟩ := WBuf.put_spec h1 (beEnc 2 vers.toNat)
    (by simp [WBuf.grow] at *; omega)
  refine ⟨w2, ?_, h2, ?_, ?_⟩
  · simp [WBuf.writeHeader, h.no_err, e1, e2]
  · rw [b2, b1, WBuf.grow_bytes h]; simp
  · rw [o2, o1]; rfl

theorem or_eq_add (n : Nat) (h : n < 2 ^ 30) : n ||| 2 ^ 30 = 2 ^ 30 + n := by
  have := Nat.two_pow_add_eq_or_of_lt h 1
  rw [Nat.mul_one] at this
  rw [Nat.or_comm]
  exact this.symm

theorem word_eq (a n : Nat) (h : n < 2 ^ 32) :
    (((BitVec.ofNat 64 (a + 4 + n) - BitVec.ofNat 64 a - 4) ||| 0x40000000#64).setWidth 32).toNat
      = n ||| 2 ^ 30 := by
  have e : BitVec.ofNat 64 (a + 4 + n) - BitVec.ofNat 64 a - 4 = BitVec.ofNat 64 n := by
    apply BitVec.eq_of_toNat_eq
    simp [BitVec.toNat_sub]
    omega
  rw [e]
  simp only [BitVec.toNat_setWidth, BitVec.toNat_or, BitVec.toNat_ofNat]
  rw [Nat.mod_eq_of_lt (by omega : n < 2 ^ 64)]
  have : 0x40000000 % 2 ^ 64 = 2 ^ 30 := by decide
  rw [this]
  exact Nat.mod_eq_of_lt (Nat.or_lt_two_pow h (by decide))

theorem setHeader_spec {w : WBuf} (h : w.WF) (vers : BitVec 16) (pre old bs : List UInt8)
    (ho : old.length = 4) (hb : w.bytes = pre ++ (old ++ bs)) (hn : bs.length < 2 ^ 32) :
    ∃ w', w.setHeader ⟨vers, pre.length + w.offset, 0, false⟩ = some w' ∧ w'.WF ∧
      w'.bytes = pre ++ (beEnc 4 (bs.length ||| 2 ^ 30) ++ bs) ∧ w'.offset = w.offset := by
  have hc : w.c = pre.length + 4 + bs.length := by
    have := WBuf.length_bytes h
    rw [hb] at this
    simp [ho] at this; omega
  have hp : w.p = pre ++ (old ++ (bs ++ w.p.drop w.c)) := by
    have := (List.take_append_drop w.c w.p).symm
    rw [show w.p.take w.c = _ from hb] at this
    simpa using this
  have hword := word_eq (pre.length + w.offset) bs.length hn
  rw [show pre.length + w.offset + 4 + bs.length = w.pos by simp [WBuf.pos, hc]; omega] at hword
  have hg : ((w.setPos (pre.length + w.offset)).grow 4).p =
      pre ++ (old ++ (bs ++ (w.p.drop w.c ++
        (List.range 4).map (fun i => w.junk (w.p.length + i))))) := by
    conv => lhs; simp only [WBuf.grow, WBuf.setPos]; rw [hp]
    simp [ho, hc]
    have hle := h.pos_le
    intro a _
    congr 1; omega
  have hgc : ((w.setPos (pre.length + w.offset)).grow 4).c = pre.length := by
    simp [WBuf.grow, WBuf.setPos]
  let w2 : WBuf := { (w.setPos (pre.length + w.offset)).grow 4 with
    p := pre ++ (beEnc 4 (bs.length ||| 2 ^ 30) ++ (bs ++ (w.p.drop w.c ++
        (List.range 4).map (fun i => w.junk (w.p.length + i)))))
    c := pre.length + 4 }
  have hput : ((w.setPos (pre.length + w.offset)).grow 4).put (beEnc 4 (bs.length ||| 2 ^ 30)) = some w2 := by
    unfold WBuf.put
    rw [if_pos (by rw [hg, hgc]; simp; omega)]
    simp only [hg, hgc, length_beEnc]
    have e1 : List.take pre.length (pre ++ (old ++ (bs ++ (w.p.drop w.c ++
        (List.range 4).map (fun i => w.junk (w.p.length + i)))))) = pre := by simp
    have e2 : List.drop (pre.length + 4) (pre ++ (old ++ (bs ++ (w.p.drop w.c ++
        (List.range 4).map (fun i => w.junk (w.p.length + i))))))
        = bs ++ (w.p.drop w.c ++ (List.range 4).map (fun i => w.junk (w.p.length + i))) := by
      rw [← List.append_assoc]
      rw [List.drop_left' (by simp [ho])]
    rw [e1, e2]
    simp [w2]
  refine ⟨w2.setPos w.pos, ?_, ?_, ?_, ?_⟩
  · unfold WBuf.setHeader
    simp only [h.no_err, Bool.false_eq_true, if_false, Option.bind_eq_bind]
    have : (w.setPos (pre.length + w.offset)).writeBE 4 (bs.length ||| 2 ^ 30) = some w2 := by
      rw [← hput]
      simp [WBuf.writeBE, WBuf.setPos, h.no_err]
    rw [show (4 : BitVec 64) = 4#64 from rfl] 
    erw [hword, this]
    rfl
  · refine ⟨?_, h.no_err⟩
    simp [WBuf.setPos, w2, WBuf.pos, WBuf.grow, hc]; omega
  · simp only [WBuf.bytes, WBuf.setPos, w2, WBuf.pos, WBuf.grow]
    rw [show w.c + w.offset - w.offset = pre.length + (4 + bs.length) by omega]
    rw [List.take_append, List.take_of_length_le (by omega)]
    rw [show pre.length + (4 + bs.length) - pre.length = 4 + bs.length by omega]
    rw [← List.append_assoc (beEnc _ _) bs, List.take_left' (by simp)]
  · rfl

theorem object_appends (vers : BitVec 16) {body : WBuf → Option WBuf} {bs : List UInt8}
    (hb : Appends body bs) (hl : bs.length + 2 < 2 ^ 30) :
    Appends (fun w => (w.writeHeader vers).bind fun q => (body q.2).bind fun w => w.setHeader q.1)
      (hdrEnc vers bs.length ++ bs) := by
  intro w h
  obtain ⟨w1, e1, h1, b1, o1⟩ := writeHeader_spec vers h
  obtain ⟨w2, e2, h2, b2, o2⟩ := hb w1 h1
  have hpos : w.pos = w.bytes.length + w2.offset := by
    rw [WBuf.length_bytes h, o2, o1]; rfl
  obtain ⟨w3, e3, h3, b3, o3⟩ := setHeader_spec h2 vers w.bytes (beEnc 4 0)
    (beEnc 2 vers.toNat ++ bs) (by simp) (by rw [b2, b1]; simp) (by simp; omega)
  refine ⟨w3, ?_, h3, ?_, by rw [o3, o2, o1]⟩
  · simp only [e1, Option.bind_some, e2]
    rw [hpos]; exact e3
  · rw [b3]
    simp only [hdrEnc, List.append_assoc]
    rw [show (beEnc 2 vers.toNat ++ bs).length = bs.length + 2 by simp; omega, or_eq_add _ hl]

/-- The header a reader gets back for an object with `n` payload bytes. -/
theorem readHeader_parses (vmax : Int) (vers : BitVec 16) (n : Nat) (hn : n + 2 < 2 ^ 30)
    (hv : vers &&& streamedMemberWise = 0) (hm : vmax < 0 ∨ vers.toInt ≤ vmax)
    (pre post hid : List UInt8) (off : Nat) :
    (RBuf.mk (pre ++ (hdrEnc vers n ++ post)) hid pre.length off false).readHeader vmax
      = some (⟨vers, pre.length + off, BitVec.ofNat 32 (n + 2), false⟩,
          RBuf.mk (pre ++ (hdrEnc vers n ++ post)) hid (pre.length + 6) off false) := by
  have hbm : BitVec.ofNat 32 (2 ^ 30 + (n + 2)) = BitVec.ofNat 32 (n + 2) ||| kByteCountMask := by
    apply BitVec.eq_of_toNat_eq
    simp only [kByteCountMask, BitVec.toNat_ofNat, BitVec.toNat_or]
    rw [Nat.mod_eq_of_lt (by omega), Nat.mod_eq_of_lt (by omega : n + 2 < 2 ^ 32), Nat.or_comm]
    have : BitVec.toNat (1073741824 : BitVec 32) = 2 ^ 30 * 1 := by decide
    rw [this, ← Nat.two_pow_add_eq_or_of_lt hn]
  have hz : BitVec.ofNat 32 (n + 2) &&& kByteCountMask = 0 := by
    apply BitVec.eq_of_toNat_eq
    simp only [kByteCountMask, BitVec.toNat_ofNat, BitVec.toNat_and]
    rw [Nat.mod_eq_of_lt (by omega : n + 2 < 2 ^ 32)]
    have : BitVec.toNat (1073741824 : BitVec 32) = 2 ^ 30 := by decide
    rw [this]
    apply Nat.eq_of_testBit_eq
    intro i
    rw [Nat.testBit_and, Nat.testBit_two_pow]
    by_cases h : 30 = i
    · subst h; simp [Nat.testBit_lt_two_pow hn]
    · simp [h]
  have h1 := (readBE_parses_enc (k := 4) (n := 2 ^ 30 + (n + 2)) (by omega)) pre
    (beEnc 2 vers.toNat ++ post) hid off
  have h2 := (readBE_parses_enc (k := 2) (n := vers.toNat) (by have := vers.isLt; omega))
    (pre ++ beEnc 4 (2 ^ 30 + (n + 2))) post hid off
  simp only [List.append_assoc, List.length_append, length_beEnc] at h1 h2
  unfold RBuf.readHeader
  simp only [Bool.false_eq_true, if_false, Option.bind_eq_bind, hdrEnc, List.append_assoc, h1,
    Option.bind_some]
  have hne : BitVec.ofNat 32 (2 ^ 30 + (n + 2)) &&& kByteCountMask ≠ 0 := by
    rw [hbm]
    have : (BitVec.ofNat 32 (n + 2) ||| kByteCountMask) &&& kByteCountMask = kByteCountMask := by
      ext i hi; simp; intro h; exact Or.inr h
    rw [this]; decide
  have hlen : BitVec.ofNat 32 (2 ^ 30 + (n + 2)) &&& ~~~ kByteCountMask = BitVec.ofNat 32 (n + 2) := by
    rw [hbm]
    ext i hi
    have := congrArg (fun b : BitVec 32 => b[i]) hz
    simp at this ⊢
    grind
  simp only [hne, ne_eq, not_false_eq_true, if_true, h2, Option.bind_some, hlen, BitVec.ofNat_toNat,
    BitVec.setWidth_eq, hv, not_true_eq_false, if_false, decide_false]
  rw [if_neg (by omega)]
  simp [RBuf.pos]

theorem checkHeader_ok {vers : BitVec 16} {n : Nat} (hn : n + 2 < 2 ^ 30) (pos : Nat) (mw : Bool)
    (r : RBuf) (hr : r.err = false) :
    (r.checkHeader ⟨vers, pos, BitVec.ofNat 32 (n + 2), mw⟩).err = false ↔ r.pos = pos + 6 + n := by
  have hi : (BitVec.ofNat 32 (n + 2)).toInt = (n : Int) + 2 := by
    rw [BitVec.toInt_eq_toNat_of_lt] <;> simp only [BitVec.toNat_ofNat] <;> omega
  unfold RBuf.checkHeader
  simp only [hr, Bool.false_eq_true, if_false, hi]
  rw [if_neg (by omega)]
  by_cases h : r.pos = pos + 6 + n
  · rw [if_pos (by omega)]; simp [h, hr]
  · rw [if_neg (by omega)]; simp [h]

theorem checkHeader_eq {vers : BitVec 16} {n : Nat} (hn : n + 2 < 2 ^ 30) (pos : Nat) (mw : Bool)
    (r : RBuf) (hr : r.err = false) (hp : r.pos = pos + 6 + n) :
    r.checkHeader ⟨vers, pos, BitVec.ofNat 32 (n + 2), mw⟩ = r := by
  have hi : (BitVec.ofNat 32 (n + 2)).toInt = (n : Int) + 2 := by
    rw [BitVec.toInt_eq_toNat_of_lt] <;> simp only [BitVec.toNat_ofNat] <;> omega
  unfold RBuf.checkHeader
  simp only [hr, Bool.false_eq_true, if_false, hi]
  rw [if_neg (by omega), if_pos (by omega)]

end Verif.RBytes
