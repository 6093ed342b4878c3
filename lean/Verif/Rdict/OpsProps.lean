import Verif.Rdict.Ops

/-!
# Round trip through the streaming operations
-/

namespace Verif.Rdict

open Verif.RBytes

/-! ## Specification -/

/-- `range` lists the entries of the map `f`, each key once. -/
def Lists (range : (Key → Option Val) → List (Key × Val)) (f : Key → Option Val) : Prop :=
  ((range f).map (·.1)).Nodup ∧ ∀ k v, (k, v) ∈ range f ↔ f k = some v

/-- Number of bytes of a string. -/
def strSize (s : List UInt8) : Nat := if s.length < 255 then 1 + s.length else 5 + s.length

/-- Number of bytes of a key. -/
def keySize : Key → Nat
  | .prim p => p.kind.width
  | .str s => strSize s

/-- A string that can be read back. -/
def StrOk (s : List UInt8) : Prop := s.length < 2 ^ 32 ∧ s.head? ≠ some 0

/-- A key of the type of the operation. -/
def KeyOk : KOp → Key → Prop
  | .prim k, .prim p => p.kind = k
  | .str, .str s => StrOk s
  | _, _ => False

mutual
/-- Number of bytes of a value on disk. -/
def size (range : (Key → Option Val) → List (Key × Val)) : Op → Val → Nat
  | .prim k, _ => k.width
  | .str, v => strSize (v.str?.getD [])
  | .array _ o, v => ((v.list?.getD []).map (size range o)).sum
  | .slice o, v => 4 + ((v.list?.getD []).map (size range o)).sum
  | .typed o, v => 6 + size range o v
  | .map kh _ _ vh _ o, v =>
    let es := range (v.map?.getD fun _ => none)
    10 + if es.isEmpty then 0 else
      ((if kh then 6 else 0) + (es.map fun e => keySize e.1).sum) +
      ((if vh then 6 else 0) + (es.map fun e => size range o e.2).sum)
  | .bitset n, _ => 4 + n
  | .cat _ fs, v => 6 + sizeF range fs (v.struct?.getD [])
def sizeF (range : (Key → Option Val) → List (Key × Val)) : Flds → List Val → Nat
  | .nil, _ => 0
  | .plain o rest, vs => size range o (vs.headD o.zero) + sizeF range rest vs.tail
  | .varr k _ rest, vs => (1 + k.width * ((vs.head?.bind Val.list?).getD []).length) + sizeF range rest vs.tail
  | .loop _ o rest, vs =>
    (1 + (((vs.head?.bind Val.list?).getD []).map (size range o)).sum) + sizeF range rest vs.tail
end

mutual
/-- The value is of the type of the operation, and within the limits of the
format: strings that can be read back, fewer than 2^31 elements, objects below
1 GiB, and every array with a counter has as many elements as its counter says. -/
def Has (range : (Key → Option Val) → List (Key × Val)) : Op → Val → Prop
  | .prim k, v => ∃ p, v = .prim p ∧ p.kind = k
  | .str, v => ∃ s, v = .str s ∧ StrOk s
  | .array n o, v => ∃ vs, v = .list vs ∧ vs.length = n ∧ ∀ x ∈ vs, Has range o x
  | .slice o, v => ∃ vs, v = .list vs ∧ vs.length < 2 ^ 31 ∧ ∀ x ∈ vs, Has range o x
  | .typed o, v => Has range o v ∧ size range o v + 2 < 2 ^ 30
  | .map kh kvers k vh vvers o, v => ∃ f, v = .map f ∧ Lists range f ∧ (range f).length < 2 ^ 31 ∧
      (∀ e ∈ range f, KeyOk k e.1 ∧ Has range o e.2) ∧ size range (.map kh kvers k vh vvers o) v < 2 ^ 30
  | .bitset n, v => ∃ ps : List Prim, v = .list (ps.map .prim) ∧ ps.length = n ∧ n < 2 ^ 31 ∧
      ∀ p ∈ ps, p.kind = .u8
  | .cat vers fs, v => ∃ vs, v = .struct vs ∧ HasF range fs [] vs ∧ vers &&& streamedMemberWise = 0 ∧
      sizeF range fs vs + 2 < 2 ^ 30
/-- The fields `vs`, following the fields `done`; counters come before the arrays. -/
def HasF (range : (Key → Option Val) → List (Key × Val)) : Flds → List Val → List Val → Prop
  | .nil, _, vs => vs = []
  | .plain o rest, done, vs => ∃ x xs, vs = x :: xs ∧ Has range o x ∧ HasF range rest (done ++ [x]) xs
  | .varr k path rest, done, vs => ∃ (ps : List Prim) (xs : List Val), vs = .list (ps.map Val.prim) :: xs ∧ (∀ p ∈ ps, p.kind = k) ∧
      counter done path = some (ps.length : Int) ∧ HasF range rest (done ++ [.list (ps.map Val.prim)]) xs
  | .loop path o rest, done, vs => ∃ ys xs, vs = .list ys :: xs ∧ (∀ y ∈ ys, Has range o y) ∧
      counter done path = some (ys.length : Int) ∧ HasF range rest (done ++ [.list ys]) xs
end

mutual
/-- A receiver of the type of the operation. Whatever it holds is overwritten;
only maps and arrays of objects with a counter have to be empty. -/
def Recv : Op → Val → Prop
  | .prim _, _ => True
  | .str, _ => True
  | .array n o, v => ∃ vs, v = .list vs ∧ vs.length = n ∧ ∀ x ∈ vs, Recv o x
  | .slice o, v => ∃ vs, v = .list vs ∧ ∀ x ∈ vs, Recv o x
  | .typed o, v => Recv o v
  | .map .., v => v = .map fun _ => none
  | .bitset _, v => ∃ vs, v = .list vs
  | .cat _ fs, v => ∃ vs, v = .struct vs ∧ RecvF fs vs
def RecvF : Flds → List Val → Prop
  | .nil, vs => vs = []
  | .plain o rest, vs => ∃ x xs, vs = x :: xs ∧ Recv o x ∧ RecvF rest xs
  | .varr _ _ rest, vs => ∃ ys xs, vs = .list ys :: xs ∧ RecvF rest xs
  | .loop _ _ rest, vs => ∃ xs, vs = .list [] :: xs ∧ RecvF rest xs
end

mutual
/-- The zero value of a type is a receiver. -/
theorem recv_zero : ∀ o : Op, Recv o o.zero
  | .prim _ => trivial
  | .str => trivial
  | .array n o => ⟨_, rfl, by simp, fun x hx => by rw [List.eq_of_mem_replicate hx]; exact recv_zero o⟩
  | .slice _ => ⟨[], rfl, by simp⟩
  | .typed o => recv_zero o
  | .map .. => rfl
  | .bitset _ => ⟨[], rfl⟩
  | .cat _ fs => ⟨_, rfl, recv_zeros fs⟩
theorem recv_zeros : ∀ fs : Flds, RecvF fs fs.zeros
  | .nil => rfl
  | .plain o rest => ⟨_, _, rfl, recv_zero o, recv_zeros rest⟩
  | .varr _ _ rest => ⟨_, _, rfl, recv_zeros rest⟩
  | .loop _ _ rest => ⟨_, rfl, recv_zeros rest⟩
end

/-! ## Lemmas -/

theorem _root_.Verif.RBytes.Appends.congr {f g : WBuf → Option WBuf} {bs : List UInt8} (h : Appends f bs)
    (e : ∀ w, g w = f w) : Appends g bs := by
  have : g = f := funext e
  rw [this]; exact h

theorem _root_.Verif.RBytes.Parses.congr {f g : RBuf → Option (α × RBuf)} {bs : List UInt8} {v : α} (h : Parses f bs v)
    (e : ∀ r, g r = f r) : Parses g bs v := by
  have : g = f := funext e
  rw [this]; exact h

theorem toNat_count {n : Nat} (h : n < 2 ^ 31) : (BitVec.ofNat 32 n).toInt = (n : Int) := by
  rw [BitVec.toInt_eq_toNat_of_lt] <;> simp only [BitVec.toNat_ofNat] <;> omega

theorem readCount_parses {n : Nat} (h : n < 2 ^ 31) : Parses readCount (beEnc 4 (n % 2 ^ 32)) (n : Int) := by
  have h1 : n % 2 ^ 32 = n := Nat.mod_eq_of_lt (by omega)
  rw [h1]
  have := (readBE_parses_enc (k := 4) (n := n) (by omega)).map (fun m => (BitVec.ofNat 32 m).toInt)
  rw [toNat_count h] at this
  exact this

theorem readEach_parses {f : Val → WBuf → Option WBuf} {g : Val → RBuf → Option (Val × RBuf)}
    {R : Val → Prop} {sz : Val → Nat} : ∀ vs : List Val,
    (∀ x ∈ vs, ∃ bs : List UInt8, bs.length = sz x ∧ Appends (f x) bs ∧ ∀ old, R old → Parses (g old) bs x) →
    ∃ bs : List UInt8, bs.length = (vs.map sz).sum ∧ Appends (writeEach f vs) bs ∧
      ∀ os : List Val, os.length = vs.length → (∀ y ∈ os, R y) → Parses (readEach g os) bs vs
  | [], _ => ⟨[], rfl, nil_appends, fun os ho _ => by
      have : os = [] := List.length_eq_zero_iff.mp ho
      subst this; exact Parses.pure _⟩
  | x :: xs, h => by
    obtain ⟨b1, l1, a1, p1⟩ := h x (by simp)
    obtain ⟨b2, l2, a2, p2⟩ := readEach_parses xs (fun y hy => h y (by simp [hy]))
    refine ⟨b1 ++ b2, by simp [l1, l2], seq_appends a1 a2, ?_⟩
    intro os ho hr
    cases os with
    | nil => simp at ho
    | cons y ys =>
      have q1 := p1 y (hr y (by simp))
      have q2 := p2 ys (by simpa using ho) (fun z hz => hr z (by simp [hz]))
      exact q1.bind (g := fun q r => (readEach g ys r).bind fun s => some (q :: s.1, s.2))
        (q2.map (fun s => x :: s))

theorem readKeys_parses (k : KOp) : ∀ ks : List Key, (∀ x ∈ ks, KeyOk k x) →
    ∃ bs : List UInt8, bs.length = (ks.map keySize).sum ∧ Appends (writeKeys k ks) bs ∧
      Parses (readKeys k ks.length) bs ks
  | [], _ => ⟨[], rfl, nil_appends, Parses.pure _⟩
  | x :: xs, h => by
    have h0 : ∃ bs : List UInt8, bs.length = keySize x ∧ Appends (writeKey k x) bs ∧ Parses (readKey k) bs x := by
      have hk := h x (by simp)
      cases k with
      | prim k =>
        cases x with
        | prim p =>
          simp only [KeyOk] at hk
          subst hk
          refine ⟨primEnc p, length_primEnc p, ?_, ?_⟩
          · exact (writePrim_appends p).congr (fun w => by simp [writeKey])
          · exact ((readPrim_parses p).map Key.prim).congr (fun r => by simp [readKey])
        | str s => exact absurd hk (by simp [KeyOk])
      | str =>
        cases x with
        | prim p => exact absurd hk (by simp [KeyOk])
        | str s =>
          refine ⟨strEnc s, ?_, ?_, ?_⟩
          · simp only [strEnc, keySize, strSize]; split <;> simp <;> omega
          · exact (writeString_appends s).congr (fun w => by simp [writeKey])
          · exact ((readString_parses s hk.1 hk.2).map Key.str).congr (fun r => by simp [readKey])
    obtain ⟨b1, l1, a1, p1⟩ := h0
    obtain ⟨b2, l2, a2, p2⟩ := readKeys_parses k xs (fun y hy => h y (by simp [hy]))
    refine ⟨b1 ++ b2, by simp [l1, l2], seq_appends a1 a2, ?_⟩
    exact p1.bind (g := fun q r => (readKeys k xs.length r).bind fun s => some (q :: s.1, s.2))
        (p2.map (fun s => x :: s))

/-- Reading a header, any version, without limit. -/
theorem readHeader_any (vers : BitVec 16) (n : Nat) (hn : n + 2 < 2 ^ 30)
    (pre post hid : List UInt8) (off : Nat) :
    ∃ vs mw, (RBuf.mk (pre ++ (hdrEnc vers n ++ post)) hid pre.length off false).readHeader (-1)
      = some (⟨vs, pre.length + off, BitVec.ofNat 32 (n + 2), mw⟩,
          RBuf.mk (pre ++ (hdrEnc vers n ++ post)) hid (pre.length + 6) off false) := by
  have hbm : BitVec.ofNat 32 (2 ^ 30 + (n + 2)) = BitVec.ofNat 32 (n + 2) ||| kByteCountMask := by
    apply BitVec.eq_of_toNat_eq
    simp only [kByteCountMask, BitVec.toNat_ofNat, BitVec.toNat_or]
    rw [Nat.mod_eq_of_lt (by omega), Nat.mod_eq_of_lt (by omega : n + 2 < 2 ^ 32), Nat.or_comm]
    have : BitVec.toNat (1073741824 : BitVec 32) = 2 ^ 30 * 1 := by decide
    rw [this, ← Nat.two_pow_add_eq_or_of_lt hn]
  have hz : BitVec.ofNat 32 (n + 2) &&& kByteCountMask = 0 := by
    apply BitVec.eq_of_toNat_eq
    simp only [kByteCountMask, BitVec.toNat_ofNat, BitVec.toNat_and]
    rw [Nat.mod_eq_of_lt (by omega : n + 2 < 2 ^ 32)]
    have : BitVec.toNat (1073741824 : BitVec 32) = 2 ^ 30 := by decide
    rw [this]
    apply Nat.eq_of_testBit_eq
    intro i
    rw [Nat.testBit_and, Nat.testBit_two_pow]
    by_cases h : 30 = i
    · subst h; simp [Nat.testBit_lt_two_pow hn]
    · simp [h]
  have h1 := (readBE_parses_enc (k := 4) (n := 2 ^ 30 + (n + 2)) (by omega)) pre
    (beEnc 2 vers.toNat ++ post) hid off
  have h2 := (readBE_parses_enc (k := 2) (n := vers.toNat) (by have := vers.isLt; omega))
    (pre ++ beEnc 4 (2 ^ 30 + (n + 2))) post hid off
  simp only [List.append_assoc, List.length_append, length_beEnc] at h1 h2
  unfold RBuf.readHeader
  simp only [Bool.false_eq_true, if_false, Option.bind_eq_bind, hdrEnc, List.append_assoc, h1,
    Option.bind_some]
  have hne : BitVec.ofNat 32 (2 ^ 30 + (n + 2)) &&& kByteCountMask ≠ 0 := by
    rw [hbm]
    have : (BitVec.ofNat 32 (n + 2) ||| kByteCountMask) &&& kByteCountMask = kByteCountMask := by
      ext i hi; simp; intro h; exact Or.inr h
    rw [this]; decide
  have hlen : BitVec.ofNat 32 (2 ^ 30 + (n + 2)) &&& ~~~ kByteCountMask = BitVec.ofNat 32 (n + 2) := by
    rw [hbm]
    ext i hi
    have := congrArg (fun b : BitVec 32 => b[i]) hz
    simp at this ⊢
    grind
  simp only [hne, ne_eq, not_false_eq_true, if_true, h2, Option.bind_some, hlen, BitVec.ofNat_toNat,
    BitVec.setWidth_eq]
  rw [if_neg (by omega)]
  exact ⟨_, _, rfl⟩

/-- An object with a header, read with a maximal version. -/
theorem inHeaderR_parses {vmax : Int} {vers : BitVec 16} {body : Header → RBuf → Option (α × RBuf)}
    {bs : List UInt8} {v : α} (hl : bs.length + 2 < 2 ^ 30) (hv : vers &&& streamedMemberWise = 0)
    (hm : vmax < 0 ∨ vers.toInt ≤ vmax)
    (hb : ∀ pos, Parses (body ⟨vers, pos, BitVec.ofNat 32 (bs.length + 2), false⟩) bs v) :
    Parses (inHeaderR vmax body) (hdrEnc vers bs.length ++ bs) v := by
  intro pre post hid off
  have h1 := readHeader_parses vmax vers bs.length hl hv hm pre (bs ++ post) hid off
  have h2 := hb (pre.length + off) (pre ++ hdrEnc vers bs.length) post hid off
  have hl6 : (hdrEnc vers bs.length).length = 6 := by simp [hdrEnc]
  simp only [List.append_assoc, List.length_append, hl6] at h1 h2 ⊢
  simp only [inHeaderR, h1, Option.bind_some, h2, checked]
  rw [checkHeader_eq hl _ _ _ rfl (by simp [RBuf.pos]; omega)]
  simp; omega

/-- The same without maximal version, for any version. -/
theorem inHeaderR_parses_any {vers : BitVec 16} {body : RBuf → Option (α × RBuf)}
    {bs : List UInt8} {v : α} (hl : bs.length + 2 < 2 ^ 30) (hb : Parses body bs v) :
    Parses (inHeaderR (-1) (fun _ => body)) (hdrEnc vers bs.length ++ bs) v := by
  intro pre post hid off
  obtain ⟨vs, mw, h1⟩ := readHeader_any vers bs.length hl pre (bs ++ post) hid off
  have h2 := hb (pre ++ hdrEnc vers bs.length) post hid off
  have hl6 : (hdrEnc vers bs.length).length = 6 := by simp [hdrEnc]
  simp only [List.append_assoc, List.length_append, hl6] at h1 h2 ⊢
  simp only [inHeaderR, h1, Option.bind_some, h2, checked]
  rw [checkHeader_eq hl _ _ _ rfl (by simp [RBuf.pos]; omega)]
  simp; omega

theorem maybeHeader_codec (h : Bool) (vers : BitVec 16) {f : WBuf → Option WBuf}
    {g : RBuf → Option (α × RBuf)} {bs : List UInt8} {v : α} (hl : bs.length + 2 < 2 ^ 30)
    (ha : Appends f bs) (hp : Parses g bs v) :
    ∃ cs : List UInt8, cs.length = (if h then 6 else 0) + bs.length ∧
      Appends (maybeHeader h vers f) cs ∧ Parses (maybeHeaderR h g) cs v := by
  cases h with
  | false => exact ⟨bs, by simp, ha.congr (fun w => by simp [maybeHeader]),
      hp.congr (fun r => by simp [maybeHeaderR])⟩
  | true =>
    refine ⟨hdrEnc vers bs.length ++ bs, by simp [hdrEnc]; omega, ?_, ?_⟩
    · exact (object_appends vers ha hl).congr (fun w => by simp [maybeHeader, inHeader])
    · exact (inHeaderR_parses_any hl hp).congr (fun r => by simp [maybeHeaderR])

theorem prims?_map (k : Kind) : ∀ ps : List Prim, (∀ p ∈ ps, p.kind = k) →
    prims? k (ps.map Val.prim) = some ps
  | [], _ => rfl
  | p :: ps, h => by
    have h1 := h p (by simp)
    simp [prims?, Val.prim?, h1, prims?_map k ps (fun q hq => h q (by simp [hq]))]

theorem primOf_bits (p : Prim) : primOf p.kind (primBits p) = p := by
  cases p with
  | bool v => cases v <;> rfl
  | _ => simp [primOf, primBits, Prim.kind]

theorem primBits_lt (p : Prim) : primBits p < 256 ^ p.kind.width := by
  cases p with
  | bool v => cases v <;> decide
  | _ v => simp only [primBits, Prim.kind, Kind.width]; have := v.isLt; omega

theorem width_pos (k : Kind) : 0 < k.width := by cases k <;> decide

theorem writeVarr_codec (k : Kind) (ps : List Prim) (h : ∀ p ∈ ps, p.kind = k) :
    ∃ bs : List UInt8, bs.length = 1 + k.width * ps.length ∧
      Appends (writeVarr k ps.length (ps.map Val.prim)) bs ∧
      Parses (fun r => r.readU8.bind fun b => readVarr k ps.length b.2) bs (ps.map Val.prim) := by
  refine ⟨beEnc 1 1 ++ ((ps.map primBits).map (beEnc k.width)).flatten, ?_, ?_, ?_⟩
  · rw [List.length_append, length_flatten_enc]; simp
  · refine (seq_appends (writeBE_appends 1 1) (writeArray_appends k.width (ps.map primBits))).congr ?_
    intro w
    simp only [writeVarr, List.length_map]
    rw [if_neg (by omega)]
    rw [Int.toNat_natCast, List.take_of_length_le (by simp), prims?_map k ps h]
    rfl
  · have h1 := (readU8_parses_enc (n := 1) (by omega)).bind
      (g := fun _ r => readVarr k ps.length r) (b := ((ps.map primBits).map (beEnc k.width)).flatten)
      (y := ps.map Val.prim) (by
        have h2 := (readArray_parses (k := k.width) (width_pos k) (ps.map primBits) (by
          intro n hn
          obtain ⟨p, hp, rfl⟩ := List.mem_map.mp hn
          rw [← h p hp]; exact primBits_lt p)).map (fun bs => bs.map fun b => Val.prim (primOf k b))
        have h3 : (ps.map primBits).map (fun b => Val.prim (primOf k b)) = ps.map Val.prim := by
          rw [List.map_map]
          apply List.map_congr_left
          intro p hp
          simp only [Function.comp]
          rw [← h p hp, primOf_bits]
        rw [h3] at h2
        refine h2.congr ?_
        intro r
        simp only [readVarr, List.length_map]
        rw [if_neg (by omega), Int.toNat_natCast])
    exact h1

theorem receivers_mem {z : Val} {n : Nat} {old : List Val} {P : Val → Prop} (hz : P z)
    (ho : ∀ x ∈ old, P x) : ∀ x ∈ receivers z n old, P x := by
  intro x hx
  have := List.mem_of_mem_take hx
  rcases List.mem_append.mp this with h | h
  · exact ho x h
  · rw [List.eq_of_mem_replicate h]; exact hz

theorem receivers_length (z : Val) (n : Nat) (old : List Val) : (receivers z n old).length = n := by
  simp [receivers]; omega

theorem setAll_lookup : ∀ (kvs : List (Key × Val)) (f : Key → Option Val) (x : Key), (kvs.map (·.1)).Nodup →
    setAll f kvs x = (kvs.find? (fun e => e.1 = x)).elim (f x) (fun e => some e.2)
  | [], f, x, _ => rfl
  | (k, v) :: kvs, f, x, h => by
    simp only [List.map_cons, List.nodup_cons] at h
    rw [setAll, setAll_lookup kvs _ x h.2]
    by_cases hx : x = k
    · subst hx
      have : kvs.find? (fun e => e.1 = x) = none := by
        rw [List.find?_eq_none]
        intro e he
        simp only [decide_eq_true_eq]
        intro hc
        exact h.1 (List.mem_map.mpr ⟨e, he, hc⟩)
      simp [this]
    · have hne : ¬ k = x := fun e => hx e.symm
      simp [hx, hne]

theorem setAll_lists {range : (Key → Option Val) → List (Key × Val)} {f : Key → Option Val}
    (h : Lists range f) : setAll (fun _ => none) (range f) = f := by
  funext x
  rw [setAll_lookup _ _ _ h.1]
  cases hf : (range f).find? (fun e => e.1 = x) with
  | none =>
    rw [List.find?_eq_none] at hf
    cases hx : f x with
    | none => rfl
    | some v =>
      have := hf (x, v) ((h.2 x v).mpr hx)
      simp at this
  | some e =>
    have h1 := List.find?_some hf
    have h2 := List.mem_of_find?_eq_some hf
    simp only [decide_eq_true_eq] at h1
    subst h1
    exact ((h.2 e.1 e.2).mp h2).symm

theorem zip_fst_snd (l : List (Key × Val)) : (l.map (·.1)).zip (l.map (·.2)) = l := by
  induction l with
  | nil => rfl
  | cons e l ih => simp [ih]

theorem counter_append {done xs : List Val} {path : List Nat} {n : Int} (h : counter done path = some n) :
    counter (done ++ xs) path = some n := by
  cases path with
  | nil => simp [counter] at h
  | cons i path =>
    cases path with
    | nil =>
      simp only [counter] at h ⊢
      cases hi : done[i]? with
      | none => simp [hi] at h
      | some v =>
        rw [List.getElem?_append_left (List.getElem?_eq_some_iff.mp hi).1]
        exact h
    | cons j path =>
      simp only [counter] at h ⊢
      cases hi : done[i]? with
      | none => simp [hi] at h
      | some v =>
        rw [List.getElem?_append_left (List.getElem?_eq_some_iff.mp hi).1]
        exact h

theorem set_append (done os : List Val) (x v : Val) :
    (done ++ x :: os).set done.length v = (done ++ [v]) ++ os := by
  simp

variable (range : (Key → Option Val) → List (Key × Val))

/-- Codec of a value. -/
def Codec (o : Op) (v : Val) : Prop :=
  ∃ bs : List UInt8, bs.length = size range o v ∧ Appends (wrun range o v) bs ∧
    ∀ old, Recv o old → Parses (rrun o old) bs v

theorem map_codec (kh : Bool) (kvers : BitVec 16) (k : KOp) (vh : Bool) (vvers : BitVec 16) (o : Op) (v : Val)
    (h : Has range (.map kh kvers k vh vvers o) v) (ih : ∀ x, Has range o x → Codec range o x) :
    Codec range (.map kh kvers k vh vvers o) v := by
  obtain ⟨f, rfl, hls, hlen, hes, hsz⟩ := h
  generalize hes' : range f = es at *
  have hsz' : size range (.map kh kvers k vh vvers o) (.map f) =
      10 + if es.isEmpty then 0 else
      ((if kh then 6 else 0) + (es.map fun e => keySize e.1).sum) +
      ((if vh then 6 else 0) + (es.map fun e => size range o e.2).sum) := by
    simp [size, Val.map?, hes']
  rw [hsz'] at hsz
  -- the body after the header
  have hbody : ∃ bs : List UInt8, 6 + bs.length = size range (.map kh kvers k vh vvers o) (.map f) ∧
      Appends (fun w => (w.writeBE 4 (es.length % 2 ^ 32)).bind fun w =>
        if es.isEmpty then some w
        else (maybeHeader kh kvers (writeKeys k (es.map (·.1))) w).bind
          (maybeHeader vh vvers (writeEach (wrun range o) (es.map (·.2))))) bs ∧
      Parses (fun r => (readCount r).bind fun c =>
        readEntries (maybeHeaderR kh (readKeys k c.1.toNat))
          (maybeHeaderR vh (readEach (rrun o) (List.replicate c.1.toNat o.zero))) c.1 c.2) bs es := by
    rw [hsz']
    cases hempty : es.isEmpty with
    | true =>
      have : es = [] := List.isEmpty_iff.mp hempty
      subst this
      refine ⟨beEnc 4 0, by simp, ?_, ?_⟩
      · exact (writeBE_appends 4 0).congr (fun w => by simp)
      · have := (readCount_parses (n := 0) (by omega)).bind
          (g := fun c r => readEntries (maybeHeaderR kh (readKeys k c.toNat))
            (maybeHeaderR vh (readEach (rrun o) (List.replicate c.toNat o.zero))) c r) (b := [])
          (y := ([] : List (Key × Val))) ((Parses.pure []).congr (fun r => by simp [readEntries]))
        exact this
    | false =>
      simp only [hempty, Bool.false_eq_true, if_false] at hsz ⊢
      have hne : es ≠ [] := by intro e; subst e; simp at hempty
      have hpos : 0 < es.length := List.length_pos_iff.mpr hne
      obtain ⟨kb, kl, ka, kp⟩ := readKeys_parses k (es.map (·.1)) (by
        intro x hx
        obtain ⟨e, he, rfl⟩ := List.mem_map.mp hx
        exact (hes e he).1)
      obtain ⟨vb, vl, va, vp⟩ := readEach_parses (f := wrun range o) (g := rrun o) (R := Recv o)
        (sz := size range o) (es.map (·.2)) (by
        intro x hx
        obtain ⟨e, he, rfl⟩ := List.mem_map.mp hx
        exact ih _ (hes e he).2)
      rw [List.map_map] at kl vl
      have kl' : kb.length = (es.map fun e => keySize e.1).sum := kl
      have vl' : vb.length = (es.map fun e => size range o e.2).sum := vl
      have hk : kb.length + 2 < 2 ^ 30 := by rw [kl']; omega
      have hv : vb.length + 2 < 2 ^ 30 := by rw [vl']; omega
      obtain ⟨kb', kl2, ka2, kp2⟩ := maybeHeader_codec kh kvers hk ka kp
      obtain ⟨vb', vl2, va2, vp2⟩ := maybeHeader_codec vh vvers hv va
        (vp (List.replicate es.length o.zero) (by simp)
          (fun y hy => by rw [List.eq_of_mem_replicate hy]; exact recv_zero o))
      refine ⟨beEnc 4 (es.length % 2 ^ 32) ++ (kb' ++ vb'), by simp [kl2, vl2, kl', vl']; omega, ?_, ?_⟩
      · exact (seq_appends (writeBE_appends 4 (es.length % 2 ^ 32)) (seq_appends ka2 va2)).congr (fun w => rfl)
      · have hent : Parses (readEntries (maybeHeaderR kh (readKeys k es.length))
            (maybeHeaderR vh (readEach (rrun o) (List.replicate es.length o.zero))) (es.length : Int))
            (kb' ++ vb') es := by
          have h1 : (es.map (·.1)).length = es.length := by simp
          rw [h1] at kp2
          have := kp2.bind (g := fun ks r => (maybeHeaderR vh (readEach (rrun o)
              (List.replicate es.length o.zero)) r).bind fun vs => some (ks.zip vs.1, vs.2))
            (vp2.map (fun vs => (es.map (·.1)).zip vs))
          rw [zip_fst_snd] at this
          refine this.congr (fun r => ?_)
          simp only [readEntries]
          rw [if_neg (by omega), if_neg (by omega)]
        have := (readCount_parses hlen).bind
          (g := fun c r => readEntries (maybeHeaderR kh (readKeys k c.toNat))
            (maybeHeaderR vh (readEach (rrun o) (List.replicate c.toNat o.zero))) c r)
          (b := kb' ++ vb') (y := es) (by simpa using hent)
        exact this
  obtain ⟨bs, bl, ba, bp⟩ := hbody
  have hl : bs.length + 2 < 2 ^ 30 := by rw [hsz'] at bl; omega
  refine ⟨hdrEnc stlVers bs.length ++ bs, by rw [← bl]; simp [hdrEnc]; omega, ?_, ?_⟩
  · refine (object_appends stlVers ba hl).congr (fun w => ?_)
    simp only [wrun, Val.map?, Option.bind_some, inHeader, hes']
  · intro old hold
    simp only [Recv] at hold
    subst hold
    have h1 : Parses (inHeaderR stlVers.toInt (fun h r => (skipMemberWise h.memberWise r).bind fun r =>
        (readCount r).bind fun c =>
          readEntries (maybeHeaderR kh (readKeys k c.1.toNat))
            (maybeHeaderR vh (readEach (rrun o) (List.replicate c.1.toNat o.zero))) c.1 c.2))
        (hdrEnc stlVers bs.length ++ bs) es := by
      refine inHeaderR_parses hl (by decide) (.inr (Int.le_refl _)) ?_
      intro pos
      exact bp.congr (fun r => by simp [skipMemberWise])
    have h2 := h1.map (fun q => Val.map (setAll (fun _ => none) q))
    rw [← hes', setAll_lists hls] at h2
    refine h2.congr (fun r => ?_)
    simp only [rrun, Val.map?, Option.bind_some]

/-- Codec of the fields of a struct. -/
def CodecF (fs : Flds) (done vs : List Val) : Prop :=
  ∃ bs : List UInt8, bs.length = sizeF range fs vs ∧
    Appends (wflds range fs done.length (done ++ vs)) bs ∧
    ∀ os, RecvF fs os → Parses (rflds fs done.length (done ++ os)) bs (done ++ vs)

mutual
theorem op_codec : ∀ (o : Op) (v : Val), Has range o v → Codec range o v
  | .prim k, v, h => by
    obtain ⟨p, rfl, rfl⟩ := h
    refine ⟨primEnc p, by simp [size, length_primEnc], ?_, fun old _ => ?_⟩
    · exact (writePrim_appends p).congr (fun w => by simp [wrun, Val.prim?])
    · exact ((readPrim_parses p).map Val.prim).congr (fun r => by simp [rrun])
  | .str, v, h => by
    obtain ⟨s, rfl, hs⟩ := h
    refine ⟨strEnc s, ?_, ?_, fun old _ => ?_⟩
    · simp only [strEnc, size, Val.str?, Option.getD_some, strSize]; split <;> simp [*] <;> omega
    · exact (writeString_appends s).congr (fun w => by simp [wrun, Val.str?])
    · exact ((readString_parses s hs.1 hs.2).map Val.str).congr (fun r => by simp [rrun])
  | .array n o, v, h => by
    obtain ⟨vs, rfl, hn, hv⟩ := h
    obtain ⟨bs, bl, ba, bp⟩ := readEach_parses (f := wrun range o) (g := rrun o) (R := Recv o)
      (sz := size range o) vs (fun x hx => op_codec o x (hv x hx))
    refine ⟨bs, by simp [size, Val.list?, bl], ?_, ?_⟩
    · refine ba.congr (fun w => ?_)
      simp only [wrun, Val.list?, Option.bind_some]
      rw [if_neg (by omega), List.take_of_length_le (by omega)]
    · rintro old ⟨os, rfl, ho, hr⟩
      refine ((bp os (by omega) hr).map Val.list).congr (fun r => ?_)
      simp only [rrun, Val.list?, Option.bind_some]
      rw [if_neg (by omega), List.take_of_length_le (by omega), List.drop_of_length_le (by omega)]
      simp
  | .slice o, v, h => by
    obtain ⟨vs, rfl, hn, hv⟩ := h
    obtain ⟨bs, bl, ba, bp⟩ := readEach_parses (f := wrun range o) (g := rrun o) (R := Recv o)
      (sz := size range o) vs (fun x hx => op_codec o x (hv x hx))
    refine ⟨beEnc 4 (vs.length % 2 ^ 32) ++ bs, by simp [size, Val.list?, bl], ?_, ?_⟩
    · refine (seq_appends (writeBE_appends 4 (vs.length % 2 ^ 32)) ba).congr (fun w => ?_)
      simp only [wrun, Val.list?, Option.bind_some]
    · rintro old ⟨os, rfl, hr⟩
      have h1 := (bp (receivers o.zero vs.length os) (receivers_length _ _ _)
        (receivers_mem (recv_zero o) hr)).map Val.list
      have h2 := (readCount_parses hn).bind
        (g := fun c r => if c < 0 then none
          else (readEach (rrun o) (receivers o.zero c.toNat os) r).bind fun q => some (.list q.1, q.2))
        (b := bs) (y := Val.list vs) (h1.congr (fun r => by
          rw [if_neg (by omega), Int.toNat_natCast]))
      refine h2.congr (fun r => ?_)
      simp only [rrun, Val.list?, Option.bind_some]
  | .typed o, v, h => by
    obtain ⟨bs, bl, ba, bp⟩ := op_codec o v h.1
    have hl : bs.length + 2 < 2 ^ 30 := by rw [bl]; exact h.2
    refine ⟨hdrEnc stlVers bs.length ++ bs, by simp [hdrEnc, size, bl]; omega, ?_, ?_⟩
    · exact (object_appends stlVers ba hl).congr (fun w => by simp only [wrun, inHeader])
    · intro old hold
      exact (inHeaderR_parses (body := fun _ => rrun o old) hl (by decide) (.inr (Int.le_refl _))
        (fun _ => bp old hold)).congr
        (fun r => by simp only [rrun])
  | .map kh kvers k vh vvers o, v, h =>
    map_codec range kh kvers k vh vvers o v h (fun x hx => op_codec o x hx)
  | .bitset n, v, h => by
    obtain ⟨ps, rfl, hn, hlt, hk⟩ := h
    subst hn
    have hkr : ∀ p ∈ ps.reverse, p.kind = Kind.u8 := fun p hp => hk p (by simpa using hp)
    have hks : (ps.reverse.map Prim.kind) = List.replicate ps.length Kind.u8 := by
      rw [List.eq_replicate_iff]
      refine ⟨by simp, ?_⟩
      intro b hb
      obtain ⟨p, hp, rfl⟩ := List.mem_map.mp hb
      exact hkr p hp
    have ha := writePrims_appends ps.reverse
    have hp := readPrims_parses ps.reverse
    rw [hks] at hp
    refine ⟨beEnc 4 (ps.length % 2 ^ 32) ++ (ps.reverse.map primEnc).flatten, ?_, ?_, ?_⟩
    · have : ((ps.reverse.map primEnc).flatten).length = ps.length := by
        have : ∀ qs : List Prim, (∀ p ∈ qs, p.kind = Kind.u8) → ((qs.map primEnc).flatten).length = qs.length := by
          intro qs
          induction qs with
          | nil => simp
          | cons q qs ih =>
            intro hq
            have h1 := hq q (by simp)
            simp only [List.map_cons, List.flatten_cons, List.length_append, length_primEnc, h1,
              ih (fun p hp => hq p (by simp [hp])), List.length_cons, Kind.width]
            omega
        rw [this _ hkr]; simp
      rw [List.length_append, this]; simp [size]
    · refine (seq_appends (writeBE_appends 4 (ps.length % 2 ^ 32)) ha).congr (fun w => ?_)
      simp only [wrun, Val.list?, Option.bind_some, List.length_map]
      rw [if_neg (by omega), List.take_of_length_le (by simp), prims?_map .u8 ps hk]
      rfl
    · rintro old ⟨os, rfl⟩
      have h1 := hp.map (fun q => Val.list (q.reverse.map Val.prim))
      rw [List.reverse_reverse] at h1
      have h2 := (readCount_parses hlt).bind
        (g := fun c r => if c < 0 then none
          else (r.readPrims (List.replicate c.toNat .u8)).bind fun q =>
            some (Val.list (q.1.reverse.map Val.prim), q.2))
        (b := (ps.reverse.map primEnc).flatten) (y := Val.list (ps.map Val.prim)) (h1.congr (fun r => by
          rw [if_neg (by omega), Int.toNat_natCast]))
      refine h2.congr (fun r => ?_)
      simp only [rrun, Val.list?, Option.bind_some]
  | .cat vers fs, v, h => by
    obtain ⟨vs, rfl, hf, hv, hsz⟩ := h
    obtain ⟨bs, bl, ba, bp⟩ := flds_codec fs [] vs hf
    have hl : bs.length + 2 < 2 ^ 30 := by rw [bl]; exact hsz
    refine ⟨hdrEnc vers bs.length ++ bs, by simp [hdrEnc, size, Val.struct?, bl]; omega, ?_, ?_⟩
    · exact (object_appends vers ba hl).congr
        (fun w => by simp only [wrun, Val.struct?, Option.bind_some, inHeader]; rfl)
    · rintro old ⟨os, rfl, hr⟩
      have h1 := (inHeaderR_parses (vmax := vers.toInt) (vers := vers)
        (body := fun h r => if h.vers ≠ vers then none else rflds fs 0 os r) hl hv (.inr (Int.le_refl _))
        (fun pos => (bp os hr).congr (fun r => by simp))).map Val.struct
      refine h1.congr (fun r => ?_)
      simp only [rrun, Val.struct?, Option.bind_some]
theorem flds_codec : ∀ (fs : Flds) (done vs : List Val), HasF range fs done vs → CodecF range fs done vs
  | .nil, done, vs, h => by
    simp only [HasF] at h
    subst h
    refine ⟨[], rfl, ?_, ?_⟩
    · exact nil_appends.congr (fun w => by simp [wflds])
    · intro os ho
      simp only [RecvF] at ho
      subst ho
      exact (Parses.pure _).congr (fun r => by simp [rflds])
  | .plain o rest, done, vs, h => by
    obtain ⟨x, xs, rfl, hx, hxs⟩ := h
    obtain ⟨b1, l1, a1, p1⟩ := op_codec o x hx
    obtain ⟨b2, l2, a2, p2⟩ := flds_codec rest (done ++ [x]) xs hxs
    have e1 : done ++ [x] ++ xs = done ++ x :: xs := by simp
    have e2 : (done ++ [x]).length = done.length + 1 := by simp
    rw [e1, e2] at a2 p2
    refine ⟨b1 ++ b2, by simp [l1, l2, sizeF], ?_, ?_⟩
    · refine (seq_appends a1 a2).congr (fun w => ?_)
      simp [wflds]
    · rintro os ⟨y, ys, rfl, hy, hys⟩
      have q := (p1 y hy).bind (g := fun v r => rflds rest (done.length + 1) ((done ++ y :: ys).set done.length v) r)
        (b := b2) (y := done ++ x :: xs) (by rw [set_append]; exact p2 ys hys)
      refine q.congr (fun r => ?_)
      simp [rflds]
  | .varr k path rest, done, vs, h => by
    obtain ⟨ps, xs, rfl, hk, hc, hxs⟩ := h
    obtain ⟨b1, l1, a1, p1⟩ := writeVarr_codec k ps hk
    obtain ⟨b2, l2, a2, p2⟩ := flds_codec rest (done ++ [.list (ps.map Val.prim)]) xs hxs
    have e1 : done ++ [Val.list (ps.map Val.prim)] ++ xs = done ++ .list (ps.map Val.prim) :: xs := by simp
    have e2 : (done ++ [Val.list (ps.map Val.prim)]).length = done.length + 1 := by simp
    rw [e1, e2] at a2 p2
    refine ⟨b1 ++ b2, by simp [l1, l2, sizeF, Val.list?], ?_, ?_⟩
    · refine (seq_appends a1 a2).congr (fun w => ?_)
      simp [wflds, counter_append hc, Val.list?]
    · rintro os ⟨y, ys, rfl, hys⟩
      have q := p1.bind (g := fun v r => rflds rest (done.length + 1)
        ((done ++ .list y :: ys).set done.length (.list v)) r)
        (b := b2) (y := done ++ .list (ps.map Val.prim) :: xs) (by rw [set_append]; exact p2 ys hys)
      refine q.congr (fun r => ?_)
      simp only [rflds, counter_append hc, Option.bind_some]
      simp [Val.list?, Option.bind_assoc]
  | .loop path o rest, done, vs, h => by
    obtain ⟨zs, xs, rfl, hz, hc, hxs⟩ := h
    obtain ⟨b1, l1, a1, p1⟩ := readEach_parses (f := wrun range o) (g := rrun o) (R := Recv o)
      (sz := size range o) zs (fun x hx => op_codec o x (hz x hx))
    obtain ⟨b2, l2, a2, p2⟩ := flds_codec rest (done ++ [.list zs]) xs hxs
    have e1 : done ++ [Val.list zs] ++ xs = done ++ .list zs :: xs := by simp
    have e2 : (done ++ [Val.list zs]).length = done.length + 1 := by simp
    rw [e1, e2] at a2 p2
    refine ⟨(beEnc 1 1 ++ b1) ++ b2, by simp [l1, l2, sizeF, Val.list?]; omega, ?_, ?_⟩
    · refine (seq_appends (seq_appends (writeBE_appends 1 1) a1) a2).congr (fun w => ?_)
      simp only [wflds, counter_append hc, Option.bind_some]
      simp [Val.list?, writeLoop]
    · rintro os ⟨ys, rfl, hys⟩
      have h0 := (readU8_parses_enc (n := 1) (by omega)).bind
        (g := fun _ r => readLoop (rrun o) o.zero (zs.length : Int) [] r) (b := b1) (y := zs) (by
          have h1 := p1 (receivers o.zero zs.length []) (receivers_length _ _ _)
            (receivers_mem (recv_zero o) (by simp))
          refine (h1.map id).congr (fun r => ?_)
          simp [readLoop])
      have q := h0.bind (g := fun v r => rflds rest (done.length + 1)
        ((done ++ .list [] :: ys).set done.length (.list v)) r)
        (b := b2) (y := done ++ .list zs :: xs) (by rw [set_append]; exact p2 ys hys)
      refine q.congr (fun r => ?_)
      simp only [rflds, counter_append hc, Option.bind_some]
      simp [Val.list?, Option.bind_assoc]
end

/-! ## Claims -/

/-- What a struct of any supported type is encoded to is decoded to the same
value, in any receiver of that type whose maps and object arrays with a counter
are empty, in whatever order maps are walked. The encoding takes `size` bytes. -/
theorem C97_struct_roundtrip_partial (si : Info) (v old : Val)
    (hv : Has range (.cat si.vers si.fs) v) (ho : Recv (.cat si.vers si.fs) old) :
    RoundTrip (encode range si v) (decode si old) v ∧
    ∀ w : WBuf, w.Healthy → ∃ w', encode range si v w = some w' ∧
      w'.bytes.length = w.bytes.length + size range (.cat si.vers si.fs) v := by
  obtain ⟨bs, bl, ba, bp⟩ := op_codec range _ v hv
  refine ⟨roundTrip_of ba (bp old ho), ?_⟩
  intro w hw
  obtain ⟨w', e, -, hb, -⟩ := ba w hw.wf
  exact ⟨w', e, by rw [hb, List.length_append, bl]⟩

/-- The same into a fresh value. -/
theorem C97_fresh_receiver_partial (si : Info) (v : Val) (hv : Has range (.cat si.vers si.fs) v) :
    RoundTrip (encode range si v) (decode si (Op.cat si.vers si.fs).zero) v :=
  (C97_struct_roundtrip_partial range si v _ hv (recv_zero _)).1

/-- `struct { N int32; A []float64 (counted by N); S string; V []string; M map[string]int32;
P [2]struct{ X uint16 } }`. -/
def exInfo : Info := ⟨1, .plain (.prim .i32) <| .varr .f64 [0] <| .plain .str <| .plain (.typed (.slice .str)) <|
  .plain (.map true 0xFFFF .str false 0 (.prim .i32)) <|
  .plain (.array 2 (.cat 3 (.plain (.prim .u16) .nil))) .nil⟩

def exMap : Key → Option Val := fun k =>
  if k = .str [97] then some (.prim (.i32 7)) else if k = .str [98] then some (.prim (.i32 8)) else none

def exRange : (Key → Option Val) → List (Key × Val) := fun f =>
  ((f (.str [98])).map fun v => (Key.str [98], v)).toList ++ ((f (.str [97])).map fun v => (Key.str [97], v)).toList

def exVal : Val := .struct [.prim (.i32 2), .list [.prim (.f64 5), .prim (.f64 6)], .str [1, 2, 3],
  .list [.str [], .str [65]], .map exMap, .list [.struct [.prim (.u16 1)], .struct [.prim (.u16 2)]]]

theorem exMap_lists : Lists exRange exMap := by
  refine ⟨by decide +kernel, ?_⟩
  intro k v
  have h : exRange exMap = [(.str [98], .prim (.i32 8)), (.str [97], .prim (.i32 7))] := rfl
  rw [h]
  simp only [List.mem_cons, Prod.mk.injEq, List.not_mem_nil, or_false, exMap]
  constructor
  · rintro (⟨rfl, rfl⟩ | ⟨rfl, rfl⟩)
    · rfl
    · rfl
  · split
    · rename_i e; subst e
      intro h; right; exact ⟨rfl, (Option.some.inj h).symm⟩
    · split
      · rename_i e; subst e
        intro h; left; exact ⟨rfl, (Option.some.inj h).symm⟩
      · intro h; exact absurd h (by simp)

theorem exVal_has : Has exRange (.cat exInfo.vers exInfo.fs) exVal := by
  refine ⟨_, rfl, ⟨_, _, rfl, ⟨_, rfl, rfl⟩, ?_⟩, by decide, by decide +kernel⟩
  refine ⟨[.f64 5, .f64 6], _, rfl, by simp [Prim.kind], by decide +kernel, ?_⟩
  refine ⟨_, _, rfl, ⟨_, rfl, by simp [StrOk]⟩, ?_⟩
  refine ⟨_, _, rfl, ⟨⟨_, rfl, by simp, ?_⟩, by decide +kernel⟩, ?_⟩
  · intro x hx
    simp only [List.mem_cons, List.not_mem_nil, or_false] at hx
    rcases hx with rfl | rfl
    · exact ⟨_, rfl, by simp [StrOk]⟩
    · exact ⟨_, rfl, by simp [StrOk]⟩
  refine ⟨_, _, rfl, ⟨_, rfl, exMap_lists, by decide +kernel, ?_, by decide +kernel⟩, ?_⟩
  · intro e he
    have h : exRange exMap = [(.str [98], .prim (.i32 8)), (.str [97], .prim (.i32 7))] := rfl
    rw [h] at he
    simp only [List.mem_cons, List.not_mem_nil, or_false] at he
    rcases he with rfl | rfl
    · exact ⟨by simp [KeyOk, StrOk], _, rfl, rfl⟩
    · exact ⟨by simp [KeyOk, StrOk], _, rfl, rfl⟩
  refine ⟨_, _, rfl, ⟨_, rfl, rfl, ?_⟩, rfl⟩
  intro x hx
  simp only [List.mem_cons, List.not_mem_nil, or_false] at hx
  rcases hx with rfl | rfl
  · exact ⟨_, rfl, ⟨_, _, rfl, ⟨_, rfl, rfl⟩, rfl⟩, by decide, by decide⟩
  · exact ⟨_, rfl, ⟨_, _, rfl, ⟨_, rfl, rfl⟩, rfl⟩, by decide, by decide⟩

/-- A receiver already holding something else. -/
def exOld : Val := .struct [.prim (.i32 9), .list [.prim (.f64 1)], .str [9],
  .list [.str [7], .str [7], .str [7]], .map (fun _ => none), .list [.struct [.prim (.u16 9)], .struct [.prim (.u16 9)]]]

example : RoundTrip (encode exRange exInfo exVal) (decode exInfo exOld) exVal := by
  refine (C97_struct_roundtrip_partial exRange exInfo exVal exOld exVal_has ?_).1
  refine ⟨_, rfl, _, _, rfl, trivial, _, _, rfl, _, _, rfl, trivial, _, _, rfl, ⟨_, rfl, fun _ _ => trivial⟩,
    _, _, rfl, rfl, _, _, rfl, ⟨_, rfl, rfl, ?_⟩, rfl⟩
  intro x hx
  simp only [List.mem_cons, List.not_mem_nil, or_false] at hx
  rcases hx with rfl | rfl
  · exact ⟨_, rfl, _, _, rfl, trivial, rfl⟩
  · exact ⟨_, rfl, _, _, rfl, trivial, rfl⟩

/-- An empty writer. -/
def w0 : WBuf := newWBuffer [] 0 (fun _ => 0)

theorem w0_healthy : w0.Healthy := newWBuffer_healthy _ _ _

theorem not_roundTrip [DecidableEq β] {wr : WBuf → Option WBuf} {rd : RBuf → Option (α × RBuf)} {v : α} (look : α → β)
    (bs : List UInt8) (h1 : (wr w0).map WBuf.bytes = some bs)
    (h2 : (rd (readerAt bs [] 0 0)).map (fun q => look q.1) ≠ some (look v)) : ¬ RoundTrip wr rd v := by
  intro h
  obtain ⟨w', e, -, -, hr⟩ := h w0 w0_healthy
  rw [e] at h1
  have hb : w'.bytes = bs := Option.some.inj h1
  have := hr [] [] 0
  rw [hb, List.append_nil] at this
  have hw : w0.bytes.length = 0 := by decide
  rw [hw] at this
  rw [this] at h2
  exact h2 rfl

def oneRange : (Key → Option Val) → List (Key × Val) := fun f =>
  ((f (.prim (.i32 1))).map fun v => (Key.prim (.i32 1), v)).toList

def oneMap : Key → Option Val := fun k => if k = .prim (.i32 1) then some (.prim (.i32 2)) else none

/-- The full claim does not hold for every receiver: entries of a map in the
receiver survive. -/
theorem C97_map_receiver_counterexample :
    ∃ (range : (Key → Option Val) → List (Key × Val)) (si : Info) (v old : Val),
      Has range (.cat si.vers si.fs) v ∧ Has range (.cat si.vers si.fs) old ∧
      ¬ RoundTrip (encode range si v) (decode si old) v := by
  refine ⟨oneRange, ⟨1, .plain (.map false 0 (.prim .i32) false 0 (.prim .i32)) .nil⟩,
    .struct [.map fun _ => none], .struct [.map oneMap], ?_, ?_, ?_⟩
  · refine ⟨_, rfl, ⟨_, _, rfl, ⟨_, rfl, ⟨by decide, ?_⟩, by decide, ?_, by decide⟩, rfl⟩, by decide, by decide⟩
    · intro k v; simp [oneRange]
    · intro e he; simp [oneRange] at he
  · have h : oneRange oneMap = [(.prim (.i32 1), .prim (.i32 2))] := rfl
    refine ⟨_, rfl, ⟨_, _, rfl, ⟨_, rfl, ⟨by decide +kernel, ?_⟩, by decide +kernel, ?_, by decide +kernel⟩, rfl⟩,
      by decide, by decide +kernel⟩
    · intro k v
      rw [h]
      simp only [List.mem_cons, Prod.mk.injEq, List.not_mem_nil, or_false, oneMap]
      constructor
      · rintro ⟨rfl, rfl⟩; rfl
      · split
        · rename_i e; subst e
          intro h; exact ⟨rfl, (Option.some.inj h).symm⟩
        · intro h; exact absurd h (by simp)
    · intro e he
      rw [h] at he
      simp only [List.mem_cons, List.not_mem_nil, or_false] at he
      subst he
      exact ⟨rfl, _, rfl, rfl⟩
  · exact not_roundTrip
      (fun v => ((v.struct?.bind fun vs => vs[0]?.bind Val.map?).bind fun f => (f (.prim (.i32 1))).bind (Val.prim? .i32)))
      [64, 0, 0, 12, 0, 1, 64, 0, 0, 6, 0, 9, 0, 0, 0, 0] (by decide +kernel) (by decide +kernel)

/-- Nor for an array of objects with a counter: elements of a longer array in the
receiver survive. -/
theorem C97_counted_receiver_counterexample :
    ∃ (range : (Key → Option Val) → List (Key × Val)) (si : Info) (v old : Val),
      Has range (.cat si.vers si.fs) v ∧ Has range (.cat si.vers si.fs) old ∧
      ¬ RoundTrip (encode range si v) (decode si old) v := by
  refine ⟨oneRange, ⟨1, .plain (.prim .i32) (.loop [0] .str .nil)⟩, .struct [.prim (.i32 0), .list []],
    .struct [.prim (.i32 1), .list [.str [97]]], ?_, ?_, ?_⟩
  · exact ⟨_, rfl, ⟨_, _, rfl, ⟨_, rfl, rfl⟩, _, _, rfl, by simp, by decide, rfl⟩, by decide,
      by simp [sizeF, size, Val.list?, Kind.width]⟩
  · refine ⟨_, rfl, ⟨_, _, rfl, ⟨_, rfl, rfl⟩, _, _, rfl, ?_, by decide, rfl⟩, by decide,
      by simp [sizeF, size, Val.list?, Kind.width, strSize, Val.str?]⟩
    intro x hx
    simp only [List.mem_cons, List.not_mem_nil, or_false] at hx
    subst hx
    exact ⟨_, rfl, by simp [StrOk]⟩
  · exact not_roundTrip
      (fun v => (v.struct?.bind fun vs => vs[1]?.bind Val.list?).map List.length)
      [64, 0, 0, 7, 0, 1, 0, 0, 0, 0, 1] (by decide +kernel) (by decide +kernel)

/-- Nor when the counter comes after the array: it is written, but not read back,
although counter and array agree. -/
theorem C97_late_counter_counterexample :
    ∃ (range : (Key → Option Val) → List (Key × Val)) (si : Info) (v : Val) (bs : List UInt8), counter (v.struct?.getD []) [1] = some 1 ∧
      ((v.struct?.getD [])[0]?.bind Val.list?).map List.length = some 1 ∧
      (encode range si v w0).map WBuf.bytes = some bs ∧
      (decode si (Op.cat si.vers si.fs).zero (readerAt bs [] 0 0)).isNone = true := by
  refine ⟨oneRange, ⟨1, .varr .f64 [1] (.plain (.prim .i32) .nil)⟩, .struct [.list [.prim (.f64 5)], .prim (.i32 1)],
    [64, 0, 0, 15, 0, 1, 1, 0, 0, 0, 0, 0, 0, 0, 5, 0, 0, 0, 1], by decide, by decide, by decide +kernel,
    by decide +kernel⟩

end Verif.Rdict
