import Verif.Common.Bytes

/-!
# Model of `xrootd/internal/xrdenc`

Fixed-width integers are bit vectors.  The writer is the list of bytes it has appended.
The reader has a buffer and a position; a Go panic (index or slice out of range) is
`.panic`, a returned error is `.err`.  Simplification: the capacity of the buffer is taken
to be its length, so that slicing past the length always panics (in Go it would show
whatever lies between the length and the capacity).
-/

namespace Verif.Xrootd

abbrev Bytes := List UInt8

/-- Outcome of an unmarshalling function. -/
inductive Out (α : Type)
  | ok (v : α)
  | err
  | panic
deriving DecidableEq, Repr

/-- xrootd/internal/xrdenc/xrdenc.go:64-67 (`RBuffer`). -/
structure RBuf where
  buf : Bytes
  pos : Nat
deriving DecidableEq, Repr

/-- A function which reads from an `RBuffer`. -/
def Rd (α : Type) : Type := RBuf → Out (α × RBuf)

def Rd.pure {α : Type} (v : α) : Rd α := fun r => .ok (v, r)

def Rd.bind {α β : Type} (m : Rd α) (f : α → Rd β) : Rd β := fun r =>
  match m r with
  | .ok (v, r') => f v r'
  | .err => .err
  | .panic => .panic

instance : Monad Rd where
  pure := Rd.pure
  bind := Rd.bind

/-- `return err`. -/
def fail {α : Type} : Rd α := fun _ => .err

/-- A run-time panic. -/
def crash {α : Type} : Rd α := fun _ => .panic

/-! ## Writing -/

/-- xrootd/internal/xrdenc/xrdenc.go:16-18 (`WBuffer.WriteU8`). -/
def wU8 (v : BitVec 8) : Bytes := [UInt8.ofNat v.toNat]
/-- xrootd/internal/xrdenc/xrdenc.go:20-24 (`WBuffer.WriteU16`). -/
def wU16 (v : BitVec 16) : Bytes := beEnc 2 v.toNat
/-- xrootd/internal/xrdenc/xrdenc.go:26-30 (`WBuffer.WriteI32`). -/
def wI32 (v : BitVec 32) : Bytes := beEnc 4 v.toNat
/-- xrootd/internal/xrdenc/xrdenc.go:32-36 (`WBuffer.WriteI64`). -/
def wI64 (v : BitVec 64) : Bytes := beEnc 8 v.toNat
/-- xrootd/internal/xrdenc/xrdenc.go:38-44 (`WBuffer.WriteBool`). -/
def wBool (v : Bool) : Bytes := if v then [1] else [0]
/-- xrootd/internal/xrdenc/xrdenc.go:46-48 (`WBuffer.WriteLen`). -/
def wLen (n : Nat) : Bytes := wI32 (BitVec.ofNat 32 n)
/-- xrootd/internal/xrdenc/xrdenc.go:54-57 (`WBuffer.WriteStr`). -/
def wStr (s : Bytes) : Bytes := wLen s.length ++ s
/-- xrootd/internal/xrdenc/xrdenc.go:59-61 (`WBuffer.Next`). -/
def wNext (n : Nat) : Bytes := List.replicate n 0

/-! ## Reading -/

/-- The slice expression `r.buf[beg:end]` with `end - beg = n`, and `pos` moved to `end`. -/
def rSlice (n : Nat) : Rd Bytes := fun r =>
  if r.pos + n ≤ r.buf.length then .ok ((r.buf.drop r.pos).take n, { r with pos := r.pos + n })
  else .panic

/-- xrootd/internal/xrdenc/xrdenc.go:73-77 (`RBuffer.ReadU8`). -/
def rU8 : Rd (BitVec 8) := do
  let b ← rSlice 1
  Rd.pure (BitVec.ofNat 8 (beDec b))
/-- xrootd/internal/xrdenc/xrdenc.go:83-89 (`RBuffer.ReadU16`). -/
def rU16 : Rd (BitVec 16) := do
  let b ← rSlice 2
  Rd.pure (BitVec.ofNat 16 (beDec b))
/-- xrootd/internal/xrdenc/xrdenc.go:91-97 (`RBuffer.ReadI32`). -/
def rI32 : Rd (BitVec 32) := do
  let b ← rSlice 4
  Rd.pure (BitVec.ofNat 32 (beDec b))
/-- xrootd/internal/xrdenc/xrdenc.go:99-105 (`RBuffer.ReadI64`). -/
def rI64 : Rd (BitVec 64) := do
  let b ← rSlice 8
  Rd.pure (BitVec.ofNat 64 (beDec b))
/-- xrootd/internal/xrdenc/xrdenc.go:107-110 (`RBuffer.ReadBool`): the position is advanced
before the byte is looked up. -/
def rBool : Rd Bool := fun r =>
  match r.buf[r.pos + 1]? with
  | some b => .ok (b != 0, { r with pos := r.pos + 1 })
  | none => .panic
/-- xrootd/internal/xrdenc/xrdenc.go:112-114 (`RBuffer.ReadLen`). -/
def rLen : Rd Int := do
  let n ← rI32
  Rd.pure n.toInt
/-- xrootd/internal/xrdenc/xrdenc.go:116-122 (`RBuffer.ReadBytes`), into a slice of `n` bytes. -/
def rBytes (n : Nat) : Rd Bytes := rSlice n
/-- `make([]byte, n)` followed by `ReadBytes`, xrootd/internal/xrdenc/xrdenc.go:116-122
(`RBuffer.ReadBytes`); a negative `n` panics. -/
def rMake (n : Int) : Rd Bytes := if n < 0 then crash else rSlice n.toNat
/-- xrootd/internal/xrdenc/xrdenc.go:124-130 (`RBuffer.ReadStr`); a negative length makes the
slice expression panic. -/
def rStr : Rd Bytes := do
  let n ← rLen
  rMake n
/-- xrootd/internal/xrdenc/xrdenc.go:132-134 (`RBuffer.Skip`): no check. -/
def rSkip (n : Nat) : Rd Unit := fun r => .ok ((), { r with pos := r.pos + n })
/-- xrootd/internal/xrdenc/xrdenc.go:79-81 (`RBuffer.Len`). -/
def rRemaining : Rd Int := fun r => .ok ((r.buf.length : Int) - r.pos, r)
/-- xrootd/internal/xrdenc/xrdenc.go:136-138 (`RBuffer.Bytes`): the position is unchanged. -/
def rRest : Rd Bytes := fun r => if r.pos ≤ r.buf.length then .ok (r.buf.drop r.pos, r) else .panic

/-- Unmarshal from a slice: xrootd/internal/xrdenc/xrdenc.go:69-71 (`NewRBuffer`). -/
def Rd.run {α : Type} (m : Rd α) (bs : Bytes) : Out α :=
  match m ⟨bs, 0⟩ with
  | .ok (v, _) => .ok v
  | .err => .err
  | .panic => .panic

/-! ## Reading what was written -/

/-- Wherever the bytes `bs` stand in a buffer, `m` positioned there returns `v` and moves past
them. -/
def Reads {α : Type} (m : Rd α) (bs : Bytes) (v : α) : Prop :=
  ∀ pre post : Bytes, m ⟨pre ++ (bs ++ post), pre.length⟩
    = .ok (v, ⟨pre ++ (bs ++ post), pre.length + bs.length⟩)

/-- If the bytes `bs` end the buffer, `m` positioned at their beginning returns `v`. -/
def ReadsLast {α : Type} (m : Rd α) (bs : Bytes) (v : α) : Prop :=
  ∀ pre : Bytes, ∃ r, m ⟨pre ++ bs, pre.length⟩ = .ok (v, r)

theorem Reads.pure {α : Type} (v : α) : Reads (Rd.pure v) [] v := by
  intro pre post; rfl

theorem Reads.bind {α β : Type} {m : Rd α} {f : α → Rd β} {b1 b2 : Bytes} {v : α} {w : β}
    (h1 : Reads m b1 v) (h2 : Reads (f v) b2 w) : Reads (m >>= f) (b1 ++ b2) w := by
  intro pre post
  show Rd.bind m f _ = _
  unfold Rd.bind
  have e : pre ++ (b1 ++ b2 ++ post) = pre ++ (b1 ++ (b2 ++ post)) := by simp
  rw [e, h1 pre (b2 ++ post)]
  have := h2 (pre ++ b1) post
  simp only [List.length_append, List.append_assoc] at this
  simpa [Nat.add_assoc] using this

theorem Reads.map {α β : Type} {m : Rd α} {b : Bytes} {v : α} (f : α → β)
    (h1 : Reads m b v) : Reads (m >>= fun x => Rd.pure (f x)) b (f v) := by
  have := Reads.bind (f := fun x => Rd.pure (f x)) h1 (Reads.pure (f v))
  rwa [List.append_nil] at this

theorem Reads.last {α : Type} {m : Rd α} {b : Bytes} {v : α} (h : Reads m b v) : ReadsLast m b v := by
  intro pre
  have := h pre []
  rw [List.append_nil] at this
  exact ⟨_, this⟩

theorem Reads.bindLast {α β : Type} {m : Rd α} {f : α → Rd β} {b1 b2 : Bytes} {v : α} {w : β}
    (h1 : Reads m b1 v) (h2 : ReadsLast (f v) b2 w) : ReadsLast (m >>= f) (b1 ++ b2) w := by
  intro pre
  obtain ⟨r, hr⟩ := h2 (pre ++ b1)
  refine ⟨r, ?_⟩
  show Rd.bind m f _ = _
  unfold Rd.bind
  rw [h1 pre b2]
  simpa using hr

theorem ReadsLast.run {α : Type} {m : Rd α} {b : Bytes} {v : α} (h : ReadsLast m b v) :
    m.run b = .ok v := by
  obtain ⟨r, hr⟩ := h []
  unfold Rd.run
  have : m ⟨b, 0⟩ = .ok (v, r) := by simpa using hr
  rw [this]

theorem Reads.run {α : Type} {m : Rd α} {b : Bytes} {v : α} (h : Reads m b v) : m.run b = .ok v :=
  h.last.run

theorem reads_slice (b : Bytes) : Reads (rSlice b.length) b b := by
  intro pre post
  unfold rSlice
  rw [if_pos (by simp)]
  simp

theorem reads_slice' {n : Nat} {b : Bytes} (h : b.length = n) : Reads (rSlice n) b b := by
  subst h; exact reads_slice b

theorem reads_u8 (v : BitVec 8) : Reads rU8 (wU8 v) v := by
  have := (reads_slice' (n := 1) (b := wU8 v) rfl).map (fun b => BitVec.ofNat 8 (beDec b))
  have e : BitVec.ofNat 8 (beDec (wU8 v)) = v := by
    have hv := v.isLt
    apply BitVec.eq_of_toNat_eq
    simp [wU8, beDec]
  rw [e] at this; exact this

theorem reads_u16 (v : BitVec 16) : Reads rU16 (wU16 v) v := by
  have := (reads_slice' (n := 2) (b := wU16 v) (length_beEnc ..)).map (fun b => BitVec.ofNat 16 (beDec b))
  have e : BitVec.ofNat 16 (beDec (wU16 v)) = v := by
    have hv := v.isLt
    unfold wU16
    rw [beDec_beEnc_of_lt (by simpa using hv)]
    simp
  rw [e] at this; exact this

theorem reads_i32 (v : BitVec 32) : Reads rI32 (wI32 v) v := by
  have := (reads_slice' (n := 4) (b := wI32 v) (length_beEnc ..)).map (fun b => BitVec.ofNat 32 (beDec b))
  have e : BitVec.ofNat 32 (beDec (wI32 v)) = v := by
    have hv := v.isLt
    unfold wI32
    rw [beDec_beEnc_of_lt (by simpa using hv)]
    simp
  rw [e] at this; exact this

theorem reads_i64 (v : BitVec 64) : Reads rI64 (wI64 v) v := by
  have := (reads_slice' (n := 8) (b := wI64 v) (length_beEnc ..)).map (fun b => BitVec.ofNat 64 (beDec b))
  have e : BitVec.ofNat 64 (beDec (wI64 v)) = v := by
    have hv := v.isLt
    unfold wI64
    rw [beDec_beEnc_of_lt (by simpa using hv)]
    simp
  rw [e] at this; exact this

theorem toInt_ofNat_small {n : Nat} (h : n < 2 ^ 31) : (BitVec.ofNat 32 n).toInt = n := by
  rw [BitVec.toInt_ofNat']
  have : n % 2 ^ 32 = n := by omega
  simp [Int.bmod_def]; omega

theorem reads_len {n : Nat} (h : n < 2 ^ 31) : Reads rLen (wLen n) (n : Int) := by
  have := (reads_i32 (BitVec.ofNat 32 n)).map (fun v => v.toInt)
  rw [toInt_ofNat_small h] at this; exact this

theorem reads_make (b : Bytes) : Reads (rMake (b.length : Int)) b b := by
  have : rMake (b.length : Int) = rSlice b.length := by
    unfold rMake
    rw [if_neg (by omega), Int.toNat_natCast]
  rw [this]; exact reads_slice b

theorem reads_str {s : Bytes} (h : s.length < 2 ^ 31) : Reads rStr (wStr s) s :=
  (reads_len h).bind (reads_make s)

theorem reads_skip (n : Nat) : Reads (rSkip n) (wNext n) () := by
  intro pre post
  simp [rSkip, wNext]

theorem reads_skip' {n : Nat} {b : Bytes} (h : b.length = n) : Reads (rSkip n) b () := by
  intro pre post
  simp [rSkip, h]

theorem readsLast_rest (b : Bytes) : ReadsLast rRest b b := by
  intro pre
  refine ⟨⟨pre ++ b, pre.length⟩, ?_⟩
  simp [rRest]

theorem readsLast_remaining {α : Type} {f : Int → Rd α} {b : Bytes} {v : α}
    (h : ReadsLast (f b.length) b v) : ReadsLast (rRemaining >>= f) b v := by
  intro pre
  obtain ⟨r, hr⟩ := h pre
  refine ⟨r, ?_⟩
  show Rd.bind rRemaining f _ = _
  unfold Rd.bind rRemaining
  simp only [List.length_append]
  have e : ((pre.length + b.length : Nat) : Int) - (pre.length : Nat) = b.length := by omega
  rw [e]; exact hr

theorem readsLast_pure {α : Type} (v : α) (b : Bytes) : ReadsLast (Rd.pure v) b v := fun _ => ⟨_, rfl⟩

theorem ReadsLast.bindPure {α β : Type} {m : Rd α} {b : Bytes} {v : α} (f : α → β)
    (h : ReadsLast m b v) : ReadsLast (m >>= fun x => Rd.pure (f x)) b (f v) := by
  intro pre
  obtain ⟨r, hr⟩ := h pre
  refine ⟨r, ?_⟩
  show Rd.bind m _ _ = _
  unfold Rd.bind
  rw [hr]; rfl

end Verif.Xrootd
