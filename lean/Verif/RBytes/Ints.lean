import Verif.RBytes.Props

/-!
# Signed integers in ROOT buffers

Go's fixed-width signed integers are represented by `Int` with an explicit range;
a conversion to `k` bytes is `Int.bmod _ (256 ^ k)` (two's complement wrap-around).
-/

namespace Verif.RBytes

/-- Unsigned representation on `k` bytes of a Go integer. -/
def toU (k : Nat) (x : Int) : Nat := (x % (256 : Int) ^ k).toNat

/-- Conversion of a Go integer to the signed type of `k` bytes (`int16`, `int32`, `int64`). -/
def wrapS (k : Nat) (x : Int) : Int := Int.bmod x (256 ^ k)

/-- groot/rbytes/wbuffer_gen.go:194-203, 245-254, 296-305 (`WriteI16`, `WriteI32`, `WriteI64`): big-endian two's complement. -/
def WBuf.writeInt (k : Nat) (x : Int) (w : WBuf) : Option WBuf := w.writeBE k (toU k x)

/-- groot/rbytes/rbuffer_gen.go:211-219, 266-274, 321-329 (`ReadI16`, `ReadI32`, `ReadI64`): big-endian two's complement. -/
def RBuf.readInt (k : Nat) (r : RBuf) : Option (Int × RBuf) :=
  (r.readBE k).bind fun q => some (wrapS k q.1, q.2)

/-- `x` is a value of the signed type of `k` bytes. -/
def FitsS (k : Nat) (x : Int) : Prop := wrapS k x = x

instance (k : Nat) (x : Int) : Decidable (FitsS k x) := by unfold FitsS; infer_instance

theorem toU_lt (k : Nat) (x : Int) : toU k x < 256 ^ k := by
  unfold toU
  have h : (0 : Int) < (256 : Int) ^ k := Int.pow_pos (by omega)
  have := Int.emod_lt_of_pos x h
  have h0 := Int.emod_nonneg x (Int.ne_of_gt h)
  have e : ((256 ^ k : Nat) : Int) = (256 : Int) ^ k := by simp
  omega

theorem wrapS_toU (k : Nat) (x : Int) : wrapS k (toU k x) = wrapS k x := by
  unfold wrapS toU
  have h : (0 : Int) < (256 : Int) ^ k := Int.pow_pos (by omega)
  have h0 := Int.emod_nonneg x (Int.ne_of_gt h)
  rw [Int.toNat_of_nonneg h0]
  have e : (256 : Int) ^ k = ((256 ^ k : Nat) : Int) := by simp
  rw [e, Int.emod_bmod]

theorem fitsS2 {x : Int} : FitsS 2 x ↔ -32768 ≤ x ∧ x < 32768 := by
  unfold FitsS wrapS; rw [Int.bmod_def]; simp; omega

theorem fitsS4 {x : Int} : FitsS 4 x ↔ -2147483648 ≤ x ∧ x < 2147483648 := by
  unfold FitsS wrapS; rw [Int.bmod_def]; simp; omega

theorem fitsS8 {x : Int} : FitsS 8 x ↔ -9223372036854775808 ≤ x ∧ x < 9223372036854775808 := by
  unfold FitsS wrapS; rw [Int.bmod_def]; simp; omega

theorem writeInt_appends (k : Nat) (x : Int) : Appends (WBuf.writeInt k x) (beEnc k (toU k x)) :=
  writeBE_appends k (toU k x)

theorem readInt_parses (k : Nat) (x : Int) : Parses (RBuf.readInt k) (beEnc k (toU k x)) (wrapS k x) := by
  have := (readBE_parses_enc (toU_lt k x)).map (fun n => wrapS k n)
  rw [wrapS_toU] at this
  exact this

theorem readInt_parses_fits {k : Nat} {x : Int} (h : FitsS k x) :
    Parses (RBuf.readInt k) (beEnc k (toU k x)) x := by
  have := readInt_parses k x
  rwa [h] at this

/-- groot/rbytes/rbuffer.go:177-184 (`Read`) through `io.ReadFull`: exactly `n` bytes, or an error. -/
def RBuf.readFull (n : Nat) (r : RBuf) : Option (List UInt8 × RBuf) :=
  if r.err then some ([], r)
  else if r.c + n ≤ r.p.length then some ((r.p.drop r.c).take n, { r with c := r.c + n })
  else some ([], { r with c := r.p.length, err := true })

theorem readFull_parses (bs : List UInt8) : Parses (RBuf.readFull bs.length) bs bs := by
  intro pre post hid off
  simp [RBuf.readFull]

theorem write_appends (v : List UInt8) (hv : v ≠ []) : Appends (fun w => some (w.write v)) v := by
  intro w h
  obtain ⟨a, b, c, _, _⟩ := WBuf.write_spec h v (Or.inl hv)
  exact ⟨_, rfl, a, b, c⟩

/-- Sequencing of reads, in the shape produced by the models of `UnmarshalROOT`. -/
theorem Parses.bind' {f : RBuf → Option (α × RBuf)} {F : α × RBuf → Option (β × RBuf)}
    {a b : List UInt8} {x : α} {y : β} (hf : Parses f a x) (hg : Parses (fun r => F (x, r)) b y) :
    Parses (fun r => (f r).bind F) (a ++ b) y :=
  hf.bind (g := fun x r => F (x, r)) hg

/-- Last read of a sequence. -/
theorem Parses.last {f : RBuf → Option (α × RBuf)} {F : α × RBuf → Option (β × RBuf)}
    {a : List UInt8} {x : α} {y : β} (hf : Parses f a x) (hg : ∀ r, F (x, r) = some (y, r)) :
    Parses (fun r => (f r).bind F) a y := by
  have := hf.bind' (F := F) (b := []) (y := y) (by simpa [hg] using Parses.pure y)
  simpa using this

/-- One read of a sequence. -/
macro "pstep" t:term : tactic => `(tactic| (refine Parses.bind' $t ?_; try dsimp +instances only))

end Verif.RBytes
