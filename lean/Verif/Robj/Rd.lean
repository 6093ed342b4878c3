import Verif.RBytes.RefsSpec

/-!
# Programs that write and read the content of a ROOT object

A `MarshalROOT` method is a function that puts its calls in front of what follows
(`Wr`); an `UnmarshalROOT` method is a program (`Rd`) made of the same calls on the
reading side. Data is handled byte by byte: the primitive writers and readers of
the buffer are built on top of that.
-/

namespace Verif.Robj

open Verif.RBytes Verif.RBytes.Refs

/-! ### Writing -/

/-- A piece of a `MarshalROOT` method, given what is written after it. -/
abbrev Wr := Parts → Parts

/-- One call after the other. -/
def seq (ws : List Wr) : Wr := fun rest => ws.foldr (fun w r => w r) rest

/-- Plain bytes. -/
def bytesW (bs : List UInt8) : Wr := fun rest => bs.foldr (fun b r => .data [b] r) rest

/-- groot/rbytes/wbuffer.go:251-257, 272-278 (`WriteI8`, `WriteU8`). -/
def w8 (x : BitVec 8) : Wr := bytesW (beEnc 1 x.toNat)

/-- groot/rbytes/wbuffer_gen.go:33-43, 194-203 (`WriteU16`, `WriteI16`). -/
def w16 (x : BitVec 16) : Wr := bytesW (beEnc 2 x.toNat)

/-- groot/rbytes/wbuffer_gen.go:87-97, 245-254, 347-356 (`WriteU32`, `WriteI32`, `WriteF32`). A
floating-point number is its bits. -/
def w32 (x : BitVec 32) : Wr := bytesW (beEnc 4 x.toNat)

/-- groot/rbytes/wbuffer_gen.go:141-151, 296-305, 398-407 (`WriteU64`, `WriteI64`, `WriteF64`). -/
def w64 (x : BitVec 64) : Wr := bytesW (beEnc 8 x.toNat)

/-- `w.WriteI32(int32(x))` of an `int`. -/
def wInt (x : Int) : Wr := w32 (BitVec.ofInt 32 x)

/-- groot/rbytes/wbuffer.go:412-419 (`WBuffer.WriteBool`). -/
def wBool (b : Bool) : Wr := bytesW (beEnc 1 (if b then 1 else 0))

/-- groot/rbytes/wbuffer.go:434-451 (`WBuffer.WriteString`): the length in one or five
bytes, then the bytes of the string. -/
def wStr (s : List UInt8) : Wr :=
  if s.length < 255 then seq [bytesW (beEnc 1 s.length), bytesW s]
  else seq [bytesW (beEnc 1 255), bytesW (beEnc 4 s.length), bytesW s]

/-- `WriteObjectAny`: a pointer to an object. -/
def wRef (o : Option Nat) : Wr := fun rest => .ref o rest

/-- What is between `WriteHeader` and `SetHeader`. -/
def wBlock (vers : BitVec 16) (ws : List Wr) : Wr := fun rest => .block vers (seq ws .nil) rest

/-- Elements one after the other, as in the array writers `WriteArrayI32` and the like
(groot/rbytes/wbuffer_gen.go:229-243, groot/rbytes/wbuffer.go:495-527). -/
def wAll {α : Type} (w : α → Wr) (xs : List α) : Wr := fun rest => xs.foldr (fun x r => w x r) rest

/-! ### Reading -/

/-- A piece of an `UnmarshalROOT` method: a byte, a pointer (`ReadObjectAny`, nil is
`none`), or a block between `ReadHeader` (with the given maximum version, negative
for none) and `CheckHeader`, whose version decides how it is read. `fail` is a
panic, or an error of the method itself. -/
inductive Rd : Type → Type 1
  | ret {α : Type} (a : α) : Rd α
  | fail {α : Type} : Rd α
  | byte {α : Type} (k : UInt8 → Rd α) : Rd α
  | ref {α : Type} (k : Option Nat → Rd α) : Rd α
  | block {α β : Type} (vmax : Int) (inner : BitVec 16 → Rd β) (k : β → Rd α) : Rd α

def Rd.bind {α β : Type} : Rd α → (α → Rd β) → Rd β
  | .ret a, f => f a
  | .fail, _ => .fail
  | .byte k, f => .byte fun b => (k b).bind f
  | .ref k, f => .ref fun o => (k o).bind f
  | .block vmax inner k, f => .block vmax inner fun b => (k b).bind f

instance : Monad Rd where
  pure := .ret
  bind := .bind

/-- Running the program on the content of an object. A block must be read to its end
(`CheckHeader`), and must not have a version above the maximum (`ReadHeader`
panics). -/
def Rd.run {α : Type} : Rd α → Parts → Option (α × Parts)
  | .ret a, ps => some (a, ps)
  | .fail, _ => none
  | .byte k, .data [b] rest => (k b).run rest
  | .ref k, .ref o rest => (k o).run rest
  | .block vmax inner k, .block v ps rest =>
    if v &&& 0x4000 = 0 ∧ (vmax < 0 ∨ v.toInt ≤ vmax) then
      ((inner v).run ps).bind fun q => if q.2 = .nil then (k q.1).run rest else none
    else none
  | _, _ => none

/-- The class as `ReadObjectAny` sees it (`Verif.RBytes.Refs.Dec`): where data, pointers
and blocks are. -/
def Rd.dec {α : Type} : Rd α → (α → Dec) → Dec
  | .ret a, κ => κ a
  | .fail, _ => .fail
  | .byte k, κ => .data 1 fun bs => (k (bs.headD 0)).dec κ
  | .ref k, κ => .ref fun b => (k (if b then some 0 else none)).dec κ
  | .block vmax inner k, κ =>
    .block vmax (fun v => (inner v).dec fun _ => .done) fun v ps =>
      match (inner v).run ps with
      | some q => (k q.1).dec κ
      | none => .fail

def rByte : Rd UInt8 := .byte .ret

def bytesR : Nat → Rd (List UInt8)
  | 0 => pure []
  | n + 1 => do
    let b ← rByte
    let bs ← bytesR n
    return b :: bs

/-- groot/rbytes/rbuffer.go:291-303, 305-317 (`ReadU8`, `ReadI8`). -/
def r8 : Rd (BitVec 8) := do return BitVec.ofNat 8 (beDec (← bytesR 1))

/-- groot/rbytes/rbuffer_gen.go:41-50, 211-219 (`ReadU16`, `ReadI16`). -/
def r16 : Rd (BitVec 16) := do return BitVec.ofNat 16 (beDec (← bytesR 2))

/-- groot/rbytes/rbuffer_gen.go:98-107, 266-274, 376-384 (`ReadU32`, `ReadI32`, `ReadF32`). -/
def r32 : Rd (BitVec 32) := do return BitVec.ofNat 32 (beDec (← bytesR 4))

/-- groot/rbytes/rbuffer_gen.go:155-164, 321-329, 431-439 (`ReadU64`, `ReadI64`, `ReadF64`). -/
def r64 : Rd (BitVec 64) := do return BitVec.ofNat 64 (beDec (← bytesR 8))

/-- `int(r.ReadI32())`. -/
def rInt : Rd Int := do return (← r32).toInt

/-- groot/rbytes/rbuffer.go:279-289 (`ReadBool`). -/
def rBool : Rd Bool := do return (← rByte) != 0

/-- groot/rbytes/rbuffer.go:233-261 (`RBuffer.ReadString`). A string whose first byte is
NUL is read as the empty string, and the rest of it is left unread. -/
def rStr : Rd (List UInt8) := do
  let b ← rByte
  let n ← if b = 255 then (do return beDec (← bytesR 4)) else pure b.toNat
  if n = 0 then pure []
  else do
    let c ← rByte
    if c = 0 then pure []
    else do
      let cs ← bytesR (n - 1)
      return c :: cs

def rRef : Rd (Option Nat) := .ref .ret

/-- What is between `ReadHeader` and `CheckHeader`. -/
def rBlock {α : Type} (vmax : Int) (inner : BitVec 16 → Rd α) : Rd α := .block vmax inner .ret

/-- A loop reading `n` elements. -/
def rAll {α : Type} (r : Rd α) : Nat → Rd (List α)
  | 0 => pure []
  | n + 1 => do
    let x ← r
    let xs ← rAll r n
    return x :: xs

/-- A slice made with the length `n`, an `int` (`make` panics when it is negative), then
filled: `ReadArrayF64` and the like (groot/rbytes/rbuffer_gen.go:408-429). -/
def rMake {α : Type} (r : Rd α) (n : Int) : Rd (List α) :=
  if n < 0 then .fail else rAll r n.toNat

/-! ### Running what was written -/

theorem run_bind {α β : Type} (r : Rd α) (f : α → Rd β) : ∀ ps : Parts,
    (r >>= f).run ps = (r.run ps).bind fun q => (f q.1).run q.2 := by
  show ∀ ps : Parts, (r.bind f).run ps = _
  induction r with
  | ret a => intro ps; simp [Rd.bind, Rd.run]
  | fail => intro ps; simp [Rd.bind, Rd.run]
  | byte k ih =>
    intro ps
    rcases ps with _ | ⟨_ | ⟨b, _ | ⟨c, bs⟩⟩, rest⟩ | _ | _ <;> simp [Rd.bind, Rd.run, ih]
  | ref k ih =>
    intro ps
    rcases ps with _ | _ | ⟨o, rest⟩ | _ <;> simp [Rd.bind, Rd.run, ih]
  | block vmax inner k _ ih =>
    intro ps
    rcases ps with _ | _ | _ | ⟨v, i, rest⟩ <;> simp only [Rd.bind, Rd.run, Option.bind_none]
    split
    · cases (inner v).run i with
      | none => rfl
      | some q =>
        simp only [Option.bind_some]
        split
        · exact ih _ _ _
        · rfl
    · rfl

@[simp] theorem run_pure {α : Type} (a : α) (ps : Parts) :
    (pure a : Rd α).run ps = some (a, ps) := by
  show (Rd.ret a).run ps = _
  simp [Rd.run]

@[simp] theorem run_ret {α : Type} (a : α) (ps : Parts) : (Rd.ret a).run ps = some (a, ps) := by
  simp [Rd.run]

@[simp] theorem run_fail {α : Type} (ps : Parts) : (Rd.fail : Rd α).run ps = none := by
  simp [Rd.run]

theorem erase_erase : ∀ ps : Parts, ps.erase.erase = ps.erase := by
  intro ps
  induction ps with
  | nil => rfl
  | data bs rest ih => simp [Parts.erase, ih]
  | ref o rest ih => cases o <;> simp [Parts.erase, ih]
  | block v inner rest ih1 ih2 => simp [Parts.erase, ih1, ih2]

/-- What a class reads does not depend on which objects are pointed to. -/
theorem follows_erase {d : Dec} {p : Parts} (h : Follows d p) :
    ∀ q : Parts, q.erase = p → Follows d q := by
  induction h with
  | done =>
    intro q hq
    cases q <;> simp [Parts.erase] at hq
    exact .done
  | data hn hf ih =>
    intro q hq
    cases q <;> simp [Parts.erase] at hq
    obtain ⟨rfl, h⟩ := hq
    exact .data hn (ih _ h)
  | ref hf ih =>
    intro q hq
    cases q <;> simp [Parts.erase] at hq
    obtain ⟨rfl, h⟩ := hq
    refine .ref ?_
    simpa using ih _ h
  | @block vmax d k v inner rest hv hm hf1 hf2 ih1 ih2 =>
    intro q hq
    cases q <;> simp [Parts.erase] at hq
    obtain ⟨rfl, h1, h2⟩ := hq
    refine .block hv hm (ih1 _ h1) ?_
    have : inner.erase = inner := by rw [← h1]; exact erase_erase _
    rw [this] at ih2
    rw [h1]
    exact ih2 _ h2

theorem dec_follows' {α : Type} (r : Rd α) : ∀ (κ : α → Dec) (ps rest : Parts) (a : α),
    ps.erase = ps → r.run ps = some (a, rest) → Follows (κ a) rest → Follows (r.dec κ) ps := by
  induction r with
  | ret a =>
    intro κ ps rest b _ h hf
    simp only [Rd.run, Option.some.injEq, Prod.mk.injEq] at h
    obtain ⟨rfl, rfl⟩ := h
    exact hf
  | fail => intro κ ps rest b _ h hf; simp [Rd.run] at h
  | byte k ih =>
    intro κ ps rest a he h hf
    rcases ps with _ | ⟨_ | ⟨b, _ | ⟨c, bs⟩⟩, rest⟩ | _ | _ <;> simp only [Rd.run, reduceCtorEq] at h
    simp only [Parts.erase, Parts.data.injEq, true_and] at he
    exact .data rfl (ih _ _ _ _ _ he h hf)
  | ref k ih =>
    intro κ ps rest a he h hf
    rcases ps with _ | _ | ⟨o, rest⟩ | _ <;> simp only [Rd.run, reduceCtorEq] at h
    simp only [Parts.erase, Parts.ref.injEq] at he
    refine .ref ?_
    have : (if o.isSome = true then some 0 else none) = o := by
      rw [← he.1]; cases o <;> simp
    rw [this]
    exact ih _ _ _ _ _ he.2 h hf
  | block vmax inner k ih1 ih2 =>
    intro κ ps rest a he h hf
    rcases ps with _ | _ | _ | ⟨v, i, rest⟩ <;> simp only [Rd.run, reduceCtorEq] at h
    simp only [Parts.erase, Parts.block.injEq, true_and] at he
    split at h
    · rename_i hv
      simp only [Option.bind_eq_some_iff] at h
      obtain ⟨q, hq, h⟩ := h
      split at h
      · rename_i hnil
        have h1 : Follows ((inner v).dec fun _ => .done) i := by
          refine ih1 _ _ _ _ _ he.1 hq ?_
          rw [hnil]; exact .done
        rw [Rd.dec]
        refine .block hv.1 hv.2 h1 ?_
        rw [he.1, hq]
        exact ih2 _ _ _ _ _ he.2 h hf
      · cases h
    · cases h

/-- The class reads what was written, if the program does so with the identity of the
objects pointed to left out. -/
theorem dec_follows {α : Type} {r : Rd α} {ps : Parts} {a : α}
    (h : r.run ps.erase = some (a, .nil)) : Follows (r.dec fun _ => .done) ps :=
  follows_erase (dec_follows' r _ _ _ _ (erase_erase ps) h .done) ps rfl

/-! ### The primitive calls -/

theorem erase_eq (ps : Parts) : ps.erase = ps.rename fun _ => 0 := by
  induction ps with
  | nil => rfl
  | data bs rest ih => simp [Parts.erase, Parts.rename, ih]
  | ref o rest ih => simp [Parts.erase, Parts.rename, ih]
  | block v inner rest ih1 ih2 => simp [Parts.erase, Parts.rename, ih1, ih2]

@[simp] theorem seq_nil (rest : Parts) : seq [] rest = rest := rfl
@[simp] theorem seq_cons (w : Wr) (ws : List Wr) (rest : Parts) :
    seq (w :: ws) rest = w (seq ws rest) := rfl

theorem run_rByte (b : UInt8) (rest : Parts) : rByte.run (.data [b] rest) = some (b, rest) := by
  simp [rByte, Rd.run]

theorem run_bytesR (bs : List UInt8) (rest : Parts) :
    (bytesR bs.length).run (bytesW bs rest) = some (bs, rest) := by
  induction bs with
  | nil => simp [bytesR, bytesW]
  | cons b bs ih =>
    have e : bytesW (b :: bs) rest = .data [b] (bytesW bs rest) := rfl
    rw [e]
    simp [bytesR, run_bind, run_rByte, ih]

theorem run_bytesR' {bs : List UInt8} {n : Nat} (h : bs.length = n) (rest : Parts) :
    (bytesR n).run (bytesW bs rest) = some (bs, rest) := by
  rw [← h, run_bytesR]

theorem run_be {w k n : Nat} (h : n < 256 ^ k) (rest : Parts) :
    (do return BitVec.ofNat w (beDec (← bytesR k)) : Rd (BitVec w)).run (bytesW (beEnc k n) rest) =
      some (BitVec.ofNat w n, rest) := by
  rw [run_bind, run_bytesR' (by simp)]
  simp [beDec_beEnc_of_lt h]

@[simp] theorem run_r8 (x : BitVec 8) (rest : Parts) : r8.run (w8 x rest) = some (x, rest) := by
  rw [r8, w8, run_be (by have := x.isLt; omega)]; simp
@[simp] theorem run_r16 (x : BitVec 16) (rest : Parts) : r16.run (w16 x rest) = some (x, rest) := by
  rw [r16, w16, run_be (by have := x.isLt; omega)]; simp
@[simp] theorem run_r32 (x : BitVec 32) (rest : Parts) : r32.run (w32 x rest) = some (x, rest) := by
  rw [r32, w32, run_be (by have := x.isLt; omega)]; simp
@[simp] theorem run_r64 (x : BitVec 64) (rest : Parts) : r64.run (w64 x rest) = some (x, rest) := by
  rw [r64, w64, run_be (by have := x.isLt; omega)]; simp

/-- An `int` that fits 32 bits. -/
def Fits32 (x : Int) : Prop := -2 ^ 31 ≤ x ∧ x < 2 ^ 31

instance (x : Int) : Decidable (Fits32 x) := by unfold Fits32; infer_instance

theorem run_rInt {x : Int} (h : Fits32 x) (rest : Parts) : rInt.run (wInt x rest) = some (x, rest) := by
  rw [rInt, wInt, run_bind, run_r32]
  simp only [Option.bind_some, run_pure]
  rw [BitVec.toInt_ofInt_eq_self (by decide) (by simpa using h.1) (by simpa using h.2)]

@[simp] theorem run_rBool (b : Bool) (rest : Parts) : rBool.run (wBool b rest) = some (b, rest) := by
  cases b <;> simp [rBool, wBool, run_bind, bytesW, beEnc, run_rByte] <;> rfl

/-- A string that survives: not too long, and not beginning with a NUL. -/
def StrOK (s : List UInt8) : Prop := s.length < 2 ^ 32 ∧ s.head? ≠ some 0

instance (s : List UInt8) : Decidable (StrOK s) := by unfold StrOK; infer_instance

theorem run_rStr {s : List UInt8} (h : StrOK s) (rest : Parts) :
    rStr.run (wStr s rest) = some (s, rest) := by
  obtain ⟨hl, h0⟩ := h
  have tail : ∀ rest, (if s.length = 0 then (pure [] : Rd (List UInt8)) else do
      let c ← rByte
      if c = 0 then pure []
      else do
        let cs ← bytesR (s.length - 1)
        return c :: cs).run (bytesW s rest) = some (s, rest) := by
    intro rest
    cases s with
    | nil => simp [bytesW]
    | cons c cs =>
      have hc : c ≠ 0 := by simpa using h0
      have e : bytesW (c :: cs) rest = .data [c] (bytesW cs rest) := rfl
      rw [e]
      simp [run_bind, run_rByte, hc, run_bytesR]
  by_cases hs : s.length < 255
  · have e : wStr s rest = .data [UInt8.ofNat s.length] (bytesW s rest) := by
      simp only [wStr, if_pos hs, seq_cons, seq_nil]
      simp [bytesW, beEnc]
    rw [e, rStr, run_bind, run_rByte]
    have hb : UInt8.ofNat s.length ≠ 255 := by
      intro h
      have := congrArg UInt8.toNat h
      simp at this
      omega
    simp only [Option.bind_some, if_neg hb, run_bind, run_pure]
    have hn : (UInt8.ofNat s.length).toNat = s.length := by simp; omega
    rw [hn]
    exact tail rest
  · have e : wStr s rest = .data [255] (bytesW (beEnc 4 s.length) (bytesW s rest)) := by
      simp only [wStr, if_neg hs, seq_cons, seq_nil]
      rfl
    rw [e, rStr, run_bind, run_rByte]
    simp only [Option.bind_some, if_true, run_bind, run_bytesR' (show (beEnc 4 s.length).length = 4 by simp),
      run_pure, beDec_beEnc_of_lt (show s.length < 256 ^ 4 by omega)]
    exact tail rest

@[simp] theorem run_rRef (o : Option Nat) (rest : Parts) : rRef.run (wRef o rest) = some (o, rest) := by
  simp [rRef, wRef, Rd.run]

theorem run_rBlock {α : Type} {vmax : Int} {inner : BitVec 16 → Rd α} {v : BitVec 16} {ws : List Wr}
    {a : α} (hv : v &&& 0x4000 = 0 ∧ (vmax < 0 ∨ v.toInt ≤ vmax))
    (h : (inner v).run (seq ws .nil) = some (a, .nil)) (rest : Parts) :
    (rBlock vmax inner).run (wBlock v ws rest) = some (a, rest) := by
  simp only [rBlock, wBlock, Rd.run, if_pos hv, h, Option.bind_some, if_true]

theorem run_rAll {α β : Type} {w : β → Wr} {r : Rd α} {f : β → α} {xs : List β}
    (h : ∀ x ∈ xs, ∀ rest, r.run (w x rest) = some (f x, rest)) (rest : Parts) :
    (rAll r xs.length).run (wAll w xs rest) = some (xs.map f, rest) := by
  induction xs with
  | nil => simp [rAll, wAll]
  | cons x xs ih =>
    have e : wAll w (x :: xs) rest = w x (wAll w xs rest) := rfl
    rw [e]
    simp only [List.length_cons, rAll, run_bind, h x (by simp), Option.bind_some,
      ih (fun y hy => h y (by simp [hy])), run_pure, List.map_cons]

theorem run_rMake {α β : Type} {w : β → Wr} {r : Rd α} {f : β → α} {xs : List β} {n : Int}
    (hn : n = xs.length) (h : ∀ x ∈ xs, ∀ rest, r.run (w x rest) = some (f x, rest)) (rest : Parts) :
    (rMake r n).run (wAll w xs rest) = some (xs.map f, rest) := by
  subst hn
  rw [rMake, if_neg (by omega), Int.toNat_natCast, run_rAll h]

/-! ### Renaming -/

@[simp] theorem rename_bytesW (φ : Nat → Nat) (bs : List UInt8) (rest : Parts) :
    (bytesW bs rest).rename φ = bytesW bs (rest.rename φ) := by
  induction bs with
  | nil => rfl
  | cons b bs ih => simpa [bytesW, Parts.rename] using ih

@[simp] theorem rename_w8 (φ : Nat → Nat) (x : BitVec 8) (rest : Parts) :
    (w8 x rest).rename φ = w8 x (rest.rename φ) := by simp [w8]
@[simp] theorem rename_w16 (φ : Nat → Nat) (x : BitVec 16) (rest : Parts) :
    (w16 x rest).rename φ = w16 x (rest.rename φ) := by simp [w16]
@[simp] theorem rename_w32 (φ : Nat → Nat) (x : BitVec 32) (rest : Parts) :
    (w32 x rest).rename φ = w32 x (rest.rename φ) := by simp [w32]
@[simp] theorem rename_w64 (φ : Nat → Nat) (x : BitVec 64) (rest : Parts) :
    (w64 x rest).rename φ = w64 x (rest.rename φ) := by simp [w64]
@[simp] theorem rename_wInt (φ : Nat → Nat) (x : Int) (rest : Parts) :
    (wInt x rest).rename φ = wInt x (rest.rename φ) := by simp [wInt]
@[simp] theorem rename_wBool (φ : Nat → Nat) (x : Bool) (rest : Parts) :
    (wBool x rest).rename φ = wBool x (rest.rename φ) := by simp [wBool]
@[simp] theorem rename_wStr (φ : Nat → Nat) (x : List UInt8) (rest : Parts) :
    (wStr x rest).rename φ = wStr x (rest.rename φ) := by
  unfold wStr; split <;> simp
@[simp] theorem rename_wRef (φ : Nat → Nat) (o : Option Nat) (rest : Parts) :
    (wRef o rest).rename φ = wRef (o.map φ) (rest.rename φ) := rfl

theorem rename_wAll {α β : Type} {w : α → Wr} {w' : β → Wr} {f : α → β} {φ : Nat → Nat}
    (h : ∀ x rest, (w x rest).rename φ = w' (f x) (rest.rename φ)) (xs : List α) (rest : Parts) :
    (wAll w xs rest).rename φ = wAll w' (xs.map f) (rest.rename φ) := by
  induction xs with
  | nil => rfl
  | cons x xs ih =>
    have e : wAll w (x :: xs) rest = w x (wAll w xs rest) := rfl
    rw [e, h, ih]
    rfl

end Verif.Robj
