import Verif.Common.Bytes

/-!
# Reading from byte streams

A reader of the Go standard library is the list of bytes it still has to deliver.  The end
of the stream is reported by a separate call, as `bytes.Reader` and `os.File` do.
-/

namespace Verif

/-- Outcome of a read: a value and the rest of the stream, `io.EOF`, or another error. -/
inductive Res (α : Type)
  | ok (v : α) (rest : List UInt8)
  | eof
  | fail
deriving DecidableEq, Repr

/-- Continue after a successful read. -/
def Res.bind {α β : Type} (r : Res α) (f : α → List UInt8 → Res β) : Res β :=
  match r with
  | .ok v rest => f v rest
  | .eof => .eof
  | .fail => .fail

/-- `fmt.Errorf("...: %w", err)`: the result is no longer `io.EOF` itself. -/
def Res.wrap {α : Type} (r : Res α) : Res α :=
  match r with
  | .ok v rest => .ok v rest
  | _ => .fail

/-- `io.ReadFull` into a slice of `n` bytes (Go standard library). -/
def readFull (n : Nat) (s : List UInt8) : Res (List UInt8) :=
  if n = 0 then .ok [] s
  else if s.length = 0 then .eof
  else if s.length < n then .fail
  else .ok (s.take n) (s.drop n)

@[simp] theorem Res.bind_ok {α β : Type} (v : α) (rest : List UInt8) (f : α → List UInt8 → Res β) :
    (Res.ok v rest).bind f = f v rest := rfl

@[simp] theorem Res.wrap_ok {α : Type} (v : α) (rest : List UInt8) : (Res.ok v rest).wrap = .ok v rest := rfl

theorem readFull_append {n : Nat} {bs : List UInt8} (rest : List UInt8) (h : bs.length = n) :
    readFull n (bs ++ rest) = .ok bs rest := by
  unfold readFull
  subst h
  split
  · next h0 =>
    have : bs = [] := List.eq_nil_of_length_eq_zero h0
    subst this; rfl
  · rw [if_neg (by rw [List.length_append]; omega), if_neg (by rw [List.length_append]; omega)]
    simp

theorem readFull_nil {n : Nat} (h : n ≠ 0) : readFull n [] = .eof := by
  unfold readFull; simp [h]

theorem readFull_le {n : Nat} {s rest v : List UInt8} (h : readFull n s = .ok v rest) :
    rest.length + n = s.length ∧ v.length = n ∧ s = v ++ rest := by
  unfold readFull at h
  split at h
  · cases h; subst n; simp
  · split at h
    · cases h
    · split at h
      · cases h
      · cases h
        refine ⟨?_, ?_, (List.take_append_drop ..).symm⟩
        · rw [List.length_drop]; omega
        · rw [List.length_take]; omega

end Verif
