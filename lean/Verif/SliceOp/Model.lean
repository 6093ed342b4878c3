import Mathlib.Data.List.Basic

/-!
# Model of `sliceop`

A slice is a window (start, length, capacity) of a memory shared by all slices, so that
the destination may alias the source.  Memory allocated by `make` or by an `append`
beyond the capacity is invisible to the caller's other slices and kept as a list.
A Go panic is `none`.
-/

namespace Verif.SliceOp

variable {E : Type}

/-- Memory cells holding elements. -/
abbrev Mem (E : Type) := Nat → E

/-- Writing a cell. -/
def Mem.upd (m : Mem E) (a : Nat) (x : E) : Mem E := fun b => if b = a then x else m b

/-- A slice into the shared memory. -/
structure Slice where
  base : Nat
  len : Nat
  cap : Nat
deriving DecidableEq, Repr

/-- The cells `base` to `base + n - 1`. -/
def Mem.read (m : Mem E) (base n : Nat) : List E := (List.range n).map fun i => m (base + i)

/-- The elements of a slice. -/
def Mem.contents (m : Mem E) (s : Slice) : List E := m.read s.base s.len

/-- A destination slice: in the shared memory, or in memory allocated by the callee. -/
inductive Dst (E : Type)
  | shared (s : Slice)
  | own (xs : List E)

/-- The elements of a destination. -/
def Dst.contents (m : Mem E) : Dst E → List E
  | .shared s => m.contents s
  | .own xs => xs

/-- Length of a destination. -/
def Dst.len : Dst E → Nat
  | .shared s => s.len
  | .own xs => xs.length

/-- `append(dst, x)`: in place while the capacity lasts, in fresh memory afterwards. -/
def append (m : Mem E) (d : Dst E) (x : E) : Mem E × Dst E :=
  match d with
  | .shared s =>
    if s.len < s.cap then (m.upd (s.base + s.len) x, .shared { s with len := s.len + 1 })
    else (m, .own (m.contents s ++ [x]))
  | .own xs => (m, .own (xs ++ [x]))

/-- `dst[i] = x`, with `i` in range. -/
def store (m : Mem E) (d : Dst E) (i : Nat) (x : E) : Mem E × Dst E :=
  match d with
  | .shared s => (m.upd (s.base + i) x, d)
  | .own xs => (m, .own (xs.set i x))

/-- The loops of sliceop/sliceop.go:22-36 (`Filter`) and sliceop/sliceop.go:61-75 (`Find`):
`k` more elements from index `i` on; `g` gives what is appended, if anything.  Elements
of `src` are read from the memory when they are visited. -/
def appendLoop (g : Nat → E → Option E) (src : Slice) : Nat → Nat → Mem E → Dst E → Mem E × Dst E
  | 0, _, m, d => (m, d)
  | k + 1, i, m, d =>
    match g i (m (src.base + i)) with
    | some y => appendLoop g src k (i + 1) (append m d y).1 (append m d y).2
    | none => appendLoop g src k (i + 1) m d

/-- The slice `dst[:0]`, or a new one if `dst` is nil (`none`). -/
def cleared (dst : Option Slice) : Dst E :=
  match dst with
  | some s => .shared { s with len := 0 }
  | none => .own []

/-- sliceop/sliceop.go:22-36 (`Filter`). -/
def filter (m : Mem E) (dst : Option Slice) (src : Slice) (f : E → Bool) : Mem E × Dst E :=
  appendLoop (fun _ x => if f x then some x else none) src src.len 0 m (cleared dst)

/-- sliceop/sliceop.go:61-75 (`Find`) for slices of integers, the only case in which the
destination can alias the source. -/
def findInts (m : Mem Int) (dst : Option Slice) (src : Slice) (f : Int → Bool) : Mem Int × Dst Int :=
  appendLoop (fun i x => if f x then some (i : Int) else none) src src.len 0 m (cleared dst)

/-- sliceop/sliceop.go:61-75 (`Find`) for other elements: the indices appended. -/
def find (src : List E) (f : E → Bool) : List Nat :=
  (src.zipIdx.filter fun p => f p.1).map (·.2)

/-- The loop of sliceop/sliceop.go:42-56 (`Map`). -/
def mapLoop (f : E → E) (src : Slice) : Nat → Nat → Mem E → Dst E → Mem E × Dst E
  | 0, _, m, d => (m, d)
  | k + 1, i, m, d =>
    mapLoop f src k (i + 1) (store m d i (f (m (src.base + i)))).1 (store m d i (f (m (src.base + i)))).2

/-- The slice `dst`, or a new one of `n` zero values if `dst` is nil (`none`). -/
def orMake [Inhabited E] (dst : Option Slice) (n : Nat) : Dst E :=
  match dst with
  | some s => .shared s
  | none => .own (List.replicate n default)

/-- sliceop/sliceop.go:42-56 (`Map`) with one type of elements, the case in which the
destination can alias the source. -/
def map [Inhabited E] (m : Mem E) (dst : Option Slice) (src : Slice) (f : E → E) : Option (Mem E × Dst E) :=
  if src.len ≠ (orMake dst src.len : Dst E).len then none
  else some (mapLoop f src src.len 0 m (orMake dst src.len))

/-- `src[v]`. -/
def load (m : Mem E) (src : Slice) (v : Int) : Option E :=
  if 0 ≤ v ∧ v < src.len then some (m (src.base + v.toNat)) else none

/-- The loop of sliceop/sliceop.go:83-122 (`Take`) and the assignment after it. -/
def takeLoop (src : Slice) : Nat → Int → List Int → Mem E → Dst E → Option (Mem E × Dst E)
  | i, v0, [], m, d => match load m src v0 with
    | none => none
    | some x => some (store m d (i - 1) x)
  | i, v0, v1 :: vs, m, d =>
    if v0 < v1 then
      match load m src v0 with
      | none => none
      | some x => takeLoop src (i + 1) v1 vs (store m d (i - 1) x).1 (store m d (i - 1) x).2
    else none

/-- sliceop/sliceop.go:83-122 (`Take`). -/
def take [Inhabited E] (m : Mem E) (dst : Option Slice) (src : Slice) (indices : List Int) :
    Option (Mem E × Dst E) :=
  if indices.length > src.len then none
  else if (orMake dst indices.length : Dst E).len ≠ indices.length then none
  else match indices with
    | [] => some (m, orMake dst 0)
    | v :: vs => match load m src v with
      | none => none
      | some x =>
        takeLoop src 1 v vs (store m (orMake dst (vs.length + 1)) 0 x).1 (store m (orMake dst (vs.length + 1)) 0 x).2

/-- sliceop/sliceop.go:126-133 (`Resize`). -/
def resize [Inhabited E] (m : Mem E) (s : Slice) (n : Int) : Option (Dst E) :=
  if (s.cap : Int) < n then
    some (.own (m.read s.base s.cap ++ List.replicate (n - s.cap).toNat default))
  else if n < 0 then none
  else some (.shared { s with len := n.toNat })

end Verif.SliceOp
