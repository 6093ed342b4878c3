import Verif.Remote.Cache

/-!
# Model of `groot/internal/httpio` and of the parallel reader of `groot/riofs/plugin/http`

Simplifications: offsets are not negative; a request is a function of the range asked for, with the
answer the server gives to it; `Content-Length` of the `HEAD` answer is the length of the file;
`io.SectionReader` is modelled from its documentation.
-/

namespace Verif.Remote

inductive IOErr
  | eof | other
deriving DecidableEq, Repr

/-- The answer to a `GET` request with a range: status, entity tag, body as far as it arrived. -/
structure Resp where
  status : Nat
  etag : String
  body : List UInt8
deriving DecidableEq, Repr

/-- groot/internal/httpio/reader.go:17-28 (`Reader`): entity tag and length as of `Open`, the
server, and the position of the section reader. -/
structure Reader where
  len : Nat
  etag : String
  get : Nat → Nat → Option Resp
  pos : Nat

/-- groot/internal/httpio/reader.go:114-149 (`ReadAt`) into a buffer of `plen` bytes: the bytes read
and the error.  The error of `io.ReadFull` is dropped. -/
def Reader.readAt (r : Reader) (plen off : Nat) : List UInt8 × Option IOErr :=
  if plen = 0 then ([], none)
  else match r.get off (off + plen - 1) with
    | none => ([], some .other)
    | some resp =>
      let n := resp.body.take plen
      if resp.etag ≠ r.etag then (n, some .other)
      else if resp.status = 206 then
        if plen > r.len then (n, some .eof) else (n, none)
      else if resp.status = 416 then ([], some .eof)
      else (n, some .other)

/-- `io.SectionReader.Read` (Go standard library) over groot/internal/httpio/reader.go:104-106 (`Read`). -/
def Reader.read (r : Reader) (plen : Nat) : (List UInt8 × Option IOErr) × Reader :=
  if r.pos ≥ r.len then (([], some .eof), r)
  else
    let a := r.readAt (min plen (r.len - r.pos)) r.pos
    (a, { r with pos := r.pos + a.1.length })

/-- `for beg < end` of groot/riofs/plugin/http/preader.go:41-93 (`pread`), with `fuel` turns at most. -/
def blocks (blk : Nat) : Nat → Nat → Nat → List Span
  | 0, _, _ => []
  | fuel + 1, beg, stop =>
    if beg < stop then
      let len := if beg + blk > stop then stop - beg else blk
      ⟨beg, len⟩ :: blocks blk fuel (beg + blk) stop
    else []

/-- The answers the workers of groot/riofs/plugin/http/preader.go:41-93 (`pread`) store, and the bytes
of the buffer after.  Every block has its own answer and its own part of the buffer, from `i * blk`
on: the order in which the workers take the blocks does not matter.  `none` is a slice out of range. -/
def preadBlocks (blk : Nat) (readAt : Nat → Nat → List UInt8 × Option IOErr) :
    Nat → List Span → List UInt8 → Option (List UInt8 × List (Nat × Option IOErr))
  | _, [], p => some (p, [])
  | i, s :: sps, p =>
    if i * blk + s.len ≤ p.length then
      let a := readAt s.len s.off
      let p' := p.take (i * blk) ++ a.1 ++ p.drop (i * blk + a.1.length)
      match preadBlocks blk readAt (i + 1) sps p' with
      | some (q, out) => some (q, (a.1.length, a.2) :: out)
      | none => none
    else none

/-- The last loop of groot/riofs/plugin/http/preader.go:41-93 (`pread`): the sum of the lengths and
the last error. -/
def total : List (Nat × Option IOErr) → Nat × Option IOErr → Nat × Option IOErr
  | [], acc => acc
  | (n, e) :: out, (m, err) => total out (m + n, if e.isSome then e else err)

/-- groot/riofs/plugin/http/preader.go:32-39 (`ReadAt`) and groot/riofs/plugin/http/preader.go:41-93
(`pread`): the buffer after, the number of bytes and the error. -/
def preadAt (blk : Nat) (readAt : Nat → Nat → List UInt8 × Option IOErr) (p : List UInt8) (off : Nat) :
    Option (List UInt8 × Nat × Option IOErr) :=
  if p.length > blk then
    match preadBlocks blk readAt 0 (blocks blk p.length off (off + p.length)) p with
    | some (q, out) => some (q, total out (0, none))
    | none => none
  else
    let a := readAt p.length off
    some (a.1 ++ p.drop a.1.length, a.1.length, a.2)

/-! ### Specification -/

/-- What the server holding `file` answers to a range of bytes (RFC 9110, section 14.2), all of which
arrives. -/
def Serves (file : List UInt8) (tag : String) (get : Nat → Nat → Option Resp) : Prop :=
  ∀ beg stop, beg ≤ stop → get beg stop =
    if beg < file.length then some ⟨206, tag, slice file beg (stop + 1 - beg)⟩ else some ⟨416, tag, []⟩

/-- A reader opened on a server holding `file`. -/
structure Opened (file : List UInt8) (r : Reader) : Prop where
  len : r.len = file.length
  serves : Serves file r.etag r.get

variable {file : List UInt8} {r : Reader}

theorem readAt_spec (h : Opened file r) (plen off : Nat) :
    (r.readAt plen off).1 = slice file off plen ∧
    ((r.readAt plen off).2 = if plen = 0 then none else if file.length ≤ off then some .eof
      else if plen > file.length then some .eof else none) := by
  simp only [Reader.readAt]
  split
  · rename_i hz
    subst hz
    simp [slice]
  · rename_i hz
    rw [h.serves off (off + plen - 1) (by omega)]
    have e : off + plen - 1 + 1 - off = plen := by omega
    by_cases ho : off < file.length
    · simp only [ho, if_true, e, h.len]
      have : List.take plen (slice file off plen) = slice file off plen :=
        List.take_of_length_le (by rw [slice_length]; omega)
      have hn : ¬ file.length ≤ off := by omega
      simp only [hn, if_false, ne_eq, not_true_eq_false, this]
      split <;> exact ⟨rfl, rfl⟩
    · simp only [ho, if_false, if_pos (show file.length ≤ off by omega)]
      refine ⟨?_, by simp⟩
      simp only [slice]
      rw [List.drop_eq_nil_of_le (by omega)]
      simp

/-- C111: reading at an offset inside the file gives the bytes of the file from there on, and `EOF`
beyond its end. -/
theorem C111_read_at_partial (h : Opened file r) (plen off : Nat) :
    (off + plen ≤ file.length → r.readAt plen off = (slice file off plen, none)) ∧
    (file.length ≤ off → 0 < plen → r.readAt plen off = ([], some .eof)) ∧
    (r.readAt plen off).1 = slice file off plen := by
  obtain ⟨h1, h2⟩ := readAt_spec h plen off
  refine ⟨fun hl => Prod.ext h1 ?_, fun hl hp => Prod.ext ?_ ?_, h1⟩
  · rw [h2]
    split
    · rfl
    · rw [if_neg (by omega), if_neg (by omega)]
  · rw [h1]
    simp only [slice]
    rw [List.drop_eq_nil_of_le hl]
    simp
  · rw [h2, if_neg (by omega), if_pos hl]

/-- C111: a resource that has changed since it was opened is not read. -/
theorem C111_changed (r : Reader) (plen off : Nat) (hp : 0 < plen)
    (hc : ∀ b e resp, r.get b e = some resp → resp.etag ≠ r.etag) : (r.readAt plen off).2 = some .other := by
  simp only [Reader.readAt]
  rw [if_neg (by omega)]
  split
  · rfl
  · rename_i resp hg
    rw [if_pos (hc _ _ _ hg)]

/-- C111: fewer bytes than asked for are returned without an error at the end of the file. -/
theorem C111_eof_counterexample :
    ∃ (r : Reader), Opened [1, 2, 3, 4, 5] r ∧ r.readAt 3 4 = ([5], none) := by
  refine ⟨⟨5, "a", fun b e => if b < 5 then some ⟨206, "a", slice [1, 2, 3, 4, 5] b (e + 1 - b)⟩
    else some ⟨416, "a", []⟩, 0⟩, ⟨rfl, fun b e _ => rfl⟩, by decide +kernel⟩

/-- C111: so are they when the connection is lost. -/
theorem C111_lost_counterexample (r : Reader) (plen off k : Nat) (hk : k < plen) (hl : plen ≤ r.len)
    (hg : r.get off (off + plen - 1) = some ⟨206, r.etag, (slice (List.replicate r.len 7) off plen).take k⟩)
    (ho : off + plen ≤ r.len) : (r.readAt plen off).1.length = k ∧ (r.readAt plen off).2 = none := by
  simp only [Reader.readAt, if_neg (show plen ≠ 0 by omega), hg]
  rw [if_neg (by simp)]
  simp only [if_true]
  rw [if_neg (by omega)]
  refine ⟨?_, rfl⟩
  simp only [List.length_take, slice_length, List.length_replicate]
  omega

/-- Reading on with buffers of the given sizes. -/
def Reader.readMany (r : Reader) : List Nat → List UInt8 × Reader
  | [] => ([], r)
  | n :: ns =>
    let a := r.read n
    let b := a.2.readMany ns
    (a.1.1 ++ b.1, b.2)

theorem read_spec (h : Opened file r) (n : Nat) :
    (r.read n).1.1 = slice file r.pos n ∧ Opened file (r.read n).2 ∧ (r.read n).2.pos = r.pos + (slice file r.pos n).length ∧
    ((r.read n).1.2 = if file.length ≤ r.pos then some .eof else none) := by
  simp only [Reader.read, h.len]
  split
  · rename_i hp
    have : slice file r.pos n = [] := by
      simp only [slice]
      rw [List.drop_eq_nil_of_le hp]
      simp
    rw [this]
    exact ⟨rfl, h, rfl, rfl⟩
  · rename_i hp
    obtain ⟨h1, h2⟩ := readAt_spec h (min n (file.length - r.pos)) r.pos
    have e : slice file r.pos (min n (file.length - r.pos)) = slice file r.pos n := by
      simp only [slice]
      rw [← List.length_drop]
      rcases Nat.le_total n (file.drop r.pos).length with hh | hh
      · rw [Nat.min_eq_left hh]
      · rw [Nat.min_eq_right hh, List.take_of_length_le (le_refl _), List.take_of_length_le hh]
    rw [e] at h1
    refine ⟨h1, ⟨rfl, h.serves⟩, ?_, ?_⟩
    · simp only [h1]
    · rw [h2, if_neg hp]
      split
      · rfl
      · rw [if_neg (by omega)]

theorem slice_append (f : List UInt8) (a m n : Nat) (h : a ≤ f.length) :
    slice f a m ++ slice f (a + (slice f a m).length) n = slice f a (m + n) := by
  apply List.ext_getElem?
  intro j
  by_cases hj : j < (slice f a m).length
  · rw [List.getElem?_append_left hj, slice_get, slice_get]
    rw [slice_length] at hj
    rw [if_pos (by omega), if_pos (by omega)]
  · rw [List.getElem?_append_right (by omega), slice_get, slice_get]
    rw [slice_length] at hj ⊢
    by_cases hn : j < m + n
    · rw [if_pos hn]
      by_cases hm : m ≤ f.length - a
      · rw [Nat.min_eq_left hm] at hj ⊢
        rw [if_pos (by omega), show a + m + (j - m) = a + j by omega]
      · rw [Nat.min_eq_right (by omega)] at hj ⊢
        rw [List.getElem?_eq_none (show f.length ≤ a + j by omega)]
        split
        · exact List.getElem?_eq_none (by omega)
        · rfl
    · rw [if_neg hn]
      split
      · exact List.getElem?_eq_none (by omega)
      · rfl

/-- C111: reading on delivers the file in order, each byte once, whatever the sizes of the buffers;
`EOF` is reported when nothing is left, and only then. -/
theorem C111_read_sequence (h : Opened file r) (hp : r.pos ≤ file.length) (ns : List Nat) :
    (r.readMany ns).1 = slice file r.pos ns.sum ∧
    ∀ n, (((r.readMany ns).2.read n).1.2 = some .eof ↔ file.length ≤ r.pos + ns.sum) := by
  have key : ∀ (ns : List Nat) (r : Reader), Opened file r → r.pos ≤ file.length →
      (r.readMany ns).1 = slice file r.pos ns.sum ∧ Opened file (r.readMany ns).2 ∧
      (r.readMany ns).2.pos = min file.length (r.pos + ns.sum) := by
    intro ns
    induction ns with
    | nil =>
      intro r h hp
      refine ⟨by simp [Reader.readMany, slice], h, ?_⟩
      simp only [Reader.readMany, List.sum_nil]
      omega
    | cons n ns ih =>
      intro r h hp
      obtain ⟨h1, h2, h3, -⟩ := read_spec h n
      have h3' := h3
      rw [slice_length] at h3'
      obtain ⟨i1, i2, i3⟩ := ih (r.read n).2 h2 (by omega)
      simp only [Reader.readMany, List.sum_cons]
      refine ⟨?_, i2, ?_⟩
      · rw [i1, h1, h3, slice_append _ _ _ _ hp]
      · rw [i3, h3']
        omega
  obtain ⟨h1, h2, h3⟩ := key ns r h hp
  refine ⟨h1, fun n => ?_⟩
  obtain ⟨-, -, -, q⟩ := read_spec h2 n
  rw [q, h3]
  split
  · simp only [true_iff]
    omega
  · simp only [reduceCtorEq, false_iff]
    omega

/-! ### Parallel reads -/

/-- A reader giving the bytes of the file it has, as `httpio.Reader` does. -/
def Gives (file : List UInt8) (readAt : Nat → Nat → List UInt8 × Option IOErr) : Prop :=
  ∀ plen off, (readAt plen off).1 = slice file off plen ∧ (off + plen ≤ file.length → (readAt plen off).2 = none)

theorem Opened.gives (h : Opened file r) : Gives file r.readAt := by
  intro plen off
  exact ⟨(C111_read_at_partial h plen off).2.2, fun hl => by rw [(C111_read_at_partial h plen off).1 hl]⟩

theorem total_acc (out : List (Nat × Option IOErr)) (acc : Nat × Option IOErr) :
    (total out acc).1 = acc.1 + (out.map (·.1)).sum := by
  induction out generalizing acc with
  | nil => simp [total]
  | cons a out ih =>
    obtain ⟨n, e⟩ := a
    obtain ⟨m, err⟩ := acc
    simp only [total, ih, List.map_cons, List.sum_cons]
    omega

theorem total_none (out : List (Nat × Option IOErr)) (acc : Nat × Option IOErr) (h : acc.2 = none)
    (ho : ∀ o ∈ out, o.2 = none) : (total out acc).2 = none := by
  induction out generalizing acc with
  | nil => simpa [total] using h
  | cons a out ih =>
    obtain ⟨n, e⟩ := a
    obtain ⟨m, err⟩ := acc
    have he : e = none := ho (n, e) List.mem_cons_self
    subst he
    exact ih _ h fun o ho' => ho o (List.mem_cons_of_mem _ ho')

/-- The blocks from number `i` on: those before have been read. -/
theorem preadBlocks_spec {readAt : Nat → Nat → List UInt8 × Option IOErr} (hg : Gives file readAt) {blk : Nat} (hb : 0 < blk)
    (len off : Nat) : ∀ (fuel i : Nat) (p : List UInt8), p.length = len → len ≤ i * blk + fuel →
    ∃ q out, preadBlocks blk readAt i (blocks blk fuel (off + i * blk) (off + len)) p = some (q, out) ∧
      q.length = len ∧ (∀ j, j < i * blk → q[j]? = p[j]?) ∧
      (∀ j, i * blk ≤ j → j < len → off + j < file.length → q[j]? = file[off + j]?) ∧
      (out.map (·.1)).sum = min (len - i * blk) (file.length - (off + i * blk)) ∧
      (off + len ≤ file.length → ∀ o ∈ out, o.2 = none) := by
  intro fuel
  induction fuel with
  | zero =>
    intro i p hp hf
    refine ⟨p, [], rfl, hp, fun _ _ => rfl, fun j h1 h2 => by omega, ?_, by simp⟩
    simp only [List.map_nil, List.sum_nil]
    omega
  | succ fuel ih =>
    intro i p hp hf
    simp only [blocks]
    split
    · rename_i hlt
      have hil : i * blk < len := by omega
      generalize hs : (if off + i * blk + blk > off + len then off + len - (off + i * blk) else blk) = sl
      have hsl : sl = min blk (len - i * blk) := by
        rw [← hs]
        split <;> omega
      obtain ⟨g1, g2⟩ := hg sl (off + i * blk)
      have hal : (readAt sl (off + i * blk)).1.length = min sl (file.length - (off + i * blk)) := by
        rw [g1, slice_length]
      generalize hp' : p.take (i * blk) ++ (readAt sl (off + i * blk)).1 ++ p.drop (i * blk + (readAt sl (off + i * blk)).1.length) = p'
      have hp'l : p'.length = len := by
        rw [← hp']
        simp only [List.length_append, List.length_take, List.length_drop]
        omega
      have e1 : (i + 1) * blk = i * blk + blk := Nat.succ_mul i blk
      have e2 : off + (i + 1) * blk = off + i * blk + blk := by omega
      obtain ⟨q, out, r1, r2, r3, r4, r5, r6⟩ := ih (i + 1) p' hp'l (by omega)
      rw [e2] at r1
      have hlow : ∀ j, j < i * blk → p'[j]? = p[j]? := by
        intro j hj
        rw [← hp', List.append_assoc, List.getElem?_append_left (by simp only [List.length_take]; omega),
          List.getElem?_take, if_pos hj]
      have hmid : ∀ j, i * blk ≤ j → j < i * blk + sl → off + j < file.length → p'[j]? = file[off + j]? := by
        intro j h1 h2 h3
        have hlt : (p.take (i * blk)).length = i * blk := by
          simp only [List.length_take]
          omega
        rw [← hp', List.append_assoc, List.getElem?_append_right (by omega), hlt,
          List.getElem?_append_left (by omega), g1, slice_get, if_pos (by omega)]
        rw [show off + i * blk + (j - i * blk) = off + j by omega]
      refine ⟨q, ((readAt sl (off + i * blk)).1.length, (readAt sl (off + i * blk)).2) :: out, ?_, r2, ?_, ?_, ?_, ?_⟩
      · simp only [preadBlocks]
        rw [if_pos (by omega), hp', r1]
      · intro j hj
        rw [r3 j (by omega), hlow j hj]
      · intro j h1 h2 h3
        by_cases hj : j < (i + 1) * blk
        · rw [r3 j hj]
          exact hmid j h1 (by omega) h3
        · exact r4 j (by omega) h2 h3
      · simp only [List.map_cons, List.sum_cons, r5, hal]
        omega
      · intro hl o ho
        rcases List.mem_cons.mp ho with rfl | ho
        · exact g2 (by omega)
        · exact r6 hl o ho
    · rename_i hlt
      refine ⟨p, [], rfl, hp, fun _ _ => rfl, fun j h1 h2 => by omega, ?_, by simp⟩
      simp only [List.map_nil, List.sum_nil]
      omega

/-- C111: reading in parallel, by blocks of any size, gives what one request gives: as many bytes as
the file has from the offset on, the bytes of the file at their places; no error inside the file and
no slice out of range. -/
theorem C111_parallel (h : Opened file r) {blk : Nat} (hb : 0 < blk) (p : List UInt8) (off : Nat) :
    ∃ q n err, preadAt blk r.readAt p off = some (q, n, err) ∧ q.length = p.length ∧
      n = min p.length (file.length - off) ∧ q.take n = slice file off p.length ∧
      (off + p.length ≤ file.length → err = none) := by
  have hg := h.gives
  simp only [preadAt]
  split
  · obtain ⟨q, out, r1, r2, -, r4, r5, r6⟩ := preadBlocks_spec hg hb p.length off p.length 0 p rfl (by omega)
    simp only [Nat.zero_mul, Nat.add_zero, Nat.sub_zero] at r1 r4 r5
    have ht := total_acc out (0, none)
    refine ⟨q, (total out (0, none)).1, (total out (0, none)).2, by rw [r1], r2, ?_, ?_, ?_⟩
    · rw [ht, r5]
      simp
    · rw [ht, r5]
      simp only [Nat.zero_add]
      apply List.ext_getElem?
      intro j
      rw [List.getElem?_take, slice_get]
      by_cases hj : j < p.length
      · by_cases hf : off + j < file.length
        · rw [if_pos (by omega), if_pos hj, r4 j (by omega) hj hf]
        · rw [if_neg (by omega), if_pos hj, List.getElem?_eq_none (by omega)]
      · rw [if_neg (by omega), if_neg hj]
    · intro hl
      exact total_none _ _ rfl (r6 hl)
  · obtain ⟨g1, g2⟩ := hg p.length off
    have hl : (r.readAt p.length off).1.length = min p.length (file.length - off) := by rw [g1, slice_length]
    refine ⟨_, _, _, rfl, ?_, hl, ?_, g2⟩
    · simp only [List.length_append, List.length_drop]
      omega
    · rw [List.take_left, g1]

/-- C111: the answers the cache gets inside the file are those it counts on. -/
theorem C111_honest (h : Opened file r) {blk : Nat} (hb : 0 < blk) (p : List UInt8) (off : Nat)
    (hl : off + p.length ≤ file.length) : preadAt blk r.readAt p off = some (slice file off p.length, p.length, none) := by
  obtain ⟨q, n, err, h1, h2, h3, h4, h5⟩ := C111_parallel h hb p off
  have hn : n = p.length := by omega
  subst hn
  rw [List.take_of_length_le (by omega)] at h4
  rw [h1, h4, h5 hl]

/-! ### Examples -/

def rd0 : Reader := ⟨5, "a", fun b e => if b < 5 then some ⟨206, "a", slice file0 b (e + 1 - b)⟩ else some ⟨416, "a", []⟩, 0⟩

theorem rd0_opened : Opened file0 rd0 := ⟨rfl, fun _ _ _ => rfl⟩

example : rd0.readAt 3 1 = ([11, 12, 13], none) := (C111_read_at_partial rd0_opened 3 1).1 (by decide)
example : (rd0.readMany [2, 1, 4]).1 = [10, 11, 12, 13, 14] :=
  (C111_read_sequence rd0_opened (by decide) [2, 1, 4]).1.trans (by decide +kernel)
example : preadAt 2 rd0.readAt [0, 0, 0, 0, 0] 0 = some (file0, 5, none) :=
  C111_honest rd0_opened (by decide) [0, 0, 0, 0, 0] 0 (by decide)
example : ∃ q n err, preadAt 2 rd0.readAt [0, 0, 0, 0, 0] 2 = some (q, n, err) ∧ n = 3 := by
  obtain ⟨q, n, err, h, -, hn, -⟩ := C111_parallel rd0_opened (by decide : 0 < 2) [0, 0, 0, 0, 0] 2
  exact ⟨q, n, err, h, hn⟩
example : (Reader.readAt ⟨5, "b", rd0.get, 0⟩ 3 1).2 = some .other :=
  C111_changed _ 3 1 (by decide) (by
    intro b e resp h
    simp only [rd0] at h
    split at h <;> cases h <;> simp)
example : (Reader.readAt ⟨5, "a", fun _ _ => some ⟨206, "a", [7]⟩, 0⟩ 3 1).1.length = 1 :=
  (C111_lost_counterexample ⟨5, "a", fun _ _ => some ⟨206, "a", [7]⟩, 0⟩ 3 1 1 (by decide) (by decide) rfl (by decide)).1

end Verif.Remote
