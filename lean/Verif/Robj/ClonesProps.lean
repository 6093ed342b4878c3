import Verif.Robj.Clones

/-!
# Arrays of clones are written and read (C176)
-/

namespace Verif.Robj.Clones

open Verif.Text Verif.Strconv

/-! ## Specification -/

/-- Elements of the class of the array can be written, and read again. -/
def Lossless {O E : Type} (c : Ctx O E) (cls : List Char) : Prop :=
  ∀ o, c.clsOf o = cls → ∃ e, c.enc o = some e ∧ c.dec cls e = some o

/-- All elements are of the class of the array. -/
def Uniform {O E : Type} (c : Ctx O E) (a : Arr O) : Prop := ∀ o, some o ∈ a.objs → c.clsOf o = a.cls

/-! ## Proofs -/

theorem elems_roundtrip {O E : Type} (c : Ctx O E) (cls : List Char) (hl : Lossless c cls) (os : List (Option O))
    (hu : ∀ o, some o ∈ os → c.clsOf o = cls) :
    ∃ t, encElems c os = some t ∧ ∀ rest, decElems c cls os.length (t ++ rest) = some (os, rest) := by
  induction os with
  | nil => exact ⟨[], rfl, fun rest => rfl⟩
  | cons x os ih =>
    obtain ⟨t, h1, h2⟩ := ih fun o ho => hu o (List.mem_cons_of_mem _ ho)
    cases x with
    | none =>
      refine ⟨.i8 0 :: t, by rw [encElems, h1]; rfl, fun rest => ?_⟩
      rw [List.length_cons, List.cons_append, decElems, takeI8, Option.bind_some]
      simp only [if_true, h2, Option.map_some]
    | some o =>
      obtain ⟨e, he, hd⟩ := hl o (hu o List.mem_cons_self)
      refine ⟨.i8 1 :: .elem e :: t, by rw [encElems, he, h1]; rfl, fun rest => ?_⟩
      rw [List.length_cons, List.cons_append, List.cons_append, decElems, takeI8, Option.bind_some]
      simp only [takeElem, hd, Option.bind_some, h2, Option.map_some]
      rfl

theorem class_roundtrip (cls : List Char) (v : Int) (hc : ';' ∉ cls) :
    splitC ';' (cls ++ ';' :: formatInt v) = [cls, formatInt v] := by
  rw [splitC_append hc, splitC_free]
  intro h
  rcases formatInt_chars h with h | h
  · exact absurd h (by decide)
  · exact absurd h (by decide)

/-- **C176** (round trip): an array of elements of its class, some of them nil, is read as it was written, with its name, its
class, its lower bound and its elements at their places; the array that was written is not changed, and what comes after it
in the buffer is left. -/
theorem C176_roundtrip {O E : Type} (w r : Ctx O E) (a : Arr O) (v : Int) (rest : List (Tok E))
    (hcannot : a.cannot = true) (hv : w.latest a.cls = some v) (hk : r.knows a.cls v = true)
    (h1 : -(2 ^ 63) ≤ v) (h2 : v < 2 ^ 63) (hu : Uniform w a) (hl : Lossless w a.cls)
    (hdec : ∀ e, r.dec a.cls e = w.dec a.cls e) (hc : ';' ∉ a.cls) :
    ∃ t, marshal w a = (.ok t, a) ∧
      unmarshal r (t ++ rest) = .ok ({ a with bypass := false, last := (a.objs.length : Int) - 1 }, rest) := by
  have hl' : Lossless { w with dec := r.dec } a.cls := by
    intro o ho
    obtain ⟨e, h, h'⟩ := hl o ho
    exact ⟨e, h, (hdec e).trans h'⟩
  obtain ⟨t, ht, hd⟩ := elems_roundtrip { w with dec := r.dec } a.cls hl' a.objs hu
  have henc : ∀ os : List (Option O), encElems w os = encElems { w with dec := r.dec } os := by
    intro os
    induction os with
    | nil => rfl
    | cons x os ih => cases x <;> simp only [encElems, ih]
  have hdecE : ∀ (n : Nat) (s : List (Tok E)), decElems r a.cls n s = decElems { w with dec := r.dec } a.cls n s := by
    intro n
    induction n with
    | zero => intro s; rfl
    | succ n ih =>
      intro s
      simp only [decElems, ih]
  have hb : bypassBit a = false := by unfold bypassBit; rw [hcannot]; rfl
  refine ⟨.hdr 4 :: .obj false true :: .str a.name :: .str (a.cls ++ ';' :: formatInt v) ::
    .i32 a.objs.length :: .i32 a.low :: t, ?_, ?_⟩
  · unfold marshal
    rw [hv]
    simp only
    rw [hb, if_neg (by decide), henc, ht, hcannot]
  · rw [List.cons_append, List.cons_append, List.cons_append, List.cons_append, List.cons_append, List.cons_append, unmarshal,
      unmarshalClass, class_roundtrip _ _ hc]
    simp only
    rw [parseInt_format (by simpa using h1) (by simpa using h2)]
    simp only
    rw [unmarshalTail]
    simp only [hk, Bool.false_and, Int.natAbs_natCast, hdecE, hd]
    simp [hcannot]

/-- **C176** (kept): writing never changes the elements, the name or the class. -/
theorem C176_kept {O E : Type} (c : Ctx O E) (a : Arr O) :
    (marshal c a).2.objs = a.objs ∧ (marshal c a).2.name = a.name ∧ (marshal c a).2.cls = a.cls ∧
      (marshal c a).2.low = a.low := by
  unfold marshal
  split
  · exact ⟨rfl, rfl, rfl, rfl⟩
  · split
    · exact ⟨rfl, rfl, rfl, rfl⟩
    · split <;> exact ⟨rfl, rfl, rfl, rfl⟩

/-- **C176** (SetElems): the array has the elements, and the class of the first of them unless it had a class. Missing: no
elements, or a nil first. -/
theorem C176_set_partial {O : Type} (clsOf : O → List Char) (a : Arr O) (o : O) (v : List (Option O)) :
    ∃ b, setElems clsOf a (some o :: v) = some b ∧ b.objs = some o :: v ∧ b.last = v.length ∧
      b.cls = if a.cls = [] then clsOf o else a.cls := by
  unfold setElems
  by_cases h : a.cls = []
  · rw [if_pos h, if_pos h]
    exact ⟨_, rfl, rfl, by simp, rfl⟩
  · rw [if_neg h, if_neg h]
    exact ⟨_, rfl, rfl, by simp, rfl⟩

/-! ## Counterexamples -/

/-- A context: objects are a class and a number; the number is written. -/
def exC : Ctx (List Char × Nat) Nat :=
  ⟨Prod.fst, fun o => if o.2 < 100 then some o.2 else none, fun c n => some (c, n), fun _ => some 1, fun _ _ => true⟩

/-- A new array is set to no elements: panic. -/
theorem C176_empty_counterexample : setElems exC.clsOf newArr [] = none := rfl

/-- Elements of different classes are written without error, and all read as of the first class. -/
theorem C176_mixed_counterexample : ∃ (a : Arr (List Char × Nat)) (t : List (Tok Nat)) (b : Arr (List Char × Nat)),
    setElems exC.clsOf newArr [some (['A'], 1), some (['B'], 2)] = some a ∧ marshal exC a = (.ok t, a) ∧
      unmarshal exC t = .ok (b, []) ∧ b.objs = [some (['A'], 1), some (['A'], 2)] :=
  ⟨_, _, _, rfl, rfl, rfl, rfl⟩

/-- If an element cannot be written, the bit that was taken away is not given back. -/
theorem C176_bit_counterexample : ∃ a : Arr (List Char × Nat), a.bypass = true ∧ (marshal exC a).1 = .err ∧
    (marshal exC a).2.bypass = false :=
  ⟨⟨true, true, [], ['A'], 0, [some (['A'], 100)], 0⟩, rfl, rfl, rfl⟩

/-- A damaged buffer, in which the class has no version: panic. -/
theorem C176_damaged_counterexample : unmarshal exC [.hdr 4, .obj false true, .str [], .str ['A'], .i32 0, .i32 0] = .panic := rfl

/-! ## Examples -/

example : ∃ t, marshal exC ⟨true, true, ['n'], ['A'], 0, [some (['A'], 1), none, some (['A'], 3)], 2⟩ =
      (.ok t, ⟨true, true, ['n'], ['A'], 0, [some (['A'], 1), none, some (['A'], 3)], 2⟩) ∧
    unmarshal exC t = .ok (⟨false, true, ['n'], ['A'], 0, [some (['A'], 1), none, some (['A'], 3)], 2⟩, []) := ⟨_, rfl, rfl⟩

/-- The elements below 100 are those that can be written; a context that meets the hypotheses. -/
example : Lossless { exC with enc := fun o => some o.2 } ['A'] := by
  rintro ⟨c, n⟩ rfl
  exact ⟨n, rfl, rfl⟩

end Verif.Robj.Clones
