import Verif.Rarrow.Column

/-!
# C161, C162: the cells of Arrow columns, and flat trees written out of them

The specification is the meaning of a column in the Arrow format: `get`, the
value of a row, worked out from the offsets and the elements.
-/

namespace Verif.Rarrow

/-- The elements of the row `i` of a list column, of which `f` gives the elements, `m` of them. -/
def listAt {β : Type} (f : Nat → Option β) (m : Nat) (l : List (Bool × Nat)) (i : Nat) : Option (List β) :=
  (l[i]?).bind fun p => gets f p.2 (stop l m i - p.2)

/-- The elements of the row `i` of a column of arrays of length `n`. -/
def fixedAt {β : Type} (f : Nat → Option β) (n : Nat) (l : List Bool) (i : Nat) : Option (List β) :=
  if i < l.length then gets f (i * n) n else none

/-- Both or none. -/
def both {β γ : Type} : Option β → Option γ → Option (β × γ)
  | some a, some b => some (a, b)
  | _, _ => none

/-- The value of the row `i` of a column. -/
def get : (t : Ty) → t.Col → Nat → Option t.Val
  | .prim p, c, i => numAt (β := BitVec p.bits) c i
  | .str, c, i => bytesAt c i
  | .bin, c, i => bytesAt c i
  | .list t, c, i => listAt (get t c.2) (len t c.2) c.1 i
  | .fixed n t, c, i => fixedAt (get t c.2) n c.1 i
  | .snil, c, i => if i < List.length (α := Bool) c then some () else none
  | .scons t ts, c, i => both (get t c.1 i) (get ts c.2 i)

/-- Offsets that go up and stay below `m`. -/
def Offs (l : List (Bool × Nat)) (m : Nat) : Prop :=
  ∀ (i : Nat) (p : Bool × Nat), l[i]? = some p → p.2 ≤ stop l m i ∧ stop l m i ≤ m

/-- A column of the Arrow format: the parts have the sizes they need to have. -/
def Wf : (t : Ty) → t.Col → Prop
  | .prim _, _ => True
  | .str, c => Offs c.1 c.2.length
  | .bin, c => Offs c.1 c.2.length
  | .list t, c => Offs c.1 (len t c.2) ∧ Wf t c.2
  | .fixed n t, c => len t c.2 = c.1.length * n ∧ Wf t c.2
  | .snil, _ => True
  | .scons t ts, c => len t c.1 = len ts c.2 ∧ Wf t c.1 ∧ Wf ts c.2

/-- No `Binary` in the type. -/
def NoBin : Ty → Prop
  | .prim _ => True
  | .str => True
  | .bin => False
  | .list t => NoBin t
  | .fixed _ t => NoBin t
  | .snil => True
  | .scons t ts => NoBin t ∧ NoBin ts

/-! ## Appending -/

theorem gets_congr {β : Type} {f g : Nat → Option β} : ∀ {n s : Nat},
    (∀ i, s ≤ i → i < s + n → f i = g i) → gets f s n = gets g s n
  | 0, _, _ => rfl
  | n + 1, s, h => by
    simp only [gets]
    rw [h s (by omega) (by omega), gets_congr (n := n) (s := s + 1) fun i h1 h2 => h i (by omega) (by omega)]

theorem gets_list {β : Type} {f : Nat → Option β} : ∀ (vs : List β) (s : Nat),
    (∀ k, k < vs.length → f (s + k) = vs[k]?) → gets f s vs.length = some vs
  | [], _, _ => rfl
  | v :: vs, s, h => by
    have h0 := h 0 (by simp)
    simp at h0
    simp only [List.length_cons, gets, h0, Option.bind_some]
    rw [gets_list vs (s + 1) fun k hk => ?_]
    · rfl
    · have := h (k + 1) (by simp; omega)
      simp only [List.getElem?_cons_succ] at this
      rw [← this]; congr 1; omega

theorem stop_snoc_lt (l : List (Bool × Nat)) (b : Bool) (m m' i : Nat) (h : i < l.length) :
    stop (snoc l (b, m)) m' i = stop l m i := by
  simp only [stop, snoc]
  by_cases h1 : i + 1 < l.length
  · rw [List.getElem?_append_left h1, List.getElem?_eq_getElem h1]
  · have : i + 1 = l.length := by omega
    rw [this, List.getElem?_append_right (Nat.le_refl _)]
    simp

theorem stop_snoc_eq (l : List (Bool × Nat)) (p : Bool × Nat) (m' : Nat) :
    stop (snoc l p) m' l.length = m' := by
  simp only [stop, snoc]
  rw [List.getElem?_eq_none (by simp)]

theorem offs_snoc {l : List (Bool × Nat)} {m m' : Nat} (b : Bool) (h : Offs l m) (hm : m ≤ m') :
    Offs (snoc l (b, m)) m' := by
  intro i p hp
  by_cases hi : i < l.length
  · rw [stop_snoc_lt l b m m' i hi]
    rw [snoc, List.getElem?_append_left hi] at hp
    have := h i p hp
    omega
  · have : i = l.length := by
      have := (List.getElem?_eq_some_iff.1 hp).1
      simp [snoc] at this
      omega
    subst this
    rw [stop_snoc_eq]
    simp [snoc] at hp
    subst hp
    exact ⟨hm, Nat.le_refl _⟩

/-- What appending does to a column: one row more, with the value appended, and
the rows before as they were. -/
structure Grown (t : Ty) (c c' : t.Col) (vs : List t.Val) : Prop where
  wf : Wf t c'
  len : len t c' = len t c + vs.length
  old : ∀ i, i < Rarrow.len t c → get t c' i = get t c i
  new : ∀ k, k < vs.length → get t c' (Rarrow.len t c + k) = vs[k]?

theorem appendAll_grown (t : Ty)
    (ih : ∀ (c : t.Col) (v : t.Val), Wf t c → Ok t v → ∃ c', appendValue t c v = some c' ∧ Grown t c c' [v]) :
    ∀ (vs : List t.Val) (c : t.Col), Wf t c → Every (Ok t) vs →
      ∃ c', appendAll (appendValue t) c vs = some c' ∧ Grown t c c' vs
  | [], c, hw, _ => ⟨c, rfl, hw, rfl, fun _ _ => rfl, fun k hk => absurd hk (by simp)⟩
  | v :: vs, c, hw, hv => by
    obtain ⟨c1, e1, g1⟩ := ih c v hw (hv v (by simp))
    obtain ⟨c2, e2, g2⟩ := appendAll_grown t ih vs c1 g1.wf fun x hx => hv x (by simp [hx])
    have hl : len t c1 = len t c + 1 := by simpa using g1.len
    refine ⟨c2, by simp only [appendAll, e1, Option.bind_some, e2], g2.wf, ?_, ?_, ?_⟩
    · rw [g2.len, hl, List.length_cons]; omega
    · intro i hi
      rw [g2.old i (by omega), g1.old i hi]
    · intro k hk
      cases k with
      | zero =>
        rw [g2.old _ (by omega), g1.new 0 (by simp)]
        rfl
      | succ k =>
        have := g2.new k (by simp at hk; omega)
        rw [List.getElem?_cons_succ, ← this, hl]
        congr 1; omega

theorem numAt_lt {β : Type} (c : List (Bool × β)) (v : β) (i : Nat) (h : i < c.length) :
    numAt (snoc c (true, v)) i = numAt c i := by
  simp only [numAt, snoc, List.getElem?_append_left h]

theorem numAt_eq {β : Type} (c : List (Bool × β)) (v : β) :
    numAt (snoc c (true, v)) c.length = some v := by
  simp [numAt, snoc]

theorem bytesAt_lt (c : List (Bool × Nat) × Bytes) (v : Bytes) (hw : Offs c.1 c.2.length) (i : Nat)
    (hi : i < c.1.length) : bytesAt (appendBytes c v) i = bytesAt c i := by
  obtain ⟨l, d⟩ := c
  replace hw : Offs l d.length := hw
  replace hi : i < l.length := hi
  simp only [bytesAt, appendBytes]
  rw [stop_snoc_lt l true _ _ i hi]
  rw [snoc, List.getElem?_append_left hi]
  cases hp : l[i]? with
  | none => rfl
  | some p =>
    have := hw i p hp
    simp only [Option.map_some, Option.some.injEq]
    rw [List.drop_append_of_le_length (by omega), List.take_append_of_le_length (by simp; omega)]

theorem appendBytes_le (c : List (Bool × Nat) × Bytes) (v : Bytes) :
    c.2.length ≤ (appendBytes c v).2.length := by simp [appendBytes]

theorem bytesAt_eq (c : List (Bool × Nat) × Bytes) (v : Bytes) :
    bytesAt (appendBytes c v) c.1.length = some v := by
  obtain ⟨l, d⟩ := c
  simp only [bytesAt, appendBytes]
  rw [stop_snoc_eq]
  have e : (snoc l (true, d.length))[l.length]? = some (true, d.length) := by simp [snoc]
  rw [e]
  simp only [Option.map_some]
  rw [List.drop_left, List.take_of_length_le (by simp)]

theorem listAt_lt {β : Type} (f g : Nat → Option β) (l : List (Bool × Nat)) (m : Nat) {m' : Nat}
    (hw : Offs l m) (h : ∀ j, j < m → g j = f j) (i : Nat) (hi : i < l.length) :
    listAt g m' (snoc l (true, m)) i = listAt f m l i := by
  simp only [listAt]
  rw [stop_snoc_lt l true _ _ i hi]
  rw [snoc, List.getElem?_append_left hi]
  cases hp : l[i]? with
  | none => rfl
  | some p =>
    have := hw i p hp
    simp only [Option.bind_some]
    exact gets_congr fun j h1 h2 => h j (by omega)

theorem listAt_eq {β : Type} (g : Nat → Option β) (l : List (Bool × Nat)) (m : Nat) {m' : Nat}
    (v : List β) (hm : m' = m + v.length) (h : ∀ k, k < v.length → g (m + k) = v[k]?) :
    listAt g m' (snoc l (true, m)) l.length = some v := by
  simp only [listAt]
  rw [stop_snoc_eq]
  have e : (snoc l (true, m))[l.length]? = some (true, m) := by simp [snoc]
  rw [e]
  simp only [Option.bind_some]
  have hl : m' - m = v.length := by omega
  rw [hl]
  exact gets_list v m h

theorem fixedAt_lt {β : Type} (n : Nat) (l : List Bool) (f g : Nat → Option β)
    (h : ∀ j, j < l.length * n → g j = f j) (i : Nat) (hi : i < l.length) :
    fixedAt g n (snoc l true) i = fixedAt f n l i := by
  have h1 : i < (snoc l true).length := by simp [snoc]; omega
  simp only [fixedAt, hi, h1, if_true]
  refine gets_congr fun j h1 h2 => h j ?_
  have : (i + 1) * n ≤ l.length * n := Nat.mul_le_mul_right n hi
  rw [Nat.add_mul] at this
  omega

theorem fixedAt_eq {β : Type} (n : Nat) (l : List Bool) (g : Nat → Option β) (v : List β)
    (hn : v.length = n) (h : ∀ k, k < v.length → g (l.length * n + k) = v[k]?) :
    fixedAt g n (snoc l true) l.length = some v := by
  have h1 : l.length < (snoc l true).length := by simp [snoc]
  simp only [fixedAt, h1, if_true]
  subst hn
  exact gets_list v _ h

theorem appendValue_grown : ∀ (t : Ty), NoBin t → ∀ (c : t.Col) (v : t.Val), Wf t c → Ok t v →
    ∃ c', appendValue t c v = some c' ∧ Grown t c c' [v]
  | .prim p, _, c, v, _, _ => by
    refine ⟨_, rfl, trivial, ?_, ?_, ?_⟩
    · exact List.length_append
    · intro i hi
      exact numAt_lt (β := BitVec p.bits) c v i hi
    · intro k hk
      have : k = 0 := Nat.lt_one_iff.1 hk
      subst this
      exact numAt_eq (β := BitVec p.bits) c v
  | .str, _, c, v, hw, _ => by
    refine ⟨_, rfl, ?_, ?_, ?_, ?_⟩
    · exact offs_snoc true hw (appendBytes_le c v)
    · exact List.length_append
    · intro i hi
      exact bytesAt_lt c v hw i hi
    · intro k hk
      have : k = 0 := Nat.lt_one_iff.1 hk
      subst this
      exact bytesAt_eq c v
  | .list t, hb, c, v, hw, hv => by
    obtain ⟨l, ch⟩ := c
    have hw : Offs l (len t ch) ∧ Wf t ch := hw
    obtain ⟨ch', e, g⟩ := appendAll_grown t (appendValue_grown t hb) v ch hw.2 hv
    have hm : len t ch ≤ len t ch' := by rw [g.len]; omega
    have ho := offs_snoc true hw.1 hm
    refine ⟨(snoc l (true, len t ch), ch'), by simp only [appendValue, e]; rfl, ⟨ho, g.wf⟩, by simp [len, snoc], ?_, ?_⟩
    · intro i hi
      exact listAt_lt _ _ _ _ hw.1 (fun j hj => g.old j hj) i hi
    · intro k hk
      have : k = 0 := Nat.lt_one_iff.1 hk
      subst this
      exact listAt_eq _ _ _ v g.len g.new
  | .fixed n t, hb, c, v, hw, hv => by
    obtain ⟨l, ch⟩ := c
    have hw : len t ch = l.length * n ∧ Wf t ch := hw
    have hv : List.length (α := t.Val) v = n ∧ Every (Ok t) v := hv
    obtain ⟨ch', e, g⟩ := appendAll_grown t (appendValue_grown t hb) v ch hw.2 hv.2
    refine ⟨(snoc l true, ch'), by simp only [appendValue, e]; rfl, ⟨?_, g.wf⟩, by simp [len, snoc], ?_, ?_⟩
    · show len t ch' = (snoc l true).length * n
      rw [g.len, hw.1, hv.1]
      simp [snoc, Nat.add_mul]
    · intro i hi
      exact fixedAt_lt n l _ _ (fun j hj => g.old j (by rw [hw.1]; exact hj)) i hi
    · intro k hk
      have : k = 0 := Nat.lt_one_iff.1 hk
      subst this
      exact fixedAt_eq n l _ v hv.1 (fun j hj => by rw [← hw.1]; exact g.new j hj)
  | .snil, _, c, v, _, _ => by
    refine ⟨_, rfl, trivial, ?_, ?_, ?_⟩
    · simp only [len, snoc, List.length_cons, List.length_nil]; exact List.length_append
    · intro i hi
      have hi : i < List.length (α := Bool) c := hi
      have h1 : i < (snoc (β := Bool) c true).length := by
        have : (snoc (β := Bool) c true).length = List.length (α := Bool) c + 1 := List.length_append
        omega
      simp only [get, hi, h1, if_true]
    · intro k hk
      have : k = 0 := Nat.lt_one_iff.1 hk
      subst this
      have h1 : List.length (α := Bool) c < (snoc (β := Bool) c true).length := by
        have : (snoc (β := Bool) c true).length = List.length (α := Bool) c + 1 := List.length_append
        omega
      simp only [get, len, Nat.add_zero, h1, if_true]
      rfl
  | .scons t ts, hb, c, v, hw, hv => by
    obtain ⟨a, b⟩ := c
    obtain ⟨x, y⟩ := v
    have hw : len t a = len ts b ∧ Wf t a ∧ Wf ts b := hw
    have hv : Ok t x ∧ Ok ts y := hv
    obtain ⟨a', e1, g1⟩ := appendValue_grown t hb.1 a x hw.2.1 hv.1
    obtain ⟨b', e2, g2⟩ := appendValue_grown ts hb.2 b y hw.2.2 hv.2
    have l1 : len t a' = len t a + 1 := by simpa using g1.len
    have l2 : len ts b' = len ts b + 1 := by simpa using g2.len
    refine ⟨(a', b'), by simp only [appendValue, e1, e2]; rfl, ⟨show len t a' = len ts b' by omega, g1.wf, g2.wf⟩, ?_, ?_, ?_⟩
    · exact l2
    · intro i hi
      have hi : i < len ts b := hi
      show both (get t a' i) (get ts b' i) = both (get t a i) (get ts b i)
      rw [g1.old i (by omega), g2.old i hi]
    · intro k hk
      have : k = 0 := Nat.lt_one_iff.1 hk
      subst this
      have n1 := g1.new 0 (by simp)
      have n2 := g2.new 0 (by simp)
      rw [hw.1] at n1
      show both (get t a' (len ts b + 0)) (get ts b' (len ts b + 0)) = some (x, y)
      rw [n1, n2]
      rfl

theorem builder_wf : ∀ t : Ty, Wf t (builder t) ∧ len t (builder t) = 0
  | .prim _ => ⟨trivial, rfl⟩
  | .str => ⟨fun i p h => by simp [builder] at h, rfl⟩
  | .bin => ⟨fun i p h => by simp [builder] at h, rfl⟩
  | .list t => ⟨⟨fun i p h => by simp [builder] at h, (builder_wf t).1⟩, rfl⟩
  | .fixed n t => ⟨⟨by simp [builder, (builder_wf t).2], (builder_wf t).1⟩, rfl⟩
  | .snil => ⟨trivial, rfl⟩
  | .scons t ts => ⟨⟨by rw [show len t (builder (.scons t ts)).1 = 0 from (builder_wf t).2]; exact (builder_wf ts).2.symm,
      (builder_wf t).1, (builder_wf ts).1⟩, (builder_wf ts).2⟩

/-- **C161**: a column made by appending values holds them: row `k` is the value
appended in turn `k`, whatever the nesting of lists, arrays and structs. -/
theorem C161_column (t : Ty) (hb : NoBin t) (vs : List t.Val) (hv : ∀ v ∈ vs, Ok t v) :
    ∃ c, appendAll (appendValue t) (builder t) vs = some c ∧ Wf t c ∧ len t c = vs.length ∧
      ∀ k, k < vs.length → get t c k = vs[k]? := by
  obtain ⟨c, e, g⟩ := appendAll_grown t (appendValue_grown t hb) vs (builder t) (builder_wf t).1 hv
  have h0 := (builder_wf t).2
  refine ⟨c, e, g.wf, by rw [g.len, h0]; omega, fun k hk => ?_⟩
  have := g.new k hk
  rw [h0, Nat.zero_add] at this
  exact this

/-- Three lists of pairs of bytes. -/
def pairs : List (Ty.list (.fixed 2 (.prim .u8))).Val :=
  ([[[1, 2], [3, 4]], [], [[5, 6]]] : List (List (List (BitVec 8))))

theorem Every.nil {β : Type} {P : β → Prop} : Every P [] := fun _ h => absurd h (by simp)

theorem Every.cons {β : Type} {P : β → Prop} {a : β} {l : List β} (h : P a) (t : Every P l) : Every P (a :: l) := by
  intro x hx
  rcases List.mem_cons.1 hx with rfl | hx
  · exact h
  · exact t x hx

theorem pairs_ok : Every (Ok (.list (.fixed 2 (.prim .u8)))) pairs :=
  .cons (.cons ⟨rfl, fun _ _ => trivial⟩ (.cons ⟨rfl, fun _ _ => trivial⟩ .nil))
    (.cons .nil (.cons (.cons ⟨rfl, fun _ _ => trivial⟩ .nil) .nil))

example : ∃ c, appendAll (appendValue (.list (.fixed 2 (.prim .u8)))) (builder _) pairs = some c ∧
    len _ c = 3 ∧ get _ c 2 = some ([[5, 6]] : List (List (BitVec 8))) := by
  obtain ⟨c, h, _, hl, hg⟩ := C161_column (.list (.fixed 2 (.prim .u8))) trivial pairs pairs_ok
  exact ⟨c, h, hl, hg 2 (by decide)⟩

/-! ## Schemas -/

/-- No `[]byte` in the type, and no `Binary`. -/
def NoBytes : Ty → Prop
  | .prim _ => True
  | .str => True
  | .bin => False
  | .list t => t ≠ .prim .u8 ∧ NoBytes t
  | .fixed _ t => NoBytes t
  | .snil => True
  | .scons t ts => NoBytes t ∧ NoBytes ts

theorem fromGo_eq : ∀ t : Ty, NoBytes t → fromGo t = t
  | .prim _, _ => rfl
  | .str, _ => rfl
  | .bin, h => absurd h (by simp [NoBytes])
  | .list t, h => by
    have h : t ≠ .prim .u8 ∧ NoBytes t := h
    have e := fromGo_eq t h.2
    have : fromGo (.list t) = .list (fromGo t) := by
      cases t with
      | prim p => cases p <;> first | rfl | exact absurd rfl h.1
      | _ => rfl
    rw [this, e]
  | .fixed n t, h => by
    have e := fromGo_eq t h
    simp only [fromGo, e]
  | .snil, _ => rfl
  | .scons t ts, h => by
    simp only [fromGo, fromGo_eq t h.1, fromGo_eq ts h.2]

/-- A leaf Arrow has a type for: its element is a number or a string, or a
struct or slice without `[]byte`. -/
def Readable (l : Leaf) : Prop :=
  if l.plain then l.elem = .str ∨ ∃ p, l.elem = .prim p else NoBytes l.elem

theorem noBytes_noBin : ∀ t : Ty, NoBytes t → NoBin t
  | .prim _, _ => trivial
  | .str, _ => trivial
  | .bin, h => h
  | .list t, h => noBytes_noBin t h.2
  | .fixed _ t, h => noBytes_noBin t h
  | .snil, _ => trivial
  | .scons t ts, h => ⟨noBytes_noBin t h.1, noBytes_noBin ts h.2⟩

theorem arrays_noBin (t : Ty) (h : NoBin t) : ∀ ns, NoBin (arrays t ns)
  | [] => h
  | _ :: ns => arrays_noBin t h ns

theorem wrap_noBin (l : Leaf) (t : Ty) (h : NoBin t) : NoBin (wrap l t) := by
  simp only [wrap]
  split
  · exact arrays_noBin t h _
  · split
    · split
      · exact h
      · exact arrays_noBin t h _
    · exact h

/-- **C161**: the field of a branch of one leaf has the name of the branch and
the type of the Go value of the leaf. -/
theorem C161_field (b : Branch) (l : Leaf) (hl : b.leaves = [l]) (h : Readable l) :
    field b = (b.name, goTy l) ∧ NoBin (goTy l) := by
  simp only [Readable] at h
  have hf : field b = (b.name, leafTy l) := by simp only [field, hl]
  rw [hf]
  cases hp : l.plain with
  | true =>
    simp only [hp, if_true] at h
    refine ⟨by simp only [leafTy, goTy, hp, if_true], wrap_noBin l l.elem ?_⟩
    rcases h with h | ⟨p, h⟩ <;> rw [h] <;> exact trivial
  | false =>
    simp only [hp, Bool.false_eq_true, if_false] at h
    refine ⟨by simp only [leafTy, goTy, hp, Bool.false_eq_true, if_false, fromGo_eq _ h], wrap_noBin l l.elem (noBytes_noBin _ h)⟩

/-- A leaf `x[n][2]/s` of unsigned 16-bit numbers. -/
def leafX : Leaf := ⟨"x", .prim .u16, true, false, true, 2, [2]⟩

example : field ⟨"x", [leafX]⟩ = ("x", .list (.fixed 2 (.prim .u16))) :=
  (C161_field ⟨"x", [leafX]⟩ leafX rfl (Or.inr ⟨_, rfl⟩)).1

/-! ## Records -/

/-- The cell of a row of a column. -/
def cellAt (c : Column) (j : Nat) : Option Cell := (get c.1 c.2 j).map fun v => ⟨c.1, v⟩

/-- All the rows of a column of lists are there, none is null. -/
def Valid : (t : Ty) → t.Col → Prop
  | .list _, c => ∀ p ∈ c.1, p.1 = true
  | _, _ => True

theorem appendValue_valid (t : Ty) (c : t.Col) (v : t.Val) (c' : t.Col)
    (h : appendValue t c v = some c') (hc : Valid t c) : Valid t c' := by
  cases t with
  | list t =>
    simp only [appendValue] at h
    cases ha : appendAll (appendValue t) c.2 v with
    | none => rw [ha] at h; exact nomatch (show none = some c' from h)
    | some ch =>
      rw [ha] at h
      obtain rfl := Option.some.inj h
      intro p hp
      have hp : p ∈ c.1 ++ [(true, len t c.2)] := hp
      rcases List.mem_append.1 hp with hp | hp
      · exact hc p hp
      · exact congrArg Prod.fst (List.mem_singleton.1 hp)
  | _ => trivial

theorem builder_valid (t : Ty) : Valid t (builder t) := by
  cases t with
  | list t => intro p hp; simp [builder] at hp
  | _ => trivial

/-- A value fits a column. -/
def Fits (c : Column) (v : Cell) : Prop := v.1 = c.1 ∧ Ok v.1 v.2

theorem appendData_grown (c : Column) (v : Cell) (hb : NoBin c.1) (hw : Wf c.1 c.2)
    (hv : Valid c.1 c.2) (hf : Fits c v) :
    ∃ c', appendData c v = some c' ∧ c'.1 = c.1 ∧ Wf c'.1 c'.2 ∧ Valid c'.1 c'.2 ∧
      len c'.1 c'.2 = len c.1 c.2 + 1 ∧ (∀ i, i < len c.1 c.2 → cellAt c' i = cellAt c i) ∧
      cellAt c' (len c.1 c.2) = some v := by
  obtain ⟨t, c⟩ := c
  obtain ⟨s, v⟩ := v
  obtain ⟨e, ho⟩ := hf
  replace e : s = t := e
  subst e
  obtain ⟨c', e, g⟩ := appendValue_grown s hb c v hw ho
  refine ⟨⟨s, c'⟩, ?_, rfl, g.wf, appendValue_valid s c v c' e hv, g.len, ?_, ?_⟩
  · simp only [appendData, dite_true]
    show (appendValue s c v).map _ = _
    rw [e]; rfl
  · intro i hi
    show (get s c' i).map _ = (get s c i).map _
    rw [g.old i hi]
  · have := g.new 0 (by simp)
    show (get s c' (len s c)).map _ = _
    rw [Nat.add_zero] at this
    rw [this]
    rfl

theorem appendRow_ok : ∀ (cs : List Column) (vs : List Cell),
    (∀ (i : Nat) (c : Column), cs[i]? = some c → ∃ v, vs[i]? = some v ∧ (appendData c v).isSome) →
    ∃ cs', appendRow cs vs = some cs' ∧ cs'.length = cs.length ∧
      ∀ (i : Nat) (c' : Column), cs'[i]? = some c' →
        ∃ c v, cs[i]? = some c ∧ vs[i]? = some v ∧ appendData c v = some c'
  | [], vs, _ => ⟨[], by cases vs <;> rfl, rfl, by simp⟩
  | c :: cs, [], h => by
    obtain ⟨v, hv, _⟩ := h 0 c (by simp)
    simp at hv
  | c :: cs, v :: vs, h => by
    obtain ⟨v', hv, hs⟩ := h 0 c (by simp)
    simp at hv
    subst hv
    obtain ⟨c', hc⟩ := Option.isSome_iff_exists.1 hs
    obtain ⟨cs', e, hl, hi⟩ := appendRow_ok cs vs fun i d hd => by
      obtain ⟨w, hw, hs⟩ := h (i + 1) d (by simpa using hd)
      exact ⟨w, by simpa using hw, hs⟩
    refine ⟨c' :: cs', by simp only [appendRow, hc, e, Option.bind_some, Option.map_some], by simp [hl], ?_⟩
    intro i d hd
    cases i with
    | zero =>
      simp at hd
      subst hd
      exact ⟨c, v, by simp, by simp, hc⟩
    | succ i =>
      obtain ⟨a, b, h1, h2, h3⟩ := hi i d (by simpa using hd)
      exact ⟨a, b, by simpa using h1, by simpa using h2, h3⟩

/-- The columns hold the rows. -/
structure Holds (tys : List Ty) (rows : List (List Cell)) (cs : List Column) : Prop where
  types : ∀ (i : Nat) (c : Column), cs[i]? = some c → tys[i]? = some c.1
  count : cs.length = tys.length
  wf : ∀ c ∈ cs, Wf c.1 c.2 ∧ Valid c.1 c.2 ∧ len c.1 c.2 = rows.length
  cells : ∀ (i j : Nat) (c : Column) (r : List Cell), cs[i]? = some c → rows[j]? = some r →
    ∃ v, r[i]? = some v ∧ cellAt c j = some v

/-- A row of values of the given types. -/
def RowOf (tys : List Ty) (r : List Cell) : Prop := r.map (·.1) = tys ∧ ∀ v ∈ r, Ok v.1 v.2

theorem holds_snoc {tys : List Ty} {rows : List (List Cell)} {cs : List Column} (h : Holds tys rows cs)
    (hb : ∀ t ∈ tys, NoBin t) (r : List Cell) (hr : RowOf tys r) :
    ∃ cs', appendRow cs r = some cs' ∧ Holds tys (rows ++ [r]) cs' := by
  have fit : ∀ (i : Nat) (c : Column), cs[i]? = some c →
      ∃ v, r[i]? = some v ∧ Fits c v ∧ NoBin c.1 ∧ Wf c.1 c.2 ∧ Valid c.1 c.2 ∧ len c.1 c.2 = rows.length := by
    intro i c hc
    have ht := h.types i c hc
    rw [← hr.1, List.getElem?_map] at ht
    cases hv : r[i]? with
    | none => rw [hv] at ht; simp at ht
    | some v =>
      rw [hv] at ht
      simp only [Option.map_some, Option.some.injEq] at ht
      obtain ⟨w1, w2, w3⟩ := h.wf c (List.mem_of_getElem? hc)
      have hm : c.1 ∈ tys := by
        rw [← hr.1, ← ht]
        exact List.mem_map.2 ⟨v, List.mem_of_getElem? hv, rfl⟩
      exact ⟨v, rfl, ⟨ht, hr.2 v (List.mem_of_getElem? hv)⟩, hb _ hm, w1, w2, w3⟩
  obtain ⟨cs', e, hl, hi⟩ := appendRow_ok cs r fun i c hc => by
    obtain ⟨v, hv, f, b, w, va, _⟩ := fit i c hc
    obtain ⟨c', hc', _⟩ := appendData_grown c v b w va f
    exact ⟨v, hv, by rw [hc']; rfl⟩
  have new : ∀ (i : Nat) (c' : Column), cs'[i]? = some c' → ∃ c v, cs[i]? = some c ∧ r[i]? = some v ∧
      c'.1 = c.1 ∧ Wf c'.1 c'.2 ∧ Valid c'.1 c'.2 ∧ len c'.1 c'.2 = rows.length + 1 ∧
      (∀ j, j < rows.length → cellAt c' j = cellAt c j) ∧ cellAt c' rows.length = some v := by
    intro i c' hc'
    obtain ⟨c, v, h1, h2, h3⟩ := hi i c' hc'
    obtain ⟨v', hv', f, b, w, va, hn⟩ := fit i c h1
    obtain rfl := Option.some.inj (h2.symm.trans hv')
    obtain ⟨d, e1, e2, e3, e4, e5, e6, e7⟩ := appendData_grown c v b w va f
    obtain rfl := Option.some.inj (h3.symm.trans e1)
    rw [hn] at e5 e6 e7
    exact ⟨c, v, h1, h2, e2, e3, e4, e5, e6, e7⟩
  refine ⟨cs', e, ?_, by rw [hl, h.count], ?_, ?_⟩
  · intro i c' hc'
    obtain ⟨c, v, h1, _, h3, _⟩ := new i c' hc'
    rw [h3]
    exact h.types i c h1
  · intro c' hc'
    obtain ⟨i, hi'⟩ := List.mem_iff_getElem?.1 hc'
    obtain ⟨c, v, _, _, _, h4, h5, h6, _⟩ := new i c' hi'
    exact ⟨h4, h5, by simp [h6]⟩
  · intro i j c' q hc' hq
    obtain ⟨c, v, h1, h2, _, _, _, _, h7, h8⟩ := new i c' hc'
    by_cases hj : j < rows.length
    · rw [List.getElem?_append_left hj] at hq
      obtain ⟨w, hw, hw'⟩ := h.cells i j c q h1 hq
      exact ⟨w, hw, by rw [h7 j hj, hw']⟩
    · have : j = rows.length := by
        have := (List.getElem?_eq_some_iff.1 hq).1
        simp at this; omega
      subst this
      simp at hq
      subst hq
      exact ⟨v, h2, h8⟩

theorem holds_all {tys : List Ty} (hb : ∀ t ∈ tys, NoBin t) : ∀ (rs rows : List (List Cell)) (cs : List Column),
    Holds tys rows cs → (∀ r ∈ rs, RowOf tys r) →
    ∃ cs', appendAll appendRow cs rs = some cs' ∧ Holds tys (rows ++ rs) cs'
  | [], rows, cs, h, _ => ⟨cs, rfl, by simpa using h⟩
  | r :: rs, rows, cs, h, hr => by
    obtain ⟨c1, e1, h1⟩ := holds_snoc h hb r (hr r (by simp))
    obtain ⟨c2, e2, h2⟩ := holds_all hb rs (rows ++ [r]) c1 h1 fun q hq => hr q (by simp [hq])
    exact ⟨c2, by simp only [appendAll, e1, Option.bind_some, e2], by simpa using h2⟩

/-- Branches of one leaf each, which Arrow has a type for. -/
def Single (bs : List Branch) : Prop := ∀ b ∈ bs, ∃ l, b.leaves = [l] ∧ Readable l

theorem single_types {bs : List Branch} (h : Single bs) :
    (schema bs).map (·.2) = rvars bs ∧ ∀ t ∈ rvars bs, NoBin t := by
  induction bs with
  | nil => exact ⟨rfl, by simp [rvars]⟩
  | cons b bs ih =>
    obtain ⟨l, hl, hr⟩ := h b (by simp)
    obtain ⟨h1, h2⟩ := ih fun b hb => h b (by simp [hb])
    have hf := C161_field b l hl hr
    have hv : rvars (b :: bs) = goTy l :: rvars bs := by simp [rvars, hl]
    rw [hv]
    refine ⟨?_, ?_⟩
    · rw [← h1]
      simp [schema, hf.1]
    · intro t ht
      rcases List.mem_cons.1 ht with rfl | ht
      · exact hf.2
      · exact h2 t ht

/-- **C161**: the record of a tree whose branches have one leaf each has a
column per branch, of as many rows as there are entries, and its cell in column
`i` and row `j` is the value of branch `i` in entry `j`.  Missing: branches of
several leaves and slices of bytes, which the counterexamples are about. -/
theorem C161_record_partial (bs : List Branch) (hs : Single bs) (rows : List (List Cell))
    (hr : ∀ r ∈ rows, RowOf (rvars bs) r) :
    ∃ cs, columns bs rows = some cs ∧ cs.length = bs.length ∧
      (∀ c ∈ cs, len c.1 c.2 = rows.length) ∧
      ∀ (i j : Nat) (c : Column) (r : List Cell), cs[i]? = some c → rows[j]? = some r →
        ∃ v, r[i]? = some v ∧ cellAt c j = some v := by
  obtain ⟨ht, hb⟩ := single_types hs
  have h0 : Holds (rvars bs) [] ((schema bs).map fun f => ⟨f.2, builder f.2⟩) := by
    refine ⟨?_, ?_, ?_, by simp⟩
    · intro i c hc
      rw [← ht]
      simp only [List.getElem?_map, Option.map_eq_some_iff] at hc ⊢
      obtain ⟨f, hf, rfl⟩ := hc
      exact ⟨f, hf, rfl⟩
    · rw [← ht]; simp
    · intro c hc
      simp only [List.mem_map] at hc
      obtain ⟨f, _, rfl⟩ := hc
      exact ⟨(builder_wf _).1, builder_valid _, (builder_wf _).2⟩
  obtain ⟨cs, e, h⟩ := holds_all hb rows [] _ h0 hr
  simp only [List.nil_append] at h
  refine ⟨cs, e, ?_, fun c hc => (h.wf c hc).2.2, h.cells⟩
  rw [h.count, ← ht]; simp [schema]

/-- A tree of two branches, numbers and lists of pairs. -/
def tree2 : List Branch := [⟨"n", [⟨"n", .prim .i32, true, false, false, 1, []⟩]⟩, ⟨"x", [leafX]⟩]

def row1 : List Cell := [⟨.prim .i32, (1#32 : BitVec 32)⟩, ⟨.list (.fixed 2 (.prim .u16)), ([[7, 8]] : List (List (BitVec 16)))⟩]
def row2 : List Cell := [⟨.prim .i32, (0#32 : BitVec 32)⟩, ⟨.list (.fixed 2 (.prim .u16)), ([] : List (List (BitVec 16)))⟩]

theorem tree2_single : Single tree2 := by
  intro b hb
  simp [tree2] at hb
  rcases hb with rfl | rfl
  · exact ⟨_, rfl, Or.inr ⟨_, rfl⟩⟩
  · exact ⟨_, rfl, Or.inr ⟨_, rfl⟩⟩

theorem row1_ok : Every (fun v : Cell => Ok v.1 v.2) row1 :=
  .cons trivial (.cons (Every.cons ⟨rfl, fun _ _ => trivial⟩ .nil) .nil)

theorem row2_ok : Every (fun v : Cell => Ok v.1 v.2) row2 :=
  .cons trivial (.cons (Every.nil (P := Ok (.fixed 2 (.prim .u16)))) .nil)

theorem tree2_rows : ∀ r ∈ [row1, row2], RowOf (rvars tree2) r :=
  Every.cons ⟨rfl, row1_ok⟩ (.cons ⟨rfl, row2_ok⟩ .nil)

example : ∃ cs, columns tree2 [row1, row2] = some cs ∧ cs.length = 2 ∧
      (∀ c ∈ cs, len c.1 c.2 = 2) ∧
      ∀ (i j : Nat) (c : Column) (r : List Cell), cs[i]? = some c → [row1, row2][j]? = some r →
        ∃ v, r[i]? = some v ∧ cellAt c j = some v :=
  C161_record_partial tree2 tree2_single [row1, row2] tree2_rows

/-- **C161** does not hold for branches of several leaves: the schema has one
field for the branch, the variables read are one per leaf.  A branch of two
numbers is a struct in the schema, and the first entry panics. -/
theorem C161_leaves_counterexample :
    ∃ (bs : List Branch) (row : List Cell), RowOf (rvars bs) row ∧
      (schema bs).map (·.2) = [.scons (.prim .i32) (.scons (.prim .f32) .snil)] ∧
      columns bs [row] = none := by
  refine ⟨[⟨"b", [⟨"n", .prim .i32, true, false, false, 1, []⟩, ⟨"y", .prim .f32, true, false, false, 1, []⟩]⟩],
    [⟨.prim .i32, (1#32 : BitVec 32)⟩, ⟨.prim .f32, (2#32 : BitVec 32)⟩], ⟨rfl, ?_⟩, rfl, ?_⟩
  · intro v hv
    simp at hv
    rcases hv with rfl | rfl <;> trivial
  · simp [columns, schema, field, struct, leafTy, wrap, appendAll, appendRow, appendData]

/-- **C161** does not hold for slices of bytes: they are given the type
`Binary`, for which no value is ever appended. -/
theorem C161_bytes_counterexample (name : String) (v : Bytes) (c : Ty.bin.Col) :
    field ⟨name, [⟨name, .list (.prim .u8), false, false, false, 1, []⟩]⟩ = (name, .bin) ∧
    appendValue .bin c v = none := ⟨rfl, rfl⟩

/-! ## Flat trees -/

theorem gets_shift {β : Type} (f : Nat → Option β) (s : Nat) : ∀ (n k : Nat),
    gets (fun i => f (s + i)) k n = gets f (s + k) n
  | 0, _ => rfl
  | n + 1, k => by
    simp only [gets]
    rw [gets_shift f s n (k + 1)]
    rfl

/-- Types of the elements of lists and arrays in a flat tree. -/
def Elem : Ty → Prop
  | .prim _ => True
  | .str => True
  | .bin => True
  | .fixed _ t => Elem t
  | _ => False

/-- Types of the columns of a flat tree: lists of elements, or elements. -/
def Flat : Ty → Prop
  | .list t => Elem t
  | t => Elem t

theorem readElem_eq : ∀ (t : Ty), Elem t → ∀ (c : t.Col), Wf t c → ∀ off i, off + i < len t c →
    readElem t c off i = get t c (off + i)
  | .prim _, _, _, _, _, _, _ => rfl
  | .str, _, _, _, _, _, _ => rfl
  | .bin, _, _, _, _, _, _ => rfl
  | .fixed n t, he, c, hw, off, i, hi => by
    obtain ⟨l, ch⟩ := c
    have hw : len t ch = l.length * n ∧ Wf t ch := hw
    have hi : off + i < l.length := hi
    have hle : (off + i + 1) * n ≤ len t ch := by
      rw [hw.1]; exact Nat.mul_le_mul_right n hi
    have hlt : (off + i) * n + n ≤ len t ch := by rw [← Nat.succ_mul]; exact hle
    show (if (off + i + 1) * n ≤ len t ch then gets (fun k => readElem t ch ((off + i) * n) k) 0 n else none)
      = fixedAt (get t ch) n l (off + i)
    simp only [hle, fixedAt, hi, if_true]
    rw [gets_congr (g := fun k => get t ch ((off + i) * n + k)) fun k _ hk =>
      readElem_eq t he ch hw.2 _ _ (by omega)]
    exact gets_shift _ _ _ 0

theorem gets_length {β : Type} {f : Nat → Option β} : ∀ {n s : Nat} {vs : List β},
    gets f s n = some vs → vs.length = n
  | 0, s, vs, h => by simp [gets] at h; subst h; rfl
  | n + 1, s, vs, h => by
    simp only [gets] at h
    cases h1 : f s with
    | none => rw [h1] at h; simp at h
    | some v =>
      rw [h1] at h
      simp only [Option.bind_some, Option.map_eq_some_iff] at h
      obtain ⟨ws, h2, rfl⟩ := h
      simp [gets_length h2]

theorem gets_some {β : Type} {f : Nat → Option β} : ∀ (n s : Nat),
    (∀ i, s ≤ i → i < s + n → ∃ v, f i = some v) → ∃ vs, gets f s n = some vs
  | 0, s, _ => ⟨[], rfl⟩
  | n + 1, s, h => by
    obtain ⟨v, hv⟩ := h s (by omega) (by omega)
    obtain ⟨vs, hvs⟩ := gets_some n (s + 1) fun i h1 h2 => h i (by omega) (by omega)
    exact ⟨v :: vs, by simp only [gets, hv, hvs, Option.bind_some, Option.map_some]⟩

/-- A column of the Arrow format has a value in each of its rows. -/
theorem get_some : ∀ (t : Ty) (c : t.Col), Wf t c → ∀ i, i < len t c → ∃ v, get t c i = some v
  | .prim p, c, _, i, hi => by
    have hi : i < List.length (α := Bool × BitVec p.bits) c := hi
    refine ⟨(List.get (α := Bool × BitVec p.bits) c ⟨i, hi⟩).2, ?_⟩
    show numAt (β := BitVec p.bits) c i = _
    simp only [numAt]
    exact congrArg (Option.map Prod.snd) (List.getElem?_eq_getElem hi)
  | .str, c, _, i, hi => by
    have hi : i < c.1.length := hi
    exact ⟨_, by show bytesAt c i = _; simp only [bytesAt]; rw [List.getElem?_eq_getElem hi]; rfl⟩
  | .bin, c, _, i, hi => by
    have hi : i < c.1.length := hi
    exact ⟨_, by show bytesAt c i = _; simp only [bytesAt]; rw [List.getElem?_eq_getElem hi]; rfl⟩
  | .list t, c, hw, i, hi => by
    obtain ⟨l, ch⟩ := c
    have hw : Offs l (len t ch) ∧ Wf t ch := hw
    have hi : i < l.length := hi
    have ho := hw.1 i l[i] (List.getElem?_eq_getElem hi)
    obtain ⟨vs, hvs⟩ := gets_some (f := get t ch) (stop l (len t ch) i - l[i].2) l[i].2
      fun j _ hj => get_some t ch hw.2 j (by omega)
    refine ⟨vs, ?_⟩
    show listAt (get t ch) (len t ch) l i = some vs
    simp only [listAt]
    rw [List.getElem?_eq_getElem hi]
    exact hvs
  | .fixed n t, c, hw, i, hi => by
    obtain ⟨l, ch⟩ := c
    have hw : len t ch = l.length * n ∧ Wf t ch := hw
    have hi : i < l.length := hi
    have hle : (i + 1) * n ≤ len t ch := by rw [hw.1]; exact Nat.mul_le_mul_right n hi
    rw [Nat.add_mul] at hle
    obtain ⟨vs, hvs⟩ := gets_some (f := get t ch) n (i * n) fun j _ hj => get_some t ch hw.2 j (by omega)
    refine ⟨vs, ?_⟩
    show fixedAt (get t ch) n l i = some vs
    simp only [fixedAt, hi, if_true]
    exact hvs
  | .snil, c, _, i, hi => ⟨(), if_pos hi⟩
  | .scons t ts, c, hw, i, hi => by
    have hw : len t c.1 = len ts c.2 ∧ Wf t c.1 ∧ Wf ts c.2 := hw
    have hi : i < len ts c.2 := hi
    obtain ⟨v, hv⟩ := get_some t c.1 hw.2.1 i (by omega)
    obtain ⟨w, hw⟩ := get_some ts c.2 hw.2.2 i hi
    refine ⟨(v, w), ?_⟩
    show both (get t c.1 i) (get ts c.2 i) = _
    rw [hv, hw]; rfl

/-- The counter written next to a value: the length of a list. -/
def countOf : (t : Ty) → t.Val → Option Nat
  | .list t, v => some (List.length (α := t.Val) v)
  | _, _ => none

theorem readFrom_of_elem (t : Ty) (he : Elem t) (c : t.Col) (off i : Nat) :
    readFrom t c off i = (readElem t c off i).map fun v => (v, none) := by
  cases t with
  | list t => exact he.elim
  | _ => rfl

theorem readFrom_eq (t : Ty) (hf : Flat t) (c : t.Col) (hw : Wf t c) (hv : Valid t c) (off i : Nat)
    (hi : off + i < len t c) :
    ∃ v, get t c (off + i) = some v ∧ readFrom t c off i = some (v, countOf t v) := by
  obtain ⟨v, hg⟩ := get_some t c hw _ hi
  refine ⟨v, hg, ?_⟩
  by_cases hl : ∃ s, t = .list s
  · obtain ⟨s, rfl⟩ := hl
    obtain ⟨l, ch⟩ := c
    replace hw : Offs l (len s ch) ∧ Wf s ch := hw
    replace hi : off + i < l.length := hi
    replace hg : listAt (get s ch) (len s ch) l (off + i) = some v := hg
    have hp : l[i + off]? = some (l[off + i]) := by
      rw [Nat.add_comm i off]; exact List.getElem?_eq_getElem hi
    have ho := hw.1 (off + i) l[off + i] (List.getElem?_eq_getElem hi)
    have hva : (l[off + i]).1 = true := hv _ (List.getElem_mem hi)
    simp only [listAt] at hg
    rw [List.getElem?_eq_getElem hi] at hg
    simp only [Option.bind_some] at hg
    have he : gets (fun k => readElem s ch (l[off + i]).2 k) 0 (stop l (len s ch) (i + off) - (l[off + i]).2)
        = some v := by
      rw [Nat.add_comm i off]
      rw [gets_congr (g := fun k => get s ch ((l[off + i]).2 + k)) fun k _ hk =>
        readElem_eq s hf ch hw.2 _ _ (by omega)]
      rw [gets_shift]
      exact hg
    have hlen := gets_length he
    show ((l[i + off]?).bind fun p => if p.1 then
        (gets (fun k => readElem s ch p.2 k) 0 (stop l (len s ch) (i + off) - p.2)).map
          fun v => (v, some (stop l (len s ch) (i + off) - p.2))
      else some (([] : List s.Val), some 0)) = some (v, some (List.length (α := s.Val) v))
    rw [hp]
    simp only [Option.bind_some, hva, if_true]
    rw [he, hlen]
    rfl
  · have he : Elem t := by
      cases t with
      | list s => exact absurd ⟨s, rfl⟩ hl
      | _ => exact hf
    rw [readFrom_of_elem t he, readElem_eq t he c hw off i hi, hg]
    cases t with
    | list s => exact absurd ⟨s, rfl⟩ hl
    | _ => rfl

/-- A column of a record that can be written: a slice of `n` rows of a column of
the Arrow format, of a flat type, without null lists. -/
def Writable (n : Nat) (a : Arr) : Prop :=
  a.n = n ∧ Flat a.t ∧ Wf a.t a.c ∧ Valid a.t a.c ∧ a.off + n ≤ len a.t a.c

/-- The row `k` of the columns, with the counters. -/
def RowIs (as : List Arr) (k : Nat) (r : List Written) : Prop :=
  r.length = as.length ∧ ∀ (i : Nat) (a : Arr), as[i]? = some a →
    ∃ v, get a.t a.c (a.off + k) = some v ∧ r[i]? = some (⟨a.t, v⟩, countOf a.t v)

theorem readRow_eq {n k : Nat} (hk : k < n) : ∀ (as : List Arr), (∀ a ∈ as, Writable n a) →
    ∃ r, readRow k as = some r ∧ RowIs as k r
  | [], _ => ⟨[], rfl, rfl, by simp⟩
  | a :: as, h => by
    obtain ⟨_, hf, hw, hv, hl⟩ := h a (by simp)
    obtain ⟨v, hg, hr⟩ := readFrom_eq a.t hf a.c hw hv a.off k (by omega)
    obtain ⟨r, he, h1, h2⟩ := readRow_eq hk as fun b hb => h b (by simp [hb])
    refine ⟨(⟨a.t, v⟩, countOf a.t v) :: r, ?_, by simp [h1], ?_⟩
    · simp only [readRow, hr, he, Option.bind_some, Option.map_some]
    · intro i b hb
      cases i with
      | zero =>
        simp at hb
        subst hb
        exact ⟨v, hg, by simp⟩
      | succ i =>
        obtain ⟨w, h3, h4⟩ := h2 i b (by simpa using hb)
        exact ⟨w, h3, by simpa using h4⟩

theorem writeRows_eq {n : Nat} (as : List Arr) (h : ∀ a ∈ as, Writable n a) : ∀ (m k : Nat) (es : List (List Written)),
    k + m = n → ∃ rs, writeRows as k m es = (es ++ rs, .ok) ∧ rs.length = m ∧
      ∀ (j : Nat) (r : List Written), rs[j]? = some r → RowIs as (k + j) r
  | 0, k, es, _ => ⟨[], by simp [writeRows], rfl, by simp⟩
  | m + 1, k, es, hm => by
    obtain ⟨r, hr, hi⟩ := readRow_eq (n := n) (k := k) (by omega) as h
    obtain ⟨rs, h1, h2, h3⟩ := writeRows_eq as h m (k + 1) (es ++ [r]) (by omega)
    refine ⟨r :: rs, ?_, by simp [h2], ?_⟩
    · simp only [writeRows, hr, h1, List.append_assoc, List.singleton_append]
    · intro j q hq
      cases j with
      | zero => simp at hq; subst hq; exact hi
      | succ j =>
        have := h3 j q (by simpa using hq)
        rwa [show k + 1 + j = k + (j + 1) by omega] at this

/-- **C162**: writing a record of `n` rows into a flat tree adds `n` entries,
entry `k` with the values of row `k`, and the length of every list in its
counter.  The columns of the record may be slices.  Missing: nulls, nested
lists and structs. -/
theorem C162_write_partial (n : Nat) (as : List Arr) (h0 : as ≠ []) (h : ∀ a ∈ as, Writable n a)
    (es : List (List Written)) :
    ∃ rs, write (as.map Arr.t) as es = (es ++ rs, .ok) ∧ rs.length = n ∧
      ∀ (k : Nat) (r : List Written), rs[k]? = some r → RowIs as k r := by
  cases as with
  | nil => exact absurd rfl h0
  | cons a as =>
    obtain ⟨rs, h1, h2, h3⟩ := writeRows_eq (a :: as) h n 0 es (by omega)
    have ha : a.n = n := (h a (by simp)).1
    have hall : (as.all fun b => b.n == a.n) = true := by
      simp only [List.all_eq_true, beq_iff_eq]
      intro b hb
      rw [ha, (h b (by simp [hb])).1]
    refine ⟨rs, ?_, h2, fun k r hr => by simpa using h3 k r hr⟩
    simp only [write, ne_eq, not_true_eq_false, if_false]
    rw [if_pos hall, ha]
    exact h1

/-- A column of lists, of three rows, and the slice of its last two rows. -/
def colX : (Ty.list (.prim .u8)).Col := ([(true, 0), (true, 2), (true, 2)], ([(true, 5#8), (true, 6#8), (true, 7#8)] : List (Bool × BitVec 8)))

example : ∃ rs, write [.list (.prim .u8)] [⟨_, colX, 1, 2⟩] [] = ([] ++ rs, .ok) ∧ rs.length = 2 ∧
      ∀ (k : Nat) (r : List Written), rs[k]? = some r → RowIs [⟨.list (.prim .u8), colX, 1, 2⟩] k r :=
  C162_write_partial 2 [⟨_, colX, 1, 2⟩] (by simp) (by
    intro a ha
    simp at ha
    subst ha
    refine ⟨rfl, trivial, ⟨?_, trivial⟩, ?_, by decide⟩
    · intro i p hp
      have hi := (List.getElem?_eq_some_iff.1 hp).1
      have hi : i < 3 := hi
      have : i = 0 ∨ i = 1 ∨ i = 2 := by omega
      rcases this with rfl | rfl | rfl <;> cases hp <;> decide
    · intro p hp
      have hp : p ∈ [(true, 0), (true, 2), (true, 2)] := hp
      simp at hp
      rcases hp with rfl | rfl <;> rfl) []

/-- **C162**: a record of other types is refused, and nothing is written. -/
theorem C162_schema (sch : List Ty) (as : List Arr) (h : as.map Arr.t ≠ sch) (es : List (List Written)) :
    write sch as es = (es, .err) := by
  simp only [write, ne_eq, h, not_false_eq_true, if_true]

example : write [.prim .i64] [⟨.prim .i32, ([] : List (Bool × BitVec 32)), 0, 0⟩] [] = ([], .err) :=
  C162_schema _ _ (by decide) []

/-- **C161, C162**: the record of a tree whose branches have one leaf each, of
flat types, written into a flat tree gives back the entries of the tree. -/
theorem C162_tree_partial (bs : List Branch) (h0 : bs ≠ []) (hs : Single bs) (hf : ∀ t ∈ rvars bs, Flat t)
    (rows : List (List Cell)) (hr : ∀ r ∈ rows, RowOf (rvars bs) r) :
    ∃ cs rs, columns bs rows = some cs ∧
      write (rvars bs) (cs.map (whole rows.length)) [] = (rs, .ok) ∧
      rs.map (fun r => r.map (·.1)) = rows ∧
      ∀ r ∈ rs, ∀ w ∈ r, w.2 = countOf w.1.1 w.1.2 := by
  obtain ⟨ht, hb⟩ := single_types hs
  have h0' : Holds (rvars bs) [] ((schema bs).map fun f => ⟨f.2, builder f.2⟩) := by
    refine ⟨?_, ?_, ?_, by simp⟩
    · intro i c hc
      rw [← ht]
      simp only [List.getElem?_map, Option.map_eq_some_iff] at hc ⊢
      obtain ⟨f, hf, rfl⟩ := hc
      exact ⟨f, hf, rfl⟩
    · rw [← ht]; simp
    · intro c hc
      simp only [List.mem_map] at hc
      obtain ⟨f, _, rfl⟩ := hc
      exact ⟨(builder_wf _).1, builder_valid _, (builder_wf _).2⟩
  obtain ⟨cs, e, h⟩ := holds_all hb rows [] _ h0' hr
  simp only [List.nil_append] at h
  have hlen : cs.length = bs.length := by rw [h.count, ← ht]; simp [schema]
  have htys : (cs.map (whole rows.length)).map Arr.t = rvars bs := by
    apply List.ext_getElem?
    intro i
    simp only [List.map_map, List.getElem?_map]
    cases hc : cs[i]? with
    | some c => rw [h.types i c hc]; rfl
    | none =>
      have : (rvars bs).length ≤ i := by
        rw [← h.count]; exact List.getElem?_eq_none_iff.1 hc
      rw [List.getElem?_eq_none this]; rfl
  obtain ⟨rs, h1, h2, h3⟩ := C162_write_partial rows.length (cs.map (whole rows.length))
    (by
      intro hn
      have : cs.length = 0 := by simpa using congrArg List.length hn
      rw [hlen] at this
      exact h0 (List.length_eq_zero_iff.1 this))
    (by
      intro a ha
      obtain ⟨c, hc, rfl⟩ := List.mem_map.1 ha
      obtain ⟨w1, w2, w3⟩ := h.wf c hc
      refine ⟨rfl, ?_, w1, w2, by show 0 + rows.length ≤ len c.1 c.2; omega⟩
      obtain ⟨i, hi⟩ := List.mem_iff_getElem?.1 hc
      exact hf _ (List.mem_of_getElem? (h.types i c hi))) []
  rw [htys] at h1
  refine ⟨cs, rs, e, by simpa using h1, ?_, ?_⟩
  · apply List.ext_getElem?
    intro j
    rw [List.getElem?_map]
    cases hj : rs[j]? with
    | none =>
      have : rows.length ≤ j := by rw [← h2]; exact List.getElem?_eq_none_iff.1 hj
      rw [List.getElem?_eq_none this]; rfl
    | some r =>
      have hjl : j < rows.length := by rw [← h2]; exact (List.getElem?_eq_some_iff.1 hj).1
      obtain ⟨h4, h5⟩ := h3 j r hj
      rw [List.getElem?_eq_getElem hjl]
      simp only [Option.map_some, Option.some.injEq]
      have hrow := hr rows[j] (List.getElem_mem hjl)
      have hrl : (rows[j]).length = cs.length := by
        rw [h.count, ← hrow.1]; simp
      apply List.ext_getElem?
      intro i
      rw [List.getElem?_map]
      cases hc : cs[i]? with
      | none =>
        have hci : cs.length ≤ i := List.getElem?_eq_none_iff.1 hc
        rw [List.getElem?_eq_none (by rw [h4]; simpa using hci), List.getElem?_eq_none (by omega)]
        rfl
      | some c =>
        obtain ⟨v, hv, hrv⟩ := h5 i (whole rows.length c) (by simp [hc])
        obtain ⟨w, hw, hcw⟩ := h.cells i j c rows[j] hc (List.getElem?_eq_getElem hjl)
        rw [hrv, hw]
        rw [show (whole rows.length c).off + j = j from Nat.zero_add j] at hv
        have hv : get c.1 c.2 j = some v := hv
        simp only [cellAt, hv] at hcw
        rw [← hcw]
        rfl
  · intro r hrm w hw
    obtain ⟨j, hj⟩ := List.mem_iff_getElem?.1 hrm
    obtain ⟨i, hi⟩ := List.mem_iff_getElem?.1 hw
    obtain ⟨h4, h5⟩ := h3 j r hj
    have hil : i < (cs.map (whole rows.length)).length := by
      rw [← h4]; exact (List.getElem?_eq_some_iff.1 hi).1
    obtain ⟨v, _, hrv⟩ := h5 i _ (List.getElem?_eq_getElem hil)
    obtain rfl := Option.some.inj (hi.symm.trans hrv)
    rfl

example : ∃ cs rs, columns tree2 [row1, row2] = some cs ∧
      write (rvars tree2) (cs.map (whole 2)) [] = (rs, .ok) ∧
      rs.map (fun r => r.map (·.1)) = [row1, row2] ∧
      ∀ r ∈ rs, ∀ w ∈ r, w.2 = countOf w.1.1 w.1.2 :=
  C162_tree_partial tree2 (by simp [tree2]) tree2_single
    (by
      intro t ht
      have ht : t ∈ [Ty.prim .i32, .list (.fixed 2 (.prim .u16))] := ht
      simp at ht
      rcases ht with rfl | rfl <;> trivial) [row1, row2] tree2_rows

/-- **C162** does not hold for nulls: a null number is written as whatever number
is in its place, and a null list as an empty one. -/
theorem C162_null_counterexample :
    ∃ (c d : (Ty.prim .u8).Col) (e f : (Ty.list (.prim .u8)).Col),
      c = [(false, 9#8)] ∧ d = [(true, 9#8)] ∧ e.1 = [(false, 0)] ∧ f.1 = [(true, 0)] ∧
      readFrom _ c 0 0 = readFrom _ d 0 0 ∧ readFrom _ e 0 0 = readFrom _ f 0 0 :=
  ⟨[(false, 9#8)], [(true, 9#8)], ([(false, 0)], ([] : List (Bool × BitVec 8))),
    ([(true, 0)], ([] : List (Bool × BitVec 8))), rfl, rfl, rfl, rfl, rfl, rfl⟩

/-- **C162** does not hold for lists of lists: a record with one can be read from
a tree but not written, the first list that is not empty panics. -/
theorem C162_nested_counterexample :
    ∃ c, appendValue (.list (.list (.prim .u8))) (builder _) [[1#8]] = some c ∧
      readFrom _ c 0 0 = none := ⟨_, rfl, rfl⟩

/-- **C162** does not hold for the record of a tree which is a flat tree itself:
the counters are branches of the tree read, and are there again, under the same
name, next to the counters made for the lists. -/
theorem C162_names_counterexample :
    ∃ sch : List (String × Ty), (sch.map (·.1)).Nodup ∧ sch.map (·.1) = branchNames [("x", .list (.prim .f32))] ∧
      ¬ (branchNames sch).Nodup :=
  ⟨[("rarrow_n_x", .prim .i32), ("x", .list (.prim .f32))], by decide, by decide, by decide⟩

end Verif.Rarrow
