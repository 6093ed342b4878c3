import Verif.Sio.Props

/-!
# Pointers in `sio` records: C35

The calls made while writing and those made while reading are paired: where an object `k`
was tagged, an object `o` is tagged on reading, and where a pointer to `k` was written, a
variable `l` is read.
-/

namespace Verif.Sio

variable {Key Obj Loc : Type} [DecidableEq Key] [DecidableEq Obj] [DecidableEq Loc]

/-! ## Specification -/

/-- A call while writing together with its counterpart while reading. -/
inductive Op (Key Obj Loc : Type)
  | tag (k : Key) (o : Obj)
  | ptr (k : Key) (l : Loc)
  | data (bs : Bytes)

/-- The call while writing. -/
def Op.w : Op Key Obj Loc → WOp Key
  | .tag k _ => .tag k
  | .ptr k _ => .ptr k
  | .data bs => .data bs

/-- The call while reading. -/
def Op.r : Op Key Obj Loc → ROp Obj Loc
  | .tag _ o => .tag o
  | .ptr _ l => .ptr l
  | .data bs => .data bs.length

/-- The objects read correspond to those written, and a variable is read for one pointer. -/
structure Mirror (ops : List (Op Key Obj Loc)) : Prop where
  same : ∀ k o o', Op.tag k o ∈ ops → Op.tag k o' ∈ ops → o = o'
  inj : ∀ k k' o, Op.tag k o ∈ ops → Op.tag k' o ∈ ops → k = k'
  once : ∀ k k' l, Op.ptr k l ∈ ops → Op.ptr k' l ∈ ops → k = k'

/-- Variables can hold pointers to the objects their originals pointed to. -/
def WellTyped (ok : Loc → Obj → Bool) (ops : List (Op Key Obj Loc)) : Prop :=
  ∀ k l o, Op.ptr k l ∈ ops → Op.tag k o ∈ ops → ok l o = true

/-- Every variable read points to the object that stands for the target of its original;
variables whose targets were not tagged, and all others, are left alone. -/
structure Relinked (ops : List (Op Key Obj Loc)) (mem mem' : Loc → Option Obj) : Prop where
  linked : ∀ k l o, Op.ptr k l ∈ ops → Op.tag k o ∈ ops → mem' l = some o
  alone : ∀ l, (∀ k o, Op.ptr k l ∈ ops → Op.tag k o ∉ ops) → mem' l = mem l

/-! ## Writing -/

/-- Identifiers in use are different, not zero and not the marker. -/
structure Writer.Inv (w : Writer Key) : Prop where
  small : w.ids < 2 ^ 32 - 1
  range : ∀ k i, w.tags.lookup k = some i → 0 < i ∧ i ≤ w.ids
  inj : ∀ k k' i, w.tags.lookup k = some i → w.tags.lookup k' = some i → k = k'

omit [DecidableEq Key] in
theorem Writer.new_inv [DecidableEq Key] : (Writer.new : Writer Key).Inv :=
  ⟨by show 0 < 2 ^ 32 - 1; decide, by intro k i h; simp [Writer.new] at h, by intro k k' i h; simp [Writer.new] at h⟩

theorem lookup_cons {k k' : Key} {i : Nat} {l : List (Key × Nat)} :
    ((k, i) :: l).lookup k' = if k' = k then some i else l.lookup k' := by
  rw [List.lookup_cons]
  by_cases h : k' = k
  · simp [h]
  · rw [if_neg h, beq_false_of_ne h]

theorem Writer.idOf_spec {w w' : Writer Key} {k : Key} {i : Nat} (hw : w.Inv) (h : w.idOf k = some (i, w')) :
    w'.Inv ∧ w'.tags.lookup k = some i ∧ (∀ k' i', w.tags.lookup k' = some i' → w'.tags.lookup k' = some i') ∧
      w'.ids ≤ w.ids + 1 := by
  unfold Writer.idOf at h
  split at h
  · next j hj => cases h; exact ⟨hw, hj, fun _ _ h => h, by omega⟩
  · next hj =>
    split at h
    · cases h
    · next hne =>
      cases h
      refine ⟨⟨?_, ?_, ?_⟩, ?_, ?_, by simp⟩
      · have := hw.small; simp only []; omega
      · intro k' i' h'
        rw [lookup_cons] at h'
        split at h'
        · cases h'; simp
        · have := hw.range k' i' h'; simp only []; omega
      · intro a b j ha hb
        rw [lookup_cons] at ha hb
        split at ha
        · next ha' =>
          cases ha
          split at hb
          · next hb' => rw [ha', hb']
          · have := hw.range b _ hb; omega
        · split at hb
          · cases hb; have := hw.range a _ ha; omega
          · exact hw.inj a b j ha hb
      · rw [lookup_cons, if_pos rfl]
      · intro k' i' h'
        rw [lookup_cons, if_neg, h']
        rintro rfl
        rw [hj] at h'; cases h'

/-- The bytes written for calls, with given identifiers. -/
def flat (id : Key → Nat) : List (Op Key Obj Loc) → Bytes
  | [] => []
  | .tag k _ :: ops => beEnc 4 (id k) ++ flat id ops
  | .ptr k _ :: ops => beEnc 4 (id k) ++ flat id ops
  | .data bs :: ops => bs ++ flat id ops

/-- The identifiers at the end. -/
def Writer.id (w : Writer Key) (k : Key) : Nat := (w.tags.lookup k).getD 0

/-- The objects in calls. -/
def Mentions (ops : List (Op Key Obj Loc)) (k : Key) : Prop :=
  (∃ o, Op.tag k o ∈ ops) ∨ (∃ l, Op.ptr k l ∈ ops)

omit [DecidableEq Obj] [DecidableEq Loc] in
theorem write_spec (ops : List (Op Key Obj Loc)) {w w' : Writer Key} {bs : Bytes} (hw : w.Inv)
    (h : write w (ops.map Op.w) = some (bs, w')) :
    w'.Inv ∧ (∀ k i, w.tags.lookup k = some i → w'.tags.lookup k = some i) ∧
      (∀ k, Mentions ops k → ∃ i, w'.tags.lookup k = some i) ∧
      ∀ id : Key → Nat, (∀ k i, w'.tags.lookup k = some i → id k = i) → bs = flat id ops := by
  induction ops generalizing w bs with
  | nil =>
    simp only [List.map_nil, write, Option.some.injEq, Prod.mk.injEq] at h
    obtain ⟨rfl, rfl⟩ := h
    refine ⟨hw, fun _ _ h => h, ?_, fun _ _ => rfl⟩
    rintro k (⟨o, h⟩ | ⟨l, h⟩) <;> simp at h
  | cons op ops ih =>
    match op with
    | .data d =>
      simp only [List.map_cons, Op.w, write, Option.map_eq_some_iff] at h
      obtain ⟨⟨bs', w''⟩, h1, h2⟩ := h
      cases h2
      obtain ⟨g1, g2, g3, g4⟩ := ih hw h1
      refine ⟨g1, g2, ?_, ?_⟩
      · rintro k (⟨o, hk⟩ | ⟨l, hk⟩)
        · exact g3 k (.inl ⟨o, by simpa using hk⟩)
        · exact g3 k (.inr ⟨l, by simpa using hk⟩)
      · intro id hid; rw [flat, g4 id hid]
    | .tag k o =>
      simp only [List.map_cons, Op.w, write] at h
      split at h
      · cases h
      · next i w1 hi =>
        rw [Option.map_eq_some_iff] at h
        obtain ⟨⟨bs', w''⟩, h1, h2⟩ := h
        cases h2
        obtain ⟨f1, f2, f3, -⟩ := Writer.idOf_spec hw hi
        obtain ⟨g1, g2, g3, g4⟩ := ih f1 h1
        refine ⟨g1, fun k i h => g2 _ _ (f3 _ _ h), ?_, ?_⟩
        · rintro k' (⟨o', hk⟩ | ⟨l, hk⟩)
          · rcases List.mem_cons.1 hk with hk | hk
            · cases hk; exact ⟨i, g2 _ _ f2⟩
            · exact g3 k' (.inl ⟨o', hk⟩)
          · rcases List.mem_cons.1 hk with hk | hk
            · cases hk
            · exact g3 k' (.inr ⟨l, hk⟩)
        · intro id hid; rw [flat, g4 id hid, hid k i (g2 _ _ f2)]
    | .ptr k l =>
      simp only [List.map_cons, Op.w, write] at h
      split at h
      · cases h
      · next i w1 hi =>
        rw [Option.map_eq_some_iff] at h
        obtain ⟨⟨bs', w''⟩, h1, h2⟩ := h
        cases h2
        obtain ⟨f1, f2, f3, -⟩ := Writer.idOf_spec hw hi
        obtain ⟨g1, g2, g3, g4⟩ := ih f1 h1
        refine ⟨g1, fun k i h => g2 _ _ (f3 _ _ h), ?_, ?_⟩
        · rintro k' (⟨o', hk⟩ | ⟨l', hk⟩)
          · rcases List.mem_cons.1 hk with hk | hk
            · cases hk
            · exact g3 k' (.inl ⟨o', hk⟩)
          · rcases List.mem_cons.1 hk with hk | hk
            · cases hk; exact ⟨i, g2 _ _ f2⟩
            · exact g3 k' (.inr ⟨l', hk⟩)
        · intro id hid; rw [flat, g4 id hid, hid k i (g2 _ _ f2)]

omit [DecidableEq Obj] [DecidableEq Loc] in
/-- Writing fails only when identifiers run out. -/
theorem write_ok (ops : List (Op Key Obj Loc)) {w : Writer Key} (hw : w.Inv) (hn : w.ids + ops.length < 2 ^ 32 - 1) :
    ∃ p, write w (ops.map Op.w) = some p := by
  induction ops generalizing w with
  | nil => exact ⟨_, rfl⟩
  | cons op ops ih =>
    rw [List.length_cons] at hn
    have hid : ∀ k, ∃ i w', w.idOf k = some (i, w') := by
      intro k
      unfold Writer.idOf
      cases w.tags.lookup k with
      | some i => exact ⟨_, _, rfl⟩
      | none => simp only []; rw [if_neg (by omega)]; exact ⟨_, _, rfl⟩
    match op with
    | .data d =>
      obtain ⟨p, hp⟩ := ih hw (by omega)
      exact ⟨_, by simp only [List.map_cons, Op.w, write, hp]; rfl⟩
    | .tag k o =>
      obtain ⟨i, w', h⟩ := hid k
      obtain ⟨f1, -, -, f4⟩ := Writer.idOf_spec hw h
      obtain ⟨p, hp⟩ := ih f1 (by omega)
      exact ⟨_, by simp only [List.map_cons, Op.w, write, h, hp]; rfl⟩
    | .ptr k l =>
      obtain ⟨i, w', h⟩ := hid k
      obtain ⟨f1, -, -, f4⟩ := Writer.idOf_spec hw h
      obtain ⟨p, hp⟩ := ih f1 (by omega)
      exact ⟨_, by simp only [List.map_cons, Op.w, write, h, hp]; rfl⟩

/-! ## Reading -/

/-- The tables after reading. -/
def tables (id : Key → Nat) (r : Reader Obj Loc) : List (Op Key Obj Loc) → Reader Obj Loc
  | [] => r
  | .tag k o :: ops => tables id ⟨r.ptr, setKey r.tag o (id k)⟩ ops
  | .ptr k l :: ops => tables id ⟨setKey r.ptr l (id k), r.tag⟩ ops
  | .data _ :: ops => tables id r ops

omit [DecidableEq Key] in
theorem read_flat (id : Key → Nat) (ops : List (Op Key Obj Loc))
    (hid : ∀ k, Mentions ops k → 0 < id k ∧ id k < 2 ^ 32 - 1) (r : Reader Obj Loc) (rest : Bytes) :
    read r (ops.map Op.r) (flat id ops ++ rest) = some (tables id r ops, rest) := by
  induction ops generalizing r with
  | nil => rfl
  | cons op ops ih =>
    have ih' := ih fun k hk => hid k (by
      rcases hk with ⟨o, h⟩ | ⟨l, h⟩
      · exact .inl ⟨o, List.mem_cons_of_mem _ h⟩
      · exact .inr ⟨l, List.mem_cons_of_mem _ h⟩)
    match op with
    | .data d =>
      simp only [List.map_cons, Op.r, read, flat, List.append_assoc]
      rw [readFull_append _ rfl]
      simp only []
      rw [ih', tables]
    | .tag k o =>
      have h1 := hid k (.inl ⟨o, List.mem_cons_self ..⟩)
      simp only [List.map_cons, Op.r, read, flat, List.append_assoc]
      rw [readFull_append _ (length_beEnc ..)]
      simp only []
      rw [beDec_beEnc_of_lt (show id k < 256 ^ 4 by omega), if_neg (by omega), ih', tables]
    | .ptr k l =>
      have h1 := hid k (.inr ⟨l, List.mem_cons_self ..⟩)
      simp only [List.map_cons, Op.r, read, flat, List.append_assoc]
      rw [readFull_append _ (length_beEnc ..)]
      simp only []
      rw [beDec_beEnc_of_lt (show id k < 256 ^ 4 by omega), if_neg (by omega), ih', tables]

theorem mem_setKey {α : Type} [DecidableEq α] {m : List (α × Nat)} {k k' : α} {v v' : Nat} :
    (k', v') ∈ setKey m k v ↔ (k' = k ∧ v' = v) ∨ ((k', v') ∈ m ∧ k' ≠ k) := by
  unfold setKey
  simp [List.mem_filter]

omit [DecidableEq Key] in
theorem tables_append (id : Key → Nat) (a b : List (Op Key Obj Loc)) (r : Reader Obj Loc) :
    tables id r (a ++ b) = tables id (tables id r a) b := by
  induction a generalizing r with
  | nil => rfl
  | cons op a ih => cases op <;> simp [tables, ih]

omit [DecidableEq Key] in
/-- The tables hold exactly the identifiers of the calls. -/
theorem tables_spec (id : Key → Nat) (ops pre : List (Op Key Obj Loc)) (hm : Mirror (pre ++ ops)) (r : Reader Obj Loc)
    (ht : ∀ o i, (o, i) ∈ r.tag ↔ ∃ k, Op.tag k o ∈ pre ∧ i = id k)
    (hp : ∀ l i, (l, i) ∈ r.ptr ↔ ∃ k, Op.ptr k l ∈ pre ∧ i = id k) :
    (∀ o i, (o, i) ∈ (tables id r ops).tag ↔ ∃ k, Op.tag k o ∈ pre ++ ops ∧ i = id k) ∧
      (∀ l i, (l, i) ∈ (tables id r ops).ptr ↔ ∃ k, Op.ptr k l ∈ pre ++ ops ∧ i = id k) := by
  induction ops generalizing pre r with
  | nil => simpa [tables] using ⟨ht, hp⟩
  | cons op ops ih =>
    have hm' : Mirror ((pre ++ [op]) ++ ops) := by simpa using hm
    have key := ih (pre ++ [op]) hm'
    have e : pre ++ op :: ops = (pre ++ [op]) ++ ops := by simp
    rw [e]
    match op, hm, hm', key with
    | .data d, hm, hm', key =>
      rw [tables]
      exact key r (by intro o i; rw [ht]; simp) (by intro l i; rw [hp]; simp)
    | .tag k o, hm, hm', key =>
      rw [tables]
      refine key _ ?_ (by intro l i; rw [hp]; simp)
      intro o' i
      rw [mem_setKey, ht]
      constructor
      · rintro (⟨rfl, rfl⟩ | ⟨⟨k', h1, h2⟩, -⟩)
        · exact ⟨k, by simp, rfl⟩
        · exact ⟨k', by simp [h1], h2⟩
      · rintro ⟨k', h1, h2⟩
        by_cases ho : o' = o
        · left
          refine ⟨ho, ?_⟩
          subst ho
          rw [h2, hm'.inj k' k o' (List.mem_append_left _ h1) (by simp)]
        · right
          rcases List.mem_append.1 h1 with h1 | h1
          · exact ⟨⟨k', h1, h2⟩, ho⟩
          · simp at h1; exact absurd h1.2 ho
    | .ptr k l, hm, hm', key =>
      rw [tables]
      refine key _ (by intro o i; rw [ht]; simp) ?_
      intro l' i
      rw [mem_setKey, hp]
      constructor
      · rintro (⟨rfl, rfl⟩ | ⟨⟨k', h1, h2⟩, -⟩)
        · exact ⟨k, by simp, rfl⟩
        · exact ⟨k', by simp [h1], h2⟩
      · rintro ⟨k', h1, h2⟩
        by_cases ho : l' = l
        · left
          refine ⟨ho, ?_⟩
          subst ho
          rw [h2, hm'.once k' k l' (List.mem_append_left _ h1) (by simp)]
        · right
          rcases List.mem_append.1 h1 with h1 | h1
          · exact ⟨⟨k', h1, h2⟩, ho⟩
          · simp at h1; exact absurd h1.2 ho

/-! ## Relocation -/

omit [DecidableEq Obj] in
theorem relocate_spec (ok : Loc → Obj → Bool) (tags : Loc → List (Obj × Nat)) (ptrs : List (Loc × Nat))
    (hok : ∀ l pid, (l, pid) ∈ ptrs → ∀ o, (o, pid) ∈ tags l → ok l o = true) (mem : Loc → Option Obj) :
    ∃ mem', relocate ok tags ptrs mem = some mem' ∧ ∀ l,
      (mem' l = mem l ∧ ∀ pid, (l, pid) ∈ ptrs → ∀ o, (o, pid) ∉ tags l) ∨
      (∃ pid o, (l, pid) ∈ ptrs ∧ (o, pid) ∈ tags l ∧ mem' l = some o) := by
  induction ptrs generalizing mem with
  | nil => exact ⟨mem, rfl, fun l => .inl ⟨rfl, by simp⟩⟩
  | cons p ptrs ih =>
    obtain ⟨l, pid⟩ := p
    have ih' := ih fun l pid h => hok l pid (List.mem_cons_of_mem _ h)
    rw [relocate]
    cases hf : (tags l).find? fun t => t.2 = pid with
    | none =>
      simp only []
      obtain ⟨mem', h1, h2⟩ := ih' mem
      refine ⟨mem', h1, fun x => ?_⟩
      rcases h2 x with ⟨g1, g2⟩ | ⟨pid', o, g1, g2, g3⟩
      · left
        refine ⟨g1, ?_⟩
        intro pid' hp o ho
        rcases List.mem_cons.1 hp with hp | hp
        · cases hp
          have := List.find?_eq_none.1 hf _ ho
          simp at this
        · exact g2 pid' hp o ho
      · exact .inr ⟨pid', o, List.mem_cons_of_mem _ g1, g2, g3⟩
    | some t =>
      obtain ⟨o, i⟩ := t
      have hi : i = pid := by simpa using List.find?_some hf
      subst hi
      have hmem := List.mem_of_find?_eq_some hf
      simp only []
      rw [if_pos (hok l i (List.mem_cons_self ..) o hmem)]
      obtain ⟨mem', h1, h2⟩ := ih' fun x => if x = l then some o else mem x
      refine ⟨mem', h1, fun x => ?_⟩
      rcases h2 x with ⟨g1, g2⟩ | ⟨pid', o', g1, g2, g3⟩
      · by_cases hx : x = l
        · right
          subst hx
          exact ⟨i, o, List.mem_cons_self .., hmem, by rw [g1, if_pos rfl]⟩
        · left
          rw [if_neg hx] at g1
          refine ⟨g1, ?_⟩
          intro pid' hp
          rcases List.mem_cons.1 hp with hp | hp
          · cases hp; exact absurd rfl hx
          · exact g2 pid' hp
      · exact .inr ⟨pid', o', List.mem_cons_of_mem _ g1, g2, g3⟩

omit [DecidableEq Key] in
/-- Relocating from the tables of a record. -/
theorem relocate_tables (ok : Loc → Obj → Bool) (ops : List (Op Key Obj Loc)) (hm : Mirror ops) (hty : WellTyped ok ops)
    (id : Key → Nat) (hinj : ∀ k k', Mentions ops k → Mentions ops k' → id k = id k' → k = k')
    (mem : Loc → Option Obj) (ptrs : List (Loc × Nat)) (tags : Loc → List (Obj × Nat))
    (hptrs : ∀ x, x ∈ ptrs ↔ x ∈ (tables id (⟨[], []⟩ : Reader Obj Loc) ops).ptr)
    (htags : ∀ l x, x ∈ tags l ↔ x ∈ (tables id (⟨[], []⟩ : Reader Obj Loc) ops).tag) :
    ∃ mem', relocate ok tags ptrs mem = some mem' ∧ Relinked ops mem mem' := by
  obtain ⟨ht, hp⟩ := tables_spec id ops [] (by simpa using hm) (⟨[], []⟩ : Reader Obj Loc) (by simp) (by simp)
  simp only [List.nil_append] at ht hp
  have hfind : ∀ k l, Op.ptr k l ∈ ops → ∀ o, (o, id k) ∈ tags l ↔ Op.tag k o ∈ ops := by
    intro k l hk o
    rw [htags, ht]
    constructor
    · rintro ⟨k', h1, h2⟩
      rw [hinj k k' (.inr ⟨l, hk⟩) (.inl ⟨o, h1⟩) h2]; exact h1
    · exact fun h => ⟨k, h, rfl⟩
  obtain ⟨mem', h1, h2⟩ := relocate_spec ok tags ptrs (by
    intro l pid h o ho
    obtain ⟨k, hk, rfl⟩ := (hp l pid).1 ((hptrs _).1 h)
    exact hty k l o hk ((hfind k l hk o).1 ho)) mem
  refine ⟨mem', h1, ?_, ?_⟩
  · intro k l o hk ho
    have hl : (l, id k) ∈ ptrs := (hptrs _).2 ((hp _ _).2 ⟨k, hk, rfl⟩)
    rcases h2 l with ⟨-, g⟩ | ⟨pid, o', g1, g2, g3⟩
    · exact absurd ((hfind k l hk o).2 ho) (g _ hl o)
    · obtain ⟨k', hk', rfl⟩ := (hp l pid).1 ((hptrs _).1 g1)
      have : k' = k := hm.once k' k l hk' hk
      subst this
      rw [g3, hm.same k' o o' ho ((hfind k' l hk o').1 g2)]
  · intro l h
    rcases h2 l with ⟨g, -⟩ | ⟨pid, o', g1, g2, g3⟩
    · exact g
    · obtain ⟨k', hk', rfl⟩ := (hp l pid).1 ((hptrs _).1 g1)
      exact absurd ((hfind k' l hk' o').1 g2) (h k' o' hk')

theorem Writer.id_range {w : Writer Key} (hw : w.Inv) {k : Key} {i : Nat} (h : w.tags.lookup k = some i) :
    0 < w.id k ∧ w.id k < 2 ^ 32 - 1 := by
  have h1 := hw.range k i h
  have h2 := hw.small
  unfold Writer.id
  rw [h]; simp only [Option.getD_some]; omega

theorem Writer.id_inj {w : Writer Key} (hw : w.Inv) {k k' : Key} (h : ∃ i, w.tags.lookup k = some i)
    (h' : ∃ i, w.tags.lookup k' = some i) (he : w.id k = w.id k') : k = k' := by
  obtain ⟨i, hi⟩ := h
  obtain ⟨j, hj⟩ := h'
  unfold Writer.id at he
  rw [hi, hj] at he
  simp only [Option.getD_some] at he
  subst he
  exact hw.inj k k' i hi hj

/-! ## Pointers are restored -/

/-- **C35**: for any calls of `Tag` and `Pointer` in any order, mixed with other data: if writing
them succeeds, reading back with the corresponding calls takes exactly the bytes written,
and relocation, in whatever order Go ranges over its maps, ends without a panic with every
variable pointing to the object that stands for the target of its original. -/
theorem C35_pointers (ok : Loc → Obj → Bool) (ops : List (Op Key Obj Loc)) (hm : Mirror ops) (hty : WellTyped ok ops)
    (bs : Bytes) (w : Writer Key) (hw : write Writer.new (ops.map Op.w) = some (bs, w)) (rest : Bytes)
    (mem : Loc → Option Obj) :
    ∃ r : Reader Obj Loc, read ⟨[], []⟩ (ops.map Op.r) (bs ++ rest) = some (r, rest) ∧
      ∀ (ptrs : List (Loc × Nat)) (tags : Loc → List (Obj × Nat)), ptrs.Perm r.ptr → (∀ l, (tags l).Perm r.tag) →
        ∃ mem', relocate ok tags ptrs mem = some mem' ∧ Relinked ops mem mem' := by
  obtain ⟨h1, -, h3, h4⟩ := write_spec ops Writer.new_inv hw
  have hbs := h4 w.id (by intro k i h; unfold Writer.id; rw [h]; rfl)
  refine ⟨tables w.id ⟨[], []⟩ ops, ?_, ?_⟩
  · rw [hbs]
    refine read_flat w.id ops ?_ _ rest
    intro k hk
    obtain ⟨i, hi⟩ := h3 k hk
    exact Writer.id_range h1 hi
  · intro ptrs tags hp ht
    exact relocate_tables ok ops hm hty w.id (fun k k' h h' => Writer.id_inj h1 (h3 k h) (h3 k' h')) mem ptrs tags
      (fun x => hp.mem_iff) (fun l x => (ht l).mem_iff)

omit [DecidableEq Obj] [DecidableEq Loc] in
/-- **C35** (identifiers): writing succeeds for fewer than four billion calls. -/
theorem C35_write_ok (ops : List (Op Key Obj Loc)) (hn : ops.length < 2 ^ 32 - 1) :
    ∃ p, write (Writer.new : Writer Key) (ops.map Op.w) = some p :=
  write_ok ops Writer.new_inv (by simpa [Writer.new] using hn)

/-! ## Pointers from one block to another -/

/-- A block of a record: version, name, and the calls made for it. -/
structure PBlk (Key Obj Loc : Type) where
  version : Nat
  name : Bytes
  ops : List (Op Key Obj Loc)

/-- sio/record.go:225-286 (`Record.write`): the blocks with their bytes, the state of the writer being carried from block to block. -/
def marshal (w : Writer Key) : List (PBlk Key Obj Loc) → Option (List Blk × Writer Key)
  | [] => some ([], w)
  | b :: bs =>
    match write w (b.ops.map Op.w) with
    | none => none
    | some (data, w) => (marshal w bs).map fun p => (⟨b.version, b.name, data⟩ :: p.1, p.2)

/-- The connected blocks, which make the corresponding calls. -/
def unmarshal (pbs : List (PBlk Key Obj Loc)) : Blocks (Reader Obj Loc × (Loc → Option Obj)) := fun name =>
  (pbs.find? fun b => b.name = name).map fun b st _ s => (read st.1 (b.ops.map Op.r) s).map fun p => ((p.1, st.2), p.2)

omit [DecidableEq Obj] [DecidableEq Loc] in
theorem marshal_spec (pbs : List (PBlk Key Obj Loc)) {w w' : Writer Key} {bs : List Blk} (hw : w.Inv)
    (h : marshal w pbs = some (bs, w')) :
    w'.Inv ∧ (∀ k i, w.tags.lookup k = some i → w'.tags.lookup k = some i) ∧
      (∀ k, Mentions (pbs.flatMap (·.ops)) k → ∃ i, w'.tags.lookup k = some i) ∧
      bs = pbs.map fun b => ⟨b.version, b.name, flat w'.id b.ops⟩ := by
  induction pbs generalizing w bs with
  | nil =>
    simp only [marshal, Option.some.injEq, Prod.mk.injEq] at h
    obtain ⟨rfl, rfl⟩ := h
    refine ⟨hw, fun _ _ h => h, ?_, rfl⟩
    rintro k (⟨o, h⟩ | ⟨l, h⟩) <;> simp at h
  | cons b pbs ih =>
    rw [marshal] at h
    split at h
    · cases h
    · next data w1 h1 =>
      rw [Option.map_eq_some_iff] at h
      obtain ⟨⟨bs', w''⟩, h2, h3⟩ := h
      cases h3
      obtain ⟨f1, f2, f3, f4⟩ := write_spec b.ops hw h1
      obtain ⟨g1, g2, g3, g4⟩ := ih f1 h2
      refine ⟨g1, fun k i h => g2 _ _ (f2 _ _ h), ?_, ?_⟩
      · intro k hk
        have hk' : Mentions b.ops k ∨ Mentions (pbs.flatMap (·.ops)) k := by
          rcases hk with ⟨o, h⟩ | ⟨l, h⟩
          · rw [List.flatMap_cons, List.mem_append] at h
            exact h.imp (fun h => .inl ⟨o, h⟩) (fun h => .inl ⟨o, h⟩)
          · rw [List.flatMap_cons, List.mem_append] at h
            exact h.imp (fun h => .inr ⟨l, h⟩) (fun h => .inr ⟨l, h⟩)
        rcases hk' with hk' | hk'
        · obtain ⟨i, hi⟩ := f3 k hk'
          exact ⟨i, g2 _ _ hi⟩
        · exact g3 k hk'
      · rw [List.map_cons, ← g4, f4 w''.id]
        intro k i hi
        unfold Writer.id
        rw [g2 _ _ hi]; rfl

omit [DecidableEq Key] [DecidableEq Obj] [DecidableEq Loc] in
theorem find_name (pbs : List (PBlk Key Obj Loc)) (hn : (pbs.map (·.name)).Nodup) {b : PBlk Key Obj Loc} (hb : b ∈ pbs) :
    (pbs.find? fun x => x.name = b.name) = some b := by
  induction pbs with
  | nil => cases hb
  | cons x xs ih =>
    rw [List.map_cons, List.nodup_cons] at hn
    rcases List.mem_cons.1 hb with rfl | hb
    · rw [List.find?_cons_of_pos (by simp)]
    · rw [List.find?_cons_of_neg, ih hn.2 hb]
      have : x.name ≠ b.name := fun h => hn.1 (h ▸ List.mem_map_of_mem hb)
      simpa using this

omit [DecidableEq Key] in
theorem tables_blocks (id : Key → Nat) (pbs : List (PBlk Key Obj Loc)) (r : Reader Obj Loc) :
    pbs.foldl (fun r b => tables id r b.ops) r = tables id r (pbs.flatMap (·.ops)) := by
  induction pbs generalizing r with
  | nil => rfl
  | cons b pbs ih => rw [List.foldl_cons, ih, List.flatMap_cons, tables_append]

/-- **C35** (records): pointers are restored when objects and pointers are spread over the blocks of
a record.  `order` and `orders` are the orders in which Go ranges over its maps. -/
theorem C35_record (ok : Loc → Obj → Bool) (pbs : List (PBlk Key Obj Loc)) (hn : (pbs.map (·.name)).Nodup)
    (hm : Mirror (pbs.flatMap (·.ops))) (hty : WellTyped ok (pbs.flatMap (·.ops)))
    (bs : List Blk) (w : Writer Key) (hw : marshal Writer.new pbs = some (bs, w)) (hb : ∀ b ∈ bs, b.Fits)
    (order : List (Loc × Nat) → List (Loc × Nat)) (ho : ∀ l, (order l).Perm l)
    (orders : Loc → List (Obj × Nat) → List (Obj × Nat)) (hos : ∀ x l, (orders x l).Perm l)
    (mem : Loc → Option Obj) :
    ∃ r mem', readBlocks (unmarshal pbs)
        (fun _ st => (relocate ok (fun l => orders l st.1.tag) (order st.1.ptr) st.2).map fun m => (st.1, m))
        (⟨[], []⟩, mem) (encBlks bs) = .ok (r, mem') ∧ Relinked (pbs.flatMap (·.ops)) mem mem' := by
  obtain ⟨h1, -, h3, h4⟩ := marshal_spec pbs Writer.new_inv hw
  obtain ⟨mem', g1, g2⟩ := relocate_tables ok _ hm hty w.id (fun k k' h h' => Writer.id_inj h1 (h3 k h) (h3 k' h')) mem
    (order (tables w.id (⟨[], []⟩ : Reader Obj Loc) (pbs.flatMap (·.ops))).ptr)
    (fun l => orders l (tables w.id (⟨[], []⟩ : Reader Obj Loc) (pbs.flatMap (·.ops))).tag)
    (fun x => (ho _).mem_iff) (fun l x => (hos l _).mem_iff)
  refine ⟨tables w.id ⟨[], []⟩ (pbs.flatMap (·.ops)), mem', ?_, g2⟩
  have hfind : ∀ b ∈ pbs, (pbs.find? fun x => x.name = b.name) = some b := fun b hb => find_name pbs hn hb
  have hread : ∀ b ∈ pbs, ∀ (r : Reader Obj Loc) rest,
      read r (b.ops.map Op.r) (flat w.id b.ops ++ rest) = some (tables w.id r b.ops, rest) := by
    intro b hbm r rest
    refine read_flat w.id b.ops ?_ r rest
    intro k hk
    obtain ⟨i, hi⟩ := h3 k (by
      rcases hk with ⟨o, h⟩ | ⟨l, h⟩
      · exact .inl ⟨o, List.mem_flatMap.2 ⟨b, hbm, h⟩⟩
      · exact .inr ⟨l, List.mem_flatMap.2 ⟨b, hbm, h⟩⟩)
    exact Writer.id_range h1 hi
  have hconn : connected (unmarshal pbs) bs = bs := by
    unfold connected
    rw [List.filter_eq_self]
    intro x hx
    rw [h4] at hx
    obtain ⟨b, hbm, rfl⟩ := List.mem_map.1 hx
    unfold unmarshal
    simp only []
    rw [hfind b hbm]; rfl
  refine C36_blocks_partial (unmarshal pbs) _
    (fun x st => ((match pbs.find? fun b => b.name = x.name with
      | some b => tables w.id st.1 b.ops
      | none => st.1), st.2)) bs hb ?_ ?_ _ _ ?_
  · intro x hx f hf st rest
    rw [h4] at hx
    obtain ⟨b, hbm, rfl⟩ := List.mem_map.1 hx
    unfold unmarshal at hf
    simp only [] at hf ⊢
    rw [hfind b hbm] at hf ⊢
    simp only [Option.map_some, Option.some.injEq] at hf
    subst hf
    simp only []
    rw [hread b hbm]; rfl
  · intro x hx hu
    rw [h4] at hx
    obtain ⟨b, hbm, rfl⟩ := List.mem_map.1 hx
    unfold unmarshal at hu
    simp only [] at hu
    rw [hfind b hbm] at hu
    cases hu
  · have hafter : ∀ st : Reader Obj Loc × (Loc → Option Obj), ∀ xs : List (PBlk Key Obj Loc), (∀ b ∈ xs, b ∈ pbs) →
        (xs.map fun b => (⟨b.version, b.name, flat w.id b.ops⟩ : Blk)).foldl (fun st x =>
          ((match pbs.find? fun b => b.name = x.name with
            | some b => tables w.id st.1 b.ops
            | none => st.1), st.2)) st = (xs.foldl (fun r b => tables w.id r b.ops) st.1, st.2) := by
      intro st xs hxs
      induction xs generalizing st with
      | nil => rfl
      | cons b xs ih =>
        rw [List.map_cons, List.foldl_cons, ih _ fun b h => hxs b (List.mem_cons_of_mem _ h)]
        simp only []
        rw [hfind b (hxs b (List.mem_cons_self ..))]
        rfl
    unfold after
    rw [hconn, h4, hafter _ pbs (fun _ h => h)]
    simp only []
    rw [tables_blocks, g1]
    rfl

/-! ## Examples -/

/-- Two objects pointing at each other, and a pointer to an object that is not written. -/
def exOps : List (Op Nat Nat Nat) :=
  [.tag 10 1, .ptr 20 100, .data [7], .tag 20 2, .ptr 10 101, .ptr 30 102]

theorem exOps_mirror : Mirror exOps := by
  constructor <;> (simp [exOps]; omega)

example : ∃ r, read (⟨[], []⟩ : Reader Nat Nat) (exOps.map Op.r)
      ([0, 0, 0, 1, 0, 0, 0, 2, 7, 0, 0, 0, 2, 0, 0, 0, 1, 0, 0, 0, 3] ++ [9]) = some (r, [9]) ∧
      ∀ (ptrs : List (Nat × Nat)) (tags : Nat → List (Nat × Nat)), ptrs.Perm r.ptr → (∀ l, (tags l).Perm r.tag) →
        ∃ mem', relocate (fun _ _ => true) tags ptrs (fun _ => none) = some mem' ∧ Relinked exOps (fun _ => none) mem' :=
  C35_pointers _ exOps exOps_mirror (fun _ _ _ _ _ => rfl) _ ⟨3, [(30, 3), (20, 2), (10, 1)]⟩ (by decide +kernel) [9] _

/-- The same as a computation. -/
example : (relocate (fun _ _ => true) (fun _ => [(2, 2), (1, 1)]) [(102, 3), (101, 1), (100, 2)] (fun _ => none)).map
      (fun m => (m 100, m 101, m 102)) = some (some 2, some 1, none) := by
  decide +kernel

example : ∃ p, write (Writer.new : Writer Nat) (exOps.map Op.w) = some p := C35_write_ok exOps (by decide)

/-- Objects and pointers in different blocks. -/
example : ∃ r mem', readBlocks (unmarshal [⟨1, [97], exOps.take 2⟩, ⟨1, [98], exOps.drop 2⟩])
        (fun _ st => (relocate (fun _ _ => true) (fun _ => st.1.tag.reverse) st.1.ptr.reverse st.2).map fun m => (st.1, m))
        (⟨[], []⟩, fun _ => none) (encBlks [⟨1, [97], [0, 0, 0, 1, 0, 0, 0, 2]⟩,
          ⟨1, [98], [7, 0, 0, 0, 2, 0, 0, 0, 1, 0, 0, 0, 3]⟩]) = .ok (r, mem') ∧
      Relinked exOps (fun _ => none) mem' :=
  C35_record _ [⟨1, [97], exOps.take 2⟩, ⟨1, [98], exOps.drop 2⟩] (by decide) exOps_mirror (fun _ _ _ _ _ => rfl) _
    ⟨3, [(30, 3), (20, 2), (10, 1)]⟩ (by decide +kernel) (by
      intro b hb
      simp only [List.mem_cons, List.not_mem_nil, or_false] at hb
      rcases hb with rfl | rfl <;> exact ⟨by decide, by decide⟩) List.reverse List.reverse_perm (fun _ => List.reverse)
    (fun _ => List.reverse_perm) _

end Verif.Sio
