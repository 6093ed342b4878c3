import Verif.RBytes.RefsSpec
import Verif.RBytes.RefsLemmas

/-!
# Reading back an object graph
-/

namespace Verif.RBytes.Refs

/-! ### Arithmetic of the tags -/

theorem and_pow_zero {p k : Nat} (h : p.testBit k = false) : p &&& 2 ^ k = 0 := by
  apply Nat.eq_of_testBit_eq
  intro i
  rw [Nat.testBit_and, Nat.testBit_two_pow]
  by_cases e : k = i
  · subst e; simp [h]
  · simp [e]

theorem and_pow_ne {p k : Nat} (h : p.testBit k = true) : p &&& 2 ^ k ≠ 0 := by
  intro e
  have := congrArg (fun n => n.testBit k) e
  simp [Nat.testBit_and, h] at this

theorem and31_small {p : Nat} (h : p < 2 ^ 31) : p &&& 2 ^ 31 = 0 :=
  and_pow_zero (Nat.testBit_lt_two_pow h)

theorem or31 {p : Nat} (h : p < 2 ^ 31) : p ||| 2 ^ 31 = 2 ^ 31 + p := by
  have := Nat.two_pow_add_eq_or_of_lt h 1
  rw [Nat.mul_one] at this
  rw [Nat.or_comm]; exact this.symm

theorem and31_big {p : Nat} (h : p < 2 ^ 31) : (2 ^ 31 + p) &&& 2 ^ 31 ≠ 0 := by
  apply and_pow_ne
  rw [Nat.testBit_two_pow_add_eq, Nat.testBit_lt_two_pow h]; rfl

theorem and30_cnt {n : Nat} (h : n < 2 ^ 30) : (2 ^ 30 + n) &&& 2 ^ 30 ≠ 0 := by
  apply and_pow_ne
  rw [Nat.testBit_two_pow_add_eq, Nat.testBit_lt_two_pow h]; rfl

/-! ### Class names -/

theorem readCStringLoop_parses : ∀ (n : Nat) (v : List UInt8), v.length < n → (0 : UInt8) ∉ v →
    Parses (RBuf.readCStringLoop n) (v ++ [0]) v := by
  intro n
  induction n with
  | zero => intro v h; omega
  | succ n ih =>
    intro v hl h0 pre post hid off
    cases v with
    | nil =>
      simp [RBuf.readCStringLoop, RBuf.read, Option.bind_eq_bind]
    | cons a v =>
      have ha : a ≠ 0 := fun e => h0 (by simp [e])
      have := ih v (by simpa using hl) (fun hm => h0 (by simp [hm])) (pre ++ [a]) post hid off
      simp only [List.length_append, List.length_singleton, List.append_assoc, List.cons_append, List.nil_append] at this
      simp only [RBuf.readCStringLoop, Option.bind_eq_bind, RBuf.read]
      simp [this, ha]
      omega

theorem readCString_parses {v : List UInt8} (hl : v.length < 80) (h0 : (0 : UInt8) ∉ v) :
    Parses (RBuf.readCString 80) (v ++ [0]) v := by
  intro pre post hid off
  have := readCStringLoop_parses 80 v hl h0 pre post hid off
  simpa [RBuf.readCString] using this

/-! ### Maps -/

theorem lookup_hit {β : Type} {α : Type} [BEq α] [LawfulBEq α] (l : List (α × β)) (a : α) (v : β) :
    ((a, v) :: l).lookup a = some v := by
  simp [List.lookup]

theorem lookup_miss {β : Type} {α : Type} [BEq α] [LawfulBEq α] (l : List (α × β)) {a b : α} (v : β)
    (h : a ≠ b) : ((b, v) :: l).lookup a = l.lookup a := by
  have : (a == b) = false := by simp [h]
  simp [List.lookup, this]

theorem put_self (refs : List (Nat × Ent)) (k : Nat) (v : Ent) : (put refs k v).lookup k = some v := by
  exact lookup_hit _ _ _

theorem lookup_filter (refs : List (Nat × Ent)) {k k' : Nat} (h : k' ≠ k) :
    (refs.filter (fun q => q.1 != k)).lookup k' = refs.lookup k' := by
  induction refs with
  | nil => rfl
  | cons a refs ih =>
    obtain ⟨a, v⟩ := a
    by_cases ha : a = k
    · subst ha
      rw [List.filter_cons_of_neg (by simp), ih, lookup_miss _ _ h]
    · rw [List.filter_cons_of_pos (by simp [ha])]
      by_cases e : k' = a
      · subst e; rw [lookup_hit, lookup_hit]
      · rw [lookup_miss _ _ e, lookup_miss _ _ e, ih]

theorem put_other (refs : List (Nat × Ent)) {k k' : Nat} (v : Ent) (h : k' ≠ k) :
    (put refs k v).lookup k' = refs.lookup k' := by
  unfold put
  rw [lookup_miss _ _ h, lookup_filter refs h]

theorem rename_congr {φ ψ : Nat → Nat} : ∀ (ps : Parts), (∀ j ∈ ps.targets, φ j = ψ j) →
    ps.rename φ = ps.rename ψ := by
  intro ps
  induction ps with
  | nil => intro _; rfl
  | data bs rest ih => intro h; simp only [Parts.rename, ih h]
  | ref o rest ih =>
    intro h
    simp only [Parts.targets, List.mem_append] at h
    have : o.map φ = o.map ψ := by
      cases o with
      | none => rfl
      | some i => simp [h i (by simp)]
    simp only [Parts.rename, this, ih (fun j hj => h j (Or.inr hj))]
  | block v inner rest ih1 ih2 =>
    intro h
    simp only [Parts.targets, List.mem_append] at h
    simp only [Parts.rename, ih1 (fun j hj => h j (Or.inl hj)), ih2 (fun j hj => h j (Or.inr hj))]

/-! ### Invariant -/

section
variable (G : Nat → Node) (rank : Nat → Nat)

/-- What is known of the reader when it stands at position `pos` where the writer
had the map `st`, about objects of rank below `r`. -/
structure Rel (r : Nat) (st : St) (refs : List (Nat × Ent)) (heap : List Node) (φ : Nat → Nat)
    (pos : Nat) : Prop where
  obj : ∀ i p, st.objs.lookup i = some p → rank i < r →
    refs.lookup p = some (.obj (φ i)) ∧ heap[φ i]? = some ⟨(G i).cls, (G i).parts.rename φ⟩ ∧
    ∀ j ∈ (G i).parts.targets, (st.objs.lookup j).isSome
  bnd : ∀ i p, st.objs.lookup i = some p → 2 ≤ p ∧ p < pos
  cls : ∀ c q, st.classes.lookup c = some q →
    ∃ p, q = p ||| 2 ^ 31 ∧ refs.lookup p = some (.cls c) ∧ p < pos
  inj : ∀ i j, (st.objs.lookup i).isSome → (st.objs.lookup j).isSome → rank i < r → rank j < r →
    φ i = φ j → i = j

/-- What reading from `pos` to `pos'` does. -/
structure Step (r : Nat) (st : St) (refs : List (Nat × Ent)) (heap : List Node) (φ : Nat → Nat)
    (pos : Nat) (st' : St) (refs' : List (Nat × Ent)) (heap' : List Node) (φ' : Nat → Nat)
    (pos' : Nat) : Prop where
  rel : Rel G rank r st' refs' heap' φ' pos'
  le : pos ≤ pos'
  ext : ∀ i p, st.objs.lookup i = some p → st'.objs.lookup i = some p ∧ φ' i = φ i
  new : ∀ i p, st'.objs.lookup i = some p →
    st.objs.lookup i = some p ∨ (pos + 2 ≤ p ∧ rank i < r ∧ heap.length ≤ φ' i)
  frame : ∀ k, k < pos + 2 → refs'.lookup k = refs.lookup k
  newcls : ∀ c q, st'.classes.lookup c = some q →
    st.classes.lookup c = some q ∨ ∃ p, q = p ||| 2 ^ 31 ∧ refs'.lookup p = some (.cls c) ∧
      p < pos' ∧ pos + 6 ≤ p
  hlen : heap.length ≤ heap'.length
  hframe : ∀ n, n < heap.length → heap'[n]? = heap[n]?

end

section
variable {G : Nat → Node} {rank : Nat → Nat}

theorem Rel.mono {r r' : Nat} {st : St} {refs : List (Nat × Ent)} {heap : List Node}
    {φ : Nat → Nat} {pos pos' : Nat} (h : Rel G rank r st refs heap φ pos) (hr : r' ≤ r)
    (hp : pos ≤ pos') : Rel G rank r' st refs heap φ pos' where
  obj i p hl hi := h.obj i p hl (by omega)
  bnd i p hl := ⟨(h.bnd i p hl).1, by have := (h.bnd i p hl).2; omega⟩
  cls c q hl := by
    obtain ⟨p, a, b, d⟩ := h.cls c q hl
    exact ⟨p, a, b, by omega⟩
  inj i j hi hj ri rj := h.inj i j hi hj (by omega) (by omega)

theorem Step.refl {r : Nat} {st : St} {refs : List (Nat × Ent)} {heap : List Node}
    {φ : Nat → Nat} {pos pos' : Nat} (h : Rel G rank r st refs heap φ pos) (hp : pos ≤ pos') :
    Step G rank r st refs heap φ pos st refs heap φ pos' where
  rel := h.mono (Nat.le_refl _) hp
  le := hp
  ext _ _ hl := ⟨hl, rfl⟩
  new _ _ hl := Or.inl hl
  frame _ _ := rfl
  newcls _ _ hl := Or.inl hl
  hlen := Nat.le_refl _
  hframe _ _ := rfl

theorem Step.trans {r : Nat} {st st1 st2 : St} {refs refs1 refs2 : List (Nat × Ent)}
    {heap heap1 heap2 : List Node} {φ φ1 φ2 : Nat → Nat} {pos pos1 pos2 : Nat}
    (h1 : Step G rank r st refs heap φ pos st1 refs1 heap1 φ1 pos1)
    (h2 : Step G rank r st1 refs1 heap1 φ1 pos1 st2 refs2 heap2 φ2 pos2) :
    Step G rank r st refs heap φ pos st2 refs2 heap2 φ2 pos2 where
  rel := h2.rel
  le := Nat.le_trans h1.le h2.le
  ext i p hl := by
    obtain ⟨a, b⟩ := h1.ext i p hl
    obtain ⟨c, d⟩ := h2.ext i p a
    exact ⟨c, by rw [d, b]⟩
  new i p hl := by
    have hle := h1.le
    have hhl := h1.hlen
    rcases h2.new i p hl with a | ⟨a, b, c⟩
    · rcases h1.new i p a with d | ⟨d, e, f⟩
      · exact Or.inl d
      · refine Or.inr ⟨d, e, ?_⟩
        rw [(h2.ext i p a).2]; exact f
    · exact Or.inr ⟨by omega, b, by omega⟩
  frame k hk := by
    have hle := h1.le
    rw [h2.frame k (by omega), h1.frame k hk]
  newcls c q hl := by
    have hle := h1.le
    have hle2 := h2.le
    rcases h2.newcls c q hl with a | ⟨p, a, b, d, e⟩
    · rcases h1.newcls c q a with a | ⟨p, a, b, d, e⟩
      · exact Or.inl a
      · refine Or.inr ⟨p, a, ?_, by omega, e⟩
        rw [h2.frame p (by omega), b]
    · exact Or.inr ⟨p, a, b, d, by omega⟩
  hlen := Nat.le_trans h1.hlen h2.hlen
  hframe n hn := by
    have := h1.hlen
    rw [h2.hframe n (by omega), h1.hframe n hn]

/-- The reading function `recR` follows the encoder `recE`, for objects of `P` of rank
below `r`. -/
def Reads (G : Nat → Node) (rank : Nat → Nat) (P : Nat → Prop) (recE : Enc)
    (recR : RS → Option (Option Nat × RS)) : Prop :=
  ∀ r o pos st bs st', (∀ i, o = some i → P i ∧ rank i < r) → recE o pos st = some (bs, st') →
    pos + bs.length < 2 ^ 30 → ∀ pre post hid off refs heap φ, pre.length + off = pos →
    Rel G rank r st refs heap φ pos →
    ∃ refs' heap' φ',
      recR ⟨⟨pre ++ (bs ++ post), hid, pre.length, off, false⟩, refs, heap⟩ =
        some (o.map φ', ⟨⟨pre ++ (bs ++ post), hid, pre.length + bs.length, off, false⟩, refs', heap'⟩) ∧
      Step G rank r st refs heap φ pos st' refs' heap' φ' (pos + bs.length) ∧
      ∀ i, o = some i → (st'.objs.lookup i).isSome

omit G rank in
theorem erase_rename (φ : Nat → Nat) : ∀ ps : Parts, (ps.rename φ).erase = ps.erase := by
  intro ps
  induction ps with
  | nil => rfl
  | data bs rest ih => simp [Parts.rename, Parts.erase, ih]
  | ref o rest ih => cases o <;> simp [Parts.rename, Parts.erase, ih]
  | block v inner rest ih1 ih2 => simp [Parts.rename, Parts.erase, ih1, ih2]

theorem readDec_spec {P : Nat → Prop} {recE : Enc} {recR : RS → Option (Option Nat × RS)}
    (hrec : Reads G rank P recE recR) {d : Dec} {ps : Parts} (hf : Follows d ps) :
    ∀ r pos st bs st', (∀ i ∈ ps.targets, P i ∧ rank i < r) →
    encParts recE ps pos st = some (bs, st') →
    pos + bs.length < 2 ^ 30 → ∀ pre post hid off refs heap φ, pre.length + off = pos →
    Rel G rank r st refs heap φ pos →
    ∃ refs' heap' φ',
      readDec recR d ⟨⟨pre ++ (bs ++ post), hid, pre.length, off, false⟩, refs, heap⟩ =
        some (ps.rename φ',
          ⟨⟨pre ++ (bs ++ post), hid, pre.length + bs.length, off, false⟩, refs', heap'⟩) ∧
      Step G rank r st refs heap φ pos st' refs' heap' φ' (pos + bs.length) ∧
      ∀ i ∈ ps.targets, (st'.objs.lookup i).isSome := by
  induction hf with
  | done =>
    intro r pos st bs st' _ he _ pre post hid off refs heap φ _ hrel
    simp only [encParts, Option.some.injEq, Prod.mk.injEq] at he
    obtain ⟨rfl, rfl⟩ := he
    exact ⟨refs, heap, φ, rfl, Step.refl hrel (by simp), by simp [Parts.targets]⟩
  | @data n k ds rest hn hf ih =>
    intro r pos st bs st' hP he hlt pre post hid off refs heap φ hpos hrel
    simp only [encParts, Option.bind_eq_some_iff, Option.some.injEq, Prod.mk.injEq] at he
    obtain ⟨q, hq, rfl, rfl⟩ := he
    simp only [List.length_append] at hlt
    obtain ⟨refs', heap', φ', e, hs, ht⟩ := ih r (pos + ds.length) st q.1 q.2 hP hq (by omega)
      (pre ++ ds) post hid off refs heap φ (by simp; omega) (hrel.mono (Nat.le_refl _) (by omega))
    refine ⟨refs', heap', φ', ?_, ?_, ht⟩
    · simp only [readDec]
      have hsl := slice_at pre ds (q.1 ++ post) hid off
      rw [hn] at hsl
      simp only [List.append_assoc]
      rw [hsl, Option.bind_some]
      simp only [List.append_assoc, List.length_append, hn] at e
      rw [e]
      simp [Parts.rename, hn, Nat.add_assoc]
    · have := (Step.refl hrel (Nat.le_add_right pos ds.length)).trans hs
      rwa [List.length_append, ← Nat.add_assoc]
  | @ref k o rest hf ih =>
    intro r pos st bs st' hP he hlt pre post hid off refs heap φ hpos hrel
    simp only [encParts, Option.bind_eq_some_iff, Option.some.injEq, Prod.mk.injEq] at he
    obtain ⟨a, ha, q, hq, rfl, rfl⟩ := he
    simp only [List.length_append] at hlt
    simp only [Parts.targets, List.mem_append] at hP
    obtain ⟨refs1, heap1, φ1, e1, hs1, ht1⟩ := hrec r o pos st a.1 a.2
      (fun i hi => hP i (Or.inl (by simp [hi]))) ha (by omega) pre (q.1 ++ post) hid off refs heap φ
      hpos hrel
    obtain ⟨refs2, heap2, φ2, e2, hs2, ht2⟩ := ih r (pos + a.1.length) a.2 q.1 q.2
      (fun i hi => hP i (Or.inr hi)) hq (by omega)
      (pre ++ a.1) post hid off refs1 heap1 φ1 (by simp; omega) hs1.rel
    have hext : ∀ i, (a.2.objs.lookup i).isSome → (q.2.objs.lookup i).isSome ∧ φ2 i = φ1 i := by
      intro i hi
      obtain ⟨p, hp⟩ := Option.isSome_iff_exists.mp hi
      obtain ⟨x, y⟩ := hs2.ext i p hp
      exact ⟨by simp [x], y⟩
    refine ⟨refs2, heap2, φ2, ?_, ?_, ?_⟩
    · simp only [readDec]
      simp only [List.append_assoc] at e2 ⊢
      rw [e1, Option.bind_some]
      simp only [List.length_append] at e2
      rw [Option.isSome_map, e2]
      have : o.map φ1 = o.map φ2 := by
        cases o with
        | none => rfl
        | some i => simp [(hext i (ht1 i rfl)).2]
      simp [Parts.rename, this, Nat.add_assoc]
    · have := hs1.trans hs2
      rwa [List.length_append, ← Nat.add_assoc]
    · intro i hi
      simp only [Parts.targets, List.mem_append, Option.mem_toList] at hi
      rcases hi with hi | hi
      · exact (hext i (ht1 i hi)).1
      · exact ht2 i hi
  | @block vmax d k v inner rest hv hm hf1 hf2 ih1 ih2 =>
    intro r pos st bs st' hP he hlt pre post hid off refs heap φ hpos hrel
    simp only [encParts, Option.bind_eq_some_iff, Option.some.injEq, Prod.mk.injEq] at he
    obtain ⟨a, ha, q, hq, rfl, rfl⟩ := he
    have hh : (hdrEnc v a.1.length).length = 6 := by simp [hdrEnc]
    simp only [List.length_append, hh] at hlt
    simp only [Parts.targets, List.mem_append] at hP
    have ehd := readHeader_parses vmax v a.1.length (by omega) hv hm pre (a.1 ++ (q.1 ++ post)) hid off
    obtain ⟨refs1, heap1, φ1, e1, hs1, ht1⟩ := ih1 r (pos + 6) st a.1 a.2
      (fun i hi => hP i (Or.inl hi)) ha (by omega) (pre ++ hdrEnc v a.1.length) (q.1 ++ post) hid off
      refs heap φ (by simp [hh]; omega) (hrel.mono (Nat.le_refl _) (by omega))
    obtain ⟨refs2, heap2, φ2, e2, hs2, ht2⟩ := ih2 r (pos + 6 + a.1.length) a.2 q.1 q.2
      (fun i hi => hP i (Or.inr hi)) hq (by omega)
      (pre ++ hdrEnc v a.1.length ++ a.1) post hid off refs1 heap1 φ1 (by simp [hh]; omega) hs1.rel
    have hext : ∀ i, (a.2.objs.lookup i).isSome → (q.2.objs.lookup i).isSome ∧ φ2 i = φ1 i := by
      intro i hi
      obtain ⟨p, hp⟩ := Option.isSome_iff_exists.mp hi
      obtain ⟨x, y⟩ := hs2.ext i p hp
      exact ⟨by simp [x], y⟩
    refine ⟨refs2, heap2, φ2, ?_, ?_, ?_⟩
    · simp only [readDec]
      simp only [List.append_assoc] at e1 e2 ⊢
      rw [ehd, Option.bind_some]
      simp only [List.length_append, hh, ← Nat.add_assoc] at e1 e2
      rw [e1, Option.bind_some]
      dsimp only
      rw [checkHeader_eq (by omega) (pre.length + off) false _ rfl
        (by simp only [RBuf.pos]; omega)]
      rw [erase_rename, e2, Option.bind_some]
      have : inner.rename φ1 = inner.rename φ2 :=
        rename_congr inner (fun j hj => ((hext j (ht1 j hj)).2).symm)
      simp [Parts.rename, this, Nat.add_assoc, hh]
    · have := ((Step.refl hrel (Nat.le_add_right pos 6)).trans hs1).trans hs2
      rw [List.length_append, List.length_append, hh]
      rwa [← Nat.add_assoc, ← Nat.add_assoc]
    · intro i hi
      simp only [Parts.targets, List.mem_append] at hi
      rcases hi with hi | hi
      · exact (hext i (ht1 i hi)).1
      · exact ht2 i hi

end

end Verif.RBytes.Refs
