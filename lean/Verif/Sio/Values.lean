import Verif.Sio.Lemmas

/-!
# Values of Go types in `sio` blocks: C67 and C68
-/

namespace Verif.Sio

/-! ## Specification -/

/-- Strings below two gigabytes, slices and maps below four billion elements. -/
def Small : (t : Ty) → t.Val → Prop
  | .fixed _, _ => True
  | .str, (v : Bytes) => v.length < 2 ^ 31
  | .slice t, (v : List t.Val) => v.length < 2 ^ 32 ∧ ∀ x ∈ v, Small t x
  | .nil, _ => True
  | .field t rest, v => Small t v.1 ∧ Small rest v.2
  | .map k v, (m : List (k.Val × v.Val)) => m.length < 2 ^ 32 ∧ ∀ p ∈ m, Small k p.1 ∧ Small v p.2

/-- No structure is directly a key or a value of a map. -/
def Ty.Plain : Ty → Prop
  | .fixed _ => True
  | .str => True
  | .slice t => t.Plain
  | .nil => True
  | .field t rest => t.Plain ∧ rest.Plain
  | .map k v => k.isFields = false ∧ v.isFields = false ∧ k.Plain ∧ v.Plain

/-- No strings inside. -/
def Ty.NoStr : Ty → Prop
  | .fixed _ => True
  | .str => False
  | .slice t => t.NoStr
  | .nil => True
  | .field t rest => t.NoStr ∧ rest.NoStr
  | .map k v => k.NoStr ∧ v.NoStr

/-! ## Lists and pairs -/

section
variable {α β : Type}

theorem decList_enc {f : α → Option Bytes} {g : Bytes → Option (α × Bytes)} (xs : List α)
    (h : ∀ x ∈ xs, ∀ a rest, f x = some a → g (a ++ rest) = some (x, rest)) (a rest : Bytes)
    (he : encList f xs = some a) : decList g xs.length (a ++ rest) = some (xs, rest) := by
  induction xs generalizing a with
  | nil => cases he; rfl
  | cons x xs ih =>
    rw [encList] at he
    split at he
    · cases he
    · next b hb =>
      obtain ⟨c, hc, rfl⟩ := Option.map_eq_some_iff.1 he
      rw [List.length_cons, decList, List.append_assoc, h x (List.mem_cons_self ..) _ _ hb]
      simp only []
      rw [ih (fun y hy => h y (List.mem_cons_of_mem _ hy)) c hc]

theorem decPair_enc {f : α → Option Bytes} {f' : β → Option Bytes} {g : Bytes → Option (α × Bytes)}
    {g' : Bytes → Option (β × Bytes)} (p : α × β)
    (h : ∀ a rest, f p.1 = some a → g (a ++ rest) = some (p.1, rest))
    (h' : ∀ a rest, f' p.2 = some a → g' (a ++ rest) = some (p.2, rest)) (a rest : Bytes)
    (he : encPair f f' p = some a) : decPair g g' (a ++ rest) = some (p, rest) := by
  unfold encPair at he
  split at he
  · cases he
  · next b hb =>
    obtain ⟨c, hc, rfl⟩ := Option.map_eq_some_iff.1 he
    unfold decPair
    rw [List.append_assoc, h _ _ hb]
    simp only []
    rw [h' _ _ hc]

theorem decMany_enc {f : α → Option Bytes} {g : Bytes → Option (α × Bytes)} (xs : List α) (hn : xs.length < 2 ^ 32)
    (h : ∀ x ∈ xs, ∀ a rest, f x = some a → g (a ++ rest) = some (x, rest)) (a rest : Bytes)
    (he : (encList f xs).map (beEnc 4 xs.length ++ ·) = some a) : decMany g (a ++ rest) = some (xs, rest) := by
  obtain ⟨c, hc, rfl⟩ := Option.map_eq_some_iff.1 he
  unfold decMany
  rw [List.append_assoc, readFull_append _ (length_beEnc ..)]
  simp only []
  rw [beDec_beEnc_of_lt (show xs.length < 256 ^ 4 from hn)]
  exact decList_enc xs h c rest hc

theorem encList_ok {f : α → Option Bytes} (xs : List α) (h : ∀ x ∈ xs, ∃ a, f x = some a) :
    ∃ a, encList f xs = some a := by
  induction xs with
  | nil => exact ⟨_, rfl⟩
  | cons x xs ih =>
    obtain ⟨a, ha⟩ := h x (List.mem_cons_self ..)
    obtain ⟨b, hb⟩ := ih fun y hy => h y (List.mem_cons_of_mem _ hy)
    exact ⟨_, by rw [encList, ha]; simp only []; rw [hb]; rfl⟩

end

/-! ## Round trips -/

theorem decStr_enc (v : Bytes) (hl : v.length < 2 ^ 31) (rest : Bytes) :
    decStr ((beEnc 4 v.length ++ (v ++ pad v.length)) ++ rest) = some (v, rest) := by
  have ha := le_align4 hl
  unfold decStr
  rw [List.append_assoc, readFull_append _ (length_beEnc ..)]
  simp only []
  rw [beDec_beEnc_of_lt (show v.length < 256 ^ 4 from Nat.lt_trans hl (by decide))]
  have hlen : (v ++ pad v.length).length = align4 v.length := by
    rw [List.length_append, length_pad]; omega
  rw [if_neg, if_neg (by omega), List.take_left' hlen, List.drop_left' hlen, List.append_assoc, List.take_left]
  rintro ⟨h1, h2⟩
  rw [List.append_eq_nil_iff] at h2
  rw [h2.1, List.length_nil] at hlen
  exact h1 hlen.symm

theorem dec_enc (t : Ty) (v : t.Val) (hs : Small t v) (bs rest : Bytes) (he : enc t v = some bs) :
    dec t (bs ++ rest) = some (v, rest) := by
  induction t generalizing bs rest with
  | fixed n =>
    obtain ⟨v, hv⟩ := v
    simp only [enc, Option.some.injEq] at he
    subst he
    show decFixed n (v ++ rest) = _
    unfold decFixed
    rw [dif_pos (by rw [List.take_left' hv, hv])]
    simp only [List.take_left' hv, List.drop_left' hv]; rfl
  | str =>
    simp only [enc, Option.some.injEq] at he
    subst he
    exact decStr_enc v hs rest
  | slice t ih =>
    exact decMany_enc (f := enc t) (g := dec t) v hs.1 (fun x hx a r h => ih x (hs.2 x hx) a r h) bs rest he
  | nil =>
    simp only [enc, Option.some.injEq] at he
    subst he
    rfl
  | field t rest' ih ih' =>
    exact decPair_enc v (fun a r h => ih v.1 hs.1 a r h) (fun a r h => ih' v.2 hs.2 a r h) bs rest he
  | map k e ihk ihv =>
    refine decMany_enc (f := fun p => if k.isFields || e.isFields then none else encPair (enc k) (enc e) p)
      (g := decPair (dec k) (dec e)) v hs.1 ?_ bs rest he
    intro p hp a r h
    split at h
    · cases h
    · exact decPair_enc p (fun a r h => ihk p.1 (hs.2 p hp).1 a r h) (fun a r h => ihv p.2 (hs.2 p hp).2 a r h) a r h

theorem enc_ok (t : Ty) (ht : t.Plain) (v : t.Val) : ∃ bs, enc t v = some bs := by
  induction t with
  | fixed n => exact ⟨_, rfl⟩
  | str => exact ⟨_, rfl⟩
  | slice t ih =>
    obtain ⟨a, ha⟩ := encList_ok (f := enc t) v fun x _ => ih ht x
    exact ⟨_, by show (encList (enc t) v).map _ = _; rw [ha]; rfl⟩
  | nil => exact ⟨_, rfl⟩
  | field t rest ih ih' =>
    obtain ⟨a, ha⟩ := ih ht.1 v.1
    obtain ⟨b, hb⟩ := ih' ht.2 v.2
    exact ⟨a ++ b, by show encPair (enc t) (enc rest) v = _; unfold encPair; rw [ha]; simp only []; rw [hb]; rfl⟩
  | map k e ihk ihv =>
    obtain ⟨h1, h2, h3, h4⟩ := ht
    obtain ⟨a, ha⟩ := encList_ok (f := fun p => if k.isFields || e.isFields then none else encPair (enc k) (enc e) p) v (by
      intro p _
      obtain ⟨a, ha⟩ := ihk h3 p.1
      obtain ⟨b, hb⟩ := ihv h4 p.2
      rw [h1, h2]
      exact ⟨a ++ b, by simp [encPair, ha, hb]⟩)
    exact ⟨_, by show (encList _ v).map _ = _; rw [ha]; rfl⟩

/-- **C67** (partial): a value of a type without structures directly in maps is encoded, and
decoding gives back the value and takes exactly the bytes written, whatever follows them.
Missing: maps whose keys or values are structures (see the counterexample). -/
theorem C67_roundtrip_partial (t : Ty) (ht : t.Plain) (v : t.Val) (hs : Small t v) :
    ∃ bs, enc t v = some bs ∧ ∀ rest, dec t (bs ++ rest) = some (v, rest) := by
  obtain ⟨bs, hb⟩ := enc_ok t ht v
  exact ⟨bs, hb, fun rest => dec_enc t v hs bs rest hb⟩

/-- **C67**, counterexample: encoding a map from numbers to structures of one number panics, although
the same structures are encoded in a slice. -/
theorem C67_map_of_structs_counterexample :
    enc (.map (.fixed 1) (.field (.fixed 1) .nil)) [(⟨[1], rfl⟩, ⟨[2], rfl⟩, ())] = none ∧
    enc (.slice (.field (.fixed 1) .nil)) [(⟨[2], rfl⟩, ())] = some [0, 0, 0, 1, 2] := by
  constructor <;> rfl

/-! ## Truncated data -/

section
variable {α β : Type}

/-- A decoder refuses every proper prefix of these bytes. -/
def Refuses (g : Bytes → Option (α × Bytes)) (bs : Bytes) : Prop := ∀ s, s <+: bs → s ≠ bs → g s = none

/-- Proper prefixes of a concatenation. -/
theorem prefix_append {s a b : Bytes} (h : s <+: a ++ b) (hne : s ≠ a ++ b) :
    (s <+: a ∧ s ≠ a) ∨ ∃ s', s = a ++ s' ∧ s' <+: b ∧ s' ≠ b := by
  rcases List.prefix_or_prefix_of_prefix h (List.prefix_append a b) with h1 | h1
  · by_cases he : s = a
    · right
      refine ⟨[], by simp [he], List.nil_prefix, ?_⟩
      rintro rfl
      exact hne (by simp [he])
    · exact .inl ⟨h1, he⟩
  · right
    obtain ⟨s', rfl⟩ := h1
    exact ⟨s', rfl, (List.prefix_append_right_inj a).1 h, fun he => hne (by rw [he])⟩

theorem refuses_append {f : Bytes → Option (α × Bytes)} {g : α → Bytes → Option (β × Bytes)} {a b : Bytes} {x : α}
    (h1 : Refuses f a) (h2 : ∀ rest, f (a ++ rest) = some (x, rest)) (h3 : Refuses (g x) b) :
    Refuses (fun s => match f s with | none => none | some (x, s) => g x s) (a ++ b) := by
  intro s hs hne
  rcases prefix_append hs hne with ⟨h, h'⟩ | ⟨s', rfl, h, h'⟩
  · simp only [h1 s h h']
  · simp only [h2]
    exact h3 s' h h'

theorem refuses_list {f : α → Option Bytes} {g : Bytes → Option (α × Bytes)} (xs : List α)
    (h : ∀ x ∈ xs, ∀ a rest, f x = some a → g (a ++ rest) = some (x, rest))
    (h' : ∀ x ∈ xs, ∀ a, f x = some a → Refuses g a) (a : Bytes)
    (he : encList f xs = some a) : Refuses (decList g xs.length) a := by
  induction xs generalizing a with
  | nil =>
    cases he
    intro s hs hne
    exact absurd (List.prefix_nil.1 hs) hne
  | cons x xs ih =>
    rw [encList] at he
    split at he
    · cases he
    · next b hb =>
      obtain ⟨c, hc, rfl⟩ := Option.map_eq_some_iff.1 he
      have ihc := ih (fun y hy => h y (List.mem_cons_of_mem _ hy)) (fun y hy => h' y (List.mem_cons_of_mem _ hy)) c hc
      intro s hs hne
      rw [List.length_cons, decList]
      rcases prefix_append hs hne with ⟨h1, h2⟩ | ⟨s', rfl, h1, h2⟩
      · rw [h' x (List.mem_cons_self ..) b hb s h1 h2]
      · rw [h x (List.mem_cons_self ..) b s' hb]
        simp only []
        rw [ihc s' h1 h2]

theorem refuses_pair {f : α → Option Bytes} {f' : β → Option Bytes} {g : Bytes → Option (α × Bytes)}
    {g' : Bytes → Option (β × Bytes)} (p : α × β)
    (h : ∀ a rest, f p.1 = some a → g (a ++ rest) = some (p.1, rest)) (h1 : ∀ a, f p.1 = some a → Refuses g a)
    (h2 : ∀ a, f' p.2 = some a → Refuses g' a) (a : Bytes) (he : encPair f f' p = some a) : Refuses (decPair g g') a := by
  unfold encPair at he
  split at he
  · cases he
  · next b hb =>
    obtain ⟨c, hc, rfl⟩ := Option.map_eq_some_iff.1 he
    intro s hs hne
    unfold decPair
    rcases prefix_append hs hne with ⟨g1, g2⟩ | ⟨s', rfl, g1, g2⟩
    · rw [h1 b hb s g1 g2]
    · rw [h b s' hb]
      simp only []
      rw [h2 c hc s' g1 g2]

theorem readFull_short {n : Nat} {s : Bytes} (h : s.length < n) : readFull n s = .eof ∨ readFull n s = .fail := by
  unfold readFull
  rw [if_neg (by omega)]
  split
  · exact .inl rfl
  · exact .inr rfl

theorem refuses_many {f : α → Option Bytes} {g : Bytes → Option (α × Bytes)} (xs : List α) (hn : xs.length < 2 ^ 32)
    (h : ∀ x ∈ xs, ∀ a rest, f x = some a → g (a ++ rest) = some (x, rest))
    (h' : ∀ x ∈ xs, ∀ a, f x = some a → Refuses g a) (a : Bytes)
    (he : (encList f xs).map (beEnc 4 xs.length ++ ·) = some a) : Refuses (decMany g) a := by
  obtain ⟨c, hc, rfl⟩ := Option.map_eq_some_iff.1 he
  intro s hs hne
  unfold decMany
  rcases prefix_append hs hne with ⟨g1, g2⟩ | ⟨s', rfl, g1, g2⟩
  · have hlt : s.length < 4 := by
      have h1 := g1.length_le
      rw [length_beEnc] at h1
      rcases Nat.lt_or_eq_of_le h1 with h2 | h2
      · exact h2
      · exact absurd (g1.eq_of_length (by rw [h2, length_beEnc])) g2
    rcases readFull_short hlt with h | h <;> rw [h]
  · rw [readFull_append _ (length_beEnc ..)]
    simp only []
    rw [beDec_beEnc_of_lt (show xs.length < 256 ^ 4 from hn)]
    exact refuses_list xs h h' c hc s' g1 g2

end

theorem dec_prefix (t : Ty) (ht : t.NoStr) (v : t.Val) (hs : Small t v) (bs : Bytes) (he : enc t v = some bs) :
    Refuses (dec t) bs := by
  induction t generalizing bs with
  | fixed n =>
    obtain ⟨v, hv⟩ := v
    simp only [enc, Option.some.injEq] at he
    subst he
    intro s h hne
    show decFixed n s = none
    unfold decFixed
    rw [dif_neg]
    intro hl
    apply hne
    apply h.eq_of_length
    have := h.length_le
    rw [List.length_take] at hl
    omega
  | str => exact ht.elim
  | slice t ih =>
    exact refuses_many (f := enc t) (g := dec t) v hs.1 (fun x hx a r h => dec_enc t x (hs.2 x hx) a r h)
      (fun x hx a h => ih ht x (hs.2 x hx) a h) bs he
  | nil =>
    simp only [enc, Option.some.injEq] at he
    subst he
    intro s h hne
    exact absurd (List.prefix_nil.1 h) hne
  | field t rest' ih ih' =>
    exact refuses_pair v (fun a r h => dec_enc t v.1 hs.1 a r h) (fun a h => ih ht.1 v.1 hs.1 a h)
      (fun a h => ih' ht.2 v.2 hs.2 a h) bs he
  | map k e ihk ihv =>
    refine refuses_many (f := fun p => if k.isFields || e.isFields then none else encPair (enc k) (enc e) p)
      (g := decPair (dec k) (dec e)) v hs.1 ?_ ?_ bs he
    · intro p hp a r h
      split at h
      · cases h
      · exact decPair_enc p (fun a r h => dec_enc k p.1 (hs.2 p hp).1 a r h)
          (fun a r h => dec_enc e p.2 (hs.2 p hp).2 a r h) a r h
    · intro p hp a h
      split at h
      · cases h
      · exact refuses_pair p (fun a r h => dec_enc k p.1 (hs.2 p hp).1 a r h)
          (fun a h => ihk ht.1 p.1 (hs.2 p hp).1 a h) (fun a h => ihv ht.2 p.2 (hs.2 p hp).2 a h) a h

/-- **C68** (partial): decoding from fewer bytes than were written is an error, for types without
strings.  Missing: types with strings, see the counterexample. -/
theorem C68_truncated_partial (t : Ty) (ht : t.NoStr) (v : t.Val) (hs : Small t v) (bs : Bytes) (he : enc t v = some bs)
    (s : Bytes) (hp : s <+: bs) (hne : s ≠ bs) : dec t s = none :=
  dec_prefix t ht v hs bs he s hp hne

/-- **C68**, counterexample: a string cut after three of its eight bytes is decoded, with zeros
in place of the rest. -/
theorem C68_string_counterexample :
    enc .str [65, 66, 67, 68, 69, 70, 71, 72] = some [0, 0, 0, 8, 65, 66, 67, 68, 69, 70, 71, 72] ∧
    dec .str [0, 0, 0, 8, 65, 66, 67] = some (([65, 66, 67, 0, 0, 0, 0, 0] : Bytes), []) := by
  constructor
  · rfl
  · show decStr _ = _
    decide +kernel

/-! ## Examples -/

/-- A structure with a number, a string and a map from strings to slices of numbers. -/
def exTy : Ty := .field (.fixed 2) (.field .str (.field (.map .str (.slice (.fixed 1))) .nil))

example : ∃ bs, enc exTy (⟨[1, 2], rfl⟩, [65], [([66], [⟨[3], rfl⟩, ⟨[4], rfl⟩])], ()) = some bs ∧
    ∀ rest, dec exTy (bs ++ rest) = some ((⟨[1, 2], rfl⟩, [65], [([66], [⟨[3], rfl⟩, ⟨[4], rfl⟩])], ()), rest) :=
  C67_roundtrip_partial exTy (by simp [exTy, Ty.Plain, Ty.isFields]) _ (by simp [exTy, Small]; decide)

example : enc exTy (⟨[1, 2], rfl⟩, [65], [([66], [⟨[3], rfl⟩, ⟨[4], rfl⟩])], ()) =
    some [1, 2, 0, 0, 0, 1, 65, 0, 0, 0, 0, 0, 0, 1, 0, 0, 0, 1, 66, 0, 0, 0, 0, 0, 0, 2, 3, 4] := by
  rfl

example : dec (.slice (.fixed 2)) [0, 0, 0, 2, 1, 2, 3] = none :=
  C68_truncated_partial (.slice (.fixed 2)) trivial [⟨[1, 2], rfl⟩, ⟨[3, 4], rfl⟩] (by simp [Small]; decide)
    [0, 0, 0, 2, 1, 2, 3, 4] rfl _ ⟨[4], rfl⟩ (by decide)

end Verif.Sio
