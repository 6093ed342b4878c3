import Verif.RTree.Lemmas

/-! Lemmas: branches and trees, from the first `Write` to the last entry read. -/

namespace Verif.RTree

/-- A relation between the elements of two lists of equal length. -/
def All2 {α β : Type} (R : α → β → Prop) : List α → List β → Prop
  | [], [] => True
  | a :: as, b :: bs => R a b ∧ All2 R as bs
  | _, _ => False

theorem All2.length {α β : Type} {R : α → β → Prop} {as : List α} {bs : List β}
    (h : All2 R as bs) : as.length = bs.length := by
  induction as generalizing bs with
  | nil => cases bs with
    | nil => rfl
    | cons => exact absurd h (by simp [All2])
  | cons a as ih => cases bs with
    | nil => exact absurd h (by simp [All2])
    | cons b bs => simp [ih h.2]

theorem All2.imp {α β : Type} {R S : α → β → Prop} (hrs : ∀ a b, R a b → S a b)
    {as : List α} {bs : List β} (h : All2 R as bs) : All2 S as bs := by
  induction as generalizing bs with
  | nil => cases bs with
    | nil => trivial
    | cons => exact absurd h (by simp [All2])
  | cons a as ih => cases bs with
    | nil => exact absurd h (by simp [All2])
    | cons b bs => exact ⟨hrs _ _ h.1, ih h.2⟩

/-! ### Spans of a branch -/

/-- A reader which loads the basket of `sp` finds the entries of `es` the span names. -/
def HoldsAt (f : File) (k : Kind) (es : List Bytes) (sp : Span) : Prop :=
  ∃ r, inflate f k.eoff sp = some r ∧ r.span = sp ∧
    ∀ i, sp.beg ≤ i → i < sp.fin → ∃ v e, es[i]? = some e ∧
      r.load ((i : Int) - sp.beg) = some v ∧ e <+: v

theorem HoldsAt.later {f f' : File} {k : Kind} {sp : Span} {es : List Bytes}
    (h : HoldsAt f k es sp) (hl : Later f f') : HoldsAt f' k es sp := by
  obtain ⟨r, hr, h2⟩ := h
  refine ⟨r, ?_, h2⟩
  unfold inflate at hr ⊢
  split at hr
  · exact absurd hr (by simp)
  · next s hs => rw [hl.2 _ _ hs]; exact hr

theorem HoldsAt.snoc {f : File} {k : Kind} {sp : Span} {es : List Bytes} {e : Bytes}
    (h : HoldsAt f k es sp) : HoldsAt f k (es ++ [e]) sp := by
  obtain ⟨r, hr, hs, h2⟩ := h
  refine ⟨r, hr, hs, fun i h3 h4 => ?_⟩
  obtain ⟨v, e', h5, h6⟩ := h2 i h3 h4
  refine ⟨v, e', ?_, h6⟩
  rw [List.getElem?_append_left (List.getElem?_eq_some_iff.mp h5).1]; exact h5

theorem Holds.at {f : File} {k : Kind} {sp : Span} {es : List Bytes}
    (h : Holds f k sp (es.drop sp.beg)) (hf : sp.fin ≤ es.length) : HoldsAt f k es sp := by
  obtain ⟨r, hr, hs, h2⟩ := h
  refine ⟨r, hr, hs, fun i h3 h4 => ?_⟩
  obtain ⟨v, h5, h6⟩ := h2 (i - sp.beg) (by rw [List.length_drop]; omega)
  refine ⟨v, es[i], List.getElem?_eq_getElem (by omega), ?_, ?_⟩
  · rw [← h5]; congr 1; omega
  · have : (es.drop sp.beg)[i - sp.beg]'(by rw [List.length_drop]; omega) = es[i] := by
      rw [List.getElem_drop]; congr 1; omega
    rwa [this] at h6

/-- The spans are non-empty, follow each other from `a` to `b`, and hold the entries. -/
def Chained (f : File) (k : Kind) (es : List Bytes) : Nat → List Span → Nat → Prop
  | a, [], b => a = b
  | a, s :: ss, b => s.beg = a ∧ a < s.fin ∧ HoldsAt f k es s ∧ Chained f k es s.fin ss b

theorem Chained.le {f : File} {k : Kind} {es : List Bytes} {ss : List Span} {a b : Nat}
    (h : Chained f k es a ss b) : a ≤ b := by
  induction ss generalizing a with
  | nil => exact Nat.le_of_eq h
  | cons s ss ih => have := ih h.2.2.2; have := h.2.1; omega

theorem Chained.mono {f f' : File} {k : Kind} {es es' : List Bytes} {ss : List Span} {a b : Nat}
    (h : Chained f k es a ss b) (hm : ∀ sp, HoldsAt f k es sp → HoldsAt f' k es' sp) :
    Chained f' k es' a ss b := by
  induction ss generalizing a with
  | nil => exact h
  | cons s ss ih => exact ⟨h.1, h.2.1, hm _ h.2.2.1, ih h.2.2.2⟩

theorem Chained.snoc {f : File} {k : Kind} {es : List Bytes} {ss : List Span} {a b : Nat}
    (h : Chained f k es a ss b) {s : Span} (h1 : s.beg = b) (h2 : b < s.fin)
    (h3 : HoldsAt f k es s) : Chained f k es a (ss ++ [s]) s.fin := by
  induction ss generalizing a with
  | nil => cases h; exact ⟨h1, h2, h3, rfl⟩
  | cons t ss ih => exact ⟨h.1, h.2.1, h.2.2.1, ih h.2.2.2⟩

theorem spansOf_snoc (init : List Nat) (l x p n : Nat) (seek bytes : List Nat)
    (h1 : seek.length = init.length) (h2 : bytes.length = init.length) :
    spansOf (init ++ [l] ++ [x]) (seek ++ [p]) (bytes ++ [n])
      = spansOf (init ++ [l]) seek bytes ++ [⟨l, x, p, n⟩] := by
  induction init generalizing seek bytes with
  | nil =>
    cases seek with
    | nil => cases bytes with
      | nil => simp [spansOf]
      | cons => simp at h2
    | cons => simp at h1
  | cons a init ih =>
    cases seek with
    | nil => simp at h1
    | cons s seek =>
      cases bytes with
      | nil => simp at h2
      | cons b bytes =>
        have := ih seek bytes (by simpa using h1) (by simpa using h2)
        cases init with
        | nil =>
          simp only [List.nil_append, List.cons_append, spansOf] at this ⊢
          rw [← this]
        | cons c init =>
          simp only [List.cons_append, spansOf] at this ⊢
          rw [← this]

/-! ### A branch while it is written -/

/-- The branch `b` holds the entries `es`. -/
structure BrInv (f : File) (b : Branch) (es : List Bytes) : Prop where
  bk : ∃ bk, b.bk = some bk ∧ ∃ init l, b.entry = init ++ [l] ∧
    init.length = b.seek.length ∧ init.length = b.bytes.length ∧ l ≤ es.length ∧
    BkInv b.kind b.base f bk (es.drop l) ∧
    Chained f b.kind es 0 (spansOf b.entry b.seek b.bytes) l ∧
    (es.drop l = [] ∨ ((es.drop l).flatten.length : Int) < b.bsize)
  entries : b.entries = es.length
  sizes : ∀ n, b.kind = .fixed n → ∀ e ∈ es, e.length = n

/-- A value which fits the branch: a fixed-size branch writes values of its size, and the
basket it ends up in stays below the limit of the 32-bit offsets. -/
def Fits (b : Branch) (e : Bytes) : Prop :=
  (∀ n, b.kind = .fixed n → e.length = n) ∧ b.base + 8 + b.bsize.toNat + e.length < 2 ^ 31

theorem newBranch_inv (k : Kind) (base : Nat) (bsize : Int) (f : File) :
    BrInv f (newBranch k base bsize f) [] where
  bk := ⟨_, rfl, [], 0, rfl, rfl, rfl, Nat.le_refl _, newBasket_inv k base f, rfl, Or.inl rfl⟩
  entries := rfl
  sizes := by simp

theorem BrInv.later {f f' : File} {b : Branch} {es : List Bytes} (h : BrInv f b es)
    (hl : Later f f') : BrInv f' b es := by
  obtain ⟨bk, hbk, init, l, h1, h2, h3, h4, h5, h6, h7⟩ := h.bk
  exact ⟨⟨bk, hbk, init, l, h1, h2, h3, h4, h5.later hl, h6.mono fun _ h => h.later hl, h7⟩,
    h.entries, h.sizes⟩

/-- The state of the branch after `write`, up to the flush. -/
theorem drop_snoc {es : List Bytes} {l : Nat} {e : Bytes} (h : l ≤ es.length) :
    (es ++ [e]).drop l = es.drop l ++ [e] := List.drop_append_of_le_length h

theorem write_inv {z : Bytes → Bytes} {f f' : File} {b b' : Branch} {es : List Bytes} {e : Bytes}
    (hi : BrInv f b es) (hf : FileOk f) (hb : 0 < b.base) (hfit : Fits b e)
    (hcnt : es.length + 2 < 2 ^ 31) (h : b.write z f e = some (b', f')) :
    BrInv f' b' (es ++ [e]) ∧ FileOk f' ∧ Later f f' ∧ b'.kind = b.kind ∧ b'.base = b.base ∧
      b'.bsize = b.bsize := by
  obtain ⟨bk, hbk, init, l, h1, h2, h3, h4, h5, h6, h7⟩ := hi.bk
  have hsizes : ∀ n, b.kind = .fixed n → ∀ x ∈ es ++ [e], x.length = n := by
    intro n hn x hx
    rw [List.mem_append] at hx
    rcases hx with hx | hx
    · exact hi.sizes n hn x hx
    · rw [List.mem_singleton] at hx; subst hx; exact hfit.1 n hn
  unfold Branch.write at h
  rw [hbk] at h
  simp only at h
  split at h
  · exact absurd h (by simp)
  next bk1 hup =>
  have hfill := fill_inv h5 hfit.1 hup
  rw [← drop_snoc h4] at hfill
  generalize hbk2 : Basket.fit b.kind { bk1 with wbuf := bk1.wbuf ++ e } e.length = bk2 at h hfill
  have hlen : bk2.wbuf.length = (es.drop l).flatten.length + e.length := by
    rw [hfill.wbuf, drop_snoc h4]; simp
  split at h
  · next hge =>
    simp only [Branch.flush] at h
    simp only [Option.some.injEq, Prod.mk.injEq] at h
    obtain ⟨hb', hf'⟩ := h
    have hl : Later f f' := by rw [← hf']; exact writeFile_later hf
    have hok : FileOk f' := by rw [← hf']; exact writeFile_ok hf hb
    refine ⟨?_, hok, hl, by rw [← hb']; rfl, by rw [← hb']; rfl, by rw [← hb']; rfl⟩
    have hbd : b.base + 8 + ((es ++ [e]).drop l).flatten.length < 2 ^ 31 := by
      rw [drop_snoc h4, List.flatten_append, List.length_append]
      have := hfit.2
      simp only [List.flatten_cons, List.flatten_nil, List.append_nil]
      rcases h7 with h7 | h7
      · rw [h7]; simp; omega
      · omega
    have hholds : ∀ sp : Span, sp.pos = (bk2.writeFile b.base z f).2.1 →
        sp.sz = (bk2.writeFile b.base z f).1 → Holds f' b.kind sp ((es ++ [e]).drop l) := by
      intro sp hp hs
      rw [← hf']
      exact writeFile_holds hfill hb
        (fun n hn x hx => hsizes n hn x (List.mem_of_mem_drop hx)) hbd
        (by rw [List.length_drop, List.length_append]; simp; omega) sp hp hs
    constructor
    · refine ⟨newBasket b.kind b.base f', by rw [← hb', ← hf']; rfl, init ++ [l],
        es.length + 1, ?_, ?_, ?_, by simp, ?_, ?_, Or.inl ?_⟩
      · rw [← hb']; simp [Branch.createNewBasket, h1, hi.entries]
      · rw [← hb']; simp [Branch.createNewBasket, h2]
      · rw [← hb']; simp [Branch.createNewBasket, h3]
      · rw [← hb']
        have : (es ++ [e]).drop (es.length + 1) = [] := List.drop_of_length_le (by simp)
        rw [this]
        exact newBasket_inv _ _ _
      · rw [← hb']
        simp only [Branch.createNewBasket, h1]
        rw [spansOf_snoc _ _ _ _ _ _ _ h2.symm h3.symm, hi.entries]
        have hc := (h6.mono (f' := f') (es' := es ++ [e])
          fun sp hsp => (hsp.later hl).snoc)
        rw [h1] at hc
        exact hc.snoc (s := ⟨l, es.length + 1, _, _⟩) rfl (by simp; omega)
          ((hholds ⟨l, es.length + 1, _, _⟩ rfl rfl).at (by simp))
      · exact List.drop_of_length_le (by simp)
    · rw [← hb']; simp [Branch.createNewBasket, hi.entries]
    · rw [← hb']; exact hsizes
  · next hge =>
    simp only [Option.some.injEq, Prod.mk.injEq] at h
    obtain ⟨hb', rfl⟩ := h
    refine ⟨?_, hf, Later.refl _, by rw [← hb'], by rw [← hb'], by rw [← hb']⟩
    constructor
    · refine ⟨bk2, by rw [← hb'], init, l, by rw [← hb']; exact h1, by rw [← hb']; exact h2,
        by rw [← hb']; exact h3, by simp; omega, by rw [← hb']; exact hfill, ?_, Or.inr ?_⟩
      · rw [← hb']; exact h6.mono fun sp hsp => hsp.snoc
      · rw [← hb', drop_snoc h4, List.flatten_append, List.length_append]
        simp only [List.flatten_cons, List.flatten_nil, List.append_nil]
        simp only [ge_iff_le, Int.not_le] at hge
        omega
    · rw [← hb']; simp [hi.entries]
    · rw [← hb']; exact hsizes

/-! ### The whole tree while it is written -/

theorem row_inv {z : Bytes → Bytes} {bs bs' : List Branch} {row : List Bytes}
    {cols : List (List Bytes)} {f f' : File} {n : Nat}
    (hi : All2 (BrInv f) bs cols) (hf : FileOk f) (hb : ∀ b ∈ bs, 0 < b.base)
    (hfit : All2 Fits bs row) (hn : ∀ c ∈ cols, c.length = n) (hcnt : n + 2 < 2 ^ 31)
    (h : writeRow z bs row f = some (bs', f')) :
    All2 (BrInv f') bs' (List.zipWith (fun c e => c ++ [e]) cols row) ∧ FileOk f' ∧ Later f f' ∧
      bs'.map (fun b => (b.kind, b.base, b.bsize)) = bs.map (fun b => (b.kind, b.base, b.bsize)) := by
  induction bs generalizing row cols f bs' with
  | nil =>
    cases row with
    | nil =>
      cases cols with
      | nil =>
        simp only [writeRow, Option.some.injEq, Prod.mk.injEq] at h
        obtain ⟨rfl, rfl⟩ := h
        exact ⟨trivial, hf, Later.refl _, rfl⟩
      | cons => exact absurd hi (by simp [All2])
    | cons => exact absurd hfit (by simp [All2])
  | cons b bs ih =>
    cases row with
    | nil => exact absurd hfit (by simp [All2])
    | cons e row =>
      cases cols with
      | nil => exact absurd hi (by simp [All2])
      | cons c cols =>
        simp only [writeRow] at h
        split at h
        · exact absurd h (by simp)
        next r hr =>
        split at h
        · exact absurd h (by simp)
        next r' hr' =>
        simp only [Option.some.injEq, Prod.mk.injEq] at h
        obtain ⟨rfl, rfl⟩ := h
        have hc := hn c (by simp)
        obtain ⟨w1, w2, w3, w4, w5, w6⟩ := write_inv hi.1 hf (hb b (by simp)) hfit.1
          (by omega) (show b.write z f e = some (r.1, r.2) from hr)
        obtain ⟨v1, v2, v3, v4⟩ := ih (hi.2.imp fun _ _ h => h.later w3) w2
          (fun x hx => hb x (by simp [hx])) hfit.2 (fun x hx => hn x (by simp [hx]))
          (show writeRow z bs row r.2 = some (r'.1, r'.2) from hr')
        refine ⟨⟨w1.later v3, v1⟩, v2, w3.trans v3, ?_⟩
        simp [v4, w4, w5, w6]

/-- The rows written by a sequence of operations. -/
def rowsOf : List Op → List (List Bytes)
  | [] => []
  | .write row :: os => row :: rowsOf os
  | .other _ :: os => rowsOf os

/-- The columns `cols` hold the rows `rows`. -/
def Cols (rows : List (List Bytes)) (cols : List (List Bytes)) : Prop :=
  (∀ c ∈ cols, c.length = rows.length) ∧
  ∀ (i : Nat) (row : List Bytes), rows[i]? = some row → cols.map (fun c => c[i]?) = row.map some

theorem zip_cols (cols : List (List Bytes)) (row : List Bytes) (h : cols.length = row.length)
    (n : Nat) (hn : ∀ c ∈ cols, c.length = n) :
    (List.zipWith (fun c e => c ++ [e]) cols row).map (fun c => c[n]?) = row.map some := by
  induction cols generalizing row with
  | nil => cases row with
    | nil => rfl
    | cons => simp at h
  | cons c cols ih => cases row with
    | nil => simp at h
    | cons e row =>
      have hc := hn c (by simp)
      simp only [List.zipWith_cons_cons, List.map_cons]
      rw [ih row (by simpa using h) (fun x hx => hn x (by simp [hx]))]
      congr 1
      rw [← hc]; simp

theorem zip_cols_old (cols : List (List Bytes)) (row : List Bytes) (h : cols.length = row.length)
    (n i : Nat) (hi : i < n) (hn : ∀ c ∈ cols, c.length = n) :
    (List.zipWith (fun c e => c ++ [e]) cols row).map (fun c => c[i]?)
      = cols.map (fun c => c[i]?) := by
  induction cols generalizing row with
  | nil => cases row with
    | nil => rfl
    | cons => simp at h
  | cons c cols ih => cases row with
    | nil => simp at h
    | cons e row =>
      have hc := hn c (by simp)
      simp only [List.zipWith_cons_cons, List.map_cons]
      rw [ih row (by simpa using h) (fun x hx => hn x (by simp [hx]))]
      congr 1
      rw [List.getElem?_append_left (by omega)]

theorem zip_len (cols : List (List Bytes)) (row : List Bytes) (n : Nat)
    (hn : ∀ c ∈ cols, c.length = n) :
    ∀ c ∈ List.zipWith (fun c e => c ++ [e]) cols row, c.length = n + 1 := by
  induction cols generalizing row with
  | nil => simp
  | cons c cols ih => cases row with
    | nil => simp
    | cons e row =>
      intro x hx
      simp only [List.zipWith_cons_cons, List.mem_cons] at hx
      rcases hx with rfl | hx
      · have := hn c (by simp); simp [this]
      · exact ih row (fun x hx => hn x (by simp [hx])) x hx

theorem Cols.snoc {rows cols : List (List Bytes)} {row : List Bytes} (h : Cols rows cols)
    (hl : cols.length = row.length) :
    Cols (rows ++ [row]) (List.zipWith (fun c e => c ++ [e]) cols row) := by
  constructor
  · intro c hc
    rw [zip_len cols row _ h.1 c hc]; simp
  · intro i r hr
    by_cases hi : i < rows.length
    · rw [List.getElem?_append_left hi] at hr
      rw [zip_cols_old cols row hl rows.length i hi h.1]
      exact h.2 i r hr
    · have hlt := (List.getElem?_eq_some_iff.mp hr).1
      simp at hlt
      have hie : i = rows.length := by omega
      subst hie
      simp at hr
      subst hr
      exact zip_cols cols row hl _ h.1

/-- Every row fits the branches. -/
def AllFit (bs : List Branch) (rows : List (List Bytes)) : Prop :=
  ∀ row ∈ rows, All2 Fits bs row

theorem fits_of_conf {bs bs' : List Branch} {row : List Bytes}
    (h : bs'.map (fun b => (b.kind, b.base, b.bsize)) = bs.map (fun b => (b.kind, b.base, b.bsize)))
    (hf : All2 Fits bs row) : All2 Fits bs' row := by
  induction bs generalizing bs' row with
  | nil =>
    cases bs' with
    | nil => exact hf
    | cons => simp at h
  | cons b bs ih =>
    cases bs' with
    | nil => simp at h
    | cons b' bs' =>
      cases row with
      | nil => exact absurd hf (by simp [All2])
      | cons e row =>
        simp only [List.map_cons, List.cons.injEq, Prod.mk.injEq] at h
        obtain ⟨⟨h1, h2, h3⟩, h4⟩ := h
        refine ⟨?_, ih h4 hf.2⟩
        have := hf.1
        unfold Fits at *
        rw [h1, h2, h3]; exact this

theorem base_of_conf {bs bs' : List Branch}
    (h : bs'.map (fun b => (b.kind, b.base, b.bsize)) = bs.map (fun b => (b.kind, b.base, b.bsize)))
    (hb : ∀ b ∈ bs, 0 < b.base) : ∀ b ∈ bs', 0 < b.base := by
  intro b hb'
  have : (b.kind, b.base, b.bsize) ∈ bs'.map (fun b => (b.kind, b.base, b.bsize)) :=
    List.mem_map.mpr ⟨b, hb', rfl⟩
  rw [h] at this
  obtain ⟨c, hc, he⟩ := List.mem_map.mp this
  have := hb c hc
  simp only [Prod.mk.injEq] at he
  omega

theorem steps_inv {z : Bytes → Bytes} {ops : List Op} {bs bs' : List Branch} {f f' : File}
    {rows cols : List (List Bytes)}
    (hi : All2 (BrInv f) bs cols) (hc : Cols rows cols) (hf : FileOk f)
    (hb : ∀ b ∈ bs, 0 < b.base) (hfit : AllFit bs (rowsOf ops))
    (hcnt : rows.length + (rowsOf ops).length + 1 < 2 ^ 31)
    (h : steps z ops (bs, f) = some (bs', f')) :
    ∃ cols', All2 (BrInv f') bs' cols' ∧ Cols (rows ++ rowsOf ops) cols' ∧ FileOk f' ∧
      (∀ b ∈ bs', 0 < b.base) := by
  induction ops generalizing bs f rows cols with
  | nil =>
    simp only [steps, Option.some.injEq, Prod.mk.injEq] at h
    obtain ⟨rfl, rfl⟩ := h
    exact ⟨cols, hi, by simpa [rowsOf] using hc, hf, hb⟩
  | cons o ops ih =>
    simp only [steps] at h
    split at h
    · exact absurd h (by simp)
    next s' hs' =>
    cases o with
    | write row =>
      simp only [step] at hs'
      simp only [rowsOf, List.length_cons] at hcnt
      have hr := hfit row (by simp [rowsOf])
      obtain ⟨w1, w2, w3, w4⟩ := row_inv (bs' := s'.1) (f' := s'.2) hi hf hb hr hc.1 (by omega) hs'
      have hl : cols.length = row.length := by rw [← hi.length, hr.length]
      obtain ⟨cols', h1, h2, h3⟩ := ih (bs := s'.1) (f := s'.2) w1 (hc.snoc hl) w2
        (base_of_conf w4 hb)
        (fun r hr => fits_of_conf w4 (hfit r (by simp [rowsOf, hr])))
        (by simp; omega) h
      exact ⟨cols', h1, by simpa [rowsOf] using h2, h3⟩
    | other n =>
      simp only [step, Option.some.injEq] at hs'
      subst hs'
      have hl : Later f { f with fend := f.fend + n } := ⟨Nat.le_add_right _ _, fun _ _ h => h⟩
      obtain ⟨cols', h1, h2, h3⟩ := ih (bs := bs) (f := { f with fend := f.fend + n })
        (hi.imp fun _ _ h => h.later hl) hc
        (fun p s h => Nat.lt_of_lt_of_le (hf p s h) (Nat.le_add_right _ _)) hb
        (fun r hr => hfit r (by simpa [rowsOf] using hr)) (by simpa [rowsOf] using hcnt) h
      exact ⟨cols', h1, by simpa [rowsOf] using h2, h3⟩

/-! ### After the writer was closed -/

/-- The tables of a closed branch hold the entries `es`. -/
structure TabInv (f : File) (k : Kind) (t : Tables) (es : List Bytes) : Prop where
  eoff : t.eoff = k.eoff
  spans : ∃ ss l s, spansOf t.entry t.seek t.bytes = ss ++ [s] ∧ Chained f k es 0 ss l ∧
    s.beg = l ∧ l ≤ s.fin ∧ s.fin = es.length ∧ HoldsAt f k es s
  entries : t.entries = es.length

theorem TabInv.later {f f' : File} {k : Kind} {t : Tables} {es : List Bytes}
    (h : TabInv f k t es) (hl : Later f f') : TabInv f' k t es := by
  obtain ⟨ss, l, s, h1, h2, h3, h4, h5, h6⟩ := h.spans
  exact ⟨h.eoff, ⟨ss, l, s, h1, h2.mono fun _ h => h.later hl, h3, h4, h5, h6.later hl⟩, h.entries⟩

/-- The tables survive being stored. -/
theorem tables_roundtrip (b : Branch) (h1 : b.seek.length = b.bytes.length)
    (h2 : b.entry.length = b.bytes.length + 1) :
    b.marshal.unmarshal.bytes = b.bytes ∧ b.marshal.unmarshal.entry = b.entry ∧
      b.marshal.unmarshal.seek = b.seek := by
  have key : ∀ (l : List Nat) (n m k : Nat), l.length = n → n ≤ m →
      ((l ++ List.replicate k 0).take m).take n = l := by
    intro l n m k h3 h4
    rw [List.take_take, Nat.min_eq_left h4, ← h3, List.take_append_of_le_length (Nat.le_refl _),
      List.take_length]
  unfold Tables.unmarshal Branch.marshal
  dsimp only
  rw [List.take_of_length_le (Nat.le_refl _), List.take_of_length_le (Nat.le_of_eq h1),
    List.take_of_length_le (Nat.le_of_eq h2)]
  exact ⟨key _ _ _ _ rfl (by omega), key _ _ _ _ h2 (by omega), key _ _ _ _ h1 (by omega)⟩

theorem flush_inv {z : Bytes → Bytes} {f f' : File} {b b' : Branch} {es : List Bytes}
    (hi : BrInv f b es) (hf : FileOk f) (hb : 0 < b.base)
    (hbd : b.base + 8 + b.bsize.toNat < 2 ^ 31)
    (hcnt : es.length + 1 < 2 ^ 31) (h : b.flush z f = some (b', f')) :
    TabInv f' b.kind b'.marshal.unmarshal es ∧ FileOk f' ∧ Later f f' := by
  obtain ⟨bk, hbk, init, l, h1, h2, h3, h4, h5, h6, h7⟩ := hi.bk
  simp only [Branch.flush, hbk, Option.some.injEq, Prod.mk.injEq] at h
  obtain ⟨hb', hf'⟩ := h
  have hl : Later f f' := by rw [← hf']; exact writeFile_later hf
  have hok : FileOk f' := by rw [← hf']; exact writeFile_ok hf hb
  refine ⟨?_, hok, hl⟩
  have hholds : ∀ sp : Span, sp.pos = (bk.writeFile b.base z f).2.1 →
      sp.sz = (bk.writeFile b.base z f).1 → Holds f' b.kind sp (es.drop l) := by
    intro sp hp hs
    rw [← hf']
    refine writeFile_holds h5 hb
      (fun n hn x hx => hi.sizes n hn x (List.mem_of_mem_drop hx)) ?_
      (by rw [List.length_drop]; omega) sp hp hs
    rcases h7 with h7 | h7
    · rw [h7]; simp; omega
    · omega
  obtain ⟨t1, t2, t3⟩ := tables_roundtrip b' (by rw [← hb']; simp; omega)
    (by rw [← hb']; simp [h1]; omega)
  constructor
  · rw [← hb']; rfl
  · rw [t1, t2, t3]
    refine ⟨spansOf b.entry b.seek b.bytes, l, ⟨l, es.length, (bk.writeFile b.base z f).2.1,
      (bk.writeFile b.base z f).1⟩, ?_, ?_, rfl, h4, rfl, ?_⟩
    · rw [← hb']
      simp only [h1]
      rw [spansOf_snoc _ _ _ _ _ _ _ h2.symm h3.symm, hi.entries]
    · exact h6.mono fun _ h => h.later hl
    · exact (hholds ⟨l, es.length, _, _⟩ rfl rfl).at (Nat.le_refl _)
  · rw [← hb']; exact hi.entries

theorem flushAll_inv {z : Bytes → Bytes} {f f' : File} {bs bs' : List Branch}
    {cols : List (List Bytes)} (hi : All2 (BrInv f) bs cols) (hf : FileOk f)
    (hb : ∀ b ∈ bs, 0 < b.base ∧ b.base + 8 + b.bsize.toNat < 2 ^ 31)
    (hcnt : ∀ c ∈ cols, c.length + 1 < 2 ^ 31) (h : flushAll z bs f = some (bs', f')) :
    All2 (fun t es => ∃ k, TabInv f' k t es) (bs'.map fun b => b.marshal.unmarshal) cols ∧
      Later f f' := by
  induction bs generalizing bs' cols f with
  | nil =>
    cases cols with
    | nil =>
      simp only [flushAll, Option.some.injEq, Prod.mk.injEq] at h
      obtain ⟨rfl, rfl⟩ := h
      exact ⟨trivial, Later.refl _⟩
    | cons => exact absurd hi (by simp [All2])
  | cons b bs ih =>
    cases cols with
    | nil => exact absurd hi (by simp [All2])
    | cons c cols =>
      simp only [flushAll] at h
      split at h
      · exact absurd h (by simp)
      next r hr =>
      split at h
      · exact absurd h (by simp)
      next r' hr' =>
      simp only [Option.some.injEq, Prod.mk.injEq] at h
      obtain ⟨rfl, rfl⟩ := h
      have hb0 := hb b (by simp)
      obtain ⟨w1, w2, w3⟩ := flush_inv hi.1 hf hb0.1 hb0.2 (hcnt c (by simp))
        (show b.flush z f = some (r.1, r.2) from hr)
      obtain ⟨v1, v2⟩ := ih (hi.2.imp fun _ _ h => h.later w3) w2
        (fun x hx => hb x (by simp [hx])) (fun x hx => hcnt x (by simp [hx]))
        (show flushAll z bs r.2 = some (r'.1, r'.2) from hr')
      exact ⟨⟨⟨_, w1.later v2⟩, v1⟩, w3.trans v2⟩

/-! ### Reading -/

/-- The spans lead from `a` at least to `fin`, without empty ones. -/
def Cover (f : File) (k : Kind) (es : List Bytes) (fin : Nat) : Nat → List Span → Prop
  | a, [] => fin ≤ a
  | a, s :: ss => fin ≤ a ∨ (s.beg = a ∧ a < s.fin ∧ HoldsAt f k es s ∧ Cover f k es fin s.fin ss)

/-- What the tables of a closed branch look like, from the first span on. -/
def Ends (f : File) (k : Kind) (es : List Bytes) : Nat → List Span → Prop
  | _, [] => False
  | a, [s] => s.beg = a ∧ a ≤ s.fin ∧ s.fin = es.length ∧ HoldsAt f k es s
  | a, s :: t :: ss => s.beg = a ∧ a < s.fin ∧ HoldsAt f k es s ∧ Ends f k es s.fin (t :: ss)

theorem ends_of_chained {f : File} {k : Kind} {es : List Bytes} {ss : List Span} {a l : Nat}
    {s : Span} (h : Chained f k es a ss l) (h1 : s.beg = l) (h2 : l ≤ s.fin)
    (h3 : s.fin = es.length) (h4 : HoldsAt f k es s) : Ends f k es a (ss ++ [s]) := by
  induction ss generalizing a with
  | nil => cases h; exact ⟨h1, h2, h3, h4⟩
  | cons t ss ih =>
    have := ih h.2.2.2
    cases ss with
    | nil => exact ⟨h.1, h.2.1, h.2.2.1, this⟩
    | cons u ss => exact ⟨h.1, h.2.1, h.2.2.1, this⟩

theorem Ends.last {f : File} {k : Kind} {es : List Bytes} {ss : List Span} {a : Nat}
    (h : Ends f k es a ss) : ∃ l, ss.getLast? = some l ∧ l.fin = es.length := by
  induction ss generalizing a with
  | nil => exact absurd h (by simp [Ends])
  | cons s ss ih =>
    cases ss with
    | nil => exact ⟨s, rfl, h.2.2.1⟩
    | cons t ss =>
      obtain ⟨l, h1, h2⟩ := ih h.2.2.2
      exact ⟨l, by rw [List.getLast?_cons_cons]; exact h1, h2⟩

theorem findEnd_cons (s : Span) (ss : List Span) (fin : Nat) :
    findEnd (s :: ss) fin = if fin ≤ s.fin then 1 else findEnd ss fin + 1 := by
  unfold findEnd
  rw [List.findIdx?_cons]
  by_cases h : fin ≤ s.fin
  · simp [h]
  · simp only [h, decide_false, Bool.false_eq_true, if_false]
    cases List.findIdx? (fun v => decide (fin ≤ v.fin)) ss <;> rfl

theorem findBeg_cons (s : Span) (ss : List Span) (beg : Nat) :
    findBeg (s :: ss) beg = if s.beg ≤ beg ∧ beg < s.fin then some 0
      else (findBeg ss beg).map (· + 1) := by
  unfold findBeg
  rw [List.findIdx?_cons]
  by_cases h : s.beg ≤ beg ∧ beg < s.fin
  · rw [if_pos h]; simp [h.1, h.2]
  · rw [if_neg h]
    have : (decide (s.beg ≤ beg) && decide (beg < s.fin)) = false := by
      simpa using h
    rw [this]; rfl

theorem cover_take {f : File} {k : Kind} {es : List Bytes} {ss : List Span} {a fin : Nat}
    (h : Ends f k es a ss) (hfin : fin ≤ es.length) :
    Cover f k es fin a (ss.take (findEnd ss fin)) := by
  induction ss generalizing a with
  | nil => exact absurd h (by simp [Ends])
  | cons s ss ih =>
    rw [findEnd_cons]
    by_cases h1 : fin ≤ a
    · split <;> simp only [List.take_succ_cons] <;> exact Or.inl h1
    · cases ss with
      | nil =>
        obtain ⟨h2, h3, h4, h5⟩ := h
        rw [if_pos (by omega)]
        exact Or.inr ⟨h2, by omega, h5, by show fin ≤ s.fin; omega⟩
      | cons t ss =>
        obtain ⟨h2, h3, h4, h5⟩ := h
        split
        · next h6 => exact Or.inr ⟨h2, h3, h4, by simpa [Cover] using h6⟩
        · exact Or.inr ⟨h2, h3, h4, ih h5⟩

/-- What a branch reader is given for `[beg, fin)`. -/
def Given (f : File) (k : Kind) (es : List Bytes) (beg fin : Nat) (l : List Span) : Prop :=
  (l = [] ∧ fin = beg) ∨ ∃ s rest, l = s :: rest ∧ s.beg ≤ beg ∧ beg < s.fin ∧
    HoldsAt f k es s ∧ Cover f k es fin s.fin rest

theorem find_given {f : File} {k : Kind} {es : List Bytes} {ss : List Span} {a beg fin : Nat}
    (h : Ends f k es a ss) (ha : a ≤ beg) (hb : beg < es.length) (hbf : beg ≤ fin)
    (hfin : fin ≤ es.length) :
    ∃ ib, findBeg ss beg = some ib ∧ ib ≤ findEnd ss fin ∧
      Given f k es beg fin ((ss.drop ib).take (findEnd ss fin - ib)) := by
  induction ss generalizing a with
  | nil => exact absurd h (by simp [Ends])
  | cons s ss ih =>
    rw [findBeg_cons, findEnd_cons]
    by_cases hs : beg < s.fin
    · have hsb : s.beg = a := by cases ss <;> exact h.1
      have hh : HoldsAt f k es s := by cases ss with
        | nil => exact h.2.2.2
        | cons => exact h.2.2.1
      rw [if_pos ⟨by omega, hs⟩]
      refine ⟨0, rfl, Nat.zero_le _, Or.inr ?_⟩
      simp only [List.drop_zero, Nat.sub_zero]
      split
      · next h6 => exact ⟨s, [], by simp, by omega, hs, hh, h6⟩
      · next h6 =>
        refine ⟨s, ss.take (findEnd ss fin), by simp, by omega, hs, hh, ?_⟩
        cases ss with
        | nil => have := h.2.2.1; omega
        | cons t ss => exact cover_take h.2.2.2 hfin
    · rw [if_neg (by omega)]
      cases ss with
      | nil => have := h.2.2.1; omega
      | cons t ss =>
        have h5 := h.2.2.2
        obtain ⟨ib, i1, i2, i3⟩ := ih h5 (by omega)
        rw [i1]
        refine ⟨ib + 1, rfl, ?_⟩
        split
        · next h6 =>
          have hfb : fin = beg := by omega
          have hib : ib = 0 := by
            rw [findBeg_cons] at i1
            have htb : t.beg = s.fin := by cases ss <;> exact h5.1
            have htf : beg < t.fin := by
              cases ss with
              | nil => have := h5.2.2.1; omega
              | cons => have := h5.2.1; omega
            rw [if_pos ⟨by omega, htf⟩] at i1
            simpa using i1.symm
          subst hib
          exact ⟨by omega, Or.inl ⟨by simp, hfb⟩⟩
        · refine ⟨by omega, ?_⟩
          rw [List.drop_succ_cons, Nat.add_sub_add_right]
          exact i3

theorem requested_given {f : File} {k : Kind} {t : Tables} {es : List Bytes} {beg fin : Nat}
    (h : TabInv f k t es) (hbf : beg ≤ fin) (hfin : fin ≤ es.length) :
    ∃ l, requested t beg fin = some l ∧ Given f k es beg fin l := by
  obtain ⟨ss, l, s, h1, h2, h3, h4, h5, h6⟩ := h.spans
  have he := ends_of_chained h2 h3 h4 h5 h6
  rw [← h1] at he
  obtain ⟨la, hl1, hl2⟩ := he.last
  unfold requested
  dsimp only
  rw [hl1]
  dsimp only
  split
  · exact ⟨[], rfl, Or.inl ⟨rfl, by omega⟩⟩
  · next hlt =>
    obtain ⟨ib, i1, i2, i3⟩ := find_given he (Nat.zero_le beg) (by omega) hbf hfin
    rw [i1]
    dsimp only
    rw [if_pos i2]
    exact ⟨_, rfl, i3⟩

/-- A branch reader which is ready to read entry `i`. -/
structure RInv (f : File) (fin i : Nat) (b : RBranch) (es : List Bytes) : Prop where
  cur : ∃ k c, b.eoff = k.eoff ∧ b.cur = some c ∧ c.span.beg ≤ i ∧ i ≤ c.span.fin ∧
    (∀ i, c.span.beg ≤ i → i < c.span.fin → ∃ v e, es[i]? = some e ∧
      c.load ((i : Int) - c.span.beg) = some v ∧ e <+: v) ∧
    Cover f k es fin c.span.fin b.rest

theorem read_inv {f : File} {fin i : Nat} {b : RBranch} {es : List Bytes}
    (h : RInv f fin i b es) (hi : i < fin) :
    ∃ v e b', b.read f i = some (v, b') ∧ es[i]? = some e ∧ e <+: v ∧ RInv f fin (i + 1) b' es := by
  obtain ⟨k, c, h0, h1, h2, h3, h4, h5⟩ := h.cur
  unfold RBranch.read
  rw [h1]
  dsimp only
  by_cases hc : i ≥ c.span.fin
  · rw [if_pos hc]
    have hie : i = c.span.fin := by omega
    unfold RBranch.next
    cases hr : b.rest with
    | nil => rw [hr] at h5; have : fin ≤ c.span.fin := h5; omega
    | cons s rest =>
      rw [hr] at h5
      rcases h5 with h5 | ⟨h5, h6, ⟨r, h7, h8, h9⟩, h10⟩
      · omega
      · dsimp only
        rw [h0, h7]
        dsimp only [Option.map_some]
        obtain ⟨v, e, e1, e2, e3⟩ := h9 i (by omega) (by omega)
        rw [h8, e2]
        refine ⟨v, e, _, rfl, e1, e3, ⟨k, r, rfl, rfl, by rw [h8]; omega, by rw [h8]; omega, ?_, ?_⟩⟩
        · rw [h8]; exact h9
        · rw [h8]; exact h10
  · rw [if_neg hc]
    obtain ⟨v, e, e1, e2, e3⟩ := h4 i h2 (by omega)
    rw [e2]
    exact ⟨v, e, b, rfl, e1, e3, ⟨k, c, h0, h1, by omega, by omega, h4, h5⟩⟩

theorem readRow_inv {f : File} {fin i : Nat} {bs : List RBranch} {cols : List (List Bytes)}
    {row : List Bytes} (h : All2 (RInv f fin i) bs cols) (hi : i < fin)
    (hrow : cols.map (fun c => c[i]?) = row.map some) :
    ∃ vs bs', readRow f bs i = some (vs, bs') ∧ All2 (fun e v => e <+: v) row vs ∧
      All2 (RInv f fin (i + 1)) bs' cols := by
  induction bs generalizing cols row with
  | nil =>
    cases cols with
    | nil =>
      cases row with
      | nil => exact ⟨[], [], rfl, trivial, trivial⟩
      | cons => simp at hrow
    | cons => exact absurd h (by simp [All2])
  | cons b bs ih =>
    cases cols with
    | nil => exact absurd h (by simp [All2])
    | cons c cols =>
      cases row with
      | nil => simp at hrow
      | cons e row =>
        simp only [List.map_cons, List.cons.injEq] at hrow
        obtain ⟨v, e', b', r1, r2, r3, r4⟩ := read_inv h.1 hi
        obtain ⟨vs, bs', s1, s2, s3⟩ := ih h.2 hrow.2
        have : e' = e := by rw [hrow.1] at r2; simpa using r2.symm
        subst this
        refine ⟨v :: vs, b' :: bs', ?_, ⟨r3, s2⟩, ⟨r4, s3⟩⟩
        simp only [readRow, r1, s1]

/-- What the callback saw: the entries from `i` on, numbered, with their values at the
front of the buffers. -/
def Delivered (rows : List (List Bytes)) (off : Nat) : Nat → List (Nat × List Bytes) → Prop
  | _, [] => True
  | i, o :: out => o.1 = i + off ∧ (∃ row, rows[i]? = some row ∧
      All2 (fun e v => e <+: v) row o.2) ∧ Delivered rows off (i + 1) out

theorem runLoop_inv {f : File} {off fin : Nat} {rows cols : List (List Bytes)}
    (hc : Cols rows cols) (hfin : fin ≤ rows.length) {n i : Nat} {bs : List RBranch}
    (hn : i + n = fin) (h : n = 0 ∨ All2 (RInv f fin i) bs cols) :
    ∃ out, runLoop f off n i bs = some out ∧ out.length = n ∧ Delivered rows off i out := by
  induction n generalizing i bs with
  | zero => exact ⟨[], rfl, rfl, trivial⟩
  | succ n ih =>
    rcases h with h | h
    · exact absurd h (by simp)
    · have hrow : rows[i]? = some rows[i] := List.getElem?_eq_getElem (by omega)
      obtain ⟨vs, bs', r1, r2, r3⟩ := readRow_inv h (by omega) (hc.2 i rows[i] hrow)
      obtain ⟨out, o1, o2, o3⟩ := ih (i := i + 1) (by omega) (Or.inr r3)
      refine ⟨(i + off, vs) :: out, ?_, by simp [o2], rfl, ⟨_, hrow, r2⟩, o3⟩
      simp only [runLoop, r1, o1]
      rfl

/-- A branch reader before `start`. -/
structure Fresh (f : File) (beg fin : Nat) (b : RBranch) (es : List Bytes) : Prop where
  given : ∃ k, b.eoff = k.eoff ∧ Given f k es beg fin b.rest

theorem openAll_inv {f : File} {beg fin : Nat} {ts : List Tables} {cols : List (List Bytes)}
    (h : All2 (fun t es => ∃ k, TabInv f k t es) ts cols) (hbf : beg ≤ fin)
    (hfin : ∀ c ∈ cols, fin ≤ c.length) :
    ∃ bs, openAll ts beg fin = some bs ∧ All2 (Fresh f beg fin) bs cols := by
  induction ts generalizing cols with
  | nil =>
    cases cols with
    | nil => exact ⟨[], rfl, trivial⟩
    | cons => exact absurd h (by simp [All2])
  | cons t ts ih =>
    cases cols with
    | nil => exact absurd h (by simp [All2])
    | cons c cols =>
      obtain ⟨k, hk⟩ := h.1
      obtain ⟨l, r1, r2⟩ := requested_given hk hbf (hfin c (by simp))
      obtain ⟨bs, b1, b2⟩ := ih h.2 (fun x hx => hfin x (by simp [hx]))
      refine ⟨⟨t.eoff, none, l⟩ :: bs, ?_, ⟨⟨k, hk.eoff, r2⟩, b2⟩⟩
      unfold openAll at b1 ⊢
      rw [List.mapM_cons, r1, b1]
      rfl

theorem startAll_inv {f : File} {beg fin : Nat} {bs : List RBranch} {cols : List (List Bytes)}
    (h : All2 (Fresh f beg fin) bs cols) :
    ∃ bs', startAll f bs = some bs' ∧ (fin = beg ∨ All2 (RInv f fin beg) bs' cols) := by
  induction bs generalizing cols with
  | nil =>
    cases cols with
    | nil => exact ⟨[], rfl, Or.inr trivial⟩
    | cons => exact absurd h (by simp [All2])
  | cons b bs ih =>
    cases cols with
    | nil => exact absurd h (by simp [All2])
    | cons c cols =>
      obtain ⟨k, h0, hg⟩ := h.1.given
      rcases hg with ⟨hg, he⟩ | ⟨s, rest, h1, h2, h3, ⟨r, h4, h5, h6⟩, h7⟩
      · exact ⟨b :: bs, by simp [startAll, hg], Or.inl he⟩
      · obtain ⟨bs', i1, i2⟩ := ih h.2
        refine ⟨{ b with cur := some r, rest := rest } :: bs', ?_, ?_⟩
        · simp only [startAll, h1, RBranch.next, h0, h4, i1]
          rfl
        · rcases i2 with i2 | i2
          · exact Or.inl i2
          · refine Or.inr ⟨⟨k, r, h0, rfl, by rw [h5]; exact h2, by rw [h5]; omega, ?_, ?_⟩, i2⟩
            · rw [h5]; exact h6
            · rw [h5]; exact h7

end Verif.RTree
