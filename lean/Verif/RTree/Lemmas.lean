import Verif.RTree.Model

/-! Lemmas about the tree model: what the writer keeps true of a branch. -/

namespace Verif.RTree

/-! ### Bytes -/

theorem readI32_enc {n : Nat} (h : n < 2 ^ 31) (rest : Bytes) :
    readI32 (beEnc 4 n ++ rest) = n := by
  unfold readI32
  have ht : (beEnc 4 n ++ rest).take 4 = beEnc 4 n := by
    rw [List.take_append_of_le_length (by simp)]
    exact List.take_of_length_le (by simp)
  rw [ht, beDec_beEnc_of_lt (by omega)]
  simp [h]

theorem drop4_enc (n : Nat) (rest : Bytes) : (beEnc 4 n ++ rest).drop 4 = rest := by
  rw [List.drop_append_of_le_length (by simp), List.drop_of_length_le (by simp)]
  rfl

theorem readI32s_enc (l : List Nat) (h : ∀ x ∈ l, x < 2 ^ 31) (rest : Bytes) :
    readI32s l.length (encOffsets l ++ rest) = some (l.map fun (x : Nat) => (x : Int)) := by
  induction l with
  | nil => rfl
  | cons x l ih =>
    have hx := h x (by simp)
    have e : encOffsets (x :: l) ++ rest = beEnc 4 x ++ (encOffsets l ++ rest) := by
      simp [encOffsets]
    rw [e, List.length_cons]
    simp only [readI32s]
    rw [if_neg (by simp), drop4_enc, ih (fun y hy => h y (by simp [hy])), readI32_enc hx]
    rfl

theorem encOffsets_append (a b : List Nat) :
    encOffsets (a ++ b) = encOffsets a ++ encOffsets b := by
  simp [encOffsets]

/-! ### Positions within the concatenation of the entries -/

/-- Where the `j`-th entry starts. -/
def posOf (cur : List Bytes) (j : Nat) : Nat := ((cur.take j).flatten).length

theorem posOf_length (cur : List Bytes) : posOf cur cur.length = cur.flatten.length := by
  simp [posOf]

theorem posOf_le (cur : List Bytes) (j : Nat) : posOf cur j ≤ cur.flatten.length := by
  unfold posOf
  have : cur.flatten = (cur.take j).flatten ++ (cur.drop j).flatten := by
    rw [← List.flatten_append, List.take_append_drop]
  rw [this, List.length_append]
  omega

theorem posOf_snoc {cur : List Bytes} {e : Bytes} {j : Nat} (h : j ≤ cur.length) :
    posOf (cur ++ [e]) j = posOf cur j := by
  unfold posOf
  rw [List.take_append_of_le_length h]

theorem drop_posOf {cur : List Bytes} {j : Nat} (h : j < cur.length) :
    cur.flatten.drop (posOf cur j) = cur[j] ++ (cur.drop (j + 1)).flatten := by
  have e : cur.flatten = (cur.take j).flatten ++ (cur[j] ++ (cur.drop (j + 1)).flatten) := by
    conv => lhs; rw [← List.take_append_drop j cur]
    rw [List.flatten_append, List.drop_eq_getElem_cons h, List.flatten_cons]
  conv => lhs; rw [e]
  unfold posOf
  rw [List.drop_append_of_le_length (by omega), List.drop_of_length_le (by omega)]
  rfl

theorem posOf_fixed {cur : List Bytes} {n : Nat} (h : ∀ e ∈ cur, e.length = n) {j : Nat}
    (hj : j ≤ cur.length) : posOf cur j = j * n := by
  unfold posOf
  induction cur generalizing j with
  | nil => simp at hj; subst hj; simp
  | cons c cur ih =>
    cases j with
    | zero => simp
    | succ j =>
      have := ih (fun e he => h e (by simp [he])) (j := j) (by simpa using hj)
      simp only [List.take_succ_cons, List.flatten_cons, List.length_append]
      rw [this, h c (by simp), Nat.succ_mul]
      omega

/-! ### What holds of a basket being filled -/

/-- The basket `b` holds exactly the entries `cur`. -/
structure BkInv (k : Kind) (base : Nat) (f : File) (b : Basket) (cur : List Bytes) : Prop where
  wbuf : b.wbuf = cur.flatten
  nev : b.nevbuf = cur.length
  klen : b.keylen = base + if b.big then 8 else 0
  mono : b.big = true → f.big = true
  nil : k.eoff = 0 → b.offsets = []
  fsz : ∀ n, k = .fixed n → (cur = [] → b.nevsize = 0) ∧ (cur ≠ [] → b.nevsize = n)
  offs : k.eoff ≠ 0 → b.offsets ≠ [] ∧
    ∀ j < cur.length, b.offsets[j]? = some (b.keylen + posOf cur j)

theorem eoff_zero {k : Kind} (h : k.eoff = 0) : ∃ n, k = .fixed n := by
  cases k <;> simp_all [Kind.eoff]

theorem newBasket_inv (k : Kind) (base : Nat) (f : File) :
    BkInv k base f (newBasket k base f) [] where
  wbuf := rfl
  nev := rfl
  klen := rfl
  mono := id
  nil := by intro h; simp [newBasket, h]
  fsz := by rintro n rfl; exact ⟨fun _ => rfl, fun h => absurd rfl h⟩
  offs := by
    intro h
    refine ⟨?_, fun j hj => absurd hj (by simp)⟩
    intro h0
    have h1 := congrArg List.length h0
    simp only [newBasket, List.length_replicate, List.length_nil] at h1
    exact h h1

/-- The fields a `fit` leaves alone. -/
theorem fit_wbuf (k : Kind) (b : Basket) (n : Nat) : (Basket.fit k b n).wbuf = b.wbuf := by
  unfold Basket.fit Basket.grow; split <;> (try split) <;> rfl
theorem fit_nevbuf (k : Kind) (b : Basket) (n : Nat) : (Basket.fit k b n).nevbuf = b.nevbuf := by
  unfold Basket.fit Basket.grow; split <;> (try split) <;> rfl
theorem fit_keylen (k : Kind) (b : Basket) (n : Nat) : (Basket.fit k b n).keylen = b.keylen := by
  unfold Basket.fit Basket.grow; split <;> (try split) <;> rfl
theorem fit_big (k : Kind) (b : Basket) (n : Nat) : (Basket.fit k b n).big = b.big := by
  unfold Basket.fit Basket.grow; split <;> (try split) <;> rfl
theorem fit_offsets (k : Kind) (b : Basket) (n : Nat) :
    ∃ m, (Basket.fit k b n).offsets = b.offsets ++ List.replicate m 0 ∧
      (k.elem = false → m = 0) := by
  unfold Basket.fit Basket.grow
  split
  · split
    · exact ⟨_, rfl, by simp_all⟩
    · exact ⟨0, by simp, fun _ => rfl⟩
  · exact ⟨0, by simp, fun _ => rfl⟩

theorem update_spec {b b' : Basket} {o : Nat} (h : b.update o = some b') :
    b'.wbuf = b.wbuf ∧ b'.nevbuf = b.nevbuf + 1 ∧ b'.keylen = b.keylen ∧ b'.big = b.big ∧
      ((b.offsets = [] ∧ b'.offsets = [] ∧ b'.nevsize = b.nevsize) ∨
       (b.offsets ≠ [] ∧ ∃ m, b'.offsets =
          (b.offsets ++ List.replicate m 0).set b.nevbuf (o + b.keylen) ∧
          b.nevbuf < b.offsets.length + m)) := by
  unfold Basket.update at h
  split at h
  · next h1 => cases h; simp_all
  · next h1 =>
    split at h
    · dsimp only at h
      split at h
      · next hlt =>
        cases h
        refine ⟨rfl, rfl, rfl, rfl, Or.inr ⟨h1, _, rfl, ?_⟩⟩
        simpa using hlt
      · exact absurd h (by simp)
    · split at h
      · next hlt =>
        cases h
        exact ⟨rfl, rfl, rfl, rfl, Or.inr ⟨h1, 0, by simp, by simpa using hlt⟩⟩
      · exact absurd h (by simp)

/-- Filling one entry. -/
theorem fill_inv {k : Kind} {base : Nat} {f : File} {b b1 : Basket} {cur : List Bytes}
    {e : Bytes} (hi : BkInv k base f b cur) (hsz : ∀ n, k = .fixed n → e.length = n)
    (h : b.update b.wbuf.length = some b1) :
    BkInv k base f (Basket.fit k { b1 with wbuf := b1.wbuf ++ e } e.length) (cur ++ [e]) := by
  obtain ⟨hw, hn, hk, hb, ho⟩ := update_spec h
  obtain ⟨m, hfo, hm0⟩ := fit_offsets k { b1 with wbuf := b1.wbuf ++ e } e.length
  constructor
  · rw [fit_wbuf]; simp [hw, hi.wbuf]
  · rw [fit_nevbuf]; simp [hn, hi.nev]
  · rw [fit_keylen, fit_big]; simp only [hk, hb]; exact hi.klen
  · rw [fit_big]; simp only [hb]; exact hi.mono
  · intro hf
    have h0 := hi.nil hf
    rcases ho with ⟨_, h2, _⟩ | ⟨h2, _⟩
    · rw [hfo, h2, hm0 (by obtain ⟨n, rfl⟩ := eoff_zero hf; rfl)]; rfl
    · exact absurd h0 h2
  · intro n hf
    refine ⟨by simp, fun _ => ?_⟩
    have h0 := hi.nil (by rw [hf]; rfl)
    have hnv : b1.nevsize = b.nevsize := by
      rcases ho with ⟨_, _, h3⟩ | ⟨h2, _⟩
      · exact h3
      · exact absurd h0 h2
    have hfs := hi.fsz n hf
    have hel := hsz n hf
    subst hf
    unfold Basket.fit
    simp only [Kind.elem, Bool.false_eq_true, if_false]
    by_cases hc : cur = []
    · have h1 := hfs.1 hc
      split
      · exact hel
      · next hgt => simp only [gt_iff_lt, Nat.not_lt] at hgt ⊢; simp only [hnv, h1] at *; omega
    · have h1 := hfs.2 hc
      split
      · exact hel
      · simp only [hnv, h1]
  · intro hf
    obtain ⟨hne, hoff⟩ := hi.offs hf
    rcases ho with ⟨h2, _⟩ | ⟨_, m', h3, hlt⟩
    · exact absurd h2 hne
    refine ⟨?_, fun j hj => ?_⟩
    · rw [hfo]; simp only
      intro hx
      have := congrArg List.length hx
      rw [h3, List.length_append, List.length_set, List.length_append, List.length_nil] at this
      exact hne (List.length_eq_zero_iff.mp (by omega))
    · rw [fit_keylen, hfo]
      simp only [hk]
      have hjl : j < b1.offsets.length := by
        rw [h3]; simp only [List.length_set, List.length_append, List.length_replicate]
        rw [hi.nev] at hlt
        simp at hj
        omega
      rw [List.getElem?_append_left hjl, h3]
      by_cases hjc : j = cur.length
      · subst hjc
        rw [← hi.nev, List.getElem?_set_self (by simpa using hlt), hi.wbuf, hi.nev,
          posOf_snoc (Nat.le_refl _), posOf_length]
        congr 1; omega
      · have hj' : j < cur.length := by simp at hj; omega
        rw [List.getElem?_set_ne (by rw [hi.nev]; omega)]
        have := hoff j hj'
        have hl : j < b.offsets.length := (List.getElem?_eq_some_iff.mp this).1
        rw [List.getElem?_append_left hl, this, posOf_snoc (by omega)]

/-! ### What a reader finds in a record -/

/-- A reader which loads the basket of `sp` finds the entries `g` in it. -/
def Holds (f : File) (k : Kind) (sp : Span) (g : List Bytes) : Prop :=
  ∃ r, inflate f k.eoff sp = some r ∧ r.span = sp ∧
    ∀ (j : Nat) (h : j < g.length), ∃ v, r.load (j : Int) = some v ∧ g[j] <+: v

/-- No record lies behind the end of the file. -/
def FileOk (f : File) : Prop := ∀ p s, f.disk p = some s → p < f.fend

/-- `f'` is a later state of the file `f`. -/
def Later (f f' : File) : Prop :=
  f.fend ≤ f'.fend ∧ ∀ p s, f.disk p = some s → f'.disk p = some s

theorem Later.refl (f : File) : Later f f := ⟨Nat.le_refl _, fun _ _ h => h⟩
theorem Later.trans {a b c : File} (h1 : Later a b) (h2 : Later b c) : Later a c :=
  ⟨Nat.le_trans h1.1 h2.1, fun p s h => h2.2 p s (h1.2 p s h)⟩

theorem Later.big {f f' : File} (h : Later f f') (hb : f.big = true) : f'.big = true := by
  have := h.1
  simp only [File.big, decide_eq_true_eq] at *
  omega

theorem Holds.later {f f' : File} {k : Kind} {sp : Span} {g : List Bytes} (h : Holds f k sp g)
    (hl : Later f f') : Holds f' k sp g := by
  obtain ⟨r, hr, h2⟩ := h
  refine ⟨r, ?_, h2⟩
  unfold inflate at hr ⊢
  split at hr
  · exact absurd hr (by simp)
  · next s hs => rw [hl.2 _ _ hs]; exact hr

theorem BkInv.later {k : Kind} {base : Nat} {f f' : File} {b : Basket} {cur : List Bytes}
    (h : BkInv k base f b cur) (hl : Later f f') : BkInv k base f' b cur :=
  { h with mono := fun hb => hl.big (h.mono hb) }

theorem writeFile_later {base : Nat} {z : Bytes → Bytes} {b : Basket} {f : File} (hf : FileOk f) :
    Later f (b.writeFile base z f).2.2 := by
  refine ⟨Nat.le_add_right _ _, fun p s h => ?_⟩
  have := hf p s h
  show (if p = f.fend then _ else f.disk p) = some s
  rw [if_neg (by omega)]; exact h

theorem writeFile_ok {base : Nat} {z : Bytes → Bytes} {b : Basket} {f : File} (hf : FileOk f)
    (hb : 0 < base) : FileOk (b.writeFile base z f).2.2 := by
  intro p s h
  have hk : 0 < keylenFor base f := by unfold keylenFor; omega
  have h' : (if p = f.fend then some _ else f.disk p) = some s := h
  show p < f.fend + (keylenFor base f + _)
  split at h'
  · omega
  · have := hf p s h'; omega

/-- Writing a basket stores its entries. -/
theorem writeFile_holds {k : Kind} {base : Nat} {z : Bytes → Bytes} {f : File} {b : Basket}
    {cur : List Bytes} (hi : BkInv k base f b cur) (hb : 0 < base)
    (hsz : ∀ n, k = .fixed n → ∀ e ∈ cur, e.length = n)
    (hbound : base + 8 + cur.flatten.length < 2 ^ 31) (hcnt : cur.length + 1 < 2 ^ 31)
    (sp : Span) (hp : sp.pos = (b.writeFile base z f).2.1)
    (hs : sp.sz = (b.writeFile base z f).1) :
    Holds (b.writeFile base z f).2.2 k sp cur := by
  have hkl : 0 < keylenFor base f := by unfold keylenFor; omega
  have hd : (b.writeFile base z f).2.2.disk sp.pos = some
      { keylen := keylenFor base f, nbytes := (b.writeFile base z f).1, nevsize := b.nevsize,
        nevbuf := b.nevbuf,
        last := if !b.big && f.big then b.keylen + b.wbuf.length + 8 else b.keylen + b.wbuf.length,
        payload := if b.offsets = [] then b.wbuf
          else b.wbuf ++ beEnc 4 (b.nevbuf + 1) ++
            encOffsets ((if !b.big && f.big then b.offsets.map (· + 8) else b.offsets).take b.nevbuf)
            ++ beEnc 4 0 } := by
    rw [hp]; show (if f.fend = f.fend then _ else _) = _
    rw [if_pos rfl]; rfl
  have hsz0 : ¬ (sp.sz = 0 ∨ sp.sz ≠ (b.writeFile base z f).1) := by
    rw [hs]
    have : 0 < (b.writeFile base z f).1 := by
      show 0 < keylenFor base f + _
      omega
    omega
  -- the key length in the file and the one in memory
  have hadj : keylenFor base f = b.keylen + (if !b.big && f.big then 8 else 0) := by
    unfold keylenFor
    rw [hi.klen]
    have := hi.mono
    cases h1 : b.big <;> cases h2 : f.big <;> simp_all
  by_cases hk : k.eoff = 0
  · have hnil := hi.nil hk
    obtain ⟨n, hkn⟩ := eoff_zero hk
    refine ⟨⟨sp, keylenFor base f, b.nevsize, [], b.wbuf⟩, ?_, rfl, ?_⟩
    · unfold inflate
      rw [hd]
      dsimp only
      rw [if_neg hsz0, if_pos hk, if_pos hnil]
    · intro j hj
      have hne : cur ≠ [] := by rintro rfl; simp at hj
      have hnv := (hi.fsz n hkn).2 hne
      refine ⟨cur[j] ++ (cur.drop (j + 1)).flatten, ?_, List.prefix_append _ _⟩
      unfold RBasket.load
      rw [if_neg (by omega)]
      dsimp only
      rw [if_pos rfl]
      unfold seekTo
      dsimp only
      have hpe : ((j : Int) * (b.nevsize : Int) + (keylenFor base f : Int)) -
          (keylenFor base f : Int) = ((posOf cur j : Nat) : Int) := by
        rw [hnv, posOf_fixed (hsz n hkn) (by omega)]
        push_cast
        omega
      rw [hpe, hi.wbuf, if_pos ⟨by omega, by have := posOf_le cur j; omega⟩, Int.toNat_natCast,
        drop_posOf hj]
  · obtain ⟨hne, hoff⟩ := hi.offs hk
    have he : k.eoff ≠ 0 := hk
    -- the table which is written
    let tab : List Nat :=
      (if !b.big && f.big then b.offsets.map (· + 8) else b.offsets).take b.nevbuf
    have htab : ∀ j < cur.length, tab[j]? = some (keylenFor base f + posOf cur j) := by
      intro j hj
      have h1 := hoff j hj
      show ((if !b.big && f.big then b.offsets.map (· + 8) else b.offsets).take b.nevbuf)[j]? = _
      rw [List.getElem?_take_of_lt (by rw [hi.nev]; exact hj), hadj]
      split
      · rw [List.getElem?_map, h1]; simp; omega
      · rw [h1]; simp
    have hol : cur.length ≤ b.offsets.length := by
      rcases Nat.eq_zero_or_pos cur.length with h0 | h0
      · omega
      · have := (List.getElem?_eq_some_iff.mp (hoff (cur.length - 1) (by omega))).1
        omega
    have hlen : tab.length = cur.length := by
      show ((if !b.big && f.big then b.offsets.map (· + 8) else b.offsets).take b.nevbuf).length = _
      rw [List.length_take, hi.nev]
      split <;> (try rw [List.length_map]) <;> omega
    have hmem : ∀ x ∈ tab ++ [0], x < 2 ^ 31 := by
      intro x hx
      rw [List.mem_append] at hx
      rcases hx with hx | hx
      · obtain ⟨j, hj, rfl⟩ := List.mem_iff_getElem.mp hx
        have h2 := htab j (by omega)
        have h3 := posOf_le cur j
        rw [List.getElem?_eq_getElem hj] at h2
        have h4 : tab[j] = keylenFor base f + posOf cur j := by simpa using h2
        have h5 : keylenFor base f ≤ base + 8 := by unfold keylenFor; split <;> omega
        omega
      · simp at hx; subst hx; simp
    have hpay : b.wbuf ++ beEnc 4 (b.nevbuf + 1) ++ encOffsets tab ++ beEnc 4 0
        = b.wbuf ++ (beEnc 4 (cur.length + 1) ++ (encOffsets (tab ++ [0]) ++ [])) := by
      rw [encOffsets_append, hi.nev]
      simp [encOffsets]
    let data := b.wbuf ++ (beEnc 4 (cur.length + 1) ++ (encOffsets (tab ++ [0]) ++ []))
    refine ⟨⟨sp, keylenFor base f, b.nevsize, (tab ++ [0]).map fun (x : Nat) => (x : Int), data⟩,
      ?_, rfl, ?_⟩
    · unfold inflate
      rw [hd]
      dsimp only
      rw [if_neg hsz0, if_neg he, if_neg hne]
      have hseek : seekTo (keylenFor base f)
          (b.wbuf ++ beEnc 4 (b.nevbuf + 1) ++ encOffsets tab ++ beEnc 4 0)
          ((if !b.big && f.big then b.keylen + b.wbuf.length + 8
            else b.keylen + b.wbuf.length : Nat) : Int)
          = some (beEnc 4 (cur.length + 1) ++ (encOffsets (tab ++ [0]) ++ [])) := by
        unfold seekTo
        dsimp only
        have hz : (((if !b.big && f.big then b.keylen + b.wbuf.length + 8
            else b.keylen + b.wbuf.length : Nat) : Int) - (keylenFor base f : Int))
            = (b.wbuf.length : Int) := by
          rw [hadj]; split <;> push_cast <;> omega
        rw [hz, hpay, if_pos ⟨by omega, by rw [List.length_append]; omega⟩, Int.toNat_natCast,
          List.drop_append_of_le_length (by omega), List.drop_of_length_le (by omega)]
        rfl
      rw [hseek]
      dsimp only
      rw [if_neg (by simp), readI32_enc hcnt, drop4_enc]
      have hl1 : ((cur.length + 1 : Nat) : Int).toNat = (tab ++ [0]).length := by
        rw [Int.toNat_natCast, List.length_append, hlen]; rfl
      rw [hl1, readI32s_enc _ hmem]
      dsimp only
      congr 2
    · intro j hj
      refine ⟨cur[j] ++ ((cur.drop (j + 1)).flatten ++
        (beEnc 4 (cur.length + 1) ++ (encOffsets (tab ++ [0]) ++ []))), ?_, List.prefix_append _ _⟩
      unfold RBasket.load
      rw [if_neg (by omega)]
      dsimp only
      rw [if_neg (by simp), Int.toNat_natCast, List.getElem?_map,
        List.getElem?_append_left (by omega), htab j hj]
      show seekTo (keylenFor base f) data ((keylenFor base f + posOf cur j : Nat) : Int) = _
      unfold seekTo
      dsimp only
      have hpe : (((keylenFor base f + posOf cur j : Nat) : Int) - (keylenFor base f : Int))
          = (posOf cur j : Int) := by push_cast; omega
      have hple := posOf_le cur j
      rw [hpe, if_pos ⟨by omega, by
        show _ ≤ ((b.wbuf ++ _ : Bytes).length : Int)
        rw [List.length_append, hi.wbuf]; omega⟩, Int.toNat_natCast]
      show some ((b.wbuf ++ _).drop _) = _
      rw [hi.wbuf, List.drop_append_of_le_length hple, drop_posOf hj, List.append_assoc]

end Verif.RTree
