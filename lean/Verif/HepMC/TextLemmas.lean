import Verif.HepMC.Spec

/-! # Lemmas: words, lines and parsers of the HepMC text format -/

namespace Verif.HepMC

variable {F G N : Type}

theorem splitOn_joinSp (ws : List (List UInt8)) (hne : ws ≠ []) (h : ∀ w ∈ ws, (32 : UInt8) ∉ w) :
    splitOn 32 (joinSp ws) = ws := by
  induction ws with
  | nil => exact absurd rfl hne
  | cons w ws ih =>
    cases ws with
    | nil => exact splitOn_no_sep _ _ (h w (by simp))
    | cons w' ws =>
      show splitOn 32 (w ++ 32 :: joinSp (w' :: ws)) = _
      rw [splitOn_append _ _ _ (h w (by simp)), ih (by simp) (fun x hx => h x (List.mem_cons_of_mem _ hx))]

theorem mem_joinSp {b : UInt8} (hb : b ≠ 32) (ws : List (List UInt8)) : b ∈ joinSp ws → ∃ w ∈ ws, b ∈ w := by
  induction ws with
  | nil => simp [joinSp]
  | cons w ws ih =>
    cases ws with
    | nil => intro h; exact ⟨w, by simp, h⟩
    | cons w' ws =>
      intro h
      replace h : b ∈ w ++ 32 :: joinSp (w' :: ws) := h
      rcases List.mem_append.mp h with h | h
      · exact ⟨w, by simp, h⟩
      · rcases List.mem_cons.mp h with h | h
        · exact absurd h hb
        · obtain ⟨x, hx, hbx⟩ := ih h
          exact ⟨x, List.mem_cons_of_mem _ hx, hbx⟩

theorem rawLines_append (l cur bs : List UInt8) (h : (10 : UInt8) ∉ l) :
    rawLines cur (l ++ 10 :: bs) = (cur.reverse ++ l) :: rawLines [] bs := by
  induction l generalizing cur with
  | nil => simp [rawLines]
  | cons b l ih =>
    simp only [List.mem_cons, not_or] at h
    simp only [List.cons_append, rawLines, if_neg (Ne.symm h.1)]
    rw [ih _ h.2]; simp

theorem textOf_cons (l : List (List UInt8)) (ls : List (List (List UInt8))) :
    textOf (l :: ls) = joinSp l ++ 10 :: textOf ls := by simp [textOf, textLine]

theorem textOf_append (a b : List (List (List UInt8))) : textOf (a ++ b) = textOf a ++ textOf b := by simp [textOf]

theorem rawLines_textOf (ls : List (List (List UInt8))) (h : ∀ l ∈ ls, (10 : UInt8) ∉ joinSp l) :
    rawLines [] (textOf ls) = ls.map joinSp := by
  induction ls with
  | nil => rfl
  | cons l ls ih =>
    rw [textOf_cons, rawLines_append _ _ _ (h l (by simp)), ih (fun x hx => h x (List.mem_cons_of_mem _ hx))]
    rfl

theorem splitOn_textOf (ls : List (List (List UInt8))) (h : ∀ l ∈ ls, (10 : UInt8) ∉ joinSp l) :
    splitOn 10 (textOf ls) = ls.map joinSp ++ [[]] := by
  induction ls with
  | nil => rfl
  | cons l ls ih =>
    rw [textOf_cons, splitOn_append _ _ _ (h l (by simp)), ih (fun x hx => h x (List.mem_cons_of_mem _ hx))]
    rfl

theorem dropCR_clean {l : List UInt8} (h : (13 : UInt8) ∉ l) : dropCR l = l := by
  unfold dropCR
  rw [if_neg]
  intro hl
  exact h (List.mem_of_getLast? hl)

theorem takeWhile_all {α : Type} (p : α → Bool) (l : List α) (h : ∀ x ∈ l, p x = true) : l.takeWhile p = l := by
  induction l with
  | nil => rfl
  | cons a l ih => rw [List.takeWhile_cons, h a (by simp)]; simp [ih (fun x hx => h x (List.mem_cons_of_mem _ hx))]

/-- Words without blanks and ends of lines. -/
def CleanWord (w : List UInt8) : Prop := (32 : UInt8) ∉ w ∧ (10 : UInt8) ∉ w ∧ (13 : UInt8) ∉ w

/-- A line of such words. -/
def CleanLine (l : List (List UInt8)) : Prop := l ≠ [] ∧ ∀ w ∈ l, CleanWord w

theorem CleanLine.no10 {l : List (List UInt8)} (h : CleanLine l) : (10 : UInt8) ∉ joinSp l := by
  intro hb
  obtain ⟨w, hw, hx⟩ := mem_joinSp (by decide) _ hb
  exact (h.2 w hw).2.1 hx

theorem CleanLine.no13 {l : List (List UInt8)} (h : CleanLine l) : (13 : UInt8) ∉ joinSp l := by
  intro hb
  obtain ⟨w, hw, hx⟩ := mem_joinSp (by decide) _ hb
  exact (h.2 w hw).2.2 hx

theorem CleanLine.split {l : List (List UInt8)} (h : CleanLine l) : splitOn 32 (joinSp l) = l :=
  splitOn_joinSp l h.1 fun w hw => (h.2 w hw).1

theorem scan_textOf (ls : List (List (List UInt8))) (hc : ∀ l ∈ ls, CleanLine l)
    (hs : ∀ l ∈ ls, (joinSp l).length ≤ maxLine) : scan (textOf ls) = ls.map joinSp := by
  unfold scan
  rw [rawLines_textOf ls (fun l hl => (hc l hl).no10), takeWhile_all]
  · rw [List.map_map]
    exact List.map_congr_left fun l hl => dropCR_clean (hc l hl).no13
  · intro x hx
    obtain ⟨l, hl, rfl⟩ := List.mem_map.mp hx
    exact decide_eq_true (hs l hl)

theorem scanLong_textOf (ls : List (List (List UInt8))) (hc : ∀ l ∈ ls, CleanLine l)
    (hs : ∀ l ∈ ls, (joinSp l).length ≤ maxLine) : scanLong (textOf ls) = false := by
  unfold scanLong
  rw [rawLines_textOf ls (fun l hl => (hc l hl).no10)]
  rw [Bool.eq_false_iff]
  intro h
  obtain ⟨x, hx, hl⟩ := List.any_eq_true.mp h
  obtain ⟨l, hl', rfl⟩ := List.mem_map.mp hx
  have := hs l hl'
  have := of_decide_eq_true hl
  omega

/-! ## Clean words -/

theorem clean_nil : CleanWord [] := by simp [CleanWord]

theorem clean_int (z : Int) : CleanWord (intEnc z) :=
  ⟨not_mem_intEnc (by decide) (by decide) z, not_mem_intEnc (by decide) (by decide) z,
    not_mem_intEnc (by decide) (by decide) z⟩

theorem clean_len {α : Type} (l : List α) : CleanWord (lenEnc l) := clean_int _

theorem clean_F {c : Fmt F G N} (hc : c.Lawful) (x : F) : CleanWord (c.fF x) :=
  ⟨fun h => (hc.F_clean x _ h).1 rfl, fun h => (hc.F_clean x _ h).2.1 rfl, fun h => (hc.F_clean x _ h).2.2 rfl⟩

theorem clean_G {c : Fmt F G N} (hc : c.Lawful) (x : G) : CleanWord (c.fG x) :=
  ⟨fun h => (hc.G_clean x _ h).1 rfl, fun h => (hc.G_clean x _ h).2.1 rfl, fun h => (hc.G_clean x _ h).2.2 rfl⟩

/-! ## Parsers -/

@[simp] theorem parseInt_enc (z : Int) : parseInt (intEnc z) = some z := by
  unfold intEnc
  split
  · simp only [parseInt, parseNat_decEnc, Option.map_some]
    congr 1; omega
  · have hd := decEnc_digits z.natAbs
    have hp := parseNat_decEnc z.natAbs
    revert hd hp
    generalize decEnc z.natAbs = ds
    intro hd hp
    unfold parseInt
    split
    · simp [isDigit] at hd
    · simp [isDigit] at hd
    · rw [hp, Option.map_some]
      congr 1; omega

@[simp] theorem pInt_enc (z : Int) (ts : Toks) : pInt (intEnc z :: ts) = some (z, ts) := by
  simp [pInt, tnext]

@[simp] theorem pInt_len {α : Type} (l : List α) (ts : Toks) : pInt (lenEnc l :: ts) = some ((l.length : Int), ts) := by
  simp [lenEnc]

theorem pF_enc {c : Fmt F G N} (hc : c.Lawful) (x : F) (ts : Toks) : pF c (c.fF x :: ts) = some (x, ts) := by
  simp [pF, tnext, hc.F_rt]

theorem pG_enc {c : Fmt F G N} (hc : c.Lawful) (x : G) (ts : Toks) : pG c (c.fG x :: ts) = some (x, ts) := by
  simp [pG, tnext, hc.G_rt]

theorem P.bind_some {α β : Type} {m : P α} {f : α → P β} {ts ts' : Toks} {a : α} (h : m ts = some (a, ts')) :
    P.bind m f ts = f a ts' := by simp [P.bind, h]

theorem pMany_flat {α : Type} (m : P α) (enc : α → List (List UInt8)) (h : ∀ a ts, m (enc a ++ ts) = some (a, ts))
    (l : List α) (ts : Toks) : pMany m l.length (l.flatMap enc ++ ts) = some (l, ts) := by
  induction l generalizing ts with
  | nil => rfl
  | cons a l ih =>
    rw [List.flatMap_cons, List.append_assoc]
    show P.bind m _ _ = _
    rw [P.bind_some (h a _)]
    rw [P.bind_some (ih ts)]
    rfl

theorem pMany_map {α : Type} (m : P α) (enc : α → List UInt8) (h : ∀ a ts, m (enc a :: ts) = some (a, ts))
    (l : List α) (ts : Toks) : pMany m l.length (l.map enc ++ ts) = some (l, ts) := by
  have := pMany_flat m (fun a => [enc a]) (fun a ts => h a ts) l ts
  have hf : l.map enc = l.flatMap fun a => [enc a] := by
    clear this
    induction l with
    | nil => rfl
    | cons a l ih => simp [List.flatMap_cons, ih]
  rw [hf]; exact this

theorem R.bind_ok {α β : Type} {r : R α} {a : α} (h : r = .ok a) (f : α → R β) : r.bind f = f a := by subst h; rfl

/-! ## Sorting and maps -/

theorem insertBy_perm {α : Type} (key : α → Int) (a : α) (l : List α) : (insertBy key a l).Perm (a :: l) := by
  induction l with
  | nil => exact List.Perm.refl _
  | cons b l ih =>
    unfold insertBy
    split
    · exact List.Perm.refl _
    · exact (ih.cons b).trans (List.Perm.swap a b l)

theorem sortBy_perm {α : Type} (key : α → Int) (l : List α) : (sortBy key l).Perm l := by
  induction l with
  | nil => exact List.Perm.refl _
  | cons a l ih => exact (insertBy_perm key a _).trans (ih.cons a)

theorem insertBy_sorted {α : Type} (key : α → Int) (a : α) (l : List α) (h : l.Pairwise fun x y => key x ≤ key y) :
    (insertBy key a l).Pairwise fun x y => key x ≤ key y := by
  induction l with
  | nil => simp [insertBy]
  | cons b l ih =>
    unfold insertBy
    obtain ⟨hb, hl⟩ := List.pairwise_cons.mp h
    split
    · rename_i hab
      refine List.pairwise_cons.mpr ⟨?_, h⟩
      intro x hx
      rcases List.mem_cons.mp hx with rfl | hx
      · exact hab
      · exact Int.le_trans hab (hb x hx)
    · rename_i hab
      refine List.pairwise_cons.mpr ⟨?_, ih hl⟩
      intro x hx
      rcases List.mem_cons.mp ((insertBy_perm key a l).mem_iff.mp hx) with rfl | hx
      · omega
      · exact hb x hx

theorem sortBy_sorted {α : Type} (key : α → Int) (l : List α) : (sortBy key l).Pairwise fun x y => key x ≤ key y := by
  induction l with
  | nil => simp [sortBy]
  | cons a l ih => exact insertBy_sorted key a _ ih

theorem mset_new {κ ν : Type} [DecidableEq κ] (m : List (κ × ν)) (k : κ) (v : ν) (h : k ∉ m.map Prod.fst) :
    mset m k v = (k, v) :: m := by
  unfold mset
  congr 1
  rw [List.filter_eq_self]
  intro q hq
  apply decide_eq_true
  rintro rfl
  exact h (List.mem_map_of_mem hq)

theorem mget_mem {κ ν : Type} [DecidableEq κ] (m : List (κ × ν)) (h : (m.map Prod.fst).Nodup) {k : κ} {v : ν}
    (hm : (k, v) ∈ m) : mget m k = some v := by
  induction m with
  | nil => cases hm
  | cons q m ih =>
    simp only [List.map_cons, List.nodup_cons] at h
    unfold mget
    rcases List.mem_cons.mp hm with rfl | hm
    · simp
    · rw [if_neg, ih h.2 hm]
      intro heq
      exact h.1 (heq ▸ List.mem_map_of_mem hm)

theorem mem_of_mget {κ ν : Type} [DecidableEq κ] (m : List (κ × ν)) {k : κ} {v : ν} (h : mget m k = some v) : (k, v) ∈ m := by
  induction m with
  | nil => cases h
  | cons q m ih =>
    unfold mget at h
    split at h
    · rename_i hk
      cases h; cases q; cases hk; simp
    · exact List.mem_cons_of_mem _ (ih h)

/-- Filling an empty map with entries of different keys gives them in reverse order. -/
theorem foldl_mset {κ ν : Type} [DecidableEq κ] (l m : List (κ × ν)) (h : ((l.map Prod.fst) ++ m.map Prod.fst).Nodup) :
    l.foldl (fun m q => mset m q.1 q.2) m = l.reverse ++ m := by
  induction l generalizing m with
  | nil => rfl
  | cons q l ih =>
    simp only [List.map_cons, List.cons_append, List.nodup_cons, List.mem_append, not_or] at h
    rw [List.foldl_cons, mset_new _ _ _ h.1.2, ih]
    · simp
    · have h2 := h.2
      rw [List.nodup_append] at h2 ⊢
      refine ⟨h2.1, ?_, ?_⟩
      · simp only [List.map_cons, List.nodup_cons]; exact ⟨h.1.2, h2.2.1⟩
      · intro a ha b hb
        simp only [List.map_cons, List.mem_cons] at hb
        rcases hb with rfl | hb
        · rintro rfl; exact h.1.1 ha
        · exact h2.2.2 a ha b hb

theorem put_same {α : Type} (f : Nat → α) (i : Nat) (x : α) : put f i x i = x := by simp [put]
theorem put_ne {α : Type} (f : Nat → α) {i j : Nat} (x : α) (h : j ≠ i) : put f i x j = f j := by simp [put, h]

end Verif.HepMC
