import Verif.Hbook.YodaS2D
import Verif.Hbook.YodaRead
import Verif.Hbook.YodaToy
import Mathlib.Data.List.Perm.Basic
import Mathlib.Data.List.Sort
import Mathlib.Tactic.Tauto
import Mathlib.Data.Prod.Lex
import Mathlib.Data.Int.Order.Basic

/-!
# Scatters as YODA texts
-/

namespace Verif.Hbook.Yoda
open Verif.Text Verif.Fscanf Verif.Strconv Verif.Hbook Verif.Hbook.Brio

section
variable {F V : Type} {env : Env F V} {rnd : F → F}

theorem scanSome_of_scanf (l : List Item) {s : List Char} {v : List (Val F)} {r : List Char}
    (h : scanf env.parse l s = some (v, r)) : scanSome env l s = v := by
  induction l generalizing s v with
  | nil => simp only [scanf, Option.some.injEq, Prod.mk.injEq] at h; simp [scanSome, ← h.1]
  | cons i l ih =>
    cases i with
    | nl =>
      simp only [scanf] at h
      cases hm : matchNL s with
      | none => rw [hm] at h; cases h
      | some t => rw [hm, Option.bind_some] at h; simp only [scanSome, hm]; exact ih h
    | sp =>
      simp only [scanf] at h
      cases hm : matchSP s with
      | none => rw [hm] at h; cases h
      | some t => rw [hm, Option.bind_some] at h; simp only [scanSome, hm]; exact ih h
    | int b =>
      simp only [scanf] at h
      cases hm : verb env.parse (.int b) s with
      | none => rw [hm] at h; cases h
      | some t =>
        rw [hm, Option.bind_some] at h
        cases hs : scanf env.parse l t.2 with
        | none => simp only [hs] at h; cases h
        | some u =>
          simp only [hs, Option.map_some, Option.some.injEq, Prod.mk.injEq] at h
          simp only [scanSome, hm]
          rw [ih (v := u.1) (by rw [hs, ← h.2]), ← h.1]
    | flt =>
      simp only [scanf] at h
      cases hm : verb env.parse .flt s with
      | none => rw [hm] at h; cases h
      | some t =>
        rw [hm, Option.bind_some] at h
        cases hs : scanf env.parse l t.2 with
        | none => simp only [hs] at h; cases h
        | some u =>
          simp only [hs, Option.map_some, Option.some.injEq, Prod.mk.injEq] at h
          simp only [scanSome, hm]
          rw [ih (v := u.1) (by rw [hs, ← h.2]), ← h.1]

theorem scanSome_row (hn : Numbers env rnd) (p : Point2D F) :
    scanSome env (lineFmt (List.replicate 6 .flt)) (rowText env (rowS p)) = (rowS p).map fun x => .flt (rnd x) := by
  have h := scanRow_row hn (l := rowS p) (by simp [rowS])
  simp only [scanRow, litsOf, advance, Option.bind_some] at h
  obtain ⟨⟨v, r⟩, h1, h2⟩ := Option.map_eq_some_iff.mp h
  exact (scanSome_of_scanf _ h1).trans h2

/-- A point after a round trip. -/
def Point2D.round (rnd : F → F) (p : Point2D F) : Point2D F where
  x := rnd p.x
  y := rnd p.y
  errX := ⟨rnd p.errX.lo, rnd p.errX.hi⟩
  errY := ⟨rnd p.errY.lo, rnd p.errY.hi⟩

theorem loopS_rows [Zero F] (hn : Numbers env rnd) (pts : List (Point2D F)) (l : List (List Char)) (acc : List (Point2D F)) :
    loopS env ((pts.map fun p => rowText env (rowS p)) ++ l) acc = loopS env l (acc ++ pts.map (Point2D.round rnd)) := by
  induction pts generalizing acc with
  | nil => simp
  | cons p pts ih =>
    obtain ⟨c, t, e, hc⟩ := rowText_cons hn (l := rowS p) (by simp [rowS])
    have hne' : ∀ d : Char, d.isDigit = false → d ≠ '-' → d ≠ '+' → d ≠ 'N' → c ≠ d := by
      rintro d h1 h2 h3 h4 rfl
      rcases hc with h | h | h | h
      · rw [h] at h1; cases h1
      · exact h2 h
      · exact h3 h
      · exact h4 h
    have h1 : isComment (rowText env (rowS p)) = false := by
      rw [e]
      simp [isComment, hne' '#' (by decide) (by decide) (by decide) (by decide)]
    have h2 : kS2D.fin.isPrefixOf (rowText env (rowS p)) = false := by
      rw [e, Bool.eq_false_iff]
      simp only [kS2D, List.isPrefixOf, ne_eq, Bool.and_eq_true, beq_iff_eq, not_and]
      intro h
      exact absurd h.symm (hne' 'E' (by decide) (by decide) (by decide) (by decide))
    simp only [List.map_cons, List.cons_append, loopS, h1, h2, Bool.false_eq_true, if_false]
    rw [ih, scanSome_row hn p]
    congr 1
    rw [List.append_assoc]
    rfl

end

section
variable {F V α : Type} {env : Env F V} {rnd : F → F} [LinearOrder α] [GoFloat F α]

/-- A point without NaN. -/
def Num2D (p : Point2D F) : Prop :=
  isNaN p.x = false ∧ isNaN p.errX.lo = false ∧ isNaN p.errX.hi = false ∧ isNaN p.y = false ∧ isNaN p.errY.lo = false ∧
    isNaN p.errY.hi = false

instance (p : Point2D F) : Decidable (Num2D p) := by unfold Num2D; infer_instance

/-- The value of a number, a NaN being below all others. -/
def level (x : F) : WithBot α := val x

/-- The numbers of a point in the order in which points are compared: x, its errors, y, its errors. -/
def ranks (p : Point2D F) :
    WithBot α ×ₗ WithBot α ×ₗ WithBot α ×ₗ WithBot α ×ₗ WithBot α ×ₗ WithBot α :=
  toLex (level p.x, toLex (level p.errX.lo, toLex (level p.errX.hi, toLex (level p.y,
    toLex (level p.errY.lo, level p.errY.hi)))))

theorem feq_level {x y : F} (hx : isNaN x = false) (hy : isNaN y = false) :
    feq x y = true ↔ level x = (level y : WithBot α) := by
  simp only [isNaN, Option.isNone_eq_false_iff, Option.isSome_iff_exists] at hx hy
  obtain ⟨a, ha⟩ := hx
  obtain ⟨b, hb⟩ := hy
  simp only [feq, ha, hb, level, decide_eq_true_eq]
  exact (Option.some_inj).symm

theorem flt_level {x y : F} (hx : isNaN x = false) (hy : isNaN y = false) :
    flt x y = true ↔ level x < (level y : WithBot α) := by
  simp only [isNaN, Option.isNone_eq_false_iff, Option.isSome_iff_exists] at hx hy
  obtain ⟨a, ha⟩ := hx
  obtain ⟨b, hb⟩ := hy
  simp only [flt, ha, hb, level, decide_eq_true_eq]
  exact (WithBot.coe_lt_coe).symm

/-- The comparison of points is the lexicographic one. -/
theorem C134_less {p q : Point2D F} (hp : Num2D p) (hq : Num2D q) :
    lessS p q = true ↔ ranks p < (ranks q : _ ×ₗ WithBot α ×ₗ WithBot α ×ₗ WithBot α ×ₗ WithBot α ×ₗ WithBot α) := by
  obtain ⟨p1, p2, p3, p4, p5, p6⟩ := hp
  obtain ⟨q1, q2, q3, q4, q5, q6⟩ := hq
  have f1 := feq_level (α := α) p1 q1
  have f2 := feq_level (α := α) p2 q2
  have f3 := feq_level (α := α) p3 q3
  have f4 := feq_level (α := α) p4 q4
  have f5 := feq_level (α := α) p5 q5
  have l1 := flt_level (α := α) p1 q1
  have l2 := flt_level (α := α) p2 q2
  have l3 := flt_level (α := α) p3 q3
  have l4 := flt_level (α := α) p4 q4
  have l5 := flt_level (α := α) p5 q5
  have l6 := flt_level (α := α) p6 q6
  simp only [lessS, ranks, Prod.Lex.toLex_lt_toLex, Bool.not_eq_true', ← f1, ← f2, ← f3, ← f4, ← f5, ← l1, ← l2,
    ← l3, ← l4, ← l5, ← l6]
  have irr : ∀ x y : F, feq x y = true → flt x y = false := by
    intro x y h
    simp only [feq, flt] at h ⊢
    cases hx : val x with
    | none => rfl
    | some a =>
      cases hy : val y with
      | none => rfl
      | some b => simp [hx, hy] at h ⊢; exact le_of_eq h.symm
  cases e1 : feq p.x q.x
  · simp
  · rw [irr _ _ e1]
    cases e2 : feq p.errX.lo q.errX.lo
    · simp
    · rw [irr _ _ e2]
      cases e3 : feq p.errX.hi q.errX.hi
      · simp
      · rw [irr _ _ e3]
        cases e4 : feq p.y q.y
        · simp
        · rw [irr _ _ e4]
          cases e5 : feq p.errY.lo q.errY.lo
          · simp
          · rw [irr _ _ e5]
            cases e6 : feq p.errY.hi q.errY.hi
            · simp
            · simp [irr _ _ e6]

/-- What is assumed of `sort.Sort`: it permutes the points, and sorts them when the comparison is an order. -/
structure Sorts (srt : List (Point2D F) → List (Point2D F)) : Prop where
  perm : ∀ l, (srt l).Perm l
  sorted : ∀ l, (∀ p ∈ l, Num2D p) → (srt l).Pairwise fun p q => lessS q p = false

/-- A scatter written with `MarshalYODA` is read by `UnmarshalYODA`: the points already there and the points written,
rounded to the digits written, sorted.  Marshalling keeps the points of the scatter, in another order.  Name, title
and other annotations as for histograms.

Partial: numbers are rounded; annotations and names as for histograms. -/
theorem C134_roundtrip_partial [Zero F] (hn : Numbers env rnd) {srt : List (Point2D F) → List (Point2D F)} (hs : Sorts srt)
    (pts pts0 : List (Point2D F)) (a old : Ann V) (ha : Free a)
    (hy : Yaml env (annToYODA env kS2D.ty a)) (hname : '\n' ∉ nameOf env a) :
    ∃ s pts', marshalS2D env srt pts a = some (s, pts') ∧ pts'.Perm pts ∧
      ∃ ps a', unmarshalS2D env srt pts0 old s = .ok (.obj ps a') ∧
        ps.Perm (pts0 ++ pts.map (Point2D.round rnd)) ∧
        ((∀ p ∈ pts0, Num2D p) → (∀ p ∈ pts, Num2D (Point2D.round rnd p)) → ps.Pairwise fun p q => ranks p ≤ (ranks q : _ ×ₗ WithBot α ×ₗ WithBot α ×ₗ WithBot α ×ₗ WithBot α ×ₗ WithBot α)) ∧
        nameOf env a' = nameOf env a ∧ get a' kTitle = some ((get a kTitle).getD (env.str [])) ∧
        ∀ k, k ≠ kName → k ≠ kTitle → get a' k = (get a k).or (get old k) := by
  obtain ⟨s, h1, o, ho, hg⟩ := start_write (env := env) (k := kS2D) old ha hy hname
    (m := [' ', 'x', 'v', 'a', 'l', '\t', ' ', 'x', 'e', 'r', 'r', '-', '\t'])
    (u := [' ', 'x', 'e', 'r', 'r', '+', '\t', ' ', 'y', 'v', 'a', 'l', '\t', ' ', 'y', 'e', 'r', 'r', '-', '\t', ' ', 'y', 'e', 'r', 'r', '+', '\t'])
    rfl (by decide) (t := (srt pts).map fun p => rowText env (rowS p))
  have hl := lines_clean (l := tableS env (srt pts) ++ [kEnd ++ kS2D.tag ++ kV2, []]) (by
    intro x hx
    simp only [tableS, List.cons_append, List.mem_cons, List.mem_append, List.not_mem_nil, or_false, List.mem_map] at hx
    rcases hx with rfl | ⟨p, -, rfl⟩ | rfl | rfl
    · decide +kernel
    · exact clean_row hn _
    · decide +kernel
    · decide +kernel)
  have hloop : ∀ acc, loopS env ([] :: (tableS env (srt pts) ++ [kEnd ++ kS2D.tag ++ kV2, []])) acc =
      acc ++ (srt pts).map (Point2D.round rnd) := by
    intro acc
    have c1 : isComment ([] : List Char) = true := rfl
    have c2 : isComment kHdrS = true := rfl
    have c3 : isComment (kEnd ++ kS2D.tag ++ kV2) = false := rfl
    have c4 : kS2D.fin.isPrefixOf (kEnd ++ kS2D.tag ++ kV2) = true := by decide +kernel
    simp only [loopS, tableS, List.cons_append, c1, c2, if_true]
    rw [loopS_rows hn]
    simp only [loopS, c3, c4, Bool.false_eq_true, if_false, if_true]
  have hp : (srt pts).Perm pts := hs.perm pts
  refine ⟨s, srt pts, ?_, hp, srt (pts0 ++ (srt pts).map (Point2D.round rnd)), o, ?_, ?_, ?_, ?_, ?_, ?_⟩
  · simp only [marshalS2D]
    exact Option.map_eq_some_iff.mpr ⟨s, h1, rfl⟩
  · simp only [unmarshalS2D, ho]
    have e := hl
    simp only [tableS, List.cons_append] at e
    have h2 := hloop pts0
    simp only [tableS, List.cons_append] at h2
    simp only [kHdrS] at e h2
    simp only [List.cons_append, List.nil_append]
    rw [e, h2]
  · exact (hs.perm _).trans ((List.Perm.refl pts0).append (hp.map _))
  · intro h0 h
    have hnum : ∀ p ∈ pts0 ++ (srt pts).map (Point2D.round rnd), Num2D p := by
      intro p hp'
      rcases List.mem_append.mp hp' with h' | h'
      · exact h0 p h'
      · obtain ⟨q, hq, rfl⟩ := List.mem_map.mp h'
        exact h q (hp.mem_iff.mp hq)
    refine (hs.sorted _ hnum).imp_of_mem ?_
    intro p q h1 h2 h3
    have n1 := hnum p ((hs.perm _).mem_iff.mp h1)
    have n2 := hnum q ((hs.perm _).mem_iff.mp h2)
    rw [Bool.eq_false_iff, ne_eq, C134_less n2 n1, not_lt] at h3
    exact h3
  · simp only [nameOf, hg, annAfter, if_true, hy.str]
  · rw [hg, annAfter, if_neg (by decide), if_pos rfl]
  · intro k h1 h2
    rw [hg, annAfter, if_neg h1, if_neg h2]

/-- Points without NaN and with few digits come back: a scatter read into an empty one has the very points, in the
very order, that the scatter written has after it was marshalled. -/
theorem C134_exact [Zero F] (hn : Numbers env rnd) {srt : List (Point2D F) → List (Point2D F)} (hs : Sorts srt)
    (hinj : ∀ x y : F, val x = (val y : Option α) → x = y)
    (pts : List (Point2D F)) (a : Ann V) (ha : Free a)
    (hy : Yaml env (annToYODA env kS2D.ty a)) (hname : '\n' ∉ nameOf env a)
    (hnum : ∀ p ∈ pts, Num2D p) (hr : ∀ p ∈ pts, Point2D.round rnd p = p) :
    ∃ s pts', marshalS2D env srt pts a = some (s, pts') ∧ pts'.Perm pts ∧
      ∃ a', unmarshalS2D env srt [] [] s = .ok (.obj pts' a') := by
  obtain ⟨s, pts', h1, hp, ps, a', h2, hps, hso, -⟩ := C134_roundtrip_partial hn hs pts [] a [] ha hy hname
  refine ⟨s, pts', h1, hp, a', ?_⟩
  have hmap : pts.map (Point2D.round rnd) = pts := by
    rw [List.map_congr_left hr, List.map_id']
  rw [hmap, List.nil_append] at hps
  have hs1 := hso (by simp) (fun p hp => by rw [hr p hp]; exact hnum p hp)
  have e : pts' = srt pts := by
    simp only [marshalS2D] at h1
    obtain ⟨t, -, h⟩ := Option.map_eq_some_iff.mp h1
    exact (Prod.mk.inj h).2.symm
  have hs2 : pts'.Pairwise fun p q => ranks p ≤ (ranks q : _ ×ₗ WithBot α ×ₗ WithBot α ×ₗ WithBot α ×ₗ WithBot α ×ₗ WithBot α) := by
    rw [e]
    refine (hs.sorted _ hnum).imp_of_mem ?_
    intro p q h1 h2 h3
    rw [Bool.eq_false_iff, ne_eq, C134_less (hnum q ((hs.perm _).mem_iff.mp h2)) (hnum p ((hs.perm _).mem_iff.mp h1)), not_lt] at h3
    exact h3
  have : ps = pts' := by
    refine List.Perm.eq_of_pairwise (le := fun p q => ranks p ≤ (ranks q : _ ×ₗ WithBot α ×ₗ WithBot α ×ₗ WithBot α ×ₗ WithBot α ×ₗ WithBot α)) ?_ hs1 hs2 (hps.trans hp.symm)
    intro p q _ _ h3 h4
    have h5 := le_antisymm h3 h4
    simp only [ranks, EmbeddingLike.apply_eq_iff_eq, Prod.mk.injEq] at h5
    obtain ⟨g1, g2, g3, g4, g5, g6⟩ := h5
    have a1 := hinj _ _ g1
    have a2 := hinj _ _ g2
    have a3 := hinj _ _ g3
    have a4 := hinj _ _ g4
    have a5 := hinj _ _ g5
    have a6 := hinj _ _ g6
    obtain ⟨px, py, ⟨pxl, pxh⟩, ⟨pyl, pyh⟩⟩ := p
    obtain ⟨qx, qy, ⟨qxl, qxh⟩, ⟨qyl, qyh⟩⟩ := q
    simp only at a1 a2 a3 a4 a5 a6
    subst a1 a2 a3 a4 a5 a6
    rfl
  rw [h2, this]

end

/-! ### Examples and what is missing -/

/-- Insertion sort. -/
def insS (p : Point2D Int) : List (Point2D Int) → List (Point2D Int)
  | [] => [p]
  | q :: l => if lessS (α := WithBot (WithTop Int)) q p then q :: insS p l else p :: q :: l

def sortS : List (Point2D Int) → List (Point2D Int)
  | [] => []
  | p :: l => insS p (sortS l)

theorem insS_perm (p : Point2D Int) (l : List (Point2D Int)) : (insS p l).Perm (p :: l) := by
  induction l with
  | nil => exact List.Perm.refl _
  | cons q l ih =>
    simp only [insS]
    split
    · exact (ih.cons q).trans (List.Perm.swap p q l)
    · exact List.Perm.refl _

/-- The six numbers of a point in the order of the comparison. -/
def keyS (p : Point2D Int) : Int ×ₗ Int ×ₗ Int ×ₗ Int ×ₗ Int ×ₗ Int :=
  toLex (p.x, toLex (p.errX.lo, toLex (p.errX.hi, toLex (p.y, toLex (p.errY.lo, p.errY.hi)))))

theorem lessS_key (p q : Point2D Int) : lessS (α := WithBot (WithTop Int)) p q = true ↔ keyS p < keyS q := by
  have hf : ∀ x y : Int, feq (α := WithBot (WithTop Int)) x y = decide (x = y) := by
    intro x y
    simp only [feq, val]
    congr 1
    simp
  have hl : ∀ x y : Int, flt (α := WithBot (WithTop Int)) x y = decide (x < y) := by
    intro x y
    simp only [flt, val]
    congr 1
    simp
  simp only [lessS, hf, hl, keyS, Prod.Lex.toLex_lt_toLex, Bool.not_eq_true', decide_eq_false_iff_not]
  by_cases h1 : p.x = q.x
  · by_cases h2 : p.errX.lo = q.errX.lo
    · by_cases h3 : p.errX.hi = q.errX.hi
      · by_cases h4 : p.y = q.y
        · by_cases h5 : p.errY.lo = q.errY.lo
          · by_cases h6 : p.errY.hi = q.errY.hi
            · simp [h1, h2, h3, h4, h5, h6]
            · simp [h1, h2, h3, h4, h5, h6]
          · simp [h1, h2, h3, h4, h5]
        · simp [h1, h2, h3, h4]
      · simp [h1, h2, h3]
    · simp [h1, h2]
  · simp [h1]

theorem sorts_sortS : Sorts (α := WithBot (WithTop Int)) sortS where
  perm := by
    intro l
    induction l with
    | nil => exact List.Perm.refl _
    | cons p l ih => exact (insS_perm p (sortS l)).trans (ih.cons p)
  sorted := by
    intro l hl
    clear hl
    have hk : ∀ p q, lessS (α := WithBot (WithTop Int)) q p = false ↔ keyS p ≤ keyS q := by
      intro p q
      rw [Bool.eq_false_iff, ne_eq, lessS_key, not_lt]
    simp only [hk]
    induction l with
    | nil => exact List.Pairwise.nil
    | cons p l ih =>
      have ins : ∀ m : List (Point2D Int), m.Pairwise (fun p q => keyS p ≤ keyS q) →
          (insS p m).Pairwise fun p q => keyS p ≤ keyS q := by
        intro m hm
        induction m with
        | nil => exact List.pairwise_singleton _ _
        | cons q m ihm =>
          simp only [insS]
          cases hm with
          | cons hq hm =>
          split
          · rename_i h
            refine List.Pairwise.cons ?_ (ihm hm)
            intro r hr
            rcases List.mem_cons.mp ((insS_perm p m).mem_iff.mp hr) with rfl | hr
            · exact le_of_lt ((lessS_key _ _).mp h)
            · exact hq r hr
          · rename_i h
            have h' : keyS p ≤ keyS q := not_lt.mp fun hh => h ((lessS_key _ _).mpr hh)
            refine List.Pairwise.cons ?_ (List.Pairwise.cons hq hm)
            intro r hr
            rcases List.mem_cons.mp hr with rfl | hr
            · exact h'
            · exact le_trans h' (hq r hr)
      exact ins _ ih

/-- Two points, not in order. -/
def toyS2 : List (Point2D Int) := [⟨3, 8, ⟨1, 2⟩, ⟨4, 5⟩⟩, ⟨-3, 7, ⟨1, 1⟩, ⟨2, 6⟩⟩]

example : ∃ s pts', marshalS2D toy sortS toyS2 toyAnn = some (s, pts') ∧ pts'.Perm toyS2 ∧
    ∃ a', unmarshalS2D toy sortS [] [] s = .ok (.obj pts' a') :=
  C134_exact toy_numbers sorts_sortS (by intro x y h; simpa [val] using h) toyS2 toyAnn toy_free
    (toy_yaml _ (.inr (.inr (.inr rfl)))) (by decide +kernel) (by decide +kernel) (by decide +kernel)

example : ∃ s pts', marshalS2D toy sortS toyS2 toyAnn = some (s, pts') ∧ pts'.Perm toyS2 ∧
    ∃ ps a', unmarshalS2D toy sortS [⟨0, 0, ⟨0, 0⟩, ⟨0, 0⟩⟩] [] s = .ok (.obj ps a') ∧ ps.length = 3 := by
  obtain ⟨s, pts', h1, h2, ps, a', h3, h4, -⟩ := C134_roundtrip_partial toy_numbers sorts_sortS toyS2
    [⟨0, 0, ⟨0, 0⟩, ⟨0, 0⟩⟩] toyAnn [] toy_free (toy_yaml _ (.inr (.inr (.inr rfl)))) (by decide +kernel)
  exact ⟨s, pts', h1, h2, ps, a', h3, by rw [h4.length_eq]; rfl⟩

/-- Writing a scatter changes it: the order of its points, which `Points`, `Point` and `XY` show, is another one
afterwards. -/
theorem C134_order_counterexample :
    ((marshalS2D toy sortS toyS2 toyAnn).map fun r => r.2) = some toyS2.reverse ∧ toyS2.reverse ≠ toyS2 := by
  constructor <;> decide +kernel

/-- The points read, when something was read. -/
def readPts : Out (Read (List (Point2D Int)) (List Char)) → Option (List (Point2D Int))
  | .ok (.obj b _) => some b
  | _ => none

/-- A text with a line that is not a point. -/
def badS2 : List Char :=
  (write toy kS2D toyAnn [kHdrS, ['o', 'o', 'p', 's'], ['7', '\t', '8', '\t', 'x']]).getD []

/-- Lines that are no points are no errors: they are read as points whose missing numbers are zero. -/
theorem C134_garbage_counterexample :
    readPts (unmarshalS2D toy sortS [] [] badS2) = some [⟨0, 0, ⟨0, 0⟩, ⟨0, 0⟩⟩, ⟨7, 0, ⟨8, 0⟩, ⟨0, 0⟩⟩] := by
  decide +kernel

end Verif.Hbook.Yoda
