import Verif.Hbook.YodaS2D
import Verif.Hbook.YodaMore
import Verif.Hbook.YodaRead

/-!
# Archives of YODA texts
-/

namespace Verif.Hbook.Yoda
open Verif.Text Verif.Fscanf Verif.Strconv Verif.Hbook Verif.Hbook.Brio

/-! ### A newline more at the end of a text -/

theorem cut_append {p s a b : List Char} (h : cut p s = some (a, b)) (x : List Char) :
    cut p (s ++ x) = some (a, b ++ x) := by
  induction s generalizing a b with
  | nil => cases h
  | cons c r ih =>
    simp only [cut] at h
    simp only [List.cons_append, cut]
    by_cases hp : p.isPrefixOf (c :: r) = true
    · rw [if_pos hp] at h
      obtain ⟨t, ht⟩ := List.isPrefixOf_iff_prefix.mp hp
      rw [if_pos (by
        rw [List.isPrefixOf_iff_prefix]
        exact ⟨t ++ x, by rw [← List.append_assoc, ht]; rfl⟩)]
      simp only [Option.some.injEq, Prod.mk.injEq] at h ⊢
      refine ⟨h.1, ?_⟩
      rw [← h.2, ← ht]
      have : c :: (r ++ x) = p ++ (t ++ x) := by rw [← List.append_assoc, ht]; rfl
      rw [this]
      simp
    · rw [if_neg hp] at h
      obtain ⟨⟨a', b'⟩, h1, h2⟩ := Option.map_eq_some_iff.mp h
      simp only [Prod.mk.injEq] at h2
      obtain ⟨rfl, rfl⟩ := h2
      have hneg : ¬ p.isPrefixOf (c :: (r ++ x)) = true := by
        intro hp'
        apply hp
        have hs := cut_sound h1
        rw [List.isPrefixOf_iff_prefix] at hp' ⊢
        refine List.prefix_of_prefix_length_le hp' (by simp : c :: r <+: c :: (r ++ x)) ?_
        rw [hs]
        simp only [List.length_cons, List.length_append]
        omega
      rw [if_neg hneg, ih h1]
      rfl

theorem cut_snoc {p s a b : List Char} {c : Char} (hp : p.getLast? ≠ some c) (hne : p ≠ [])
    (h : cut p (s ++ [c]) = some (a, b)) : ∃ b', b = b' ++ [c] ∧ cut p s = some (a, b') := by
  cases hs : cut p s with
  | some x =>
    have := cut_append hs [c]
    rw [h] at this
    simp only [Option.some.injEq, Prod.mk.injEq] at this
    exact ⟨x.2, this.2, by rw [this.1]⟩
  | none =>
    exfalso
    have e := cut_sound h
    rcases List.eq_nil_or_concat b with rfl | ⟨b', d, rfl⟩
    · rw [List.append_nil] at e
      have := congrArg List.getLast? e
      rw [List.getLast?_append_of_ne_nil _ hne] at this
      simp at this
      exact hp this.symm
    · have e' : s ++ [c] = (a ++ p ++ b') ++ [d] := by simpa [List.append_assoc] using e
      have h3 := List.append_inj' e' rfl
      rw [cut_none_of hne] at hs
      exact hs ⟨a, b', h3.1.symm⟩

theorem splitC_snoc (x : Char) (s : List Char) : splitC x (s ++ [x]) = splitC x s ++ [[]] := by
  induction s with
  | nil => simp [splitC]
  | cons c r ih =>
    simp only [List.cons_append, splitC]
    by_cases h : c = x
    · simp [h, ih]
    · simp only [h, if_false, ih]
      cases hs : splitC x r with
      | nil => exact absurd hs (splitC_ne_nil x r)
      | cons a l => rfl

theorem lines_nl (s : List Char) : lines (s ++ ['\n']) = (splitC '\n' s).map dropCR := by
  simp [lines, splitC_snoc]

/-- An empty line more. -/
theorem lines_snoc (s : List Char) : lines (s ++ ['\n'] ++ ['\n']) = lines (s ++ ['\n']) ++ [[]] := by
  rw [lines_nl, lines_nl, splitC_snoc]
  simp [dropCR]

section
variable {F V : Type} {env : Env F V}

/-- The beginning of a reader does not depend on an empty line at the end. -/
theorem start_trim {k : Kind} {old : Ann V} {t : List Char} (hne : k.mark ≠ []) (hk : k.mark.getLast? ≠ some '\n') {r : Start V}
    (h : start env k old (t ++ ['\n'] ++ ['\n']) = .ok r) :
    (r = .v1 ∧ start env k old (t ++ ['\n']) = .ok .v1) ∨
    ∃ a ls, r = .ann a (ls ++ [[]]) ∧ start env k old (t ++ ['\n']) = .ok (.ann a ls) := by
  cases hc : cut ['\n'] (t ++ ['\n']) with
  | none => rw [cut_one_none] at hc; exact absurd (by simp) hc
  | some x =>
    obtain ⟨l, q⟩ := x
    have hc2 := cut_append hc ['\n']
    cases hh : header k.tag (t ++ ['\n']) with
    | none =>
      have : header k.tag (t ++ ['\n'] ++ ['\n']) = none := by
        simp only [header, hc] at hh
        simp only [header, hc2]
        split at hh
        · cases hh
        · split at hh
          · cases hh
          · rename_i h1 h2
            rw [if_neg h1, if_neg h2]
      simp only [start, this] at h
      cases h
    | some y =>
      obtain ⟨v, q'⟩ := y
      have hq : q' = q ∧ header k.tag (t ++ ['\n'] ++ ['\n']) = some (v, q ++ ['\n']) := by
        simp only [header, hc] at hh
        simp only [header, hc2]
        split at hh
        · rename_i h1
          simp only [Option.some.injEq, Prod.mk.injEq] at hh
          rw [if_pos h1, hh.1]
          exact ⟨hh.2.symm, rfl⟩
        · rename_i h1
          split at hh
          · rename_i h2
            simp only [Option.some.injEq, Prod.mk.injEq] at hh
            rw [if_neg h1, if_pos h2, hh.1]
            exact ⟨hh.2.symm, rfl⟩
          · cases hh
      obtain ⟨rfl, hh2⟩ := hq
      simp only [start, hh2] at h
      simp only [start, hh]
      by_cases hv : v = 1
      · simp only [hv, if_true, Out.ok.injEq] at h ⊢
        exact .inl ⟨h.symm, trivial⟩
      · simp only [hv, if_false] at h ⊢
        right
        cases hm : cut k.mark (q' ++ ['\n']) with
        | none => rw [hm] at h; cases h
        | some y =>
          obtain ⟨a, rest⟩ := y
          obtain ⟨rest', rfl, hm'⟩ := cut_snoc hk hne hm
          simp only [hm] at h
          simp only [hm']
          cases hy : env.ydec (a ++ ['\n']) with
          | none => simp only [hy] at h; cases h
          | some ann =>
            simp only [hy] at h ⊢
            cases hf : annFromYODA env old ann with
            | none => simp only [hf] at h; cases h
            | some o =>
              simp only [hf, Out.ok.injEq] at h ⊢
              subst h
              refine ⟨o, lines (k.mark ++ rest'), ?_, rfl⟩
              congr 1
              have e1 := cut_sound hc
              have e2 := cut_sound hm'
              have e3 : t ++ ['\n'] = (l ++ ['\n'] ++ a) ++ (k.mark ++ rest') := by
                rw [e1, e2]; simp [List.append_assoc]
              have hne2 : k.mark ++ rest' ≠ [] := by simp [hne]
              have e4 := congrArg List.getLast? e3
              rw [List.getLast?_append_of_ne_nil _ hne2] at e4
              simp only [List.getLast?_append, List.getLast?_singleton, Option.some_or] at e4
              obtain ⟨u, hu⟩ : ∃ u, k.mark ++ rest' = u ++ ['\n'] := by
                rcases List.eq_nil_or_concat (k.mark ++ rest') with h0 | ⟨u, d, hu⟩
                · exact absurd h0 hne2
                · rw [List.concat_eq_append] at hu
                  refine ⟨u, ?_⟩
                  have h5 := List.getLast?_append_of_ne_nil k.mark (l₂ := rest')
                  rw [← List.getLast?_append, hu] at e4
                  simp only [List.getLast?_append, List.getLast?_singleton, Option.some_or, Option.some.injEq] at e4
                  rw [hu, e4]
              rw [← List.append_assoc, hu, lines_snoc]

theorem loop_snoc (k : Kind) (l : List (List Char)) (st : St F) : loop env k (l ++ [[]]) st = loop env k l st := by
  induction l generalizing st with
  | nil => simp [loop, isComment]
  | cons x l ih =>
    simp only [List.cons_append, loop, ih]

theorem loopS_snoc [Zero F] (l : List (List Char)) (pts : List (Point2D F)) :
    loopS env (l ++ [[]]) pts = loopS env l pts := by
  induction l generalizing pts with
  | nil => simp [loopS, isComment]
  | cons x l ih =>
    simp only [List.cons_append, loopS, ih]

/-- What is read of a text is read of the text without the empty line at its end. -/
theorem read_trim {B : Type} {k : Kind} {build : St F → Option B} {old : Ann V} {t : List Char} (hne : k.mark ≠ [])
    (hk : k.mark.getLast? ≠ some '\n') {r : Read B V} (h : read env k build old (t ++ ['\n'] ++ ['\n']) = .ok r) :
    read env k build old (t ++ ['\n']) = .ok r := by
  cases hs : start env k old (t ++ ['\n'] ++ ['\n']) with
  | panic => simp only [read, hs] at h; cases h
  | err => simp only [read, hs] at h; cases h
  | ok x =>
    rcases start_trim hne hk hs with ⟨rfl, h1⟩ | ⟨a, ls, rfl, h1⟩
    · simp only [read, hs] at h
      simp only [read, h1]
      exact h
    · simp only [read, hs, loop_snoc] at h
      simp only [read, h1]
      exact h

theorem readS_trim [Zero F] {srt : List (Point2D F) → List (Point2D F)} {pts : List (Point2D F)} {old : Ann V} {t : List Char}
    {r : Read (List (Point2D F)) V} (h : unmarshalS2D env srt pts old (t ++ ['\n'] ++ ['\n']) = .ok r) :
    unmarshalS2D env srt pts old (t ++ ['\n']) = .ok r := by
  cases hs : start env kS2D old (t ++ ['\n'] ++ ['\n']) with
  | panic => simp only [unmarshalS2D, hs] at h; cases h
  | err => simp only [unmarshalS2D, hs] at h; cases h
  | ok x =>
    rcases start_trim (by decide) (by decide) hs with ⟨rfl, h1⟩ | ⟨a, ls, rfl, h1⟩
    · simp only [unmarshalS2D, hs] at h
      simp only [unmarshalS2D, h1]
      exact h
    · simp only [unmarshalS2D, hs, loopS_snoc] at h
      simp only [unmarshalS2D, h1]
      exact h

end

/-! ### Blocks -/

/-- A line that is neither the first nor the last of a block. -/
def Inner (t : List Char) : Prop := CleanLine t ∧ kBegin.isPrefixOf t = false ∧ kEnd.isPrefixOf t = false

instance (t : List Char) : Decidable (Inner t) := by unfold Inner; infer_instance

section
variable {O : Type} {dec : Which → List Char → Out O}

theorem archLoop_inner (body rest : List (List Char)) (hb : ∀ t ∈ body, Inner t) (st : Arch O) :
    archLoop dec (body ++ rest) st =
      archLoop dec rest { st with block := st.block ++ body.flatMap (· ++ ['\n']) } := by
  induction body generalizing st with
  | nil => simp
  | cons t body ih =>
    have ht := hb t (by simp)
    simp only [List.cons_append, archLoop, archStep, ht.2.1, ht.2.2, Bool.false_eq_true, if_false]
    rw [ih fun x hx => hb x (by simp [hx])]
    simp [List.append_assoc]

/-- One block. -/
theorem archLoop_block {w : Which} {hd fin : List Char} {body : List (List Char)} (rest : List (List Char))
    (hh : kBegin.isPrefixOf hd = true) (ht : splitHeader hd = .typ w) (hb : ∀ t ∈ body, Inner t)
    (hf : kBegin.isPrefixOf fin = false) (hf2 : kEnd.isPrefixOf fin = true) {o : O}
    (hdec : dec w ((hd :: body ++ [fin]).flatMap (· ++ ['\n'])) = .ok o) (out : List O) (blk : List Char) (rt : Option Which) :
    ∃ blk' rt', archLoop dec (hd :: body ++ fin :: [] :: rest) ⟨out, blk, rt, false⟩ =
      archLoop dec rest ⟨out ++ [o], blk', rt', false⟩ := by
  have he : kBegin.isPrefixOf ([] : List Char) = false := rfl
  have he2 : kEnd.isPrefixOf ([] : List Char) = false := rfl
  simp only [List.cons_append, archLoop, archStep, hh, ht, if_true]
  rw [archLoop_inner body _ hb]
  simp only [archLoop, archStep, hf, hf2, Bool.false_eq_true, if_false, if_true]
  have e : hd ++ ['\n'] ++ body.flatMap (· ++ ['\n']) ++ fin ++ ['\n'] = (hd :: body ++ [fin]).flatMap (· ++ ['\n']) := by
    simp [List.append_assoc]
  rw [e, hdec]
  simp only [he, he2, Bool.false_eq_true, if_false]
  exact ⟨_, _, rfl⟩

/-- A text is that of a block of a type, read as an object. -/
def Block (dec : Which → List Char → Out O) (w : Which) (s : List Char) (o : O) : Prop :=
  ∃ hd body fin, s = (hd :: body ++ [fin, []]).flatMap (· ++ ['\n']) ∧ CleanLine hd ∧ CleanLine fin ∧
    kBegin.isPrefixOf hd = true ∧ splitHeader hd = .typ w ∧ (∀ t ∈ body, Inner t) ∧
    kBegin.isPrefixOf fin = false ∧ kEnd.isPrefixOf fin = true ∧
    dec w ((hd :: body ++ [fin]).flatMap (· ++ ['\n'])) = .ok o

/-- A text of blocks' lines of a type that is not supported. -/
def Skipped (s : List Char) : Prop :=
  ∃ hd body fin, s = (hd :: body ++ [fin, []]).flatMap (· ++ ['\n']) ∧ CleanLine hd ∧ CleanLine fin ∧
    kBegin.isPrefixOf hd = true ∧ splitHeader hd = .ignore ∧ (∀ t ∈ body, Inner t) ∧
    kBegin.isPrefixOf fin = false ∧ kEnd.isPrefixOf fin = true

/-- A text is that of a block, or is to be skipped; the objects read from it. -/
def Part (dec : Which → List Char → Out O) (s : List Char) (os : List O) : Prop :=
  (∃ w o, Block dec w s o ∧ os = [o]) ∨ (Skipped s ∧ os = [])

theorem archLoop_skip {hd fin : List Char} {body : List (List Char)} (rest : List (List Char))
    (hh : kBegin.isPrefixOf hd = true) (ht : splitHeader hd = .ignore) (hb : ∀ t ∈ body, Inner t)
    (hf : kBegin.isPrefixOf fin = false) (hf2 : kEnd.isPrefixOf fin = true)
    (out : List O) (blk : List Char) (rt : Option Which) :
    ∃ blk' rt', archLoop dec (hd :: body ++ fin :: [] :: rest) ⟨out, blk, rt, false⟩ =
      archLoop dec rest ⟨out, blk', rt', false⟩ := by
  have he : kBegin.isPrefixOf ([] : List Char) = false := rfl
  have he2 : kEnd.isPrefixOf ([] : List Char) = false := rfl
  simp only [List.cons_append, archLoop, archStep, hh, ht, if_true]
  rw [archLoop_inner body _ hb]
  simp only [archLoop, archStep, hf, hf2, Bool.false_eq_true, if_false, if_true, he, he2]
  exact ⟨_, _, rfl⟩

theorem archive_parts : ∀ (l : List (List Char × List O)), (∀ x ∈ l, Part dec x.1 x.2) →
    ∃ ls : List (List Char), (l.flatMap fun x => x.1) = ls.flatMap (· ++ ['\n']) ∧ (∀ t ∈ ls, CleanLine t) ∧
      ∀ out blk rt, archLoop dec ls ⟨out, blk, rt, false⟩ = .ok (out ++ l.flatMap fun x => x.2) := by
  intro l
  induction l with
  | nil => intro _; exact ⟨[], rfl, by simp, by intro out blk rt; simp [archLoop]⟩
  | cons x l ih =>
    intro h
    obtain ⟨ls, e, hc, hl⟩ := ih fun y hy => h y (by simp [hy])
    have clean : ∀ {hd fin : List Char} {body : List (List Char)}, CleanLine hd → CleanLine fin → (∀ t ∈ body, Inner t) →
        ∀ t ∈ hd :: body ++ fin :: [] :: ls, CleanLine t := by
      intro hd fin body c1 c2 h3 t ht
      simp only [List.cons_append, List.mem_cons, List.mem_append] at ht
      rcases ht with rfl | ht | rfl | rfl | ht
      · exact c1
      · exact (h3 t ht).1
      · exact c2
      · intro c hc; cases hc
      · exact hc t ht
    rcases h x (by simp) with ⟨w, o, ⟨hd, body, fin, hs, c1, c2, h1, h2, h3, h4, h5, h6⟩, ho⟩ |
      ⟨⟨hd, body, fin, hs, c1, c2, h1, h2, h3, h4, h5⟩, ho⟩
    · refine ⟨hd :: body ++ fin :: [] :: ls, ?_, clean c1 c2 h3, ?_⟩
      · rw [List.flatMap_cons, e, hs]
        simp [List.append_assoc]
      · intro out blk rt
        obtain ⟨blk', rt', e'⟩ := archLoop_block ls h1 h2 h3 h4 h5 h6 out blk rt
        rw [e', hl]
        simp [List.append_assoc, ho]
    · refine ⟨hd :: body ++ fin :: [] :: ls, ?_, clean c1 c2 h3, ?_⟩
      · rw [List.flatMap_cons, e, hs]
        simp [List.append_assoc]
      · intro out blk rt
        obtain ⟨blk', rt', e'⟩ := archLoop_skip (dec := dec) ls h1 h2 h3 h4 h5 out blk rt
        rw [e', hl]
        simp [ho]

theorem lines_of_clean {l : List (List Char)} (h : ∀ t ∈ l, CleanLine t) : lines (l.flatMap (· ++ ['\n'])) = l :=
  lines_unlines fun t ht => ⟨fun hc => (h t ht _ hc).1 rfl, fun e => (h t ht _ (List.mem_of_getLast? e)).2 rfl⟩

theorem readArchive_parts (l : List (List Char × List O)) (h : ∀ x ∈ l, Part dec x.1 x.2) :
    readArchive dec (l.flatMap fun x => x.1) = .ok (l.flatMap fun x => x.2) := by
  obtain ⟨ls, e, hc, hl⟩ := archive_parts l h
  rw [readArchive, e, lines_of_clean hc, hl]
  simp

end

end Verif.Hbook.Yoda
