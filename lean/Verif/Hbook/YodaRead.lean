import Verif.Hbook.YodaLemmas

/-!
# Reading what was written, before the numbers are given a meaning
-/

namespace Verif.Hbook.Yoda
open Verif.Text Verif.Fscanf Verif.Strconv Verif.Hbook Verif.Hbook.Brio

/-- The first line beginning with a comment ends the annotations. -/
theorem cut_mark {y m r : List Char} (hy : ¬ ['\n', '#'] <:+: y) :
    cut ('\n' :: '#' :: m) (y ++ kDash ++ '\n' :: '#' :: (m ++ r)) = some (y ++ kDash, r) := by
  have tail : cut ('\n' :: '#' :: m) (kDash ++ '\n' :: '#' :: (m ++ r)) = some (kDash, r) := by
    have hd : ('-' == '\n') = false := by decide
    have hp : List.isPrefixOf m (m ++ r) = true := by
      rw [List.isPrefixOf_iff_prefix]; exact List.prefix_append m r
    simp [kDash, cut, List.isPrefixOf, hp]
  induction y with
  | nil => exact tail
  | cons c y ih =>
    have hy' : ¬ ['\n', '#'] <:+: y := fun h => hy (h.trans (List.infix_cons (List.infix_refl y)))
    have hno : List.isPrefixOf ('\n' :: '#' :: m) (c :: (y ++ kDash ++ '\n' :: '#' :: (m ++ r))) = false := by
      rw [Bool.eq_false_iff]
      intro h
      simp only [List.isPrefixOf, Bool.and_eq_true, beq_iff_eq] at h
      obtain ⟨rfl, h⟩ := h
      cases y with
      | nil =>
        simp [kDash, List.isPrefixOf] at h
      | cons d y =>
        simp only [List.cons_append, List.isPrefixOf, Bool.and_eq_true, beq_iff_eq] at h
        obtain ⟨rfl, -⟩ := h
        exact hy ⟨[], y, by simp⟩
    simp only [List.cons_append, cut]
    rw [if_neg (by rw [hno]; exact Bool.false_ne_true)]
    have := ih hy'
    rw [this]
    rfl

section
variable {F V : Type} {env : Env F V} {rnd : F → F}

theorem loop_comment (k : Kind) {c : List Char} (l : List (List Char)) (st : St F) (h : isComment c = true) :
    loop env k (c :: l) st = loop env k l st := by
  simp [loop, h]

theorem loop_end (k : Kind) {c : List Char} (l : List (List Char)) (st : St F) (h : isComment c = false)
    (he : k.fin.isPrefixOf c = true) : loop env k (c :: l) st = .ok st := by
  simp [loop, h, he]

theorem loop_head (hn : Numbers env rnd) (k : Kind) {h p : List Char} {n : Nat} (hp : ∀ c ∈ p, blank c = false)
    (he : h = p ++ List.replicate n ' ') (hne : p ≠ []) {r : List F} (hr : r ≠ []) (hlen : r.length = k.nHead)
    (l : List (List Char)) (st : St F) (hc : isComment (headText env h r) = false)
    (hf : k.fin.isPrefixOf (headText env h r) = false) (ho : headOf k st (headText env h r) = some h) :
    loop env k (headText env h r :: l) st = loop env k l { st with seen := st.seen ++ [(h, r.map fun x => .flt (rnd x))] } := by
  have := scanRow_head hn hp he hne hr
  rw [hlen] at this
  simp [loop, hc, hf, ho, this]

/-- Tables whose lines before the bins are told from numbers by their first letter. -/
structure Plain (k : Kind) : Prop where
  fin : ∃ t, k.fin = 'E' :: t
  heads : ∀ h ∈ k.heads, ∃ c t, h = c :: t ∧ (c = 'T' ∨ c = 'U' ∨ c = 'O')

theorem loop_rows (hn : Numbers env rnd) {k : Kind} (hk : Plain k) (rows : List (List F))
    (hr : ∀ r ∈ rows, r.length = k.nRow) (h0 : k.nRow ≠ 0)
    (l : List (List Char)) (st : St F) (hon : st.on k = true) :
    loop env k (rows.map (rowText env) ++ l) st =
      loop env k l { st with bins := st.bins ++ rows.map fun r => r.map fun x => .flt (rnd x) } := by
  induction rows generalizing st with
  | nil => simp
  | cons r rows ih =>
    have hl := hr r (by simp)
    have hne : r ≠ [] := by intro e; rw [e] at hl; exact h0 hl.symm
    obtain ⟨c, t, e, hc⟩ := rowText_cons hn hne
    have hne' : ∀ d : Char, d.isDigit = false → d ≠ '-' → d ≠ '+' → d ≠ 'N' → c ≠ d := by
      rintro d h1 h2 h3 h4 rfl
      rcases hc with h | h | h | h
      · rw [h] at h1; cases h1
      · exact h2 h
      · exact h3 h
      · exact h4 h
    have h1 : isComment (rowText env r) = false := by
      rw [e]
      simp [isComment, hne' '#' (by decide) (by decide) (by decide) (by decide)]
    have h2 : k.fin.isPrefixOf (rowText env r) = false := by
      obtain ⟨u, hu⟩ := hk.fin
      rw [e, hu, Bool.eq_false_iff]
      simp only [List.isPrefixOf, ne_eq, Bool.and_eq_true, beq_iff_eq, not_and]
      intro h
      exact absurd h.symm (hne' 'E' (by decide) (by decide) (by decide) (by decide))
    have h3 : headOf k st (rowText env r) = none := by
      simp only [headOf, List.find?_eq_none, Bool.and_eq_true, not_and]
      intro h hh _ hp
      obtain ⟨d, u, rfl, hd⟩ := hk.heads h hh
      rw [e] at hp
      simp only [List.cons_append, List.isPrefixOf, Bool.and_eq_true, beq_iff_eq] at hp
      rcases hd with rfl | rfl | rfl
      · exact hne' 'T' (by decide) (by decide) (by decide) (by decide) hp.1.symm
      · exact hne' 'U' (by decide) (by decide) (by decide) (by decide) hp.1.symm
      · exact hne' 'O' (by decide) (by decide) (by decide) (by decide) hp.1.symm
    have h4 := scanRow_row hn hne
    rw [hl] at h4
    have := ih (fun r' hr' => hr r' (by simp [hr'])) { st with bins := st.bins ++ [r.map fun x => .flt (rnd x)] } hon
    simp only [List.map_cons, List.cons_append, loop, h1, h2, h3, hon, h4, Bool.false_eq_true, if_false, if_true]
    simpa using this

/-- What is assumed of the YAML library for the annotations written: its text has no line beginning with `#` except
possibly the first one, and the first document of a stream is read back. -/
structure Yaml (env : Env F V) (a : Ann V) : Prop where
  str : ∀ s, env.isStr (env.str s) = some s
  fmtS : ∀ s, env.fmtS (env.str s) = s
  codec : ∃ y b, env.yenc a = some y ∧ ¬ ['\n', '#'] <:+: y ∧ env.ydec (y ++ kDash ++ ['\n']) = some b ∧
    (b.map fun x => x.1).Nodup ∧ ∀ k, get b k = get a k

/-- Annotations none of which has a name used by YODA. -/
def Free (a : Ann V) : Prop := (a.map fun x => x.1).Nodup ∧ ∀ x ∈ a, x.1 ≠ kTypeY ∧ x.1 ≠ kPathY ∧ x.1 ≠ kTitleY

theorem get_toYODA {a : Ann V} (ha : Free a) (ty k : List Char) :
    get (annToYODA env ty a) k =
      if k = kTitleY then some ((get a kTitle).getD (env.str []))
      else if k = kName ∨ k = kTitle then none
      else if k = kTypeY then some (env.str ty)
      else if k = kPathY then some (env.str ('/' :: nameOf env a))
      else get a k := by
  rw [annToYODA, get_annFold ha.1 fun x hx => (ha.2 x hx).2.2]
  have n1 : kTypeY ≠ kPathY := by decide
  have n2 : kTypeY ≠ kTitleY := by decide
  have n3 : kPathY ≠ kTitleY := by decide
  have hT : get a kTypeY = none := get_none fun x hx => (ha.2 x hx).1
  have hP : get a kPathY = none := get_none fun x hx => (ha.2 x hx).2.1
  simp only [get_cons, get_nil]
  by_cases h1 : k = kTitleY
  · subst h1
    simp only [n2, n3, if_false]
    cases get a kTitle <;> simp
  · have h1' : kTitleY ≠ k := fun e => h1 e.symm
    by_cases h2 : k = kName ∨ k = kTitle
    · have h3 : kTypeY ≠ k := by rintro rfl; rcases h2 with h | h <;> exact absurd h (by decide)
      have h4 : kPathY ≠ k := by rintro rfl; rcases h2 with h | h <;> exact absurd h (by decide)
      simp [h1, h2, h3, h4, h1']
    · simp only [h1, h2, if_false, h1']
      by_cases h3 : k = kTypeY
      · subst h3; simp [hT]
      · by_cases h4 : k = kPathY
        · subst h4; simp [hP, n1.symm, n1]
        · have h3' : kTypeY ≠ k := fun e => h3 e.symm
          have h4' : kPathY ≠ k := fun e => h4 e.symm
          simp [h3, h4, h3', h4']

/-- The annotations after a round trip: the name is a string, a title is there, the rest is kept. -/
def annAfter (env : Env F V) (a old : Ann V) (k : List Char) : Option V :=
  if k = kName then some (env.str (nameOf env a))
  else if k = kTitle then some ((get a kTitle).getD (env.str []))
  else (get a k).or (get old k)

/-- The beginning of a reader on a text written. -/
theorem start_write {k : Kind} {a : Ann V} (old : Ann V) (ha : Free a) (hy : Yaml env (annToYODA env k.ty a))
    (hname : '\n' ∉ nameOf env a) {m u : List Char} (hm : k.mark = '\n' :: '#' :: m) (htag : '\n' ∉ k.tag)
    {t : List (List Char)} :
    ∃ s, write env k a (('#' :: (m ++ u)) :: t) = some s ∧ ∃ o, start env k old s = .ok (.ann o
        (lines ('\n' :: (('#' :: (m ++ u)) :: (t ++ [kEnd ++ k.tag ++ kV2, []])).flatMap (· ++ ['\n'])))) ∧
      ∀ x, get o x = annAfter env a old x := by
  obtain ⟨y, b, h1, h2, h3, h4, h5⟩ := hy.codec
  have hP := get_toYODA (env := env) ha k.ty kPathY
  rw [if_neg (by decide), if_neg (by decide), if_neg (by decide), if_pos rfl] at hP
  refine ⟨_, by simp only [write, h1, hP, hy.fmtS]; rfl, ?_⟩
  have hb : ∀ x ∈ b, get b x.1 = some x.2 := by
    intro x hx
    clear h3 h5
    induction b with
    | nil => simp at hx
    | cons z b ih =>
      rw [get_cons]
      simp only [List.map_cons, List.nodup_cons] at h4
      rcases List.mem_cons.mp hx with rfl | hx
      · simp
      · rw [if_neg, ih h4.2 hx]
        intro e
        exact h4.1 (by rw [e]; exact List.mem_map_of_mem hx)
  obtain ⟨o, ho, hg⟩ := annFrom_get hy.str h4 (by
      intro x hx hk
      have := hb x hx
      rw [h5, hk, hP] at this
      exact ⟨_, (Option.some.inj this).symm⟩) (by
      intro x hx
      have := hb x hx
      rw [h5, get_toYODA ha] at this
      constructor
      · intro e
        rw [e, if_neg (by decide), if_pos (.inl rfl)] at this
        cases this
      · intro e
        rw [e, if_neg (by decide), if_pos (.inr rfl)] at this
        cases this) old
  refine ⟨o, ?_, ?_⟩
  · have hcut := cut_one '\n' (a := kBegin ++ k.tag ++ kV2 ++ ' ' :: '/' :: nameOf env a) (by
      simp only [List.mem_append, List.mem_cons, not_or]
      refine ⟨⟨⟨by decide, htag⟩, by decide⟩, by decide, by decide, hname⟩)
      (y ++ kDash ++ '\n' :: ((('#' :: (m ++ u)) :: t) ++ [kEnd ++ k.tag ++ kV2, []]).flatMap (· ++ ['\n']))
    have hh : header k.tag (kBegin ++ k.tag ++ kV2 ++ ' ' :: '/' :: nameOf env a ++ '\n' ::
        (y ++ kDash ++ '\n' :: ((('#' :: (m ++ u)) :: t) ++ [kEnd ++ k.tag ++ kV2, []]).flatMap (· ++ ['\n']))) =
        some (2, y ++ kDash ++ '\n' :: ((('#' :: (m ++ u)) :: t) ++ [kEnd ++ k.tag ++ kV2, []]).flatMap (· ++ ['\n'])) := by
      simp only [header, hcut]
      rw [if_pos]
      rw [List.isPrefixOf_iff_prefix]
      exact ⟨'/' :: nameOf env a ++ ['\n'], by simp⟩
    have hc2 := cut_mark (m := m) (r := u ++ '\n' :: (t ++ [kEnd ++ k.tag ++ kV2, []]).flatMap (· ++ ['\n'])) h2
    have e : y ++ kDash ++ '\n' :: ((('#' :: (m ++ u)) :: t) ++ [kEnd ++ k.tag ++ kV2, []]).flatMap (· ++ ['\n']) =
        y ++ kDash ++ '\n' :: '#' :: (m ++ (u ++ '\n' :: (t ++ [kEnd ++ k.tag ++ kV2, []]).flatMap (· ++ ['\n']))) := by
      simp
    simp only [start]
    rw [hh]
    simp only [OfNat.ofNat_ne_one, if_false]
    rw [hm, e, hc2]
    simp only [h3, ho]
    simp
  · intro x
    rw [hg, annAfter]
    by_cases h1 : x = kName
    · rw [if_pos h1, if_pos h1, h5, hP]
      simp [hy.str, trimSlash]
    · rw [if_neg h1, if_neg h1]
      by_cases h2 : x = kTitle
      · rw [if_pos h2, if_pos h2, h5, get_toYODA ha, if_pos rfl]
        simp
      · rw [if_neg h2, if_neg h2]
        by_cases h3 : x = kTypeY ∨ x = kPathY ∨ x = kTitleY
        · rw [if_pos h3, get_none (a := a) (by
            intro z hz e
            have := ha.2 z hz
            rw [e] at this
            rcases h3 with h | h | h
            · exact this.1 h
            · exact this.2.1 h
            · exact this.2.2 h)]
          simp
        · simp only [not_or] at h3
          rw [if_neg (by simp [h3]), h5, get_toYODA ha, if_neg h3.2.2, if_neg (by simp [h1, h2]), if_neg h3.1, if_neg h3.2.1]

/-- A line without newline and carriage return. -/
def CleanLine (t : List Char) : Prop := ∀ c ∈ t, c ≠ '\n' ∧ c ≠ '\r'

instance (t : List Char) : Decidable (CleanLine t) := by unfold CleanLine; infer_instance

theorem clean_append {s t : List Char} (hs : CleanLine s) (ht : CleanLine t) : CleanLine (s ++ t) := by
  intro c hc
  rcases List.mem_append.mp hc with h | h
  · exact hs c h
  · exact ht c h

theorem clean_row (hn : Numbers env rnd) (l : List F) : CleanLine (rowText env l) := fun _ h => rowText_mem hn h

theorem clean_fmtE (hn : Numbers env rnd) (x : F) : CleanLine (env.fmtE x) := fun _ h =>
  rowText_mem hn (l := [x]) (by simpa [rowText, tabbed] using h)

theorem clean_head (hn : Numbers env rnd) {h : List Char} (hh : CleanLine h) (l : List F) :
    CleanLine (headText env h l) :=
  clean_append hh (clean_append (s := ['\t']) (by decide +kernel)
    (clean_append hh (clean_append (s := ['\t']) (by decide +kernel) (clean_row hn l))))

theorem lines_clean {l : List (List Char)} (h : ∀ t ∈ l, CleanLine t) :
    lines ('\n' :: l.flatMap (· ++ ['\n'])) = [] :: l := by
  have := lines_unlines (l := [] :: l) (by
    intro t ht
    rcases List.mem_cons.mp ht with rfl | ht
    · simp
    · refine ⟨fun hc => (h t ht _ hc).1 rfl, fun e => ?_⟩
      exact (h t ht _ (List.mem_of_getLast? e)).2 rfl)
  simpa using this

/-- A reader on the text of a table. -/
theorem read_write {B : Type} {k : Kind} (build : St F → Option B) {a : Ann V} (old : Ann V) (ha : Free a)
    (hy : Yaml env (annToYODA env k.ty a)) (hname : '\n' ∉ nameOf env a) {m u : List Char}
    (hm : k.mark = '\n' :: '#' :: m) (htag : CleanLine k.tag) {t : List (List Char)} {table : List (List Char)}
    (htab : table = ('#' :: (m ++ u)) :: t)
    (hclean : ∀ t ∈ table, CleanLine t) {st : St F} {b : B}
    (hloop : loop env k (table ++ [kEnd ++ k.tag ++ kV2, []]) ⟨[], []⟩ = .ok st) (hb : build st = some b) :
    ∃ s, write env k a table = some s ∧ ∃ o, read env k build old s = .ok (.obj b o) ∧
      ∀ x, get o x = annAfter env a old x := by
  subst htab
  obtain ⟨s, hs, o, ho, hg⟩ := start_write (env := env) (k := k) old ha hy hname hm
    (fun h => (htag _ h).1 rfl) (u := u) (t := t)
  refine ⟨s, hs, o, ?_, hg⟩
  have hl := lines_clean (l := (('#' :: (m ++ u)) :: t) ++ [kEnd ++ k.tag ++ kV2, []]) (by
    intro x hx
    rcases List.mem_append.mp hx with h | h
    · exact hclean x h
    · simp only [List.mem_cons, List.not_mem_nil, or_false] at h
      rcases h with rfl | rfl
      · exact clean_append (clean_append (by decide +kernel) htag) (by decide +kernel)
      · intro c hc; cases hc)
  rw [List.cons_append] at hl
  simp only [read, ho, hl]
  rw [loop_comment _ _ _ rfl]
  rw [List.cons_append] at hloop
  simp only [hloop, hb]

theorem loop_total (hn : Numbers env rnd) {k : Kind} (hk : k.heads.head? = some kTotal) (hf : ∃ t, k.fin = 'E' :: t)
    {r : List F} (hr : r ≠ [])
    (hlen : r.length = k.nHead) (l : List (List Char)) (bins : List (List (Val F))) :
    loop env k (headText env kTotal r :: l) ⟨[], bins⟩ =
      loop env k l ⟨[(kTotal, r.map fun x => .flt (rnd x))], bins⟩ := by
  obtain ⟨e, he⟩ := hf
  have h := loop_head hn k (h := kTotal) (p := ['T', 'o', 't', 'a', 'l']) (n := 3) (by decide) rfl (by decide) hr hlen l
    ⟨[], bins⟩ rfl (by rw [he]; rfl) (by
      cases hh : k.heads with
      | nil => rw [hh] at hk; cases hk
      | cons x xs =>
        rw [hh] at hk
        simp only [List.head?_cons, Option.some.injEq] at hk
        subst hk
        simp only [headOf, hh]
        rw [List.find?_cons_of_pos]
        simp [headText])
  rw [h]
  rfl

theorem loop_under (hn : Numbers env rnd) {k : Kind} (hk : k.heads = [kTotal, kUnder, kOver])
    (hf : ∃ t, k.fin = 'E' :: t) {r : List F} (hr : r ≠ [])
    (hlen : r.length = k.nHead) (l : List (List Char)) (bins : List (List (Val F))) (v : List (Val F)) :
    loop env k (headText env kUnder r :: l) ⟨[(kTotal, v)], bins⟩ =
      loop env k l ⟨[(kTotal, v), (kUnder, r.map fun x => .flt (rnd x))], bins⟩ := by
  obtain ⟨e, he⟩ := hf
  have h := loop_head hn k (h := kUnder) (p := kUnder) (n := 0) (by decide) rfl (by decide) hr hlen l
    ⟨[(kTotal, v)], bins⟩ rfl (by rw [he]; rfl) (by
      simp only [headOf, hk]
      rw [List.find?_cons_of_neg (by simp), List.find?_cons_of_pos]
      simp [headText]
      decide)
  rw [h]
  rfl

theorem loop_over (hn : Numbers env rnd) {k : Kind} (hk : k.heads = [kTotal, kUnder, kOver])
    (hf : ∃ t, k.fin = 'E' :: t) {r : List F} (hr : r ≠ [])
    (hlen : r.length = k.nHead) (l : List (List Char)) (bins : List (List (Val F))) (v w : List (Val F)) :
    loop env k (headText env kOver r :: l) ⟨[(kTotal, v), (kUnder, w)], bins⟩ =
      loop env k l ⟨[(kTotal, v), (kUnder, w), (kOver, r.map fun x => .flt (rnd x))], bins⟩ := by
  obtain ⟨e, he⟩ := hf
  have h := loop_head hn k (h := kOver) (p := kOver) (n := 0) (by decide) rfl (by decide) hr hlen l
    ⟨[(kTotal, v), (kUnder, w)], bins⟩ rfl (by rw [he]; rfl) (by
      simp only [headOf, hk]
      rw [List.find?_cons_of_neg (by simp), List.find?_cons_of_neg (by simp), List.find?_cons_of_pos]
      simp [headText]
      decide)
  rw [h]
  rfl

end

end Verif.Hbook.Yoda
