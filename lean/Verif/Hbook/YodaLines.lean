import Verif.Hbook.YodaMoreEx

/-!
# Lines of YODA texts that are not understood

The readers of histograms and profiles skip empty lines and comments only: a text is read only if every other
line before its end is one of the lines before the bins or has the numbers of a bin, and then there are as many bins.
-/

namespace Verif.Hbook.Yoda
open Verif.Text Verif.Fscanf Verif.Strconv Verif.Hbook Verif.Hbook.Brio

section
variable {F V : Type} (env : Env F V)

/-- The lines that must be understood: neither empty nor comments, up to the end of the object. -/
def content (fin : List Char) (ls : List (List Char)) : List (List Char) :=
  (ls.filter fun l => l ≠ [] && l.head? ≠ some '#').takeWhile fun l => !fin.isPrefixOf l

/-- A line before the bins, for example the total. -/
def HeadLine (k : Kind) (line : List Char) : Prop :=
  ∃ h ∈ k.heads, h ++ ['\t'] <+: line ∧ (scanRow env (h ++ '\t' :: (h ++ ['\t'])) k.nHead line).isSome

/-- A line with the numbers of a bin. -/
def BinLine (k : Kind) (line : List Char) : Prop := (scanRow env [] k.nRow line).isSome

theorem content_skip (fin : List Char) {c : List Char} (l : List (List Char)) (h : isComment c = true) :
    content fin (c :: l) = content fin l := by
  unfold content
  rw [List.filter_cons_of_neg]
  cases c with
  | nil => simp
  | cons a r => simp only [isComment, decide_eq_true_eq] at h; simp [h]

theorem filter_keep {c : List Char} (l : List (List Char)) (h : isComment c = false) :
    ((c :: l).filter fun l => l ≠ [] && l.head? ≠ some '#') = c :: l.filter fun l => l ≠ [] && l.head? ≠ some '#' := by
  rw [List.filter_cons_of_pos]
  cases c with
  | nil => simp [isComment] at h
  | cons a r => simp only [isComment, decide_eq_false_iff_not] at h; simp [h]

theorem content_end {fin : List Char} {c : List Char} (l : List (List Char)) (h : isComment c = false)
    (hf : fin.isPrefixOf c = true) : content fin (c :: l) = [] := by
  unfold content
  rw [filter_keep _ h, List.takeWhile_cons_of_neg (by simp [hf])]

theorem content_cons {fin : List Char} {c : List Char} (l : List (List Char)) (h : isComment c = false)
    (hf : fin.isPrefixOf c = false) : content fin (c :: l) = c :: content fin l := by
  unfold content
  rw [filter_keep _ h, List.takeWhile_cons_of_pos (by simp [hf])]

/-- The lines of a table read to its end. -/
theorem loop_lines (k : Kind) (ls : List (List Char)) (st st' : St F) (h : loop env k ls st = .ok st')
    (hn : (st.seen.map (·.1)).Nodup) (hs : ∀ x ∈ st.seen.map (·.1), x ∈ k.heads) :
    (∀ l ∈ content k.fin ls, HeadLine env k l ∨ BinLine env k l) ∧
    (content k.fin ls).length + st.seen.length + st.bins.length = st'.seen.length + st'.bins.length ∧
    (st'.seen.map (·.1)).Nodup ∧ ∀ x ∈ st'.seen.map (·.1), x ∈ k.heads := by
  induction ls generalizing st with
  | nil =>
    rw [loop] at h
    cases h
    exact ⟨by simp [content], by simp [content], hn, hs⟩
  | cons c l ih =>
    rw [loop] at h
    by_cases hc : isComment c = true
    · rw [if_pos hc] at h
      rw [content_skip _ _ hc]
      exact ih st h hn hs
    · rw [if_neg hc] at h
      have hc : isComment c = false := by simpa using hc
      by_cases hf : k.fin.isPrefixOf c = true
      · rw [if_pos hf] at h
        cases h
        rw [content_end _ hc hf]
        exact ⟨by simp, by simp, hn, hs⟩
      · rw [if_neg hf] at h
        have hf : k.fin.isPrefixOf c = false := Bool.eq_false_iff.2 hf
        rw [content_cons _ hc hf]
        cases ho : headOf k st c with
        | some hd =>
          rw [ho] at h
          simp only [] at h
          have hm := List.mem_of_find?_eq_some ho
          have hp := List.find?_some ho
          simp only [Bool.and_eq_true, Bool.not_eq_true', List.any_eq_false, decide_eq_true_eq] at hp
          cases hsc : scanRow env (hd ++ '\t' :: (hd ++ ['\t'])) k.nHead c with
          | none => rw [hsc] at h; cases h
          | some v =>
            rw [hsc] at h
            simp only [] at h
            obtain ⟨h1, h2, h3, h4⟩ := ih _ h (by
              simp only [List.map_append, List.map_cons, List.map_nil]
              rw [List.nodup_append]
              refine ⟨hn, by simp, ?_⟩
              intro a ha b hb e
              simp only [List.mem_singleton] at hb
              obtain ⟨x, hx, rfl⟩ := List.mem_map.1 ha
              exact hp.1 x hx (e.trans hb)) (by
              intro x hx
              simp only [List.map_append, List.map_cons, List.map_nil, List.mem_append, List.mem_singleton] at hx
              rcases hx with hx | rfl
              · exact hs x hx
              · exact hm)
            refine ⟨?_, ?_, h3, h4⟩
            · intro x hx
              rcases List.mem_cons.1 hx with rfl | hx
              · exact .inl ⟨hd, hm, List.isPrefixOf_iff_prefix.1 hp.2, by rw [hsc]; rfl⟩
              · exact h1 x hx
            · simp only [List.length_append, List.length_cons, List.length_nil] at h2 ⊢
              omega
        | none =>
          rw [ho] at h
          simp only [] at h
          by_cases hon : st.on k = true
          · rw [if_pos hon] at h
            cases hsc : scanRow env [] k.nRow c with
            | none => rw [hsc] at h; cases h
            | some v =>
              rw [hsc] at h
              simp only [] at h
              obtain ⟨h1, h2, h3, h4⟩ := ih _ h hn hs
              refine ⟨?_, ?_, h3, h4⟩
              · intro x hx
                rcases List.mem_cons.1 hx with rfl | hx
                · exact .inr (by unfold BinLine; rw [hsc]; rfl)
                · exact h1 x hx
              · simp only [List.length_append, List.length_cons, List.length_nil] at h2 ⊢
                omega
          · rw [if_neg hon] at h; cases h

theorem nodup_sub_length {α : Type} [DecidableEq α] {l m : List α} (h : l.Nodup) (hs : ∀ x ∈ l, x ∈ m) : l.length ≤ m.length :=
  (List.subperm_of_subset h hs).length_le

/-- An object read. -/
theorem read_lines {B : Type} (k : Kind) (build : St F → Option B) (old a : Ann V) (data : List Char) (b : B)
    (h : read env k build old data = .ok (.obj b a)) :
    ∃ p rest st, (∃ v r, header k.tag data = some (v, r) ∧ r = p ++ (k.mark ++ rest)) ∧ build st = some b ∧
      (∀ l ∈ content k.fin (lines (k.mark ++ rest)), HeadLine env k l ∨ BinLine env k l) ∧
      (content k.fin (lines (k.mark ++ rest))).length ≤ st.bins.length + k.heads.length ∧
      st.bins.length ≤ (content k.fin (lines (k.mark ++ rest))).length := by
  unfold read at h
  cases hs : start env k old data with
  | panic => rw [hs] at h; cases h
  | err => rw [hs] at h; cases h
  | ok s =>
    cases s with
    | v1 => rw [hs] at h; cases h
    | ann a' ls =>
      rw [hs] at h
      simp only [] at h
      cases hl : loop env k ls ⟨[], []⟩ with
      | panic => rw [hl] at h; cases h
      | err => rw [hl] at h; cases h
      | ok st =>
        rw [hl] at h
        simp only [] at h
        cases hb : build st with
        | none => rw [hb] at h; cases h
        | some b' =>
          rw [hb] at h
          cases h
          unfold start at hs
          cases hh : header k.tag data with
          | none => rw [hh] at hs; cases hs
          | some vr =>
            obtain ⟨v, r⟩ := vr
            rw [hh] at hs
            simp only [] at hs
            by_cases hv : v = 1
            · rw [if_pos hv] at hs; cases hs
            · rw [if_neg hv] at hs
              cases hc : cut k.mark r with
              | none => rw [hc] at hs; cases hs
              | some pr =>
                obtain ⟨p, rest⟩ := pr
                rw [hc] at hs
                simp only [] at hs
                cases hy : env.ydec (p ++ ['\n']) with
                | none => rw [hy] at hs; cases hs
                | some ann =>
                  rw [hy] at hs
                  simp only [] at hs
                  cases ha : annFromYODA env old ann with
                  | none => rw [ha] at hs; cases hs
                  | some a2 =>
                    rw [ha] at hs
                    cases hs
                    obtain ⟨h1, h2, h3, h4⟩ := loop_lines env k _ _ _ hl (by simp) (by simp)
                    refine ⟨p, rest, st, ⟨v, r, rfl, ?_⟩, hb, h1, ?_, ?_⟩
                    · have := cut_sound hc
                      simpa using this
                    · have := nodup_sub_length h3 h4
                      simp only [List.length_map, List.length_nil] at this h2
                      omega
                    · simp only [List.length_nil] at h2
                      omega

variable [Zero F]

/-- **C131** (malformed texts): a histogram is read only if all lines up to the end of the object that are neither empty nor comments
are the total, the underflow, the overflow or bins with their seven numbers, and then it has a bin for each
of the others. -/
theorem C131_lines (old a : Ann V) (data : List Char) (b : Binning1D F) (h : unmarshalH1D env old data = .ok (.obj b a)) :
    ∃ p rest, (∃ v r, header kH1D.tag data = some (v, r) ∧ r = p ++ (kH1D.mark ++ rest)) ∧
      (∀ l ∈ content kH1D.fin (lines (kH1D.mark ++ rest)), HeadLine env kH1D l ∨ BinLine env kH1D l) ∧
      (content kH1D.fin (lines (kH1D.mark ++ rest))).length ≤ b.bins.length + 3 ∧
      b.bins.length ≤ (content kH1D.fin (lines (kH1D.mark ++ rest))).length := by
  obtain ⟨p, rest, st, h1, h2, h3, h4, h5⟩ := read_lines env kH1D (build1 env) old a data b h
  cases h2
  exact ⟨p, rest, h1, h3, by simpa [kH1D] using h4, by simpa using h5⟩

end

section
variable {F V α : Type} (env : Env F V) [LinearOrder α] [GoFloat F α]
variable [Zero F] [Add F] [Sub F] [Neg F] [Mul F] [Div F] [NatCast F]

/-- **C132** (malformed texts): the same for profiles. -/
theorem C132_lines (old a : Ann V) (data : List Char) (b : BinningP1D F)
    (h : unmarshalP1D env old data = .ok (.obj b a)) :
    ∃ p rest, (∃ v r, header kP1D.tag data = some (v, r) ∧ r = p ++ (kP1D.mark ++ rest)) ∧
      (∀ l ∈ content kP1D.fin (lines (kP1D.mark ++ rest)), HeadLine env kP1D l ∨ BinLine env kP1D l) ∧
      (content kP1D.fin (lines (kP1D.mark ++ rest))).length ≤ b.bins.length + 3 ∧
      b.bins.length ≤ (content kP1D.fin (lines (kP1D.mark ++ rest))).length := by
  obtain ⟨p, rest, st, h1, h2, h3, h4, h5⟩ := read_lines env kP1D (buildP env) old a data b h
  have hb : b.bins.length = st.bins.length := by
    unfold buildP at h2
    simp only [Option.map_eq_some_iff] at h2
    obtain ⟨b', -, rfl⟩ := h2
    simp
  exact ⟨p, rest, h1, h3, by rw [hb]; exact h4, by rw [hb]; exact h5⟩

/-- **C133** (malformed texts): the same for two-dimensional histograms, which have a total only before the bins. -/
theorem C133_lines (old a : Ann V) (data : List Char) (b : Binning2D F)
    (h : unmarshalH2D env old data = .ok (.obj b a)) :
    ∃ p rest, (∃ v r, header kH2D.tag data = some (v, r) ∧ r = p ++ (kH2D.mark ++ rest)) ∧
      ∀ l ∈ content kH2D.fin (lines (kH2D.mark ++ rest)), HeadLine env kH2D l ∨ BinLine env kH2D l := by
  obtain ⟨p, rest, st, h1, -, h3, -, -⟩ := read_lines env kH2D (build2 env) old a data b h
  exact ⟨p, rest, h1, h3⟩

end

/-- The text of a histogram with one line changed. -/
def spoil (f : List Char → List Char) (s : List Char) : List Char :=
  (lines s).flatMap fun l => f l ++ ['\n']

def isErr {B V : Type} : Out (Read B V) → Bool
  | .err => true
  | _ => false

/-- A text that is read, and the same with a bin with a word instead of a number, or a number missing. -/
example : (((marshalH1D toy 0 1 toyH1 toyAnn).map fun s => (isErr (unmarshalH1D toy [] (spoil id s)),
    isErr (unmarshalH1D toy [] (spoil (fun l => if l.head? = some '0' then 'x' :: l else l) s)),
    isErr (unmarshalH1D toy [] (spoil (fun l => if l.head? = some '0' then l.drop 2 else l) s))))) =
      some (false, true, true) := by
  decide +kernel

/-- The bins of the text of the example. -/
example : ∃ s, marshalH1D toy 0 1 toyH1 toyAnn = some s ∧ ∃ p rest,
    (∃ v r, header kH1D.tag s = some (v, r) ∧ r = p ++ (kH1D.mark ++ rest)) ∧
    2 ≤ (content kH1D.fin (lines (kH1D.mark ++ rest))).length ∧ (content kH1D.fin (lines (kH1D.mark ++ rest))).length ≤ 5 := by
  obtain ⟨s, h1, b', a', h2, h3, -⟩ := C131_roundtrip_partial toy_numbers 0 1 toyH1 toyAnn [] toy_free
    (toy_yaml _ (.inl rfl)) (by decide +kernel)
  obtain ⟨p, rest, g1, -, g2, g3⟩ := C131_lines toy [] a' s b' h2
  have : b'.bins.length = 2 := by rw [(h3 _ rfl).1]; decide +kernel
  rw [this] at g2 g3
  exact ⟨s, h1, p, rest, g1, g3, g2⟩

end Verif.Hbook.Yoda
