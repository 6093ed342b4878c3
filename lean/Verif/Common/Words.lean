import Mathlib.Data.List.Basic
import Mathlib.Data.List.Infix

/-!
# Words of a text

The functions of the Go packages `strings`, `bytes`, `bufio` and `fmt` that separate, trim and pad
texts, on lists of characters.  They belong to the standard library and are modelled from their
documentation.  Simplification: white space and letters are those of ASCII.
-/

namespace Verif.Text

/-- `strings.Split` with a separator of one character. -/
def splitC (x : Char) : List Char → List (List Char)
  | [] => [[]]
  | c :: r =>
    if c = x then [] :: splitC x r
    else match splitC x r with
      | [] => [[c]]
      | t :: ts => (c :: t) :: ts

/-- `strings.Join` with a separator of one character. -/
def joinC (x : Char) : List (List Char) → List Char
  | [] => []
  | [t] => t
  | t :: ts => t ++ x :: joinC x ts

/-- The elements of `strings.Split(s, " ")` that are not empty. -/
def words (s : List Char) : List (List Char) := (splitC ' ' s).filter fun t => !t.isEmpty

/-- `unicode.IsSpace`, of the ASCII characters. -/
def isSpace (c : Char) : Bool :=
  c == ' ' || c == '\t' || c == '\n' || c == '\r' || c.toNat == 11 || c.toNat == 12

/-- `strings.TrimSpace`. -/
def trimSpace (s : List Char) : List Char := ((s.dropWhile isSpace).reverse.dropWhile isSpace).reverse

/-- `fmt` with a width: the text at the right of its field. -/
def padL (w : Nat) (t : List Char) : List Char := List.replicate (w - t.length) ' ' ++ t

/-- `fmt` with a width and the flag `-`: the text at the left of its field. -/
def padR (w : Nat) (t : List Char) : List Char := t ++ List.replicate (w - t.length) ' '

/-- A line without its carriage return (`bufio.ScanLines`). -/
def dropCR (s : List Char) : List Char := if s.getLast? = some '\r' then s.dropLast else s

/-- The lines of a text (`bufio.Scanner` with `bufio.ScanLines`): what follows the last end of line is
a line unless it is empty. -/
def lines (s : List Char) : List (List Char) :=
  let l := splitC '\n' s
  (if l.getLast? = some [] then l.dropLast else l).map dropCR

/-- `bytes.ToUpper`, of ASCII texts. -/
def upper (s : List Char) : List Char := s.map Char.toUpper

theorem splitC_ne_nil (x : Char) (s : List Char) : splitC x s ≠ [] := by
  cases s with
  | nil => simp [splitC]
  | cons c r =>
    simp only [splitC]
    split
    · simp
    · split <;> simp

theorem splitC_free {x : Char} {a : List Char} (ha : x ∉ a) : splitC x a = [a] := by
  induction a with
  | nil => rfl
  | cons c a ih =>
    simp only [List.mem_cons, not_or] at ha
    simp [splitC, Ne.symm ha.1, ih ha.2]

theorem splitC_append {x : Char} {a : List Char} (ha : x ∉ a) (b : List Char) :
    splitC x (a ++ x :: b) = a :: splitC x b := by
  induction a with
  | nil => simp [splitC]
  | cons c a ih =>
    simp only [List.mem_cons, not_or] at ha
    simp [splitC, Ne.symm ha.1, ih ha.2]

theorem splitC_joinC {x : Char} : ∀ {l : List (List Char)}, l ≠ [] → (∀ t ∈ l, x ∉ t) → splitC x (joinC x l) = l
  | [], h, _ => absurd rfl h
  | [t], _, h => by simpa [joinC] using splitC_free (h t (by simp))
  | t :: u :: ts, _, h => by
    rw [joinC, splitC_append (h t (by simp)), splitC_joinC (by simp) (fun t ht => h t (by simp [ht]))]
    simp

theorem joinC_splitC (x : Char) (s : List Char) : joinC x (splitC x s) = s := by
  induction s with
  | nil => rfl
  | cons c r ih =>
    simp only [splitC]
    split
    · rename_i h
      subst h
      cases hs : splitC c r with
      | nil => exact absurd hs (splitC_ne_nil c r)
      | cons t ts => rw [joinC, ← hs, ih]; simp; simp
    · cases hs : splitC x r with
      | nil => exact absurd hs (splitC_ne_nil x r)
      | cons t ts =>
        rw [hs] at ih
        cases ts with
        | nil => simpa [joinC] using ih
        | cons u us => simp only [joinC] at ih ⊢; simp [ih]

theorem words_nil : words [] = [] := rfl

theorem words_space (s : List Char) : words (' ' :: s) = words s := by
  simp [words, splitC]

theorem words_spaces (n : Nat) (s : List Char) : words (List.replicate n ' ' ++ s) = words s := by
  induction n with
  | zero => rfl
  | succ n ih => rw [List.replicate_succ, List.cons_append, words_space, ih]

theorem words_cons {w : List Char} (hw : ' ' ∉ w) (hn : w ≠ []) (s : List Char) :
    words (w ++ ' ' :: s) = w :: words s := by
  simp [words, splitC_append hw, hn]

theorem words_one {w : List Char} (hw : ' ' ∉ w) (hn : w ≠ []) : words w = [w] := by
  simp [words, splitC_free hw, hn]

theorem words_padL_cons (n : Nat) {w : List Char} (hw : ' ' ∉ w) (hn : w ≠ []) (s : List Char) :
    words (padL n w ++ ' ' :: s) = w :: words s := by
  rw [padL, List.append_assoc, words_spaces, words_cons hw hn]

theorem words_padL (n : Nat) {w : List Char} (hw : ' ' ∉ w) (hn : w ≠ []) : words (padL n w) = [w] := by
  rw [padL, words_spaces, words_one hw hn]

theorem words_append_spaces (s : List Char) (n : Nat) : words (s ++ List.replicate n ' ') = words s := by
  have key : ∀ s, words (s ++ [' ']) = words s := by
    intro s
    have h : splitC ' ' (s ++ [' ']) = splitC ' ' s ++ [[]] := by
      induction s with
      | nil => rfl
      | cons c r ih =>
        simp only [List.cons_append, splitC, ih]
        split
        · rfl
        · cases hs : splitC ' ' r with
          | nil => exact absurd hs (splitC_ne_nil _ r)
          | cons t ts => rfl
    simp [words, h]
  induction n with
  | zero => simp
  | succ n ih => rw [List.replicate_succ', ← List.append_assoc, key, ih]

/-- Texts that neither begin nor end with white space. -/
def Trimmed (s : List Char) : Prop :=
  (∀ c ∈ s.head?, isSpace c = false) ∧ (∀ c ∈ s.getLast?, isSpace c = false)

theorem dropWhile_head {s : List Char} (h : ∀ c ∈ s.head?, isSpace c = false) : s.dropWhile isSpace = s := by
  cases s with
  | nil => rfl
  | cons c r => simp [List.dropWhile, h c (by simp)]

theorem trimSpace_trimmed {s : List Char} (h : Trimmed s) : trimSpace s = s := by
  rw [trimSpace, dropWhile_head h.1, dropWhile_head (by rw [List.head?_reverse]; exact h.2), List.reverse_reverse]

theorem dropWhile_spaces (n : Nat) (s : List Char) :
    (List.replicate n ' ' ++ s).dropWhile isSpace = s.dropWhile isSpace := by
  induction n with
  | zero => rfl
  | succ n ih =>
    rw [List.replicate_succ, List.cons_append, List.dropWhile_cons]
    simp [show isSpace ' ' = true from rfl, ih]

theorem trimSpace_spaces (n : Nat) (s : List Char) : trimSpace (List.replicate n ' ' ++ s) = trimSpace s := by
  rw [trimSpace, dropWhile_spaces, trimSpace]

theorem trimSpace_space (s : List Char) : trimSpace (' ' :: s) = trimSpace s := trimSpace_spaces 1 s

theorem dropWhile_append_of_some {s t : List Char} (h : ∃ c ∈ s, isSpace c = false) :
    (s ++ t).dropWhile isSpace = s.dropWhile isSpace ++ t := by
  induction s with
  | nil => obtain ⟨c, hc, _⟩ := h; cases hc
  | cons d r ih =>
    simp only [List.cons_append, List.dropWhile_cons]
    split
    · rename_i hd
      obtain ⟨c, hc, hs⟩ := h
      simp only [List.mem_cons] at hc
      rcases hc with rfl | hc
      · rw [hs] at hd; cases hd
      · exact ih ⟨c, hc, hs⟩
    · rfl

theorem dropWhile_all {s : List Char} (h : ∀ c ∈ s, isSpace c = true) : s.dropWhile isSpace = [] := by
  induction s with
  | nil => rfl
  | cons c r ih => rw [List.dropWhile_cons, if_pos (h c (by simp))]; exact ih fun d hd => h d (by simp [hd])

theorem trimSpace_append_spaces (s : List Char) (n : Nat) : trimSpace (s ++ List.replicate n ' ') = trimSpace s := by
  by_cases h : ∃ c ∈ s, isSpace c = false
  · rw [trimSpace, dropWhile_append_of_some h, List.reverse_append, List.reverse_replicate, dropWhile_spaces, trimSpace]
  · have hs : ∀ c ∈ s, isSpace c = true := by
      intro c hc
      by_contra hn
      exact h ⟨c, hc, by simpa using hn⟩
    have ht : ∀ c ∈ s ++ List.replicate n ' ', isSpace c = true := ?_
    · rw [trimSpace, trimSpace, dropWhile_all hs, dropWhile_all ht]
    intro c hc
    rw [List.mem_append, List.mem_replicate] at hc
    rcases hc with hc | ⟨_, rfl⟩
    · exact hs c hc
    · rfl

theorem dropWhile_split (s : List Char) : ∃ p, s = p ++ s.dropWhile isSpace ∧ ∀ c ∈ p, isSpace c = true := by
  induction s with
  | nil => exact ⟨[], rfl, by simp⟩
  | cons c r ih =>
    rw [List.dropWhile_cons]
    split
    · rename_i hc
      obtain ⟨p, hp, hs⟩ := ih
      refine ⟨c :: p, by rw [List.cons_append, ← hp], ?_⟩
      intro d hd
      simp only [List.mem_cons] at hd
      rcases hd with rfl | hd
      · exact hc
      · exact hs d hd
    · exact ⟨[], rfl, by simp⟩

/-- Words do not change by trimming, if the white space of the text is spaces. -/
theorem words_trimSpace {s : List Char} (h : ∀ c ∈ s, isSpace c = true → c = ' ') : words (trimSpace s) = words s := by
  obtain ⟨p, hp, hsp⟩ := dropWhile_split s
  have hrep : ∀ {q : List Char}, (∀ c ∈ q, isSpace c = true) → (∀ c ∈ q, c ∈ s) → q = List.replicate q.length ' ' := by
    intro q h1 h2
    rw [List.eq_replicate_iff]
    exact ⟨rfl, fun c hc => h c (h2 c hc) (h1 c hc)⟩
  have hp' := hrep hsp (fun c hc => by rw [hp]; exact List.mem_append_left _ hc)
  have h1 : words (s.dropWhile isSpace) = words s := by
    conv_rhs => rw [hp, hp', words_spaces]
  obtain ⟨q, hq, hsq⟩ := dropWhile_split (s.dropWhile isSpace).reverse
  have hq2 : s.dropWhile isSpace = trimSpace s ++ q.reverse := by
    have := congrArg List.reverse hq
    rw [List.reverse_reverse, List.reverse_append] at this
    exact this
  have hmem : ∀ c ∈ q.reverse, c ∈ s := by
    intro c hc
    rw [hp]
    apply List.mem_append_right
    rw [hq2]
    exact List.mem_append_right _ hc
  have hq' := hrep (q := q.reverse) (fun c hc => hsq c (by simpa using hc)) hmem
  rw [← h1, hq2, hq', words_append_spaces]

theorem lines_unlines {l : List (List Char)} (h : ∀ t ∈ l, '\n' ∉ t ∧ t.getLast? ≠ some '\r') :
    lines (l.flatMap (· ++ ['\n'])) = l := by
  have hs : splitC '\n' (l.flatMap (· ++ ['\n'])) = l ++ [[]] := by
    induction l with
    | nil => rfl
    | cons t ts ih =>
      rw [List.flatMap_cons, List.append_assoc, List.singleton_append, splitC_append (h t (by simp)).1,
        ih (fun u hu => h u (by simp [hu])), List.cons_append]
  simp only [lines, hs, List.getLast?_append, List.getLast?_singleton, Option.some_or, if_true,
    List.dropLast_concat]
  conv_rhs => rw [← List.map_id l]
  apply List.map_congr_left
  intro t ht
  simp [dropCR, (h t ht).2]

end Verif.Text
