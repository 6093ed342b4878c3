import Mathlib.Data.List.Basic

/-!
# C++ template names (`groot/rmeta`)

Type names are lists of characters. A Go panic is `none`.
-/

namespace Verif.Rdict

/-- White space of `strings.TrimSpace` (the white space of Latin-1; the rest of
Unicode is left out), used in groot/rmeta/rmeta.go:25-32 (`CxxTemplateFrom`). -/
def isSpace (c : Char) : Bool :=
  c == ' ' || c == '\t' || c == '\n' || c == '\x0b' || c == '\x0c' || c == '\r' ||
  c == '\u0085' || c == ' '

/-- `strings.TrimSpace`, see groot/rmeta/rmeta.go:25-32 (`CxxTemplateFrom`). -/
def trim (s : List Char) : List Char :=
  ((s.dropWhile isSpace).reverse.dropWhile isSpace).reverse

/-- The loop groot/rmeta/rmeta.go:55-82 (`tmpl`, `bldr`): `t` is the nesting
level, `b` the text since the last separator. -/
def splitArgs : List Char → Int → List Char → List (List Char) → Option (List (List Char))
  | [], _, b, acc => if trim b = [] then none else some (acc ++ [trim b])
  | c :: cs, t, b, acc =>
    if c = '<' then splitArgs cs (t + 1) (b ++ [c]) acc
    else if c = '>' then splitArgs cs (t - 1) (b ++ [c]) acc
    else if c = ',' then
      if t > 0 then splitArgs cs t (b ++ [c]) acc
      else if trim b = [] then none
      else splitArgs cs t [] (acc ++ [trim b])
    else splitArgs cs t (b ++ [c]) acc

/-- groot/rmeta/rmeta.go:25-85 (`CxxTemplateFrom`): the name of the template and
its arguments. -/
def cxxTemplateFrom (typename : List Char) : Option (List Char × List (List Char)) :=
  let name := trim typename
  if '<' ∉ name then none
  else if name.getLast? ≠ some '>' then none
  else
    let head := name.takeWhile (· != '<')
    let rest := trim ((name.drop (head.length + 1)).dropLast)
    if ',' ∉ rest then some (head, if rest = [] then [] else [rest])
    else (splitArgs rest 0 [] []).map (fun args => (head, args))

/-! ## Specification -/

/-- A C++ type: a plain name, or a template with at least one argument. -/
inductive CType where
  | name (s : List Char)
  | tmpl (s : List Char) (first : CType) (more : List CType)

/-- `a,b,c` -/
def commas : List (List Char) → List Char
  | [] => []
  | [x] => x
  | x :: y :: r => x ++ ',' :: commas (y :: r)

/-- A space keeps two closing brackets apart. -/
def gap (s : List Char) : List Char := if s.getLast? = some '>' then [' '] else []

mutual
/-- How a C++ type is written. -/
def CType.text : CType → List Char
  | .name s => s
  | .tmpl s a as =>
    let args := commas (a.text :: CType.texts as)
    s ++ '<' :: args ++ gap args ++ ['>']
def CType.texts : List CType → List (List Char)
  | [] => []
  | a :: as => a.text :: CType.texts as
end

/-- A word that may be used as a name: not empty, without brackets and commas,
without white space at its ends (but possibly inside, as in `unsigned int`). -/
def Word (s : List Char) : Prop :=
  s ≠ [] ∧ '<' ∉ s ∧ '>' ∉ s ∧ ',' ∉ s ∧
  (∀ c ∈ s.head?, isSpace c = false) ∧ (∀ c ∈ s.getLast?, isSpace c = false)

mutual
/-- Every name in the type is a word. -/
def CType.Ok : CType → Prop
  | .name s => Word s
  | .tmpl s a as => Word s ∧ a.Ok ∧ CType.Oks as
def CType.Oks : List CType → Prop
  | [] => True
  | a :: as => a.Ok ∧ CType.Oks as
end

/-! ## Lemmas -/

/-- Not empty and without white space at the ends. -/
def Tight (s : List Char) : Prop :=
  s ≠ [] ∧ (∀ c ∈ s.head?, isSpace c = false) ∧ (∀ c ∈ s.getLast?, isSpace c = false)

theorem dropWhile_of_head {s : List Char} (h : ∀ c ∈ s.head?, isSpace c = false) :
    s.dropWhile isSpace = s := by
  cases s with
  | nil => rfl
  | cons c cs => simp [List.dropWhile, h c (by simp)]

theorem trim_tight {s : List Char} (h : Tight s) : trim s = s := by
  rw [trim, dropWhile_of_head h.2.1, dropWhile_of_head (by simpa using h.2.2), List.reverse_reverse]

theorem trim_tight_gap {s g : List Char} (h : Tight s) (hg : ∀ c ∈ g, isSpace c = true) :
    trim (s ++ g) = s := by
  obtain ⟨h1, h2, h3⟩ := h
  have hh : ∀ c ∈ (s ++ g).head?, isSpace c = false := by
    cases s with
    | nil => exact absurd rfl h1
    | cons c cs => simpa using h2
  rw [trim, dropWhile_of_head hh, List.reverse_append, List.dropWhile_append_of_pos (by simpa using hg),
    dropWhile_of_head (by simpa using h3), List.reverse_reverse]

theorem gap_space (s : List Char) : ∀ c ∈ gap s, isSpace c = true := by
  intro c hc
  simp only [gap] at hc
  split at hc
  · simp at hc; subst hc; decide
  · simp at hc

theorem Word.tight {s : List Char} (h : Word s) : Tight s := ⟨h.1, h.2.2.2.2.1, h.2.2.2.2.2⟩

theorem Tight.append {a b : List Char} (ha : Tight a) (hb : Tight b) (m : List Char) : Tight (a ++ m ++ b) := by
  obtain ⟨a1, a2, a3⟩ := ha
  obtain ⟨b1, b2, b3⟩ := hb
  refine ⟨by simp [a1], ?_, ?_⟩
  · cases a with
    | nil => exact absurd rfl a1
    | cons c cs => simpa using a2
  · intro c hc
    rw [List.getLast?_append_of_ne_nil _ b1] at hc
    exact b3 c hc

mutual
theorem text_tight : ∀ t : CType, t.Ok → Tight t.text
  | .name _, h => Word.tight h
  | .tmpl s a as, h => by
    have h1 : Tight s := Word.tight h.1
    have h2 : Tight ['>'] := ⟨by simp, by simp; decide, by simp; decide⟩
    have := h1.append h2 ('<' :: commas (a.text :: CType.texts as) ++ gap (commas (a.text :: CType.texts as)))
    simpa [CType.text] using this
theorem texts_tight : ∀ ts : List CType, CType.Oks ts → ∀ s ∈ CType.texts ts, Tight s
  | [], _ => by simp [CType.texts]
  | t :: ts, h => by
    intro s hs
    simp only [CType.texts, List.mem_cons] at hs
    rcases hs with rfl | hs
    · exact text_tight t h.1
    · exact texts_tight ts h.2 s hs
end

theorem commas_tight : ∀ (x : List Char) (xs : List (List Char)), Tight x → (∀ s ∈ xs, Tight s) →
    Tight (commas (x :: xs))
  | x, [], h, _ => h
  | x, y :: r, h, h' => by
    have := commas_tight y r (h' y (by simp)) (fun s hs => h' s (by simp [hs]))
    simpa [commas] using h.append this [',']

/-- Scanning a text that leaves the level as it was and has no commas at level 0. -/
def Passes (p : List Char) (lo : Int) : Prop :=
  ∀ t, lo ≤ t → ∀ rest b acc, splitArgs (p ++ rest) t b acc = splitArgs rest t (b ++ p) acc

theorem Passes.append {p q : List Char} {lo : Int} (hp : Passes p lo) (hq : Passes q lo) :
    Passes (p ++ q) lo := by
  intro t ht rest b acc
  rw [List.append_assoc, hp t ht, hq t ht, List.append_assoc]

theorem passes_plain : ∀ (s : List Char) (lo : Int), '<' ∉ s → '>' ∉ s → ',' ∉ s → Passes s lo
  | [], _, _, _, _ => by intro t _ rest b acc; simp
  | c :: cs, lo, h1, h2, h3 => by
    intro t ht rest b acc
    have hc1 : ¬ c = '<' := fun e => h1 (by simp [e])
    have hc2 : ¬ c = '>' := fun e => h2 (by simp [e])
    have hc3 : ¬ c = ',' := fun e => h3 (by simp [e])
    have ih := passes_plain cs lo (fun h => h1 (by simp [h])) (fun h => h2 (by simp [h]))
      (fun h => h3 (by simp [h])) t ht rest (b ++ [c]) acc
    simp only [List.cons_append, splitArgs, if_neg hc1, if_neg hc2, if_neg hc3]
    rw [ih]; simp

theorem passes_comma : Passes [','] 1 := by
  intro t ht rest b acc
  have : t > 0 := by omega
  simp [splitArgs, this]

theorem passes_gap (s : List Char) (lo : Int) : Passes (gap s) lo := by
  apply passes_plain <;> (simp only [gap]; split <;> simp)

theorem passes_brackets {p : List Char} {lo : Int} (h : Passes p (lo + 1)) :
    Passes ('<' :: p ++ ['>']) lo := by
  intro t ht rest b acc
  have := h (t + 1) (by omega) ('>' :: rest) (b ++ ['<']) acc
  simp only [List.cons_append, List.append_assoc, List.nil_append, splitArgs, if_true]
  rw [this]
  simp [splitArgs]

theorem passes_commas {lo : Int} (hlo : 1 ≤ lo) : ∀ (xs : List (List Char)), (∀ s ∈ xs, Passes s lo) →
    Passes (commas xs) lo
  | [], _ => by intro t _ rest b acc; simp [commas]
  | [x], h => h x (by simp)
  | x :: y :: r, h => by
    have hc : Passes [','] lo := fun t ht => passes_comma t (by omega)
    have := (h x (by simp)).append (hc.append (passes_commas hlo (y :: r) (fun s hs => h s (by simp [List.mem_cons.mp hs]))))
    simpa [commas] using this

mutual
theorem text_passes : ∀ (t : CType) (lo : Int), 0 ≤ lo → t.Ok → Passes t.text lo
  | .name s, lo, _, h => passes_plain s lo h.2.1 h.2.2.1 h.2.2.2.1
  | .tmpl s a as, lo, hlo, h => by
    have h1 : Passes s lo := passes_plain s lo h.1.2.1 h.1.2.2.1 h.1.2.2.2.1
    have h2 : Passes (commas (a.text :: CType.texts as)) (lo + 1) := by
      apply passes_commas (by omega)
      intro q hq
      rcases List.mem_cons.mp hq with rfl | hq
      · exact text_passes a (lo + 1) (by omega) h.2.1
      · exact texts_passes as (lo + 1) (by omega) h.2.2 q hq
    have := h1.append (passes_brackets (h2.append (passes_gap (commas (a.text :: CType.texts as)) (lo + 1))))
    simpa [CType.text] using this
theorem texts_passes : ∀ (ts : List CType) (lo : Int), 0 ≤ lo → CType.Oks ts → ∀ s ∈ CType.texts ts, Passes s lo
  | [], _, _, _ => by simp [CType.texts]
  | t :: ts, lo, hlo, h => by
    intro s hs
    simp only [CType.texts, List.mem_cons] at hs
    rcases hs with rfl | hs
    · exact text_passes t lo hlo h.1
    · exact texts_passes ts lo hlo h.2 s hs
end

/-- The loop applied to a list of arguments. -/
theorem splitArgs_commas : ∀ (x : List Char) (xs acc : List (List Char)),
    (∀ s ∈ x :: xs, Tight s ∧ Passes s 0) →
    splitArgs (commas (x :: xs)) 0 [] acc = some (acc ++ x :: xs)
  | x, [], acc, h => by
    obtain ⟨ht, hp⟩ := h x (by simp)
    have := hp 0 (by omega) [] [] acc
    simp only [List.append_nil, List.nil_append] at this
    rw [commas, this, splitArgs, trim_tight ht, if_neg ht.1]
  | x, y :: r, acc, h => by
    obtain ⟨ht, hp⟩ := h x (by simp)
    have := hp 0 (by omega) (',' :: commas (y :: r)) [] acc
    have ih := splitArgs_commas y r (acc ++ [x]) (fun s hs => h s (by simp [List.mem_cons.mp hs]))
    rw [commas, this]
    simp only [List.nil_append, splitArgs]
    rw [if_neg (by decide), if_neg (by decide), if_pos trivial, if_neg (by decide), trim_tight ht,
      if_neg ht.1, ih]
    simp

theorem mem_commas {xs : List (List Char)} {c : Char} : c ∈ commas xs → (∃ s ∈ xs, c ∈ s) ∨ c = ',' := by
  induction xs with
  | nil => simp [commas]
  | cons x r ih =>
    cases r with
    | nil => intro h; exact .inl ⟨x, by simp, h⟩
    | cons y r =>
      intro h
      simp only [commas, List.mem_append, List.mem_cons] at h
      rcases h with h | h | h
      · exact .inl ⟨x, by simp, h⟩
      · exact .inr h
      · rcases ih h with ⟨s, hs, hc⟩ | h
        · exact .inl ⟨s, by simp [List.mem_cons.mp hs], hc⟩
        · exact .inr h

theorem comma_mem_commas {x y : List Char} {r : List (List Char)} : ',' ∈ commas (x :: y :: r) := by
  simp [commas]

/-- **C96**: taking a C++ template name apart gives the name of the template and
its arguments, as they are written, whatever templates are nested in them. -/
theorem C96_template_arguments (s : List Char) (a : CType) (as : List CType)
    (h : (CType.tmpl s a as).Ok) :
    cxxTemplateFrom (CType.tmpl s a as).text = some (s, a.text :: CType.texts as) := by
  have ht := text_tight _ h
  have ha : ∀ q ∈ a.text :: CType.texts as, Tight q ∧ Passes q 0 := by
    intro q hq
    rcases List.mem_cons.mp hq with rfl | hq
    · exact ⟨text_tight a h.2.1, text_passes a 0 (by omega) h.2.1⟩
    · exact ⟨texts_tight as h.2.2 q hq, texts_passes as 0 (by omega) h.2.2 q hq⟩
  generalize hargs : commas (a.text :: CType.texts as) = args at *
  have hat : Tight args := by
    rw [← hargs]
    exact commas_tight _ _ (ha _ (by simp)).1 (fun q hq => (ha q (by simp [hq])).1)
  have hx : (CType.tmpl s a as).text = s ++ '<' :: (args ++ gap args ++ ['>']) := by
    simp [CType.text, hargs]
  have hs : s.takeWhile (· != '<') = s := by
    have : ∀ (l : List Char), '<' ∉ l → l.takeWhile (· != '<') = l := by
      intro l
      induction l with
      | nil => simp
      | cons c cs ih =>
        intro hl
        have hc : ¬ c = '<' := fun e => hl (by simp [e])
        simp [hc, ih (fun e => hl (by simp [e]))]
    exact this s h.1.2.1
  have htw : (s ++ '<' :: (args ++ gap args ++ ['>'])).takeWhile (· != '<') = s := by
    rw [List.takeWhile_append, hs]
    simp
  simp only [cxxTemplateFrom, trim_tight ht]
  rw [hx, if_neg (by simp), if_neg (by
    rw [List.getLast?_append_of_ne_nil _ (by simp)]
    rw [← List.cons_append, List.getLast?_append_of_ne_nil _ (by simp)]
    simp)]
  rw [htw]
  have hd : ((s ++ '<' :: (args ++ gap args ++ ['>'])).drop (s.length + 1)).dropLast = args ++ gap args := by
    rw [show s ++ '<' :: (args ++ gap args ++ ['>']) = (s ++ ['<']) ++ (args ++ gap args ++ ['>']) by simp]
    rw [List.drop_left' (by simp)]
    simp
  rw [hd, trim_tight_gap hat (gap_space args)]
  cases as with
  | nil =>
    simp only [CType.texts, commas] at hargs
    subst hargs
    by_cases hc : ',' ∈ a.text
    · rw [if_neg (by simpa using hc)]
      have := splitArgs_commas a.text [] [] (by simpa [CType.texts] using ha)
      simp only [commas] at this
      rw [this]; simp [CType.texts]
    · rw [if_pos hc, if_neg hat.1]; simp [CType.texts]
  | cons b bs =>
    have hc : ',' ∈ args := by rw [← hargs, CType.texts]; exact comma_mem_commas
    rw [if_neg (by simpa using hc)]
    have := splitArgs_commas a.text (CType.texts (b :: bs)) [] (by simpa using ha)
    rw [hargs] at this
    rw [this]; simp

/-- `map<string,vector<pair<int,unsigned long> > >` is such a name. -/
def exType : CType :=
  .tmpl "map".toList (.name "string".toList)
    [.tmpl "vector".toList (.tmpl "pair".toList (.name "int".toList) [.name "unsigned long".toList]) []]

example : exType.text = "map<string,vector<pair<int,unsigned long> > >".toList ∧ exType.Ok ∧
    cxxTemplateFrom exType.text = some ("map".toList,
      ["string".toList, "vector<pair<int,unsigned long> >".toList]) := by
  refine ⟨by decide +kernel, ?_, by decide +kernel⟩
  simp [exType, CType.Ok, CType.Oks, Word, isSpace]

end Verif.Rdict
