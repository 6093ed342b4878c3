import Verif.RTree.Struct
import Mathlib.Data.List.Nodup

/-!
# C153: The variables of a struct, for writing and for reading
-/

namespace Verif.RTree.Struct

open Verif.Strconv

/-! ## Specification -/

/-- The name a field goes by: its tag, or its own name if it has none. -/
def called (f : SField) : List Char := if f.tag = none ∨ f.tag = some [] then f.name else f.tag.getD []

/-- A name with dimensions in brackets. -/
def bracketed (n : List Char) (ds : List (List Char)) : List Char :=
  n ++ (ds.map fun d => '[' :: (d ++ [']'])).flatten

/-- Letters, digits and underscores. -/
def Word (s : List Char) : Prop := ∀ c ∈ s, c.isAlphanum = true ∨ c = '_'

/-- The numbers of the exported fields. -/
def exportedFields (exported : List Char → Bool) (fs : List SField) : List Nat :=
  (List.range fs.length).filter fun i => (fs[i]?).any fun f => exported f.name

/-! ## Splitting names -/

theorem isWord_iff (c : Char) : isWord c = true ↔ c.isAlphanum = true ∨ c = '_' := by
  simp [isWord]

theorem not_word_open : isWord '[' = false := by decide
theorem not_word_close : isWord ']' = false := by decide

theorem dims_plain : ∀ (n s : List Char), '[' ∉ n → dimsFrom none (n ++ s) = dimsFrom none s
  | [], _, _ => rfl
  | c :: cs, s, h => by
    simp only [List.mem_cons, not_or] at h
    rw [List.cons_append, dimsFrom, if_neg (fun e => h.1 e.symm), dims_plain cs s h.2]

theorem dims_word : ∀ (w acc s : List Char), Word w →
    dimsFrom (some acc) (w ++ ']' :: s) = (acc ++ w) :: dimsFrom none s
  | [], acc, s, _ => by simp [dimsFrom]
  | c :: cs, acc, s, h => by
    have hc : isWord c = true := (isWord_iff c).mpr (h c (by simp))
    have h1 : c ≠ '[' := by
      rintro rfl
      rw [not_word_open] at hc
      cases hc
    have h2 : c ≠ ']' := by
      rintro rfl
      rw [not_word_close] at hc
      cases hc
    rw [List.cons_append, dimsFrom, if_neg h1, if_neg h2, if_pos hc,
      dims_word cs (acc ++ [c]) s fun d hd => h d (by simp [hd])]
    simp

theorem dims_brackets : ∀ (ds : List (List Char)), (∀ d ∈ ds, Word d) →
    dimsFrom none (ds.map fun d => '[' :: (d ++ [']'])).flatten = ds
  | [], _ => rfl
  | d :: ds, h => by
    simp only [List.map_cons, List.flatten_cons, List.cons_append, List.append_assoc, List.nil_append]
    rw [dimsFrom, if_pos rfl, dims_word d [] _ (h d (by simp)),
      dims_brackets ds fun e he => h e (by simp [he])]
    rfl

/-- A name and its dimensions are taken apart. -/
theorem splitDims_bracketed (n : List Char) (ds : List (List Char)) (hn : n ≠ []) (hb : '[' ∉ n)
    (hd : ∀ d ∈ ds, Word d) : splitDims (bracketed n ds) = (n, ds) := by
  have h1 : (bracketed n ds).head? ≠ some '[' := by
    cases n with
    | nil => exact absurd rfl hn
    | cons c cs =>
      simp only [List.mem_cons, not_or] at hb
      simpa [bracketed] using fun e => hb.1 e.symm
  have h2 : (bracketed n ds).takeWhile (· ≠ '[') = n := by
    rw [bracketed, List.takeWhile_append_of_pos]
    · cases ds with
      | nil => simp
      | cons d ds => simp
    · intro c hc
      simp only [decide_eq_true_eq, ne_eq]
      rintro rfl
      exact hb hc
  rw [splitDims, if_neg h1, h2]
  congr 1
  rw [bracketed, dims_plain _ _ hb, dims_brackets ds hd]

theorem contains_bracketed (n : List Char) (ds : List (List Char)) (hb : '[' ∉ n) :
    (bracketed n ds).contains '[' = !ds.isEmpty := by
  cases ds with
  | nil => simpa [bracketed] using hb
  | cons d ds => simp [bracketed]

theorem word_format (n : Nat) : Word (formatUint n) := fun c hc =>
  Or.inl (by
    have := format_digits hc
    simp [Char.isAlphanum, this])

theorem withDims_eq (n : List Char) (dims : List Nat) :
    withDims n dims = bracketed n (dims.map formatUint) := by
  simp [withDims, bracketed, List.flatMap, List.map_map, Function.comp_def]

theorem writeName_eq (f : SField) : writeName f = called f := by
  simp only [writeName, called]
  rcases h : f.tag with _ | ⟨_ | ⟨c, cs⟩⟩ <;> simp

/-! ## Which fields, and under which names -/

/-- The fields that cannot be written: of a kind that has no leaf; named with brackets but neither a
slice nor an array; a slice with other than one dimension, an array with more than three. -/
def Refused (f : SField) : Prop :=
  ('[' ∉ called f ∧ f.kind = .refused) ∨
  ('[' ∈ called f ∧ (f.kind = .refused ∨ f.kind = .other ∨
    (f.kind = .slice ∧ (splitDims (called f)).2.length ≠ 1) ∨
    (∃ dims, f.kind = .array dims ∧ 3 < (splitDims (called f)).2.length)))

theorem nameCount_none (f : SField) : nameCount (called f) f.kind = none ↔ Refused f := by
  simp only [nameCount, Refused]
  by_cases h : '[' ∈ called f
  · rw [if_pos (by simpa using h)]
    cases hk : f.kind with
    | slice =>
      rcases hs : splitDims (called f) with ⟨n, _ | ⟨d, _ | ⟨e, ds⟩⟩⟩ <;> simp [h]
    | array dims =>
      by_cases hl : 3 < (splitDims (called f)).2.length <;> simp [h, hl]
    | refused => simp [h]
    | other => simp [h]
  · rw [if_neg (by simpa using h)]
    cases hk : f.kind <;> simp [h]

theorem writeFrom_none (exported : List Char → Bool) : ∀ (fs : List SField) (i : Nat),
    writeFrom exported i fs = none ↔ ∃ f ∈ fs, exported f.name = true ∧ Refused f
  | [], i => by simp [writeFrom]
  | f :: fs, i => by
    have ih := writeFrom_none exported fs (i + 1)
    simp only [writeFrom, writeName_eq]
    by_cases he : exported f.name = true
    · rw [if_pos he]
      rcases hn : nameCount (called f) f.kind with _ | ⟨n, c⟩
      · simp only [true_iff]
        exact ⟨f, by simp, he, (nameCount_none f).mp hn⟩
      · have hr : ¬ Refused f := fun h => by
          rw [(nameCount_none f).mpr h] at hn
          cases hn
        rcases hw : writeFrom exported (i + 1) fs with _ | vs
        · obtain ⟨g, hg, h1, h2⟩ := ih.mp hw
          simp only [true_iff]
          exact ⟨g, by simp [hg], h1, h2⟩
        · simp only [reduceCtorEq, false_iff]
          rintro ⟨g, hg, h1, h2⟩
          rcases List.mem_cons.mp hg with rfl | hg
          · exact hr h2
          · rw [ih.mpr ⟨g, hg, h1, h2⟩] at hw
            cases hw
    · rw [if_neg he, ih]
      constructor
      · rintro ⟨g, hg, h1, h2⟩
        exact ⟨g, by simp [hg], h1, h2⟩
      · rintro ⟨g, hg, h1, h2⟩
        rcases List.mem_cons.mp hg with rfl | hg
        · exact absurd h1 he
        · exact ⟨g, hg, h1, h2⟩

theorem writeFrom_some (exported : List Char → Bool) : ∀ (fs : List SField) (i : Nat) (ws : List SVar),
    writeFrom exported i fs = some ws →
      ws.map SVar.field = (exportedFields exported fs).map (i + ·) ∧
      ∀ v ∈ ws, ∃ f, fs[v.field - i]? = some f ∧ i ≤ v.field ∧
        nameCount (called f) f.kind = some (v.name, v.count)
  | [], i, ws, h => by
    simp only [writeFrom, Option.some.injEq] at h
    subst h
    simp [exportedFields]
  | f :: fs, i, ws, h => by
    have hex : exportedFields exported (f :: fs) =
        (if exported f.name then [0] else []) ++ (exportedFields exported fs).map (· + 1) := by
      simp only [exportedFields, List.length_cons, List.range_succ_eq_map, List.filter_cons,
        List.getElem?_cons_zero, Option.any_some, List.filter_map]
      split_ifs <;> simp [Function.comp_def]
    simp only [writeFrom, writeName_eq] at h
    by_cases he : exported f.name = true
    · rw [if_pos he] at h
      rcases hn : nameCount (called f) f.kind with _ | ⟨n, c⟩
      · simp [hn] at h
      · rcases hw : writeFrom exported (i + 1) fs with _ | vs
        · simp [hn, hw] at h
        · simp only [hn, hw, Option.some.injEq] at h
          subst h
          obtain ⟨h1, h2⟩ := writeFrom_some exported fs (i + 1) vs hw
          constructor
          · rw [hex, if_pos he, List.map_cons, h1]
            simp [Nat.add_comm, Nat.add_left_comm]
          · intro v hv
            rcases List.mem_cons.mp hv with rfl | hv
            · exact ⟨f, by simp, by simp, by simpa using hn⟩
            · obtain ⟨g, hg, h3, h4⟩ := h2 v hv
              refine ⟨g, ?_, by omega, h4⟩
              have e : v.field - i = (v.field - (i + 1)) + 1 := by omega
              rw [e, List.getElem?_cons_succ, hg]
    · rw [if_neg he] at h
      obtain ⟨h1, h2⟩ := writeFrom_some exported fs (i + 1) ws h
      constructor
      · rw [hex, if_neg he, h1]
        simp [Nat.add_comm, Nat.add_left_comm]
      · intro v hv
        obtain ⟨g, hg, h3, h4⟩ := h2 v hv
        refine ⟨g, ?_, by omega, h4⟩
        have e : v.field - i = (v.field - (i + 1)) + 1 := by omega
        rw [e, List.getElem?_cons_succ, hg]

/-- **C153, writing.**  The variables are those of the exported fields, in their order, each pointing
to its field.  A variable has the name its field goes by; if that is a name with dimensions, the name
without these, and for a slice the dimension is the name of the count.  If a field cannot be
written, and only then, there is a panic. -/
theorem C153_write (exported : List Char → Bool) (fs : List SField) :
    (writeVars exported fs = none ↔ ∃ f ∈ fs, exported f.name = true ∧ Refused f) ∧
    ∀ ws, writeVars exported fs = some ws →
      ws.map SVar.field = exportedFields exported fs ∧
      ∀ v ∈ ws, ∃ f, fs[v.field]? = some f ∧
        ('[' ∉ called f → v.name = called f ∧ v.count = []) ∧
        ∀ (n : List Char) (d : List Char) (ds : List (List Char)), n ≠ [] → '[' ∉ n →
          (∀ x ∈ d :: ds, Word x) → called f = bracketed n (d :: ds) →
          v.name = n ∧ (f.kind = .slice → ds = [] ∧ v.count = d) ∧ (f.kind ≠ .slice → v.count = []) := by
  refine ⟨writeFrom_none exported fs 0, ?_⟩
  intro ws h
  obtain ⟨h1, h2⟩ := writeFrom_some exported fs 0 ws h
  refine ⟨by simpa using h1, ?_⟩
  intro v hv
  obtain ⟨f, hf, _, hn⟩ := h2 v hv
  refine ⟨f, by simpa using hf, ?_, ?_⟩
  · intro hb
    simp only [nameCount] at hn
    rw [if_neg (by simpa using hb)] at hn
    cases hk : f.kind <;> simp [hk] at hn <;> exact ⟨hn.1.symm, hn.2⟩
  · intro n d ds hne hb hw hc
    simp only [nameCount] at hn
    rw [if_pos (by rw [hc, contains_bracketed _ _ hb]; rfl)] at hn
    have hs := splitDims_bracketed n (d :: ds) hne hb hw
    rw [hc, hs] at hn
    cases hk : f.kind with
    | slice =>
      cases ds with
      | nil =>
        simp [hk] at hn
        exact ⟨hn.1.symm, fun _ => ⟨rfl, hn.2.symm⟩, fun h => absurd rfl h⟩
      | cons e es => simp [hk] at hn
    | array dims =>
      simp [hk] at hn
      exact ⟨hn.2.1.symm, by simp, fun _ => hn.2.2⟩
    | refused => simp [hk] at hn
    | other => simp [hk] at hn

/-! ## Writing and reading -/

/-- Tags that writer and reader understand alike: not empty; for arrays no more than three dimensions
if the tag has none, and with as many elements in the tag as in the type if it has. -/
def TagOK (f : SField) : Prop :=
  f.tag ≠ some [] ∧
  ∀ dims tag, f.kind = .array dims → f.tag = some tag →
    ('[' ∉ tag ∧ dims.length ≤ 3) ∨
    ∃ (n : List Char) (ds : List Nat), n ≠ [] ∧ '[' ∉ n ∧ ds ≠ [] ∧ (∀ d ∈ ds, d < 2 ^ 63) ∧
      tag = bracketed n (ds.map formatUint) ∧ ds.prod = dims.prod

theorem tagProd_format : ∀ (ds : List Nat), (∀ d ∈ ds, d < 2 ^ 63) →
    tagProd (ds.map formatUint) = some (ds.prod : Int)
  | [], _ => rfl
  | d :: ds, h => by
    have hd := h d (by simp)
    have hp : parseInt 64 (formatUint d) = some (d : Int) := by
      have := parseInt_format (bits := 64) (i := (d : Int)) (by omega) (by
        simp only [Nat.reduceSub]
        exact_mod_cast hd)
      simpa [formatInt] using this
    simp only [List.map_cons, tagProd, hp, tagProd_format ds fun e he => h e (by simp [he])]
    simp

theorem prod_cast (ds : List Nat) : (ds.map Int.ofNat).prod = (ds.prod : Int) := by
  induction ds with
  | nil => rfl
  | cons d ds ih => simp [List.prod_cons, ih]

theorem field_agrees (f : SField) (h : TagOK f) (n c : List Char)
    (hw : nameCount (called f) f.kind = some (n, c)) :
    consistent f = true ∧ nameCount (readName f) f.kind = some (n, c) := by
  obtain ⟨ht, ha⟩ := h
  rcases htag : f.tag with _ | tag
  · have hc : called f = f.name := by simp [called, htag]
    simp only [consistent, readName, htag, true_and]
    rw [← hc]
    exact hw
  · have hne : tag ≠ [] := fun e => ht (by rw [htag, e])
    have hc : called f = tag := by simp [called, htag, hne]
    rw [hc] at hw
    cases hk : f.kind with
    | array dims =>
      rw [hk] at hw
      simp only [consistent, readName, htag, hk]
      rcases ha dims tag hk htag with ⟨hb, hl⟩ | ⟨m, ds, h1, h2, h3, h4, h5, h6⟩
      · have hb' : tag.contains '[' = false := by simpa using hb
        rw [hb']
        refine ⟨rfl, ?_⟩
        simp only [nameCount, hb'] at hw
        simp only [Bool.false_eq_true, if_false, Option.some.injEq, Prod.mk.injEq] at hw
        obtain ⟨rfl, rfl⟩ := hw
        simp only [Bool.false_eq_true, if_false, withDims_eq]
        simp only [nameCount]
        rw [contains_bracketed _ _ hb]
        have hs := splitDims_bracketed tag (dims.map formatUint) hne hb (by
          intro d hd
          obtain ⟨k, _, rfl⟩ := List.mem_map.mp hd
          exact word_format k)
        cases dims with
        | nil => simp [bracketed]
        | cons d ds =>
          rw [hs]
          simp only [List.map_cons, List.isEmpty_cons, Bool.not_false, if_true]
          rw [if_neg (by simpa using hl)]
      · have hs := splitDims_bracketed m (ds.map formatUint) h1 h2 (by
          intro d hd
          obtain ⟨k, _, rfl⟩ := List.mem_map.mp hd
          exact word_format k)
        have hb' : tag.contains '[' = true := by
          rw [h5, contains_bracketed _ _ h2]
          cases ds with
          | nil => exact absurd rfl h3
          | cons d ds => rfl
        rw [hb']
        refine ⟨?_, by simpa using hw⟩
        rw [h5, hs, tagProd_format ds h4, prod_cast, h6]
        simp
    | slice =>
      simp only [consistent, readName, htag, hk, true_and]
      rw [← hk]
      exact hw
    | refused =>
      simp only [consistent, readName, htag, hk, true_and]
      rw [← hk]
      exact hw
    | other =>
      simp only [consistent, readName, htag, hk, true_and]
      rw [← hk]
      exact hw

theorem from_agrees (exported : List Char → Bool) : ∀ (fs : List SField) (i : Nat) (ws : List SVar),
    (∀ f ∈ fs, exported f.name = true → TagOK f) → writeFrom exported i fs = some ws →
      readFrom exported i fs = some (ws.map fun v => { v with leaf := v.name })
  | [], i, ws, _, h => by
    simp only [writeFrom, Option.some.injEq] at h
    subst h
    rfl
  | f :: fs, i, ws, hok, h => by
    have hok' := fun g hg => hok g (List.mem_cons_of_mem f hg)
    simp only [writeFrom, writeName_eq] at h
    simp only [readFrom]
    by_cases he : exported f.name = true
    · rw [if_pos he] at h ⊢
      rcases hn : nameCount (called f) f.kind with _ | ⟨n, c⟩
      · simp [hn] at h
      · rcases hw : writeFrom exported (i + 1) fs with _ | vs
        · simp [hn, hw] at h
        · simp only [hn, hw, Option.some.injEq] at h
          subst h
          obtain ⟨h1, h2⟩ := field_agrees f (hok f (by simp) he) n c hn
          rw [if_pos h1, h2, from_agrees exported fs (i + 1) vs hok' hw]
          rfl
    · rw [if_neg he] at h ⊢
      exact from_agrees exported fs (i + 1) ws hok' h

/-- **C153 (part).**  What a struct is written as is what it is read from: for tags that both sides
understand alike, a struct that can be written can be read, and the variables for reading have the
names, the counts and the fields of those for writing, and leaves of the same names. -/
theorem C153_agree_partial (exported : List Char → Bool) (fs : List SField)
    (hok : ∀ f ∈ fs, exported f.name = true → TagOK f) (ws : List SVar)
    (h : writeVars exported fs = some ws) :
    ∃ rs, readVars exported fs = some rs ∧
      rs.map (fun v => (v.name, v.count, v.field)) = ws.map (fun v => (v.name, v.count, v.field)) ∧
      ∀ v ∈ rs, v.leaf = v.name := by
  refine ⟨_, from_agrees exported fs 0 ws hok h, ?_, ?_⟩
  · simp [List.map_map, Function.comp_def]
  · intro v hv
    obtain ⟨w, _, rfl⟩ := List.mem_map.mp hv
    rfl

/-- **C153, empty tags.**  A field with an empty tag is written under its own name, and read from a
branch without name. -/
theorem C153_empty_tag_counterexample (exported : List Char → Bool) (name : List Char)
    (he : exported name = true) (hb : '[' ∉ name) :
    writeVars exported [⟨name, some [], .other⟩] = some [⟨name, [], [], 0⟩] ∧
    readVars exported [⟨name, some [], .other⟩] = some [⟨[], [], [], 0⟩] := by
  simp [writeVars, writeFrom, writeName, nameCount, readVars, readFrom, readName, consistent, he, hb]

/-- **C153, arrays.**  An array of four or more dimensions with a tag that has none is written, but
reading it panics. -/
theorem C153_dimensions_counterexample (exported : List Char → Bool) (name tag : List Char)
    (dims : List Nat) (he : exported name = true) (ht : tag ≠ []) (hb : '[' ∉ tag) (hd : 3 < dims.length) :
    (writeVars exported [⟨name, some tag, .array dims⟩]).isSome = true ∧
    readVars exported [⟨name, some tag, .array dims⟩] = none := by
  constructor
  · cases tag with
    | nil => exact absurd rfl ht
    | cons c cs =>
      have hb' : (c :: cs).contains '[' = false := by simpa using hb
      simp only [writeVars, writeFrom, writeName, nameCount, he, hb']
      rfl
  · have hb' : tag.contains '[' = false := by simpa using hb
    have hs := splitDims_bracketed tag (dims.map formatUint) ht hb (by
      intro d hd
      obtain ⟨k, _, rfl⟩ := List.mem_map.mp hd
      exact word_format k)
    have hcb : (bracketed tag (dims.map formatUint)).contains '[' = true := by
      rw [contains_bracketed _ _ hb]
      cases dims with
      | nil => simp at hd
      | cons d ds => rfl
    simp only [readVars, readFrom, readName, consistent, he, hb', withDims_eq, nameCount, hs,
      if_true, Bool.not_false, Bool.true_or, Bool.false_eq_true, if_false]
    rw [if_pos hcb, if_pos (by simpa using hd)]

/-! ## Variables of a tree -/

/-- **C153, trees.**  The variables for writing a tree again have the names of its branches, once for
each leaf: if every branch has one leaf and the names differ, they are the names of the branches. -/
theorem C153_tree_partial (t : List SBranch) (h1 : ∀ b ∈ t, b.leaves.length = 1) :
    (writeVarsFromTree t).map Prod.fst = t.map SBranch.name ∧
    ((t.map SBranch.name).Nodup → ((writeVarsFromTree t).map Prod.fst).Nodup) := by
  have h : (writeVarsFromTree t).map Prod.fst = t.map SBranch.name := by
    induction t with
    | nil => rfl
    | cons b bs ih =>
      have ih' := ih fun c hc => h1 c (by simp [hc])
      have hb := h1 b (by simp)
      obtain ⟨l, hl⟩ := List.length_eq_one_iff.mp hb
      simp only [writeVarsFromTree, newReadVars, List.flatMap_cons, hl, List.map_cons, List.map_nil,
        List.map_append, List.cons_append, List.nil_append] at ih' ⊢
      rw [ih']
  exact ⟨h, fun hn => by rw [h]; exact hn⟩

/-- **C153, several leaves.**  For a branch with two leaves there are two variables with the name of
the branch: the names of the leaves are lost. -/
theorem C153_leaves_counterexample (b l1 l2 : List Char) :
    writeVarsFromTree [⟨b, [(l1, none), (l2, none)]⟩] = [(b, []), (b, [])] := rfl

/-! ## Examples -/

/-- `N int32`; `Xs []float64` with the tag `xs[N]`; `arr [2][3]int32` with the tag `arr`; a field that
is not exported; `M [2][3]int32` with the tag `m[2][3]`. -/
def exFields : List SField :=
  [⟨['N'], none, .other⟩, ⟨['X', 's'], some ['x', 's', '[', 'N', ']'], .slice⟩,
   ⟨['A', 'r', 'r'], some ['a', 'r', 'r'], .array [2, 3]⟩, ⟨['z'], none, .refused⟩,
   ⟨['M'], some ['m', '[', '2', ']', '[', '3', ']'], .array [2, 3]⟩]

/-- A name is exported if it begins with a capital letter. -/
def exExported (s : List Char) : Bool := (s.head?).any Char.isUpper

example : writeVars exExported exFields =
    some [⟨['N'], [], [], 0⟩, ⟨['x', 's'], ['N'], [], 1⟩, ⟨['a', 'r', 'r'], [], [], 2⟩, ⟨['m'], [], [], 4⟩] := by
  decide +kernel

example : readVars exExported exFields =
    some [⟨['N'], [], ['N'], 0⟩, ⟨['x', 's'], ['N'], ['x', 's'], 1⟩,
      ⟨['a', 'r', 'r'], [], ['a', 'r', 'r'], 2⟩, ⟨['m'], [], ['m'], 4⟩] := by
  decide +kernel

example : ∀ f ∈ exFields, exExported f.name = true → TagOK f := by
  intro f hf he
  simp only [exFields, List.mem_cons, List.not_mem_nil, or_false] at hf
  rcases hf with rfl | rfl | rfl | rfl | rfl
  · exact ⟨by simp, by simp⟩
  · exact ⟨by simp, by simp⟩
  · refine ⟨by simp, ?_⟩
    rintro dims tag h1 h2
    cases h1
    cases h2
    exact Or.inl ⟨by decide, by decide⟩
  · simp [exExported] at he
  · refine ⟨by simp, ?_⟩
    rintro dims tag h1 h2
    cases h1
    cases h2
    exact Or.inr ⟨['m'], [2, 3], by decide, by decide, by decide, by decide, by decide +kernel, rfl⟩

example : exportedFields exExported exFields = [0, 1, 2, 4] := by decide +kernel

end Verif.RTree.Struct
