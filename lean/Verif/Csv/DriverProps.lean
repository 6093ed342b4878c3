import Verif.Csv.Driver
import Verif.Csv.Props

/-!
# C155: the table of a file of comma-separated values
-/

namespace Verif.Csv
open Verif.Strconv

/-! ## Specification -/

section spec
variable {Fl : Type}

/-- The type a field gives its column. -/
def IsCol (pf : Nat → List Char → Option Fl) (f : List Char) : ColTy → Prop
  | .int => ∃ i, parseInt 64 f = some i
  | .float => parseInt 64 f = none ∧ ∃ x, pf 64 f = some x
  | .str => parseInt 64 f = none ∧ pf 64 f = none

/-- The value of a field in a column of a type. -/
def Reads (pf : Nat → List Char → Option Fl) : ColTy → List Char → Val Fl → Prop
  | .int, f, v => ∃ i, parseInt 64 f = some i ∧ v = .int 64 i
  | .float, f, v => ∃ x, pf 64 f = some x ∧ v = .float 64 x
  | .str, f, v => v = .str f

/-- The name of a column: that given, or else its number. -/
def nameSpec (given : List (List Char)) (j : Nat) : List Char :=
  match given[j]? with
  | some (c :: cs) => c :: cs
  | _ => ['v', 'a', 'r'] ++ formatUint (j + 1)

/-- The names that are given: by the user, or else by the header. -/
def given (header : Bool) (h : List (List Char)) (names : List (List Char)) : List (List Char) :=
  if names = [] then (if header then h else []) else names

/-- Every field of the rows can be read as the type of the field above it in the first row. -/
def AllFit (pf : Nat → List Char → Option Fl) (first : List (List Char)) (rows : List (List (List Char))) :
    Prop :=
  ∀ r ∈ rows, ∀ (j : Nat) (f g : List Char) (ty : ColTy), r[j]? = some f → first[j]? = some g →
    IsCol pf g ty → ∃ v, Reads pf ty f v

/-- A table that has the names and types of columns, and the rows. -/
def TableOf (pf : Nat → List Char → Option Fl) (given : List (List Char)) (first : List (List Char))
    (rows : List (List (List Char))) (t : DbTable Fl) : Prop :=
  t.cols.length = first.length ∧
  (∀ (j : Nat) (f : List Char), first[j]? = some f →
    ∃ ty, t.cols[j]? = some (nameSpec given j, ty) ∧ IsCol pf f ty) ∧
  t.rows.length = rows.length ∧
  ∀ (i : Nat) (r : List (List Char)), rows[i]? = some r → ∃ vs, t.rows[i]? = some vs ∧
    vs.length = first.length ∧
    ∀ (j : Nat) (f n : List Char) (ty : ColTy), r[j]? = some f → t.cols[j]? = some (n, ty) →
      ∃ v, vs[j]? = some v ∧ Reads pf ty f v

end spec

/-! ## Readers -/

section
variable {d : Dialect}

theorem run_length : ∀ (l : List Char) (st : St) (acc : List Char) (done : List (List Char))
    (fs : List (List Char)) (rest : List Char), run d st acc done l = .recd fs rest →
    rest.length ≤ l.length - 1 ∧ (l = [] → st ≠ .line)
  | [], st, acc, done, fs, rest, h => by
    cases st <;> simp [run, atEOF] at h ⊢ <;> simp [← h.2]
  | c :: l, st, acc, done, fs, rest, h => by
    simp only [run] at h
    refine ⟨?_, by simp⟩
    cases hs : step d st acc done c with
    | go st' acc' done' =>
      rw [hs] at h
      have := (run_length l st' acc' done' fs rest h).1
      simp only [List.length_cons]
      omega
    | emit gs =>
      rw [hs] at h
      simp only [Res.recd.injEq] at h
      simp [h.2]
    | fail gs =>
      rw [hs] at h
      simp at h

theorem read_length {r r' : Rd} {fs : List (List Char)} (h : r.read d = (fs, none, r')) :
    r'.inp.length < r.inp.length := by
  simp only [Rd.read] at h
  cases hr : run d .line [] [] r.inp with
  | eof => rw [hr] at h; simp at h
  | err gs rest => rw [hr] at h; simp at h
  | recd gs rest =>
    rw [hr] at h
    obtain ⟨h1, h2⟩ := run_length r.inp .line [] [] gs rest hr
    have hne : r.inp ≠ [] := fun e => h2 e rfl
    have hpos := List.length_pos_iff.mpr hne
    simp only at h
    split at h
    · simp at h
    · simp only [Prod.mk.injEq, true_and] at h
      rw [← h.2]
      simp only
      omega

theorem delivers_length : ∀ (recs : List (List (List Char))) (r : Rd), Delivers d r recs →
    recs.length ≤ r.inp.length
  | [], _, _ => by simp
  | fs :: l, r, h => by
    obtain ⟨r', h1, h2⟩ := h
    have := read_length h1
    have := delivers_length l r' h2
    simp only [List.length_cons]
    omega

theorem next_row {s : Rows} {fs : List (List Char)} {l : List (List (List Char))} (hc : s.closed = false)
    (he : s.err = none) (hi : s.i < s.n) (hd : Delivers d s.rd (fs :: l)) :
    ∃ s', s.next d = (true, s') ∧ s'.record = fs ∧ s'.closed = false ∧ s'.err = none ∧ s'.i = s.i + 1 ∧
      s'.n = s.n ∧ Delivers d s'.rd l := by
  obtain ⟨r', hr, hd'⟩ := hd
  refine ⟨{ s with i := s.i + 1, record := fs, rd := r' }, ?_, rfl, hc, he, rfl, rfl, hd'⟩
  simp [Rows.next, hc, he, hi, hr]

theorem next_end {s : Rows} (hc : s.closed = false)
    (he : s.err = none) (hi : s.i < s.n) (hd : Delivers d s.rd []) :
    ∃ s', s.next d = (false, s') ∧ s'.err = some (.read .eof) := by
  have hr := read_eof hd
  refine ⟨{ s with i := s.i + 1, record := [], err := some (.read .eof), rd := ⟨[], s.rd.fpr⟩ }, ?_, rfl⟩
  simp [Rows.next, hc, he, hi, hr]

theorem readRows_zero (r : Rd) (k : Int) (hk : 0 ≤ k) :
    (readRows d r 0 k).2 = .ok ⟨r, 0, k, [], false, none⟩ := by
  have : k ≠ -1 := by omega
  simp [readRows, skip, this]

end

/-! ## Columns -/

section
variable {Fl : Type} {d : Dialect} {pf : Nat → List Char → Option Fl} {zero : Fl}

theorem colTy_spec (f : List Char) (ty : ColTy) : IsCol pf f ty ↔ colTy pf f = ty := by
  simp only [colTy]
  cases h1 : parseInt 64 f with
  | some i => cases ty <;> simp [IsCol, h1]
  | none =>
    cases h2 : pf 64 f with
    | some x => cases ty <;> simp [IsCol, h1, h2]
    | none => cases ty <;> simp [IsCol, h1, h2]

theorem columns_some : ∀ (i : Nat) (ns fs : List (List Char)), fs.length ≤ ns.length →
    ∃ cs, columns pf i ns fs = some cs ∧ cs.length = fs.length ∧
      ∀ (j : Nat) (f : List Char), fs[j]? = some f →
        cs[j]? = some (colName (i + j) ((ns[j]?).getD []), colTy pf f)
  | i, ns, [], _ => ⟨[], by simp [columns], rfl, by simp⟩
  | i, [], f :: fs, h => by simp at h
  | i, n :: ns, f :: fs, h => by
    obtain ⟨cs, h1, h2, h3⟩ := columns_some (i + 1) ns fs (by simpa using h)
    refine ⟨(colName i n, colTy pf f) :: cs, by simp [columns, h1], by simp [h2], ?_⟩
    intro j g hj
    cases j with
    | zero =>
      simp only [List.getElem?_cons_zero, Option.some.injEq] at hj
      simp [hj]
    | succ j =>
      simp only [List.getElem?_cons_succ] at hj ⊢
      rw [h3 j g hj]
      congr 3
      omega

theorem columns_none : ∀ (i : Nat) (ns fs : List (List Char)), ns.length < fs.length →
    columns pf i ns fs = none
  | i, ns, [], h => by simp at h
  | i, [], f :: fs, _ => rfl
  | i, n :: ns, f :: fs, h => by
    simp [columns, columns_none (i + 1) ns fs (by simpa using h)]

theorem colName_spec (g : List (List Char)) (j : Nat) : colName j ((g[j]?).getD []) = nameSpec g j := by
  simp only [nameSpec]
  rcases g[j]? with _ | n
  · simp [colName]
  · cases n <;> simp [colName]

/-- The schema, for a row and names that are enough. -/
theorem schemaOf_ok (fields names : List (List Char)) (h : names = [] ∨ fields.length ≤ names.length) :
    ∃ cs, schemaOf pf fields names = .ok cs ∧ cs.length = fields.length ∧
      ∀ (j : Nat) (f : List Char), fields[j]? = some f → cs[j]? = some (nameSpec names j, colTy pf f) := by
  by_cases hn : names = []
  · subst hn
    obtain ⟨cs, h1, h2, h3⟩ := columns_some (pf := pf) 0 (List.replicate fields.length []) fields (by simp)
    refine ⟨cs, by simp [schemaOf, h1], h2, ?_⟩
    intro j f hj
    rw [h3 j f hj, Nat.zero_add]
    have e : ((List.replicate fields.length ([] : List Char))[j]?).getD [] = [] := by
      by_cases hl : j < fields.length <;> simp [hl]
    rw [e]
    simp [colName, nameSpec]
  · have hl : fields.length ≤ names.length := by
      rcases h with h | h
      · exact absurd h hn
      · exact h
    obtain ⟨cs, h1, h2, h3⟩ := columns_some (pf := pf) 0 names fields hl
    refine ⟨cs, by simp [schemaOf, hn, h1], h2, ?_⟩
    intro j f hj
    rw [h3 j f hj, Nat.zero_add, colName_spec]

theorem schemaOf_panic (fields names : List (List Char)) (hn : names ≠ []) (h : names.length < fields.length) :
    schemaOf pf fields names = .panic := by
  simp [schemaOf, hn, columns_none 0 names fields h]

/-- The schema of a file with a row. -/
theorem infer_row (header : Bool) (h : List (List Char)) (names first : List (List Char))
    (rest : List (List (List Char))) (r : Rd)
    (hd : Delivers d r ((if header then [h] else []) ++ first :: rest)) :
    inferSchema d pf r header names = schemaOf pf first (given header h names) := by
  cases header with
  | false =>
    simp only [inferSchema, Bool.false_eq_true, if_false, List.nil_append] at hd ⊢
    rw [readRows_zero r 1 (by decide)]
    obtain ⟨s', e1, e2, _⟩ := next_row (s := ⟨r, 0, 1, [], false, none⟩) rfl rfl (show (0 : Int) < 1 by decide) hd
    simp only [schemaRow, e1, e2, given, Bool.false_eq_true, if_false]
    by_cases hn : names = [] <;> simp [hn]
  | true =>
    simp only [inferSchema, if_true, List.cons_append, List.nil_append] at hd ⊢
    rw [readRows_zero r 2 (by decide)]
    obtain ⟨s', e1, e2, e3, e4, e5, e6, e7⟩ :=
      next_row (s := ⟨r, 0, 2, [], false, none⟩) rfl rfl (show (0 : Int) < 2 by decide) hd
    obtain ⟨s'', f1, f2, _⟩ := next_row (s := s') e3 e4 (by rw [e5, e6]; show (0 : Int) + 1 < 2; decide) e7
    simp only [e1, schemaRow, f1, f2, e2, given, if_true]

/-! ## Scanning -/

theorem scanOne_spec (ty : ColTy) (f : List Char) :
    ((scanOne pf f (destOf zero ty)).isSome = true ↔ ∃ v, Reads pf ty f v) ∧
    ∀ v, scanOne pf f (destOf zero ty) = some v ↔ Reads pf ty f v := by
  cases ty with
  | int => cases h : parseInt 64 f <;> simp [scanOne, destOf, Reads, h, eq_comm]
  | float => cases h : pf 64 f <;> simp [scanOne, destOf, Reads, h, eq_comm]
  | str => simp [scanOne, destOf, Reads, eq_comm]

theorem scan_ok : ∀ (r : List (List Char)) (tys : List ColTy), r.length = tys.length →
    (∀ (j : Nat) (f : List Char) (ty : ColTy), r[j]? = some f → tys[j]? = some ty →
      ∃ v, Reads pf ty f v) →
    ∃ vs, scanAll pf r (tys.map (destOf zero)) = (vs, true) ∧ vs.length = r.length ∧
      ∀ (j : Nat) (f : List Char) (ty : ColTy), r[j]? = some f → tys[j]? = some ty →
        ∃ v, vs[j]? = some v ∧ Reads pf ty f v
  | [], [], _, _ => ⟨[], by simp [scanAll], rfl, by simp⟩
  | [], _ :: _, h, _ => by simp at h
  | _ :: _, [], h, _ => by simp at h
  | f :: fs, ty :: tys, h, hf => by
    obtain ⟨v, hv⟩ := hf 0 f ty rfl rfl
    obtain ⟨vs, h1, h2, h3⟩ := scan_ok fs tys (by simpa using h)
      fun j g t hj ht => hf (j + 1) g t (by simpa using hj) (by simpa using ht)
    have e := ((scanOne_spec (pf := pf) (zero := zero) ty f).2 v).mpr hv
    refine ⟨v :: vs, by simp [scanAll, e, h1], by simp [h2], ?_⟩
    intro j g t hj ht
    cases j with
    | zero =>
      simp only [List.getElem?_cons_zero, Option.some.injEq] at hj ht
      subst hj ht
      exact ⟨v, rfl, hv⟩
    | succ j =>
      simp only [List.getElem?_cons_succ] at hj ht ⊢
      exact h3 j g t hj ht

theorem scan_bad : ∀ (r : List (List Char)) (tys : List ColTy) (j : Nat) (f : List Char) (ty : ColTy),
    r[j]? = some f → tys[j]? = some ty → (¬ ∃ v, Reads pf ty f v) →
    (scanAll pf r (tys.map (destOf zero))).2 = false
  | [], _, j, f, ty, h, _, _ => by simp at h
  | _ :: _, [], j, f, ty, _, h, _ => by simp at h
  | g :: fs, t :: tys, j, f, ty, hj, ht, hn => by
    simp only [List.map_cons, scanAll]
    cases j with
    | zero =>
      simp only [List.getElem?_cons_zero, Option.some.injEq] at hj ht
      subst hj ht
      have e : scanOne pf g (destOf zero t) = none := by
        rcases e : scanOne pf g (destOf zero t) with _ | v
        · rfl
        · exact absurd ⟨v, ((scanOne_spec t g).2 v).mp e⟩ hn
      simp [e]
    | succ j =>
      simp only [List.getElem?_cons_succ] at hj ht
      have := scan_bad fs tys j f ty hj ht hn
      rcases scanOne pf g (destOf zero t) with _ | v
      · rfl
      · exact this

/-! ## Import -/

theorem all_upTo {T : Type} (ok : T → Bool) : ∀ l : List T, (upTo ok l).all ok = l.all ok
  | [] => rfl
  | x :: l => by
    by_cases h : ok x = true
    · simp [upTo, h, all_upTo ok l]
    · simp [upTo, h]

/-- What is imported, given the columns. -/
theorem import_rows (header : Bool) (h : List (List Char)) (names first : List (List Char))
    (rest : List (List (List Char))) (file : List Char)
    (hd : Delivers d (openFile file) ((if header then [h] else []) ++ first :: rest))
    (cs : List (List Char × ColTy)) (hs : schemaOf pf first (given header h names) = .ok cs) (hne : cs ≠ [])
    (hmax : (rest.length : Int) + 2 < maxInt64) :
    importCSV d pf zero header names file =
      if (first :: rest).all (fun fs => (scanAll pf fs (cs.map fun c => destOf zero c.2)).2) then
        .ok ⟨cs, (first :: rest).map fun fs => (scanAll pf fs (cs.map fun c => destOf zero c.2)).1⟩
      else .err .scan := by
  have hlen := delivers_length _ _ hd
  have hdest : (cs.map fun c => destOf zero c.2) ≠ [] := by simpa using hne
  have hrl : ((if header then [h] else []) ++ first :: rest).length ≤ rest.length + 2 := by
    cases header <;> simp
  obtain ⟨s, hs', hloop⟩ := C107_rows_partial pf hdest _ _ hd (if header then 1 else 0) (-1)
    (by cases header <;> decide) (by cases header <;> simp <;> omega) (.inl rfl) (by omega)
  obtain ⟨t, ht, ht'⟩ := hloop ((openFile file).inp.length + 1) (by omega)
  have hw : window ((if header then [h] else []) ++ first :: rest) (if header then 1 else 0) (-1)
      = first :: rest := by
    cases header <;> simp [window]
  rw [hw] at ht ht'
  have hr : (readRows d (openFile file) (if header then 1 else 0) (-1)).2 = .ok s := by rw [hs']
  simp only [importCSV, infer_row header h names first rest _ hd, hs, hr, ht, inserted]
  have ha : ((upTo (fun fs => (scanAll pf fs (cs.map fun c => destOf zero c.2)).2) (first :: rest)).map
      (seen pf (cs.map fun c => destOf zero c.2))).all (·.2.2) =
      (first :: rest).all (fun fs => (scanAll pf fs (cs.map fun c => destOf zero c.2)).2) := by
    rw [List.all_map]
    exact all_upTo _ _
  rw [ha]
  by_cases hall : (first :: rest).all (fun fs => (scanAll pf fs (cs.map fun c => destOf zero c.2)).2) = true
  · rw [if_pos hall] at ht' ⊢
    rw [if_pos hall]
    have he : t.err = some (.read .eof) := by simpa using ht'.1
    rw [he]
    rw [upTo_all _ _ (fun x hx => List.all_eq_true.mp hall x hx)]
    simp only [List.map_map]
    rfl
  · rw [if_neg hall, if_neg hall]

/-- **C155.** The table of a file has one column for each field of the first row of data, named by the
user, by the header or by number, of the type that field has, and all rows of the file in their
order, every field as a value of the type of its column.  If, and only if, a field cannot be read as
such a value, there is an error instead. -/
theorem C155_import (header : Bool) (h : List (List Char)) (names first : List (List Char))
    (rest : List (List (List Char))) (file : List Char)
    (hd : Delivers d (openFile file) ((if header then [h] else []) ++ first :: rest))
    (hn : ∀ r ∈ rest, r.length = first.length) (hh : header = true → h.length = first.length)
    (h0 : first ≠ []) (hnames : names = [] ∨ first.length ≤ names.length)
    (hmax : (rest.length : Int) + 2 < maxInt64) :
    (AllFit pf first (first :: rest) → ∃ t, importCSV d pf zero header names file = .ok t ∧
      TableOf pf (given header h names) first (first :: rest) t) ∧
    (¬ AllFit pf first (first :: rest) → importCSV d pf zero header names file = .err .scan) := by
  have hg : given header h names = [] ∨ first.length ≤ (given header h names).length := by
    simp only [given]
    by_cases e : names = []
    · cases header with
      | false => simp [e]
      | true => simp [e, hh rfl]
    · rcases hnames with hx | hx
      · exact absurd hx e
      · simp [e, hx]
  obtain ⟨cs, c1, c2, c3⟩ := schemaOf_ok (pf := pf) first _ hg
  have hne : cs ≠ [] := by
    intro e
    rw [e] at c2
    exact h0 (List.length_eq_zero_iff.mp c2.symm)
  have hi := import_rows (zero := zero) header h names first rest file hd cs c1 hne hmax
  have hcol : ∀ (j : Nat) (ty : ColTy), (cs.map Prod.snd)[j]? = some ty ↔
      ∃ g, first[j]? = some g ∧ IsCol pf g ty := by
    intro j ty
    constructor
    · intro hj
      have hl : j < first.length := by
        have := (List.getElem?_eq_some_iff.mp hj).1
        simpa [c2] using this
      refine ⟨first[j], List.getElem?_eq_getElem hl, ?_⟩
      have := c3 j _ (List.getElem?_eq_getElem hl)
      rw [List.getElem?_map, this] at hj
      simp only [Option.map_some, Option.some.injEq] at hj
      exact (colTy_spec _ _).mpr hj
    · rintro ⟨g, hg1, hg2⟩
      rw [List.getElem?_map, c3 j g hg1]
      simp only [Option.map_some, Option.some.injEq]
      exact (colTy_spec _ _).mp hg2
  have hm : (cs.map fun c => destOf zero c.2) = (cs.map Prod.snd).map (destOf zero) := by
    rw [List.map_map]
    rfl
  have hlen : ∀ r ∈ first :: rest, r.length = (cs.map Prod.snd).length := by
    intro r hr
    rw [List.length_map, c2]
    rcases List.mem_cons.mp hr with rfl | hr
    · rfl
    · exact hn r hr
  constructor
  · intro hf
    have hok : ∀ r ∈ first :: rest, ∃ vs, scanAll pf r (cs.map fun c => destOf zero c.2) = (vs, true) ∧
        vs.length = r.length ∧ ∀ (j : Nat) (f : List Char) (ty : ColTy), r[j]? = some f →
          (cs.map Prod.snd)[j]? = some ty → ∃ v, vs[j]? = some v ∧ Reads pf ty f v := by
      intro r hr
      rw [hm]
      refine scan_ok r _ (hlen r hr) ?_
      intro j f ty hj ht
      obtain ⟨g, hg1, hg2⟩ := (hcol j ty).mp ht
      exact hf r hr j f g ty hj hg1 hg2
    have hall : (first :: rest).all (fun fs => (scanAll pf fs (cs.map fun c => destOf zero c.2)).2) = true := by
      refine List.all_eq_true.mpr fun r hr => ?_
      obtain ⟨vs, e, _⟩ := hok r hr
      rw [e]
    rw [if_pos hall] at hi
    refine ⟨_, hi, c2, ?_, by simp, ?_⟩
    · intro j f hj
      exact ⟨colTy pf f, c3 j f hj, (colTy_spec _ _).mpr rfl⟩
    · intro i r hr
      have hmem := List.mem_of_getElem? hr
      obtain ⟨vs, e1, e2, e3⟩ := hok r hmem
      refine ⟨vs, ?_, ?_, ?_⟩
      · simp only [List.getElem?_map, hr, Option.map_some, e1]
      · rw [e2]
        have := hlen r hmem
        rw [this, List.length_map, c2]
      · intro j f n ty hj ht
        refine e3 j f ty hj ?_
        simp only at ht
        rw [List.getElem?_map, ht]
        rfl
  · intro hf
    rw [if_neg] at hi
    · exact hi
    · intro hall
      refine hf ?_
      intro r hr j f g ty hj hg1 hg2
      refine Classical.byContradiction fun hc => ?_
      have := scan_bad (zero := zero) r _ j f ty hj ((hcol j ty).mpr ⟨g, hg1, hg2⟩) hc
      rw [← hm] at this
      have hx := List.all_eq_true.mp hall r hr
      rw [this] at hx
      exact absurd hx (by decide)

/-- **C155, names.** Fewer names than columns make a panic. -/
theorem C155_names (header : Bool) (h : List (List Char)) (names first : List (List Char))
    (rest : List (List (List Char))) (file : List Char)
    (hd : Delivers d (openFile file) ((if header then [h] else []) ++ first :: rest))
    (hne : names ≠ []) (hl : names.length < first.length) :
    importCSV d pf zero header names file = .panic := by
  have : given header h names = names := by simp [given, hne]
  simp only [importCSV, infer_row header h names first rest _ hd, this, schemaOf_panic first names hne hl]

/-- **C155, empty files.** A file without rows of data cannot be opened: the error is the end of the
file. -/
theorem C155_empty (header : Bool) (h : List (List Char)) (names : List (List Char)) (file : List Char)
    (hd : Delivers d (openFile file) [] ∨ (header = true ∧ Delivers d (openFile file) [h])) :
    importCSV d pf zero header names file = .err (.read .eof) := by
  have key : inferSchema d pf (openFile file) header names = .err (.read .eof) := by
    rcases hd with hd | ⟨rfl, hd⟩
    · cases header with
      | false =>
        simp only [inferSchema, Bool.false_eq_true, if_false]
        rw [readRows_zero _ 1 (by decide)]
        obtain ⟨s', e1, e2⟩ := next_end (s := ⟨openFile file, 0, 1, [], false, none⟩) rfl rfl (show (0 : Int) < 1 by decide) hd
        simp only [schemaRow, e1, e2]
      | true =>
        simp only [inferSchema, if_true]
        rw [readRows_zero _ 2 (by decide)]
        obtain ⟨s', e1, e2⟩ := next_end (s := ⟨openFile file, 0, 2, [], false, none⟩) rfl rfl (show (0 : Int) < 2 by decide) hd
        simp only [e1, e2]
    · simp only [inferSchema, if_true]
      rw [readRows_zero _ 2 (by decide)]
      obtain ⟨s', e1, e2, e3, e4, e5, e6, e7⟩ :=
        next_row (s := ⟨openFile file, 0, 2, [], false, none⟩) rfl rfl (show (0 : Int) < 2 by decide) hd
      obtain ⟨s'', f1, f2⟩ := next_end (s := s') e3 e4 (by rw [e5, e6]; show (0 : Int) + 1 < 2; decide) e7
      simp only [e1, schemaRow, f1, f2]
  simp only [importCSV, key]

/-- **C155, creating files.** A file is created if there is none; if there is one, it is emptied, and
then opening it fails as there is nothing to import. -/
theorem C155_create_counterexample (header : Bool) (names : List (List Char)) (file : List Char) :
    openLocal d pf zero header names true none = some (.ok none) ∧
    openLocal d pf zero header names true (some file) = some (.err (.read .eof)) := by
  refine ⟨rfl, ?_⟩
  have : Delivers d (openFile []) [] := by simp [Delivers, openFile, crlf, Rd.read, run, atEOF]
  simp only [openLocal, if_true, C155_empty (pf := pf) (zero := zero) header [] names [] (.inl this)]

end

/-! ## Written tables -/

section
variable {Fl : Type}

theorem SameType.trans {a b c : Val Fl} (h : SameType a b) (g : SameType b c) : SameType a c := by
  cases a <;> cases b <;> simp [SameType] at h <;> cases c <;> simp_all [SameType]

theorem SameTypes.trans : ∀ {a b c : List (Val Fl)}, SameTypes a b → SameTypes b c → SameTypes a c
  | [], [], [], _, _ => trivial
  | [], [], _ :: _, _, g => g.elim
  | [], _ :: _, _, h, _ => h.elim
  | _ :: _, [], _, h, _ => h.elim
  | _ :: _, _ :: _, [], _, g => g.elim
  | _ :: _, _ :: _, _ :: _, h, g => ⟨h.1.trans g.1, SameTypes.trans h.2 g.2⟩

variable {ff : Nat → Fl → List Char} {pf : Nat → List Char → Option Fl} {d : Dialect} {zero : Fl}

theorem dest_sameTypes : ∀ (first : List (Val Fl)) (cs : List (List Char × ColTy)),
    cs.length = first.length →
    (∀ v ∈ first, ∃ ty, IsCol pf (text ff v) ty ∧ SameType (destOf zero ty) v) →
    (∀ (j : Nat) (f : List Char), (first.map (text ff))[j]? = some f →
      ∃ n, cs[j]? = some (n, colTy pf f)) →
    SameTypes (cs.map fun c => destOf zero c.2) first
  | [], [], _, _, _ => trivial
  | [], _ :: _, h, _, _ => by simp at h
  | _ :: _, [], h, _, _ => by simp at h
  | v :: vs, c :: cs, h, hs, hc => by
    obtain ⟨n, hn⟩ := hc 0 (text ff v) rfl
    obtain ⟨ty, h1, h2⟩ := hs v (by simp)
    simp only [List.getElem?_cons_zero, Option.some.injEq] at hn
    have e : c.2 = ty := by rw [hn]; exact (colTy_spec _ _).mp h1
    refine ⟨?_, dest_sameTypes vs cs (by simpa using h) (fun w hw => hs w (by simp [hw])) fun j f hj => ?_⟩
    · simp only [e]
      exact h2
    · have := hc (j + 1) f (by simpa using hj)
      simpa using this

/-- **C155, written tables (part).** A table of integers, numbers and texts that is written by
`csvutil` is imported with the same rows, if every column begins with a value that looks like one of
its type: an integer always does, a number must not look like an integer, and a text not like
either. -/
theorem C155_written_partial (sp : Char → Bool) (hd : d.Valid) {n : Nat} (hn : 0 < n) (first : List (Val Fl))
    (rest : List (List (Val Fl))) (h : ∀ r ∈ first :: rest, Good ff pf d n r)
    (types : ∀ r ∈ first :: rest, SameTypes first r)
    (looks : ∀ v ∈ first, ∃ ty, IsCol pf (text ff v) ty ∧ SameType (destOf zero ty) v)
    (hmax : (rest.length : Int) + 2 < maxInt64) :
    ∃ t, importCSV d pf zero false []
        (wrun ff sp d create ((first :: rest).map .row ++ [.close])).file = .ok t ∧
      t.rows = first :: rest := by
  have hdel := C108_append_partial (ff := ff) (pf := pf) sp hd hn [] (.inl rfl) []
    (by simp [Delivers, openFile, crlf, Rd.read, run, atEOF]) (by simp) (first :: rest) h
  have hdel' : Delivers d (openFile (wrun ff sp d create ((first :: rest).map .row ++ [.close])).file)
      ((if false then [[]] else []) ++ first.map (text ff) :: rest.map (List.map (text ff))) := hdel
  obtain ⟨cs, c1, c2, c3⟩ := schemaOf_ok (pf := pf) (first.map (text ff)) [] (.inl rfl)
  have hl : cs.length = first.length := by simpa using c2
  have hne : cs ≠ [] := by
    intro e
    have := (h first (by simp)).len
    rw [e] at hl
    simp at hl
    omega
  have hd1 := dest_sameTypes (ff := ff) (pf := pf) (zero := zero) first cs hl looks
    fun j f hj => ⟨_, c3 j f hj⟩
  have hi := import_rows (zero := zero) false [] [] (first.map (text ff)) (rest.map (List.map (text ff))) _
    hdel' cs (by simpa [given] using c1) hne (by simpa using hmax)
  have hs : ∀ r ∈ first :: rest, scanAll pf (r.map (text ff)) (cs.map fun c => destOf zero c.2) = (r, true) :=
    fun r hr => scanAll_sound (h r hr).sound (hd1.trans (types r hr))
  rw [if_pos] at hi
  · refine ⟨_, hi, ?_⟩
    simp only
    rw [← List.map_cons (f := List.map (text ff)), List.map_map]
    conv => rhs; rw [← List.map_id (first :: rest)]
    apply List.map_congr_left
    intro r hr
    simp only [Function.comp, hs r hr, id]
  · refine List.all_eq_true.mpr ?_
    intro x hx
    rw [← List.map_cons (f := List.map (text ff))] at hx
    obtain ⟨r, hr, rfl⟩ := List.mem_map.mp hx
    rw [hs r hr]

end

/-- **C155, numbers.** The type of a column is that of its first field: a column of numbers that begins
with one without fraction cannot be read. -/
theorem C155_number_counterexample :
    parseInt 64 ['2', '.', '5'] = none ∧
    importCSV d0 pf0 () false [] ['1', '\n', '2', '.', '5', '\n'] = .err .scan := by
  refine ⟨?_, ?_⟩
  all_goals rfl

/-- Two rows with a header. -/
def exFile : List Char := ['x', ',', 'n', '\n', '1', ',', 'a', '\n', '2', ',', 'b', '\n']

/-- Texts that are no numbers. -/
def pfx : Nat → List Char → Option Unit := fun _ _ => none

example : importCSV d0 pfx () true [] exFile =
    .ok ⟨[(['x'], .int), (['n'], .str)], [[.int 64 1, .str ['a']], [.int 64 2, .str ['b']]]⟩ := by rfl

example : Delivers d0 (openFile exFile) ((if true then [[['x'], ['n']]] else []) ++
    [['1'], ['a']] :: [[['2'], ['b']]]) :=
  ⟨_, rfl, _, rfl, _, rfl, rfl⟩

example : AllFit pfx [['1'], ['a']] [[['1'], ['a']], [['2'], ['b']]] ∧
    ¬ AllFit pfx [['1']] [[['a']]] := by
  constructor
  · intro r hr j f g ty h1 h2 h3
    simp only [List.mem_cons, List.not_mem_nil, or_false] at hr
    have e := (colTy_spec g ty).mp h3
    match j with
    | 0 =>
      simp only [List.getElem?_cons_zero, Option.some.injEq] at h2
      subst h2
      have : ty = .int := by rw [← e]; rfl
      subst this
      rcases hr with rfl | rfl
      · simp only [List.getElem?_cons_zero, Option.some.injEq] at h1
        subst h1
        exact ⟨_, 1, rfl, rfl⟩
      · simp only [List.getElem?_cons_zero, Option.some.injEq] at h1
        subst h1
        exact ⟨_, 2, rfl, rfl⟩
    | 1 =>
      simp only [List.getElem?_cons_succ, List.getElem?_cons_zero, Option.some.injEq] at h2
      subst h2
      have : ty = .str := by rw [← e]; rfl
      subst this
      exact ⟨_, rfl⟩
    | j + 2 => simp at h2
  · intro h
    obtain ⟨v, i, h1, _⟩ := h [['a']] (by simp) 0 ['a'] ['1'] .int rfl rfl ⟨1, rfl⟩
    have : parseInt 64 ['a'] = none := rfl
    rw [this] at h1
    cases h1

example : (∀ v ∈ [Val.int 64 1, .str ['a']], ∃ ty, IsCol pfx (text ff0 v) ty ∧ SameType (destOf () ty) v) ∧
    SameTypes (Fl := Unit) [.int 64 1, .str ['a']] [.int 64 2, .str ['b']] := by
  refine ⟨?_, rfl, trivial, trivial⟩
  intro v hv
  simp only [List.mem_cons, List.not_mem_nil, or_false] at hv
  rcases hv with rfl | rfl
  · exact ⟨.int, ⟨1, rfl⟩, rfl⟩
  · exact ⟨.str, ⟨rfl, rfl⟩, trivial⟩

end Verif.Csv
