import Verif.Csv.Model

/-!
# Tables of comma-separated values: rows, iteration, files

* C106: rows written to a table are read back.
* C107: the rows an iteration delivers.
* C108: what ends up in the file, and in which order.
-/

set_option linter.unusedSectionVars false

namespace Verif.Csv
open Verif.Strconv

/-! ### Specification -/

/-- A reader delivers these records and then the end of the file. -/
def Delivers (d : Dialect) : Rd → List (List (List Char)) → Prop
  | r, [] => (r.read d).2.1 = some .eof
  | r, fs :: l => ∃ r', r.read d = (fs, none, r') ∧ Delivers d r' l

/-- A text without a carriage return followed by a line feed. -/
def NoCRLF (f : List Char) : Prop := ¬ ['\r', '\n'] <:+: f

/-- The rows of an iteration whose body scans: up to and including the first row it fails on. -/
def upTo {T : Type} (ok : T → Bool) : List T → List T
  | [] => []
  | x :: l => if ok x then x :: upTo ok l else [x]

section
variable {Fl : Type}

/-- The values that can come back: integers in the range of their type, numbers whose notation is
read back, texts without carriage return and line feed in sequence; no slices. -/
def Sound (ff : Nat → Fl → List Char) (pf : Nat → List Char → Option Fl) : Val Fl → Prop
  | .bool _ => True
  | .int bits i => -(2 ^ (bits - 1) : Nat) ≤ i ∧ i < (2 ^ (bits - 1) : Nat)
  | .uint bits n => n < 2 ^ bits
  | .float bits x => pf bits (ff bits x) = some x ∧ ff bits x ≠ [] ∧ NoCRLF (ff bits x)
  | .str s => NoCRLF s
  | .slice _ => False
  | .other => False

/-- Two values of one Go type. -/
def SameType : Val Fl → Val Fl → Prop
  | .bool _, .bool _ => True
  | .int b _, .int b' _ => b = b'
  | .uint b _, .uint b' _ => b = b'
  | .float b _, .float b' _ => b = b'
  | .str _, .str _ => True
  | _, _ => False

/-- Rows of the same Go types. -/
def SameTypes : List (Val Fl) → List (Val Fl) → Prop
  | [], [] => True
  | w :: ws, v :: vs => SameType w v ∧ SameTypes ws vs
  | _, _ => False

/-- The text of a value in a row. -/
def text (ff : Nat → Fl → List Char) : Val Fl → List Char
  | .bool b => if b then ['t', 'r', 'u', 'e'] else ['f', 'a', 'l', 's', 'e']
  | .int _ i => formatInt i
  | .uint _ n => formatUint n
  | .float bits x => ff bits x
  | .str s => s
  | _ => []

end

/-! ### Fields -/

section enc
variable (sp : Char → Bool) {d : Dialect}

/-- What follows a field. -/
def afterField (d : Dialect) (x : Char) (done : List (List Char)) (f l : List Char) : Res :=
  if x = d.comma then run d .start [] (done ++ [f]) l else .recd (done ++ [f]) l

theorem quoted_run {x : Char} (hx : x = d.comma ∨ x = '\n') (hq : d.comma ≠ '"') (f acc : List Char)
    (done : List (List Char)) (l : List Char) :
    run d .quoted acc done (esc f ++ '"' :: x :: l) = afterField d x done (acc ++ f) l := by
  induction f generalizing acc with
  | nil =>
    have hx' : x ≠ '"' := by
      rcases hx with rfl | rfl
      · exact hq
      · decide
    simp only [esc, List.nil_append, run, step, if_true, if_neg hx', List.append_nil]
    rcases hx with h | h
    · simp [afterField, h]
    · by_cases hc : x = d.comma
      · simp [afterField, hc]
      · have h' : '\n' ≠ d.comma := by rw [← h]; exact hc
        simp [afterField, h, h']
  | cons c f ih =>
    by_cases hc : c = '"'
    · subst hc
      simp only [esc, if_true, List.cons_append, run, step]
      rw [ih]; simp
    · simp only [esc, if_neg hc, List.cons_append, run, step]
      rw [ih]; simp

theorem plain_run {x : Char} (hx : x = d.comma ∨ x = '\n') (hn : d.comma ≠ '\n') (f acc : List Char)
    (hf : ∀ c ∈ f, c ≠ d.comma ∧ c ≠ '"' ∧ c ≠ '\n') (done : List (List Char)) (l : List Char) :
    run d .plain acc done (f ++ x :: l) = afterField d x done (acc ++ f) l := by
  induction f generalizing acc with
  | nil =>
    simp only [List.nil_append, run, step, plainStep, List.append_nil]
    rcases hx with h | h
    · simp [afterField, h]
    · simp [afterField, h, hn.symm]
  | cons c f ih =>
    obtain ⟨h1, h2, h3⟩ := hf c (by simp)
    simp only [List.cons_append, run, step, plainStep, if_neg h1, if_neg h2, if_neg h3]
    rw [ih _ (fun c hc => hf c (List.mem_cons_of_mem _ hc))]; simp

theorem not_needs {comma : Char} {f : List Char} (h : needsQuotes sp comma f = false) :
    ∀ c ∈ f, c ≠ comma ∧ c ≠ '"' ∧ c ≠ '\n' ∧ c ≠ '\r' := by
  cases f with
  | nil => simp
  | cons a f =>
    simp only [needsQuotes, Bool.or_eq_false_iff, List.any_eq_false] at h
    intro c hc
    have := h.1.2 c hc
    simp only [Bool.or_eq_true, beq_iff_eq, not_or] at this
    exact ⟨this.1.1.1, this.1.1.2, this.2, this.1.2⟩

theorem valid_comma (hd : d.Valid) : d.comma ≠ '"' ∧ d.comma ≠ '\r' ∧ d.comma ≠ '\n' := by
  have := hd.1
  simp only [validDelim, Bool.and_eq_true, bne_iff_ne] at this
  exact ⟨this.1.1.1, this.1.1.2, this.1.2⟩

theorem field_run (hd : d.Valid) {x : Char} (hx : x = d.comma ∨ x = '\n') (f : List Char)
    (done : List (List Char)) (l : List Char) :
    run d .start [] done (encField sp d.comma f ++ x :: l) = afterField d x done f l := by
  obtain ⟨h1, _, h3⟩ := valid_comma hd
  by_cases hq : needsQuotes sp d.comma f = true
  · simp only [encField, hq, if_true, List.cons_append, List.append_assoc, run, step, startStep,
      List.nil_append]
    rw [quoted_run hx h1]; simp
  · have hq : needsQuotes sp d.comma f = false := by simpa using hq
    have hf := not_needs sp hq
    simp only [encField, hq, Bool.false_eq_true, if_false]
    have hq' : ∀ c ∈ f ++ [x], c ≠ '"' := by
      intro c hc
      rcases List.mem_append.mp hc with hc | hc
      · exact (hf c hc).2.1
      · simp only [List.mem_singleton] at hc; subst hc
        rcases hx with rfl | rfl
        · exact h1
        · decide
    have : run d .start [] done (f ++ x :: l) = run d .plain [] done (f ++ x :: l) := by
      cases f with
      | nil =>
        have := hq' x (by simp)
        simp [run, step, startStep, this]
      | cons c f =>
        have := hq' c (by simp)
        simp [run, step, startStep, this]
    rw [this, plain_run hx h3 f [] (fun c hc => ⟨(hf c hc).1, (hf c hc).2.1, (hf c hc).2.2.1⟩)]
    simp

theorem fields_run (hd : d.Valid) (fs : List (List Char)) (hfs : fs ≠ []) (done : List (List Char))
    (l : List Char) :
    run d .start [] done (encFields sp d.comma fs ++ '\n' :: l) = .recd (done ++ fs) l := by
  induction fs generalizing done with
  | nil => exact absurd rfl hfs
  | cons f fs ih =>
    have h3 := (valid_comma hd).2.2
    cases fs with
    | nil =>
      rw [encFields, field_run sp hd (.inr rfl)]
      simp [afterField, h3.symm]
    | cons g fs =>
      rw [encFields, List.append_assoc, List.cons_append, field_run sp hd (.inl rfl)]
      simp only [afterField, if_true]
      rw [ih (by simp)]; simp

/-- Whether a record can be read back: it is not a lone empty field, nor is its line a comment. -/
def Visible (d : Dialect) (fs : List (List Char)) : Prop :=
  fs ≠ [] ∧ fs ≠ [[]] ∧ ∀ c, d.comment = some c → ∀ g gs, fs ≠ (c :: g) :: gs

theorem line_start (hd : d.Valid) {fs : List (List Char)} (hv : Visible d fs) (l : List Char) :
    run d .line [] [] (encFields sp d.comma fs ++ '\n' :: l) =
      run d .start [] [] (encFields sp d.comma fs ++ '\n' :: l) := by
  obtain ⟨h0, h1, h2⟩ := hv
  obtain ⟨c1, _, c3⟩ := valid_comma hd
  have key : ∀ (c : Char) (m : List Char), c ≠ '\n' → some c ≠ d.comment →
      run d .line [] [] (c :: m) = run d .start [] [] (c :: m) := by
    intro c m ha hb
    simp [run, step, ha, hb]
  have hcq : some '"' ≠ d.comment := by
    intro h
    have := (hd.2 '"' h.symm).1
    simp [validDelim] at this
  have hcc : some d.comma ≠ d.comment := fun h => (hd.2 _ h.symm).2 rfl
  match fs with
  | [] => exact absurd rfl h0
  | f :: fs =>
    have hhead : ∃ m, encFields sp d.comma (f :: fs) = encField sp d.comma f ++ m ∧
        (fs ≠ [] → ∃ m', m = d.comma :: m') := by
      cases fs with
      | nil => exact ⟨[], by simp [encFields], fun h => absurd rfl h⟩
      | cons g fs => exact ⟨_, rfl, fun _ => ⟨_, rfl⟩⟩
    obtain ⟨m, hm, hm'⟩ := hhead
    rw [hm]
    by_cases hq : needsQuotes sp d.comma f = true
    · simp only [encField, hq, if_true, List.cons_append]
      exact key _ _ (by decide) hcq
    · have hq : needsQuotes sp d.comma f = false := by simpa using hq
      have hf := not_needs sp hq
      simp only [encField, hq, Bool.false_eq_true, if_false]
      cases f with
      | nil =>
        cases fs with
        | nil => exact absurd rfl h1
        | cons g fs =>
          obtain ⟨m', rfl⟩ := hm' (by simp)
          simp only [List.nil_append, List.cons_append]
          exact key _ _ c3 hcc
      | cons c f =>
        simp only [List.cons_append]
        exact key _ _ (hf c (by simp)).2.2.1 (fun h => h2 c h.symm f fs rfl)

/-- A record written is read. -/
theorem rec_run (hd : d.Valid) {fs : List (List Char)} (hv : Visible d fs) (l : List Char) :
    run d .line [] [] (encRec sp d.comma fs ++ l) = .recd fs l := by
  rw [encRec, List.append_assoc, List.singleton_append, line_start sp hd hv,
    fields_run sp hd fs hv.1]
  simp

/-! ### Ends of lines -/

theorem crlf_cons {c : Char} {l : List Char} (h : c ≠ '\r') : crlf (c :: l) = c :: crlf l := by
  rw [crlf.eq_def]
  split
  · rename_i h'; simp at h'
  · rename_i h'; simp only [List.cons.injEq] at h'; exact absurd h'.1 h
  · rename_i h'; simp only [List.cons.injEq] at h'; exact absurd h'.1 h
  · rename_i h'; simp only [List.cons.injEq] at h'; obtain ⟨rfl, rfl⟩ := h'; rfl

theorem crlf_cr {c : Char} {l : List Char} (h : c ≠ '\n') : crlf ('\r' :: c :: l) = '\r' :: crlf (c :: l) := by
  rw [crlf.eq_def]
  split
  · rename_i h'; simp at h'
  · rename_i h'; simp at h'
  · rename_i h'; simp only [List.cons.injEq] at h'; exact absurd h'.2.1 h
  · rename_i h'; simp only [List.cons.injEq] at h'; obtain ⟨rfl, rfl⟩ := h'; rfl

theorem noCRLF_tail {c : Char} {f : List Char} (h : NoCRLF (c :: f)) : NoCRLF f := by
  intro ⟨a, b, hab⟩
  exact h ⟨c :: a, b, by simp [← hab]⟩

theorem crlf_esc (f l : List Char) (h : NoCRLF f) :
    crlf (esc f ++ '"' :: l) = esc f ++ '"' :: crlf l := by
  induction f with
  | nil => simp only [esc, List.nil_append]; exact crlf_cons (by decide)
  | cons c f ih =>
    have ih := ih (noCRLF_tail h)
    by_cases hq : c = '"'
    · simp only [esc, hq, if_true, List.cons_append]
      rw [crlf_cons (by decide), crlf_cons (by decide), ih]
    · simp only [esc, hq, if_false, List.cons_append]
      by_cases hr : c = '\r'
      · subst hr
        have : ∃ x m, esc f ++ '"' :: l = x :: m ∧ x ≠ '\n' := by
          cases f with
          | nil => exact ⟨'"', l, rfl, by decide⟩
          | cons y f =>
            by_cases hy : y = '"'
            · exact ⟨'"', '"' :: (esc f ++ '"' :: l), by simp only [esc, hy, if_true, List.cons_append], by decide⟩
            · refine ⟨y, esc f ++ '"' :: l, by simp only [esc, hy, if_false, List.cons_append], ?_⟩
              rintro rfl
              exact h ⟨[], f, rfl⟩
        obtain ⟨x, m, hx, hx'⟩ := this
        rw [hx] at ih ⊢
        rw [crlf_cr hx', ih]
      · rw [crlf_cons hr, ih]

theorem crlf_plain (f l : List Char) (h : ∀ c ∈ f, c ≠ '\r') : crlf (f ++ l) = f ++ crlf l := by
  induction f with
  | nil => rfl
  | cons c f ih =>
    rw [List.cons_append, crlf_cons (h c (by simp)), ih (fun c hc => h c (List.mem_cons_of_mem _ hc))]
    rfl

theorem crlf_field (comma : Char) (f l : List Char) (h : NoCRLF f) :
    crlf (encField sp comma f ++ l) = encField sp comma f ++ crlf l := by
  by_cases hq : needsQuotes sp comma f = true
  · simp only [encField, hq, if_true, List.cons_append, List.append_assoc, List.nil_append]
    rw [crlf_cons (by decide), crlf_esc _ _ h]
  · have hq : needsQuotes sp comma f = false := by simpa using hq
    simp only [encField, hq, Bool.false_eq_true, if_false]
    exact crlf_plain _ _ fun c hc => (not_needs sp hq c hc).2.2.2

theorem crlf_fields {comma : Char} (hc : comma ≠ '\r') (fs : List (List Char)) (h : ∀ f ∈ fs, NoCRLF f)
    (l : List Char) : crlf (encFields sp comma fs ++ l) = encFields sp comma fs ++ crlf l := by
  induction fs with
  | nil => rfl
  | cons f fs ih =>
    cases fs with
    | nil => exact crlf_field sp comma f l (h f (by simp))
    | cons g fs =>
      simp only [encFields, List.append_assoc, List.cons_append]
      rw [crlf_field sp comma f _ (h f (by simp)), crlf_cons hc,
        ih (fun f hf => h f (List.mem_cons_of_mem _ hf))]

theorem crlf_rec {comma : Char} (hc : comma ≠ '\r') (fs : List (List Char)) (h : ∀ f ∈ fs, NoCRLF f)
    (l : List Char) : crlf (encRec sp comma fs ++ l) = encRec sp comma fs ++ crlf l := by
  simp only [encRec, List.append_assoc, List.singleton_append]
  rw [crlf_fields sp hc fs h, crlf_cons (by decide)]

theorem crlf_recs {comma : Char} (hc : comma ≠ '\r') (recs : List (List (List Char)))
    (h : ∀ fs ∈ recs, ∀ f ∈ fs, NoCRLF f) (l : List Char) :
    crlf (recs.flatMap (encRec sp comma) ++ l) = recs.flatMap (encRec sp comma) ++ crlf l := by
  induction recs with
  | nil => rfl
  | cons fs recs ih =>
    simp only [List.flatMap_cons, List.append_assoc]
    rw [crlf_rec sp hc fs (h fs (by simp)), ih (fun fs hfs => h fs (List.mem_cons_of_mem _ hfs))]

/-! ### Records -/

theorem delivers_written (hd : d.Valid) (n : Nat) (recs : List (List (List Char)))
    (hl : ∀ fs ∈ recs, fs.length = n) (hv : ∀ fs ∈ recs, Visible d fs) (fpr : Int)
    (hf : fpr = 0 ∨ fpr = n) (l : List Char) (more : List (List (List Char)))
    (hm : ∀ fpr' : Int, fpr' = 0 ∨ fpr' = n → Delivers d ⟨l, fpr'⟩ more) :
    Delivers d ⟨recs.flatMap (encRec sp d.comma) ++ l, fpr⟩ (recs ++ more) := by
  induction recs generalizing fpr with
  | nil => exact hm fpr hf
  | cons fs recs ih =>
    have hn := hl fs (by simp)
    refine ⟨⟨recs.flatMap (encRec sp d.comma) ++ l, n⟩, ?_, ih (fun fs h => hl fs (List.mem_cons_of_mem _ h))
      (fun fs h => hv fs (List.mem_cons_of_mem _ h)) n (.inr rfl)⟩
    simp only [Rd.read, List.flatMap_cons, List.append_assoc]
    rw [rec_run sp hd (hv fs (by simp))]
    simp only
    rcases hf with rfl | rfl
    · simp [hn]
    · rw [if_neg (by rw [hn]; simp)]
      by_cases h0 : (n : Int) = 0
      · simp [h0, hn]
      · rw [if_neg h0]

end enc

/-! ### Iteration -/

section iter
variable {Fl : Type} {d : Dialect} (pf : Nat → List Char → Option Fl) {dest : List (Val Fl)}

/-- What the body of the loop sees of a record. -/
def seen (pf : Nat → List Char → Option Fl) (dest : List (Val Fl)) (fs : List (List Char)) :
    List (List Char) × List (Val Fl) × Bool := (fs, (scanAll pf fs dest).1, (scanAll pf fs dest).2)

theorem loop_err {s : Rows} (hc : s.closed = false) (he : s.err.isSome = true) (fuel : Nat) :
    loop d pf dest (fuel + 1) s = some ([], s) := by
  simp [loop, Rows.next, hc, he]

theorem read_eof {r : Rd} (h : (r.read d).2.1 = some .eof) :
    r.read d = ([], some .eof, ⟨[], r.fpr⟩) := by
  simp only [Rd.read] at h ⊢
  cases hr : run d .line [] [] r.inp with
  | eof => rfl
  | err fs rest => rw [hr] at h; simp at h
  | recd fs rest =>
    rw [hr] at h
    simp only at h
    split at h <;> simp at h

/-- The error after an iteration asking for `k` rows. -/
def endErr (recs : List (List (List Char))) (k : Nat) : Option Err :=
  if recs.length < k then some (.read .eof) else none

/-- The loop over the rows of a reader delivering `recs`, `k` rows being asked for. -/
theorem loop_delivers (hdest : dest ≠ []) (recs : List (List (List Char))) (k : Nat) (s : Rows)
    (hk : s.n - s.i = k) (hc : s.closed = false) (he : s.err = none) (hd : Delivers d s.rd recs) :
    ∀ fuel, recs.length < fuel → ∃ t,
      loop d pf dest fuel s =
        some ((upTo (fun fs => (scanAll pf fs dest).2) (recs.take k)).map (seen pf dest), t) ∧
      (if (recs.take k).all (fun fs => (scanAll pf fs dest).2) then
        t.err = endErr recs k ∧ Delivers d t.rd (recs.drop k)
      else t.err = some .scan) := by
  intro fuel hfuel
  induction recs generalizing k s fuel with
  | nil =>
    obtain ⟨f, rfl⟩ : ∃ f, fuel = f + 1 := ⟨fuel - 1, by simp at hfuel; omega⟩
    cases k with
    | zero =>
      refine ⟨{ s with i := s.i + 1, closed := true, err := none }, ?_, ?_⟩
      · have : ¬ s.i < s.n := by omega
        simp [loop, Rows.next, hc, he, this, upTo]
      · simp only [List.take_nil, List.all_nil, if_true, List.drop_nil]
        exact ⟨by simp [endErr], hd⟩
    | succ k =>
      have hi : s.i < s.n := by omega
      have hr := read_eof hd
      refine ⟨{ s with i := s.i + 1, record := [], err := some (.read .eof), rd := ⟨[], s.rd.fpr⟩ }, ?_, ?_⟩
      · simp [loop, Rows.next, hc, he, hi, hr, upTo]
      · simp only [List.take_nil, List.all_nil, if_true, List.drop_nil]
        exact ⟨by simp [endErr], by simp [Delivers, Rd.read, run, atEOF]⟩
  | cons fs recs ih =>
    obtain ⟨f, rfl⟩ : ∃ f, fuel = f + 1 := ⟨fuel - 1, by simp at hfuel; omega⟩
    cases k with
    | zero =>
      refine ⟨{ s with i := s.i + 1, closed := true, err := none }, ?_, ?_⟩
      · have : ¬ s.i < s.n := by omega
        simp [loop, Rows.next, hc, he, this, upTo]
      · simp only [List.take_zero, List.all_nil, if_true, List.drop_zero]
        exact ⟨by simp [endErr], hd⟩
    | succ k =>
      have hi : s.i < s.n := by omega
      obtain ⟨r', hr, hd'⟩ := hd
      obtain ⟨rd, i, n, record, closed, err⟩ := s
      simp only at hk hc he hi hr
      subst hc he
      obtain ⟨v, vs, rfl⟩ : ∃ v vs, dest = v :: vs := List.exists_cons_of_ne_nil hdest
      by_cases hok : (scanAll pf fs (v :: vs)).2 = true
      · obtain ⟨t, ht, ht'⟩ := ih k ⟨r', i + 1, n, fs, false, none⟩
          (by simp only; omega) rfl rfl hd' f
          (by simp only [List.length_cons] at hfuel; omega)
        refine ⟨t, ?_, ?_⟩
        · simp only [loop, Rows.next, Option.isSome_none, Bool.false_eq_true, if_false, hi, decide_true, if_true, hr, Rows.scan, hok, ht, List.take_succ_cons, upTo,
            List.map_cons]
          rw [seen, hok]
        · simp only [List.take_succ_cons, List.all_cons, hok, Bool.true_and, List.drop_succ_cons]
          simp only [endErr, List.length_cons, Nat.add_lt_add_iff_right] at ht' ⊢
          exact ht'
      · have hok' : (scanAll pf fs (v :: vs)).2 = false := by simpa using hok
        have hf : ∃ g, f = g + 1 := ⟨f - 1, by simp only [List.length_cons] at hfuel; omega⟩
        obtain ⟨g, rfl⟩ := hf
        refine ⟨⟨r', i + 1, n, fs, false, some .scan⟩, ?_, ?_⟩
        · have hl : loop d pf (v :: vs) (g + 1) ⟨r', i + 1, n, fs, false, some .scan⟩ =
              some ([], ⟨r', i + 1, n, fs, false, some .scan⟩) := loop_err pf rfl rfl g
          rw [loop]
          simp only [Rows.next, Option.isSome_none, Bool.false_eq_true, if_false, hi, decide_true, if_true, hr,
            Rows.scan, hok', List.take_succ_cons, upTo, hl, List.map_cons, List.map_nil, seen]
        · simp [hok']

/-- Skipping rows. -/
theorem skip_delivers (recs : List (List (List Char))) (r : Rd) (hd : Delivers d r recs) (k : Nat)
    (hk : k ≤ recs.length) : ∃ r', skip d k r = (r', none) ∧ Delivers d r' (recs.drop k) := by
  induction k generalizing r recs with
  | zero => exact ⟨r, rfl, hd⟩
  | succ k ih =>
    cases recs with
    | nil => simp at hk
    | cons fs recs =>
      obtain ⟨r', hr, hd'⟩ := hd
      obtain ⟨r'', h1, h2⟩ := ih recs r' hd' (by simpa using hk)
      exact ⟨r'', by simp [skip, hr, h1], by simpa using h2⟩

theorem skip_eof (recs : List (List (List Char))) (r : Rd) (hd : Delivers d r recs) (k : Nat)
    (hk : recs.length < k) : (skip d k r).2 = some .eof := by
  induction recs generalizing r k with
  | nil =>
    obtain ⟨k, rfl⟩ : ∃ j, k = j + 1 := ⟨k - 1, by simp at hk; omega⟩
    simp [skip, read_eof hd]
  | cons fs recs ih =>
    obtain ⟨k, rfl⟩ : ∃ j, k = j + 1 := ⟨k - 1, by simp at hk; omega⟩
    obtain ⟨r', hr, hd'⟩ := hd
    simp only [skip, hr]
    exact ih r' hd' k (by simpa using hk)

/-- The records of the interval from `beg` to `stop`, to the end for `-1`. -/
def window (recs : List (List (List Char))) (beg stop : Int) : List (List (List Char)) :=
  if stop = -1 then recs.drop beg.toNat else (recs.take stop.toNat).drop beg.toNat

/-- **C107.** `ReadRows(beg, end)` on a table whose file still holds the records `recs`: the loop over
the rows sees those of index `beg` to `end - 1` (to the last for `end = -1`), in order and each once,
up to the first one `Scan` refuses.  Afterwards `Err` is nil if all of them were there, `io.EOF` if
the file ended before, the error of `Scan` if there was one; and the table goes on with the records
after the interval. -/
theorem C107_rows_partial (hdest : dest ≠ []) (recs : List (List (List Char))) (r : Rd)
    (hd : Delivers d r recs) (beg stop : Int) (h0 : 0 ≤ beg) (h1 : beg ≤ recs.length)
    (h2 : stop = -1 ∨ beg ≤ stop) (hmax : (recs.length : Int) < maxInt64) :
    ∃ s, readRows d r beg stop = (s.rd, .ok s) ∧
    ∀ fuel, recs.length < fuel → ∃ t,
      loop d pf dest fuel s =
        some ((upTo (fun fs => (scanAll pf fs dest).2) (window recs beg stop)).map (seen pf dest), t) ∧
      (if (window recs beg stop).all (fun fs => (scanAll pf fs dest).2) then
        (t.err = if stop = -1 ∨ (recs.length : Int) < stop then some (.read .eof) else none) ∧
        Delivers d t.rd (if stop = -1 then [] else recs.drop stop.toNat)
      else t.err = some .scan) := by
  obtain ⟨r', hs, hd'⟩ := skip_delivers recs r hd beg.toNat (by omega)
  refine ⟨⟨r', 0, if stop = -1 then maxInt64 else stop - beg, [], false, none⟩, by simp [readRows, hs], ?_⟩
  intro fuel hf
  have hle : (recs.drop beg.toNat).length < fuel := by rw [List.length_drop]; omega
  by_cases h : stop = -1
  · obtain ⟨t, ht, ht'⟩ := loop_delivers pf hdest (recs.drop beg.toNat) maxInt64.toNat
      ⟨r', 0, maxInt64, [], false, none⟩ (by simp [maxInt64]) rfl rfl hd' fuel hle
    have hlen : recs.length - beg.toNat < maxInt64.toNat := by omega
    have htake : (recs.drop beg.toNat).take maxInt64.toNat = recs.drop beg.toNat := by
      apply List.take_of_length_le; rw [List.length_drop]; omega
    have hdrop : (recs.drop beg.toNat).drop maxInt64.toNat = [] := by
      apply List.drop_of_length_le; rw [List.length_drop]; omega
    rw [htake] at ht ht'
    rw [hdrop] at ht'
    refine ⟨t, by simpa [h, window] using ht, ?_⟩
    simp only [h, window, if_true, true_or]
    have : endErr (recs.drop beg.toNat) maxInt64.toNat = some (.read .eof) := by
      simp [endErr, List.length_drop, hlen]
    rw [this] at ht'
    exact ht'
  · have hb : beg ≤ stop := by rcases h2 with h2 | h2; exact absurd h2 h; exact h2
    obtain ⟨t, ht, ht'⟩ := loop_delivers pf hdest (recs.drop beg.toNat) (stop - beg).toNat
      ⟨r', 0, stop - beg, [], false, none⟩ (by simp only; omega) rfl rfl hd' fuel hle
    have hw : (recs.drop beg.toNat).take (stop - beg).toNat = window recs beg stop := by
      rw [window, if_neg h, List.drop_take]
      congr 1; omega
    rw [hw] at ht ht'
    refine ⟨t, by simpa [h] using ht, ?_⟩
    have he : endErr (recs.drop beg.toNat) (stop - beg).toNat =
        if stop = -1 ∨ (recs.length : Int) < stop then some (.read .eof) else none := by
      by_cases hc : (recs.length : Int) < stop
      · rw [endErr, if_pos (by rw [List.length_drop]; omega), if_pos (.inr hc)]
      · rw [endErr, if_neg (by rw [List.length_drop]; omega), if_neg (by rintro (h' | h'); exact h h'; exact hc h')]
    rw [he, List.drop_drop] at ht'
    rw [if_neg h]
    have : beg.toNat + (stop - beg).toNat = stop.toNat := by omega
    rw [this] at ht'
    exact ht'

/-- Asking for rows beyond the end of the file is refused. -/
theorem C107_beyond (recs : List (List (List Char))) (r : Rd) (hd : Delivers d r recs) (beg stop : Int)
    (h : (recs.length : Int) < beg) : (readRows d r beg stop).2 = .error .eof := by
  have := skip_eof recs r hd beg.toNat (by omega)
  cases hs : skip d beg.toNat r with
  | mk r' e =>
    rw [hs] at this
    simp only at this
    simp [readRows, hs, this]

end iter

/-! ### Rows written and read back -/

section rows
variable {Fl : Type} {ff : Nat → Fl → List Char} {pf : Nat → List Char → Option Fl} {d : Dialect}
variable (sp : Char → Bool)

theorem formatValue_sound {v : Val Fl} (h : Sound ff pf v) : formatValue ff false v = some (text ff v) := by
  cases v <;> simp_all [formatValue, text, Sound, formatBool]

theorem fieldsOf_sound {row : List (Val Fl)} (h : ∀ v ∈ row, Sound ff pf v) :
    fieldsOf ff row = some (row.map (text ff)) := by
  induction row with
  | nil => rfl
  | cons v row ih =>
    simp [fieldsOf, formatValue_sound (h v (by simp)), ih (fun v hv => h v (List.mem_cons_of_mem _ hv))]

theorem parseBool_format (b : Bool) : parseBool (if b then ['t', 'r', 'u', 'e'] else ['f', 'a', 'l', 's', 'e']) = some b := by
  cases b <;> decide

theorem scanOne_sound {v w : Val Fl} (h : Sound ff pf v) (hw : SameType w v) :
    scanOne pf (text ff v) w = some v := by
  cases v <;> cases w <;> simp only [SameType] at hw
  · simp only [scanOne, text, parseBool_format, Option.map_some]
  · subst hw; simp [scanOne, text, parseInt_format h.1 h.2]
  · subst hw; simp [scanOne, text, parseUint_format h]
  · subst hw; simp [scanOne, text, h.1]
  · rfl

theorem scanAll_sound {row dest : List (Val Fl)} (h : ∀ v ∈ row, Sound ff pf v)
    (hd : SameTypes dest row) : scanAll pf (row.map (text ff)) dest = (row, true) := by
  induction row generalizing dest with
  | nil => cases dest <;> simp_all [SameTypes, scanAll]
  | cons v row ih =>
    cases dest with
    | nil => exact hd.elim
    | cons w dest =>
      have ih := ih (fun v hv => h v (List.mem_cons_of_mem _ hv)) hd.2
      simp [scanAll, scanOne_sound (h _ (by simp)) hd.1, ih]

theorem digit_noCRLF {f : List Char} (h : ∀ c ∈ f, c ≠ '\r') : NoCRLF f := by
  rintro ⟨a, b, rfl⟩
  exact h '\r' (by simp) rfl

theorem text_noCRLF {v : Val Fl} (h : Sound ff pf v) : NoCRLF (text ff v) := by
  cases v with
  | bool b => exact digit_noCRLF (by cases b <;> simp [text])
  | int b i =>
    refine digit_noCRLF fun c hc => ?_
    rintro rfl
    rcases formatInt_chars hc with h | h <;> exact absurd h (by decide)
  | uint b n =>
    refine digit_noCRLF fun c hc => ?_
    rintro rfl
    exact absurd (format_digits hc) (by decide)
  | float b x => exact h.2.2
  | str s => exact h
  | slice l => exact h.elim
  | other => exact h.elim

theorem text_nil {v : Val Fl} (h : Sound ff pf v) (ht : text ff v = []) : v = .str [] := by
  cases v with
  | bool b => cases b <;> simp [text] at ht
  | int b i => exact absurd ht (formatInt_ne_nil i)
  | uint b n => exact absurd ht (format_ne_nil n)
  | float b x => exact absurd ht h.2.1
  | str s => simp only [text] at ht; rw [ht]
  | slice l => exact h.elim
  | other => exact h.elim

/-- A row that can be read back: it has `n` columns of sound values, is not a lone empty text, and
does not begin with the comment character. -/
structure Good (ff : Nat → Fl → List Char) (pf : Nat → List Char → Option Fl) (d : Dialect) (n : Nat)
    (row : List (Val Fl)) : Prop where
  len : row.length = n
  sound : ∀ v ∈ row, Sound ff pf v
  lone : row ≠ [.str []]
  comment : ∀ c, d.comment = some c → ∀ v, row.head? = some v → (text ff v).head? ≠ some c

theorem Good.visible {n : Nat} (hn : 0 < n) {row : List (Val Fl)} (h : Good ff pf d n row) :
    Visible d (row.map (text ff)) := by
  refine ⟨?_, ?_, ?_⟩
  · intro h'
    have := congrArg List.length h'
    rw [List.length_map, h.len] at this
    simp at this; omega
  · intro h'
    match row, h with
    | [v], h =>
      simp only [List.map_cons, List.map_nil, List.cons.injEq, and_true] at h'
      exact h.lone (by rw [text_nil (h.sound v (by simp)) h'])
    | [], h => simp at h'
    | _ :: _ :: _, h => simp at h'
  · intro c hc g gs h'
    match row, h with
    | [], h => simp at h'
    | v :: row, h =>
      simp only [List.map_cons, List.cons.injEq] at h'
      exact h.comment c hc v rfl (by rw [h'.1]; rfl)

/-! ### Files -/

/-- The characters of well-formed rows. -/
def rowsText (ff : Nat → Fl → List Char) (sp : Char → Bool) (d : Dialect) (rows : List (List (Val Fl))) :
    List Char := rows.flatMap fun r => encRec sp d.comma (r.map (text ff))

/-- No header after a row. -/
def HeadersFirst : List (WOp Fl) → Prop
  | [] => True
  | .row _ :: ops => ∀ h, WOp.header h ∉ ops
  | _ :: ops => HeadersFirst ops

/-- The text a call stands for. -/
def opText (ff : Nat → Fl → List Char) (sp : Char → Bool) (d : Dialect) : WOp Fl → List Char
  | .header h => headerBytes h
  | .row args => (rowBytes ff sp d args).getD []
  | _ => []

theorem wrun_rows (ops : List (WOp Fl)) (hno : ∀ h, WOp.header h ∉ ops) (w : Wr) :
    (wrun ff sp d w ops).file ++ (wrun ff sp d w ops).pend =
      w.file ++ w.pend ++ ops.flatMap (opText ff sp d) := by
  induction ops generalizing w with
  | nil => simp [wrun]
  | cons op ops ih =>
    have ih := ih (fun h hh => hno h (List.mem_cons_of_mem _ hh)) (wstep ff sp d w op)
    simp only [wrun, List.foldl_cons, List.flatMap_cons] at ih ⊢
    rw [ih]
    cases op with
    | header h => exact absurd (List.mem_cons_self) (hno h)
    | row args =>
      cases hr : rowBytes ff sp d args <;> simp [wstep, opText, hr]
    | flush k => simp only [wstep, opText, List.append_assoc, List.nil_append, List.take_append_drop]
    | close => simp [wstep, opText]

theorem wrun_headers (ops : List (WOp Fl)) (hf : HeadersFirst ops) (w : Wr) (hp : w.pend = []) :
    (wrun ff sp d w ops).file ++ (wrun ff sp d w ops).pend = w.file ++ ops.flatMap (opText ff sp d) := by
  induction ops generalizing w with
  | nil => simp [wrun, hp]
  | cons op ops ih =>
    cases op with
    | row args =>
      have := wrun_rows (ff := ff) (d := d) sp (.row args :: ops) (by
        intro h hh
        rcases List.mem_cons.mp hh with hh | hh
        · cases hh
        · exact hf h hh) w
      rw [this, hp, List.append_nil]
    | header h =>
      have := ih hf (wstep ff sp d w (.header h)) hp
      simp only [wrun, List.foldl_cons, List.flatMap_cons] at this ⊢
      rw [this]; simp [wstep, opText]
    | flush k =>
      have := ih hf (wstep ff sp d w (.flush k)) (by simp [wstep, hp])
      simp only [wrun, List.foldl_cons, List.flatMap_cons] at this ⊢
      rw [this]; simp [wstep, opText, hp]
    | close =>
      have := ih hf (wstep ff sp d w .close) (by simp [wstep])
      simp only [wrun, List.foldl_cons, List.flatMap_cons] at this ⊢
      rw [this]; simp [wstep, opText, hp]

/-- **C108.** Headers before rows: whenever the buffer is written out, the file of a table holds, once it
is closed, what it held when it was opened followed by headers and rows in the order of the calls. -/
theorem C108_order_partial (ops : List (WOp Fl)) (hf : HeadersFirst ops) (file : List Char) :
    (wrun ff sp d (appendTo file) (ops ++ [.close])).file = file ++ ops.flatMap (opText ff sp d) := by
  have := wrun_headers (ff := ff) (d := d) sp ops hf (appendTo file) rfl
  simp only [wrun, List.foldl_append, List.foldl_cons, List.foldl_nil, wstep] at this ⊢
  exact this

theorem rowBytes_good (hd : d.Valid) {n : Nat} (hn : 0 < n) {row : List (Val Fl)} (h : Good ff pf d n row) :
    rowBytes ff sp d row = some (encRec sp d.comma (row.map (text ff))) := by
  have := fieldsOf_sound h.sound
  match row, h with
  | [], h => exact absurd h.len (by simp; omega)
  | v :: row, h => simp only [rowBytes, this, hd.1, if_true]

theorem noHeader_rows (rows : List (List (Val Fl))) : ∀ h, WOp.header h ∉ rows.map WOp.row := by
  intro h hh
  obtain ⟨r, _, hr⟩ := List.mem_map.mp hh
  cases hr

theorem opText_rows (hd : d.Valid) {n : Nat} (hn : 0 < n) (rows : List (List (Val Fl)))
    (h : ∀ r ∈ rows, Good ff pf d n r) :
    (rows.map WOp.row).flatMap (opText ff sp d) = rowsText ff sp d rows := by
  induction rows with
  | nil => rfl
  | cons r rows ih =>
    simp only [List.map_cons, List.flatMap_cons, rowsText] at ih ⊢
    rw [ih (fun r hr => h r (List.mem_cons_of_mem _ hr)), opText, rowBytes_good sp hd hn (h r (by simp))]
    rfl

theorem headersFirst_of_no (ops : List (WOp Fl)) (h : ∀ x, WOp.header x ∉ ops) : HeadersFirst ops := by
  induction ops with
  | nil => trivial
  | cons op ops ih =>
    have h' : ∀ x, WOp.header x ∉ ops := fun x hx => h x (List.mem_cons_of_mem _ hx)
    cases op with
    | row a => exact h'
    | header x => exact ih h'
    | flush k => exact ih h'
    | close => exact ih h'

/-! ### Appending -/

theorem run_append (hd : d.Valid) (b : List Char) (a : List Char) (ha : a.getLast? = some '\n') (st : St)
    (acc : List Char) (done : List (List Char)) :
    match run d st acc done a with
    | .recd fs rest => run d st acc done (a ++ b) = .recd fs (rest ++ b) ∧
        (rest = [] ∨ rest.getLast? = some '\n')
    | .eof => run d st acc done (a ++ b) = run d .line [] [] b
    | .err _ _ => True := by
  obtain ⟨c1, c2, c3⟩ := valid_comma hd
  induction a generalizing st acc done with
  | nil => simp at ha
  | cons c l ih =>
    cases l with
    | nil =>
      simp only [List.getLast?_singleton, Option.some.injEq] at ha
      subst ha
      cases st <;> simp [run, step, startStep, plainStep, c3.symm, atEOF]
    | cons c' l =>
      have ha' : (c' :: l).getLast? = some '\n' := by simpa [List.getLast?_cons_cons] using ha
      rw [run, List.cons_append, run]
      cases hs : step d st acc done c with
      | go st' acc' done' => exact ih ha' st' acc' done'
      | emit fs => exact ⟨rfl, .inr ha'⟩
      | fail fs => trivial

theorem delivers_congr {r r' : Rd} (h : r.read d = r'.read d) (l : List (List (List Char)))
    (hl : Delivers d r' l) : Delivers d r l := by
  cases l with
  | nil => simp only [Delivers] at hl ⊢; rw [h]; exact hl
  | cons fs l => obtain ⟨q, h1, h2⟩ := hl; exact ⟨q, h.trans h1, h2⟩

theorem delivers_append (hd : d.Valid) {n : Nat} {a b : List Char} (ha : a = [] ∨ a.getLast? = some '\n')
    (recs more : List (List (List Char))) (hl : ∀ fs ∈ recs, fs.length = n) (fpr : Int)
    (hf : fpr = 0 ∨ fpr = n) (hr : Delivers d ⟨a, fpr⟩ recs)
    (hm : ∀ f : Int, f = 0 ∨ f = n → Delivers d ⟨b, f⟩ more) : Delivers d ⟨a ++ b, fpr⟩ (recs ++ more) := by
  induction recs generalizing a fpr with
  | nil =>
    have hrun : run d .line [] [] a = .eof := by
      have := hr
      simp only [Delivers, Rd.read] at this
      cases h : run d .line [] [] a with
      | eof => rfl
      | err fs rest => rw [h] at this; simp at this
      | recd fs rest => rw [h] at this; simp only at this; split at this <;> simp at this
    refine delivers_congr ?_ more (hm fpr hf)
    rcases ha with rfl | ha
    · rfl
    · have := run_append hd b a ha .line [] []
      rw [hrun] at this
      simp only [Rd.read, this]
  | cons fs recs ih =>
    obtain ⟨⟨rest, f'⟩, hr1, hr2⟩ := hr
    have hn := hl fs (by simp)
    rcases ha with rfl | ha
    · simp [Rd.read, run, atEOF] at hr1
    · have hap := run_append hd b a ha .line [] []
      simp only [Rd.read] at hr1
      cases h : run d .line [] [] a with
      | eof => rw [h] at hr1; simp at hr1
      | err fs rest => rw [h] at hr1; simp at hr1
      | recd gs rest' =>
        rw [h] at hr1 hap
        simp only at hr1 hap
        split at hr1
        · simp at hr1
        · rename_i hcond
          simp only [Prod.mk.injEq, true_and, Rd.mk.injEq] at hr1
          obtain ⟨rfl, rfl, hf'⟩ := hr1
          have hf'' : f' = 0 ∨ f' = n := by
            rw [← hf']
            split
            · right; rw [hn]
            · exact hf
          refine ⟨⟨rest' ++ b, f'⟩, ?_, ih hap.2 (fun fs hfs => hl fs (List.mem_cons_of_mem _ hfs)) f' hf'' hr2⟩
          simp only [Rd.read, hap.1]
          rw [if_neg hcond, hf']

theorem crlf_append (a b : List Char) (ha : a = [] ∨ a.getLast? = some '\n') :
    crlf (a ++ b) = crlf a ++ crlf b ∧ (a = [] ∨ (crlf a).getLast? = some '\n') := by
  induction a using crlf.induct with
  | case1 => exact ⟨rfl, .inl rfl⟩
  | case2 => rcases ha with ha | ha <;> simp at ha
  | case3 l ih =>
    have hl : l = [] ∨ l.getLast? = some '\n' := by
      cases l with
      | nil => exact .inl rfl
      | cons c l => right; simpa [List.getLast?_cons_cons] using ha
    obtain ⟨h1, h2⟩ := ih hl
    refine ⟨by simp [crlf, h1], .inr ?_⟩
    simp only [crlf]
    rcases h2 with rfl | h2
    · rfl
    · rw [List.getLast?_cons, h2]; rfl
  | case4 c l h1 h2 ih =>
    have hl : l = [] ∨ l.getLast? = some '\n' := by
      cases l with
      | nil => exact .inl rfl
      | cons c l => right; simpa [List.getLast?_cons_cons] using ha
    have hnr : ∀ m, crlf (c :: l ++ m) = c :: crlf (l ++ m) := by
      intro m
      by_cases hc : c = '\r'
      · subst hc
        cases l with
        | nil => exact absurd rfl (h1 rfl)
        | cons x l =>
          exact crlf_cr (fun hx => h2 l rfl (by rw [hx]))
      · exact crlf_cons hc
    obtain ⟨i1, i2⟩ := ih hl
    have hnil := hnr []
    rw [List.append_nil, List.append_nil] at hnil
    refine ⟨by rw [hnr, hnil, i1]; rfl, .inr ?_⟩
    rw [hnil]
    rcases i2 with rfl | i2
    · simpa [crlf] using ha
    · rw [List.getLast?_cons, i2]; rfl

/-- The file of a table: records and a last newline. -/
def Whole (file : List Char) : Prop := file = [] ∨ file.getLast? = some '\n'

theorem delivers_open (hd : d.Valid) {n : Nat} (hn : 0 < n) (file : List Char) (hw : Whole file)
    (old : List (List (List Char))) (ho : Delivers d (openFile file) old) (hl : ∀ fs ∈ old, fs.length = n)
    (rows : List (List (Val Fl))) (h : ∀ r ∈ rows, Good ff pf d n r) :
    Delivers d (openFile (file ++ rowsText ff sp d rows)) (old ++ rows.map (List.map (text ff))) := by
  have hc := crlf_append file (rowsText ff sp d rows) hw
  have hrows : rowsText ff sp d rows = (rows.map (List.map (text ff))).flatMap (encRec sp d.comma) := by
    rw [rowsText, List.flatMap_map]
  have hcr : crlf (rowsText ff sp d rows) = rowsText ff sp d rows := by
    have := crlf_recs sp (valid_comma hd).2.1 (rows.map (List.map (text ff))) (by
      intro fs hfs f hf
      obtain ⟨r, hr, rfl⟩ := List.mem_map.mp hfs
      obtain ⟨v, hv, rfl⟩ := List.mem_map.mp hf
      exact text_noCRLF ((h r hr).sound v hv)) []
    simpa [hrows, crlf] using this
  have hwhole : crlf file = [] ∨ (crlf file).getLast? = some '\n' := by
    rcases hc.2 with rfl | h
    · exact .inl rfl
    · exact .inr h
  rw [openFile, hc.1, hcr]
  refine delivers_append hd hwhole old _ hl 0 (.inl rfl) ho ?_
  intro f hf
  have := delivers_written sp hd n (rows.map (List.map (text ff))) (by
      intro fs hfs
      obtain ⟨r, hr, rfl⟩ := List.mem_map.mp hfs
      rw [List.length_map, (h r hr).len]) (by
      intro fs hfs
      obtain ⟨r, hr, rfl⟩ := List.mem_map.mp hfs
      exact (h r hr).visible hn) f hf [] [] (by
      intro f' _
      simp [Delivers, Rd.read, run, atEOF])
  simpa [hrows] using this

theorem all_seen {n : Nat} {dest : List (Val Fl)} (rows : List (List (Val Fl)))
    (h : ∀ r ∈ rows, Good ff pf d n r) (hdest : ∀ r ∈ rows, SameTypes dest r) :
    (∀ fs ∈ rows.map (List.map (text ff)), (scanAll pf fs dest).2 = true) ∧
    (rows.map (List.map (text ff))).map (seen pf dest) = rows.map fun r => (r.map (text ff), r, true) := by
  constructor
  · intro fs hfs
    obtain ⟨r, hr, rfl⟩ := List.mem_map.mp hfs
    rw [scanAll_sound (h r hr).sound (hdest r hr)]
  · rw [List.map_map]
    apply List.map_congr_left
    intro r hr
    simp only [Function.comp, seen]
    rw [scanAll_sound (h r hr).sound (hdest r hr)]

theorem upTo_all {T : Type} (ok : T → Bool) (l : List T) (h : ∀ x ∈ l, ok x = true) : upTo ok l = l := by
  induction l with
  | nil => rfl
  | cons x l ih => simp [upTo, h x (by simp), ih (fun y hy => h y (List.mem_cons_of_mem _ hy))]

/-- The rows given to `WriteRow`. -/
def rowOf : WOp Fl → Option (List (Val Fl))
  | .row r => some r
  | _ => none

/-- **C106.** Rows written to a table and read back: a table is created, given rows by `WriteRow` (the
buffer being written out at any moments) and closed; the file is opened and the loop over all of its
rows, scanning into values of the types that were written, sees the same rows in the same order, with
the same values, and ends with `io.EOF`. -/
theorem C106_rows_roundtrip_partial (hd : d.Valid) {n : Nat} (hn : 0 < n) (ops : List (WOp Fl))
    (rows : List (List (Val Fl))) (h : ∀ r ∈ rows, Good ff pf d n r)
    (hops : ops.filterMap rowOf = rows)
    (hhdr : ∀ x, WOp.header x ∉ ops) {dest : List (Val Fl)} (hdest : ∀ r ∈ rows, SameTypes dest r)
    (hne : dest ≠ []) (hmax : (rows.length : Int) < maxInt64) :
    ∃ s, readRows d (openFile (wrun ff sp d create (ops ++ [.close])).file) 0 (-1) = (s.rd, .ok s) ∧
    ∀ fuel, rows.length < fuel → ∃ t,
      loop d pf dest fuel s = some (rows.map (fun r => (r.map (text ff), r, true)), t) ∧
      t.err = some (.read .eof) := by
  have hfile : (wrun ff sp d create (ops ++ [.close])).file = rowsText ff sp d rows := by
    have h1 := C108_order_partial (ff := ff) (d := d) sp ops (headersFirst_of_no ops hhdr) []
    have h2 : ops.flatMap (opText ff sp d) = rowsText ff sp d rows := by
      clear h1 hmax hdest
      induction ops generalizing rows with
      | nil => simp only [List.filterMap_nil] at hops; subst hops; rfl
      | cons op ops ih =>
        have hh : ∀ x, WOp.header x ∉ ops := fun x hx => hhdr x (List.mem_cons_of_mem _ hx)
        cases op with
        | header x => exact absurd List.mem_cons_self (hhdr x)
        | row a =>
          rw [List.filterMap_cons_some (by rfl)] at hops
          subst hops
          have := ih _ (fun r hr => h r (List.mem_cons_of_mem _ hr)) rfl hh
          simp only [List.flatMap_cons, this, rowsText, opText]
          rw [rowBytes_good sp hd hn (h a (by simp))]
          rfl
        | flush k =>
          rw [List.filterMap_cons_none (by rfl)] at hops
          simpa [opText] using ih rows h hops hh
        | close =>
          rw [List.filterMap_cons_none (by rfl)] at hops
          simpa [opText] using ih rows h hops hh
    rw [← h2, ← List.nil_append (ops.flatMap _)]
    exact h1
  have hdel := delivers_open sp hd hn [] (.inl rfl) [] (by simp [Delivers, openFile, crlf, Rd.read, run, atEOF])
    (by simp) rows h
  rw [List.nil_append, List.nil_append] at hdel
  obtain ⟨s, hs, hloop⟩ := C107_rows_partial pf hne _ _ hdel 0 (-1) (by decide) (by simp) (.inl rfl)
    (by simpa using hmax)
  refine ⟨s, by rw [hfile]; exact hs, ?_⟩
  intro fuel hf
  obtain ⟨t, ht, ht'⟩ := hloop fuel (by simpa using hf)
  obtain ⟨a1, a2⟩ := all_seen rows h hdest
  have hw : window (rows.map (List.map (text ff))) 0 (-1) = rows.map (List.map (text ff)) := by simp [window]
  rw [hw] at ht ht'
  rw [upTo_all _ _ a1, a2] at ht
  rw [if_pos (List.all_eq_true.mpr a1)] at ht'
  exact ⟨t, ht, by simpa using ht'.1⟩

/-- **C108.** A table opened for appending keeps the records of its file: closed and read back, it
delivers the old records followed by the new rows. -/
theorem C108_append_partial (hd : d.Valid) {n : Nat} (hn : 0 < n) (file : List Char) (hw : Whole file)
    (old : List (List (List Char))) (ho : Delivers d (openFile file) old) (hl : ∀ fs ∈ old, fs.length = n)
    (rows : List (List (Val Fl))) (h : ∀ r ∈ rows, Good ff pf d n r) :
    Delivers d (openFile (wrun ff sp d (appendTo file) (rows.map .row ++ [.close])).file)
      (old ++ rows.map (List.map (text ff))) := by
  rw [C108_order_partial sp _ (headersFirst_of_no _ (noHeader_rows rows)) file, opText_rows sp hd hn rows h]
  exact delivers_open sp hd hn file hw old ho hl rows h

end rows

/-! ### What does not hold -/

/-- Numbers play no role in the counterexamples. -/
def ff0 : Nat → Unit → List Char := fun _ _ => ['0']
def pf0 : Nat → List Char → Option Unit := fun _ _ => some ()
/-- The spaces of ASCII. -/
def sp0 (c : Char) : Bool := c == ' ' || c == '\t' || c == '\n' || c == '\r'
/-- The default dialect. -/
def d0 : Dialect := ⟨',', none⟩

theorem d0_valid : d0.Valid := ⟨by decide, by intro c h; cases h⟩

/-- The loop over a file whose rows are scanned into one text: the fields of the rows it sees and what
`Err` returns. -/
def fieldsSeen (d : Dialect) (file : List Char) (beg stop : Int) : Option (List (List (List Char)) × Option Err) :=
  match (readRows d (openFile file) beg stop).2 with
  | .ok s => (loop d pf0 [.str []] 20 s).map fun r => (r.1.map (·.1), r.2.err)
  | .error _ => none

/-- The file of a table after these calls. -/
def fileOf (d : Dialect) (ops : List (WOp Unit)) : List Char := (wrun ff0 sp0 d create (ops ++ [.close])).file

/-- A row made of one empty text is lost. -/
theorem C106_lone_empty_counterexample :
    fieldsSeen d0 (fileOf d0 [.row [.str []], .row [.str ['a']]]) 0 (-1) =
      some ([[['a']]], some (.read .eof)) := by decide +kernel

/-- A carriage return followed by a line feed loses the former. -/
theorem C106_crlf_counterexample :
    fieldsSeen d0 (fileOf d0 [.row [.str ['a', '\r', '\n', 'b']]]) 0 (-1) =
      some ([[['a', '\n', 'b']]], some (.read .eof)) := by decide +kernel

/-- A row beginning with the comment character set on the reader is lost. -/
theorem C106_comment_counterexample :
    fieldsSeen ⟨',', some '#'⟩ (fileOf d0 [.row [.str ['#', '1']], .row [.str ['a']]]) 0 (-1) =
      some ([[['a']]], some (.read .eof)) := by decide +kernel

/-- A slice is written but cannot be read back. -/
theorem C106_slice_counterexample :
    (rowBytes ff0 sp0 d0 [.slice [.int 64 1, .int 64 2]]).isSome = true ∧
    ∀ (fs : List Char) (l : List (Val Unit)), scanOne pf0 fs (.slice l) = none := ⟨by decide +kernel, fun _ _ => rfl⟩

/-- Destinations beyond the columns of a row silently keep the values they had. -/
theorem C106_missing_column_counterexample :
    scanAll pf0 [['1']] [.int 64 0, .int 64 7] = ([.int 64 1, .int 64 7], true) := by rfl

/-- Rows of different lengths are written without complaint; reading stops at the first one that differs. -/
theorem C106_columns_counterexample :
    fieldsSeen d0 (fileOf d0 [.row [.str ['a']], .row [.str ['b'], .str ['c']], .row [.str ['d']]]) 0 (-1) =
      some ([[['a']]], some (.read .fieldCount)) := by decide +kernel

/-- Five rows: `0`, `1`, `2`, `3`, `4`. -/
def five : List Char := ['0', '\n', '1', '\n', '2', '\n', '3', '\n', '4', '\n']

/-- The interval is counted from where the table is, not from the beginning of the file: asking twice
for the rows `[0, 2)` delivers the rows 2 and 3 the second time. -/
theorem C107_second_counterexample :
    ∃ s, (readRows d0 (openFile five) 0 2).2 = .ok s ∧
    ∃ out t, loop d0 pf0 [.str []] 20 s = some (out, t) ∧ out.map (·.1) = [[['0']], [['1']]] ∧
    ∃ s', (readRows d0 t.rd 0 2).2 = .ok s' ∧
    ∃ out' t', loop d0 pf0 [.str []] 20 s' = some (out', t') ∧ out'.map (·.1) = [[['2']], [['3']]] :=
  ⟨_, rfl, _, _, rfl, rfl, _, rfl, _, _, rfl, rfl⟩

/-- A negative first row asks for more rows than there are in the interval: `[-1, 2)` delivers three. -/
theorem C107_negative_counterexample :
    fieldsSeen d0 five (-1) 2 = some ([[['0']], [['1']], [['2']]], none) := by decide +kernel

/-- Reading all rows ends with an error, `io.EOF`, though nothing went wrong. -/
theorem C107_eof_counterexample :
    fieldsSeen d0 five 0 (-1) = some ([[['0']], [['1']], [['2']], [['3']], [['4']]], some (.read .eof)) := by
  decide +kernel

/-- A header written after rows comes before them in the file. -/
theorem C108_header_counterexample :
    fileOf d0 [.row [.str ['a']], .header ['h']] = ['h', '\n', 'a', '\n'] := by decide +kernel

/-- Appended to a file whose last line has no newline, the first row continues that line. -/
theorem C108_glue_counterexample :
    (wrun ff0 sp0 d0 (appendTo ['a']) [.row [.str ['b']], .close]).file = ['a', 'b', '\n'] := by decide +kernel

/-! ### Examples -/

/-- Rows with a delimiter, a quote, a line feed, an empty text and negative numbers meet the
hypotheses of C106. -/
def rows0 : List (List (Val Unit)) :=
  [[.int 32 (-7), .str ['a', ',', '"', '\n', 'b'], .bool true],
   [.int 32 2147483647, .str [], .bool false]]

theorem noCRLF_of_bool {f : List Char} (h : f.all (· != '\r') = true) : NoCRLF f := by
  refine digit_noCRLF fun c hc => ?_
  have := List.all_eq_true.mp h c hc
  simpa using this

theorem rows0_good : ∀ r ∈ rows0, Good ff0 pf0 d0 3 r := by
  intro r hr
  simp only [rows0, List.mem_cons, List.not_mem_nil, or_false] at hr
  rcases hr with rfl | rfl
  · refine ⟨rfl, ?_, by simp, by intro c h; cases h⟩
    intro v hv
    simp only [List.mem_cons, List.not_mem_nil, or_false] at hv
    rcases hv with rfl | rfl | rfl
    · exact ⟨by decide, by decide⟩
    · exact noCRLF_of_bool (by decide)
    · trivial
  · refine ⟨rfl, ?_, by simp, by intro c h; cases h⟩
    intro v hv
    simp only [List.mem_cons, List.not_mem_nil, or_false] at hv
    rcases hv with rfl | rfl | rfl
    · exact ⟨by decide, by decide⟩
    · exact noCRLF_of_bool (by decide)
    · trivial

example : fileOf d0 (rows0.map .row) =
    ['-', '7', ',', '"', 'a', ',', '"', '"', '\n', 'b', '"', ',', 't', 'r', 'u', 'e', '\n',
     '2', '1', '4', '7', '4', '8', '3', '6', '4', '7', ',', ',', 'f', 'a', 'l', 's', 'e', '\n'] := by decide +kernel

example : ∃ s, readRows d0 (openFile (fileOf d0 (rows0.map .row))) 0 (-1) = (s.rd, .ok s) ∧
    ∀ fuel, 2 < fuel → ∃ t,
      loop d0 pf0 [.int 32 0, .str [], .bool false] fuel s =
        some (rows0.map (fun r => (r.map (text ff0), r, true)), t) ∧ t.err = some (.read .eof) :=
  C106_rows_roundtrip_partial sp0 d0_valid (by decide) (rows0.map .row) rows0 rows0_good (by rfl)
    (noHeader_rows rows0) (by
      intro r hr
      simp only [rows0, List.mem_cons, List.not_mem_nil, or_false] at hr
      rcases hr with rfl | rfl <;> exact ⟨rfl, trivial, trivial, trivial⟩) (by simp) (by decide)

/-- The five rows are delivered; C107 for the rows 1 and 2. -/
theorem five_delivers : Delivers d0 (openFile five) [[['0']], [['1']], [['2']], [['3']], [['4']]] :=
  ⟨_, rfl, _, rfl, _, rfl, _, rfl, _, rfl, rfl⟩

example : ∃ s, readRows d0 (openFile five) 1 3 = (s.rd, .ok s) ∧ ∀ fuel, 5 < fuel → ∃ t,
    loop d0 pf0 [.int 64 0] fuel s = some ([([['1']], [.int 64 1], true), ([['2']], [.int 64 2], true)], t) ∧
    t.err = none ∧ Delivers d0 t.rd [[['3']], [['4']]] :=
  C107_rows_partial pf0 (by simp) _ _ five_delivers 1 3 (by decide) (by decide) (.inr (by decide)) (by decide)

example : (readRows d0 (openFile five) 6 9).2 = .error .eof := C107_beyond _ _ five_delivers 6 9 (by decide)

example : (wrun ff0 sp0 d0 (appendTo five)
    [.header ['#'], .flush 3, .row [.int 64 5], .flush 1, .row [.int 64 6], .close]).file =
    five ++ ['#', '\n', '5', '\n', '6', '\n'] :=
  C108_order_partial sp0 [.header ['#'], .flush 3, .row [.int 64 5], .flush 1, .row [.int 64 6]]
    (by simp [HeadersFirst]) five

example : Delivers d0 (openFile (wrun ff0 sp0 d0 (appendTo five) ([[.int 64 5]].map .row ++ [.close])).file)
    [[['0']], [['1']], [['2']], [['3']], [['4']], [['5']]] :=
  C108_append_partial (pf := pf0) sp0 d0_valid (n := 1) (by decide) five (.inr rfl) _ five_delivers (by decide)
    [[.int 64 5]] (by
      intro r hr
      simp only [List.mem_singleton] at hr
      subst hr
      refine ⟨rfl, ?_, by simp, by intro c h; cases h⟩
      intro v hv
      simp only [List.mem_singleton] at hv
      subst hv
      exact ⟨by decide, by decide⟩)

/-- **C107.** `Scan` succeeds exactly if every field that has a destination can be read as a value of
its type; then each destination holds the value of its field, and those without a field are untouched. -/
theorem C107_scan {Fl : Type} (pf : Nat → List Char → Option Fl) (fs : List (List Char)) (dest : List (Val Fl)) :
    (scanAll pf fs dest).1.length = dest.length ∧
    ((scanAll pf fs dest).2 = true ↔
      ∀ (i : Nat) s v, fs[i]? = some s → dest[i]? = some v → (scanOne pf s v).isSome = true) ∧
    ((scanAll pf fs dest).2 = true → ∀ (i : Nat) s v, fs[i]? = some s → dest[i]? = some v →
      (scanAll pf fs dest).1[i]? = scanOne pf s v) ∧
    ∀ i : Nat, fs.length ≤ i → (scanAll pf fs dest).1[i]? = dest[i]? := by
  induction fs generalizing dest with
  | nil => simp [scanAll]
  | cons f fs ih =>
    cases dest with
    | nil => simp [scanAll]
    | cons v dest =>
      obtain ⟨h1, h2, h3, h4⟩ := ih dest
      simp only [scanAll]
      cases hs : scanOne pf f v with
      | none =>
        refine ⟨rfl, ?_, (by intro h; cases h), fun _ _ => rfl⟩
        constructor
        · intro h
          cases h
        · intro h
          have := h 0 f v rfl rfl
          rw [hs] at this
          cases this
      | some w =>
        refine ⟨by simp [h1], ?_, ?_, ?_⟩
        · rw [h2]
          constructor
          · intro h i s u
            cases i with
            | zero =>
              intro e1 e2
              cases e1
              cases e2
              rw [hs]
              rfl
            | succ i => exact h i s u
          · intro h i s u
            exact h (i + 1) s u
        · intro h i s u
          cases i with
          | zero =>
            intro e1 e2
            cases e1
            cases e2
            rw [hs]
            rfl
          | succ i => exact h3 h i s u
        · intro i hi
          cases i with
          | zero => simp at hi
          | succ i => exact h4 i (by simpa using hi)

example : (scanAll pf0 [['1'], ['x']] [.int 64 0, .int 64 7, .str []]).2 ≠ true := by
  rw [Ne, (C107_scan pf0 _ _).2.1]
  intro h
  have := h 1 ['x'] (.int 64 7) rfl rfl
  revert this
  decide +kernel

/-- **C108.** The line of a header is the same whether the text given ends in a newline or not. -/
theorem C108_header_line (l : List Char) (h : l.getLast? ≠ some '\n') :
    headerBytes l = l ++ ['\n'] ∧ headerBytes (l ++ ['\n']) = l ++ ['\n'] := by
  simp [headerBytes, h]

example : headerBytes ['#', '\n'] = headerBytes ['#'] := by
  rw [(C108_header_line ['#'] (by decide)).1]
  exact (C108_header_line ['#'] (by decide)).2

end Verif.Csv
