import Verif.Hbook.YodaArchive
import Verif.Hbook.YodaMoreEx
import Verif.Hbook.YodaS2DProps

/-!
# Archives of YODA texts: what is written is read
-/

namespace Verif.Hbook.Yoda
open Verif.Text Verif.Fscanf Verif.Strconv Verif.Hbook Verif.Hbook.Brio

/-- An object to be written. -/
inductive YObj (F V : Type) where
  | h1 (mean area : F) (b : Binning1D F) (a : Ann V)
  | h2 (xm ym vol : F) (b : Binning2D F) (a : Ann V)
  | p1 (b : BinningP1D F) (a : Ann V)
  | s2 (pts : List (Point2D F)) (a : Ann V)

/-- An object read. -/
inductive Got (F V : Type) where
  | h1 (r : Read (Binning1D F) V)
  | h2 (r : Read (Binning2D F) V)
  | p1 (r : Read (BinningP1D F) V)
  | s2 (r : Read (List (Point2D F)) V)

def outMap {A B : Type} (f : A → B) : Out A → Out B
  | .panic => .panic
  | .err => .err
  | .ok a => .ok (f a)

theorem outMap_ok {A B : Type} {f : A → B} {x : Out A} {b : B} (h : outMap f x = .ok b) : ∃ a, x = .ok a ∧ f a = b := by
  cases x with
  | panic => cases h
  | err => cases h
  | ok a => exact ⟨a, rfl, by simpa [outMap] using h⟩

section
variable {F V α : Type} (env : Env F V) (srt : List (Point2D F) → List (Point2D F)) [LinearOrder α] [GoFloat F α]
variable [Zero F] [One F] [Add F] [Sub F] [Neg F] [Mul F] [Div F] [NatCast F]

/-- The type of an object. -/
def YObj.which : YObj F V → Which
  | .h1 .. => .h1
  | .h2 .. => .h2
  | .p1 .. => .p1
  | .s2 .. => .s2

/-- The annotations of an object. -/
def YObj.ann : YObj F V → Ann V
  | .h1 _ _ _ a => a
  | .h2 _ _ _ _ a => a
  | .p1 _ a => a
  | .s2 _ a => a

def kindOf : Which → Kind
  | .h1 => kH1D
  | .h2 => kH2D
  | .p1 => kP1D
  | .s2 => kS2D

/-- `MarshalYODA` of an object. -/
def YObj.marshal : YObj F V → Option (List Char)
  | .h1 m ar b a => marshalH1D env m ar b a
  | .h2 xm ym vol b a => marshalH2D env xm ym vol b a
  | .p1 b a => marshalP1D env b a
  | .s2 pts a => (marshalS2D env srt pts a).map fun r => r.1

/-- `UnmarshalYODA` into a new value. -/
def unmarshal : Which → List Char → Out (Got F V)
  | .h1, s => outMap .h1 (unmarshalH1D env [] s)
  | .h2, s => outMap .h2 (unmarshalH2D (α := α) env [] s)
  | .p1, s => outMap .p1 (unmarshalP1D (α := α) env [] s)
  | .s2, s => outMap .s2 (unmarshalS2D env srt [] [] s)

end

/-- What is assumed of the annotations of an object: the YAML library writes lines, none of which looks like the
beginning or the end of a block, and the path has no line break. -/
structure QuietAnn {F V : Type} (env : Env F V) (k : Kind) (a : Ann V) : Prop where
  yaml : ∀ y, env.yenc (annToYODA env k.ty a) = some y → ∃ ls : List (List Char),
    y = ls.flatMap (· ++ ['\n']) ∧ ∀ t ∈ ls, Inner t
  path : ∀ p, get (annToYODA env k.ty a) kPathY = some p → CleanLine (env.fmtS p)

theorem find_type : ∀ w : Which, (typeNames.find? fun e => decide (e.1 = (kindOf w).tag ++ kV2)) =
    some ((kindOf w).tag ++ kV2, .typ w) := by
  intro w
  cases w <;> decide +kernel

theorem fin_line : ∀ w : Which, CleanLine (kEnd ++ (kindOf w).tag ++ kV2) ∧
    kBegin.isPrefixOf (kEnd ++ (kindOf w).tag ++ kV2) = false ∧ kEnd.isPrefixOf (kEnd ++ (kindOf w).tag ++ kV2) = true := by
  intro w
  cases w <;> decide +kernel

section
variable {F V : Type} {env : Env F V} {rnd : F → F}

/-- The lines of a text written. -/
theorem write_lines {w : Which} {a : Ann V} (hq : QuietAnn env (kindOf w) a) {table : List (List Char)}
    (ht : ∀ t ∈ table, Inner t) {s : List Char} (hs : write env (kindOf w) a table = some s) :
    ∃ hd body, s = (hd :: body ++ [kEnd ++ (kindOf w).tag ++ kV2, []]).flatMap (· ++ ['\n']) ∧ CleanLine hd ∧
      kBegin.isPrefixOf hd = true ∧ splitHeader hd = .typ w ∧ ∀ t ∈ body, Inner t := by
  simp only [write] at hs
  cases hy : env.yenc (annToYODA env (kindOf w).ty a) with
  | none => rw [hy] at hs; cases hs
  | some y =>
    cases hp : get (annToYODA env (kindOf w).ty a) kPathY with
    | none => rw [hy, hp] at hs; cases hs
    | some p =>
      rw [hy, hp] at hs
      simp only [Option.some.injEq] at hs
      obtain ⟨ls, rfl, hls⟩ := hq.yaml y hy
      refine ⟨kBegin ++ (kindOf w).tag ++ kV2 ++ ' ' :: env.fmtS p, ls ++ kDash :: table, ?_, ?_, ?_, ?_, ?_⟩
      · rw [← hs]
        simp [List.append_assoc]
      · have h1 : CleanLine (kBegin ++ (kindOf w).tag ++ kV2) := by cases w <;> decide +kernel
        exact clean_append h1 (clean_append (s := [' ']) (by decide +kernel) (hq.path p hp))
      · rw [List.isPrefixOf_iff_prefix, List.append_assoc, List.append_assoc]
        exact List.prefix_append _ _
      · have e : (kBegin ++ (kindOf w).tag ++ kV2 ++ ' ' :: env.fmtS p).drop kBegin.length =
            (kindOf w).tag ++ kV2 ++ ' ' :: env.fmtS p := by
          rw [List.append_assoc, List.append_assoc, List.drop_left, List.append_assoc]
        have hns : ' ' ∉ (kindOf w).tag ++ kV2 := by cases w <;> decide
        simp only [splitHeader, e, cut_one ' ' hns, find_type]
      · intro t h
        simp only [List.mem_append, List.mem_cons] at h
        rcases h with h | rfl | h
        · exact hls t h
        · decide +kernel
        · exact ht t h

theorem inner_row (hn : Numbers env rnd) {l : List F} (hl : l ≠ []) : Inner (rowText env l) := by
  obtain ⟨c, t, e, hc⟩ := rowText_cons hn hl
  have hne' : ∀ d : Char, d.isDigit = false → d ≠ '-' → d ≠ '+' → d ≠ 'N' → c ≠ d := by
    rintro d h1 h2 h3 h4 rfl
    rcases hc with h | h | h | h
    · rw [h] at h1; cases h1
    · exact h2 h
    · exact h3 h
    · exact h4 h
  have b1 := hne' 'B' (by decide) (by decide) (by decide) (by decide)
  have b2 := hne' 'E' (by decide) (by decide) (by decide) (by decide)
  refine ⟨clean_row hn l, ?_, ?_⟩
  · rw [e]
    simp [kBegin, List.isPrefixOf, b1.symm]
  · rw [e]
    simp [kEnd, List.isPrefixOf, b2.symm]

theorem inner_cons {c : Char} {t : List Char} (h : CleanLine (c :: t)) (h1 : c ≠ 'B') (h2 : c ≠ 'E') : Inner (c :: t) := by
  refine ⟨h, ?_, ?_⟩
  · simp [kBegin, List.isPrefixOf, h1.symm]
  · simp [kEnd, List.isPrefixOf, h2.symm]

end

section
variable {F V α : Type} {env : Env F V} {rnd : F → F} {srt : List (Point2D F) → List (Point2D F)} [LinearOrder α] [GoFloat F α]
variable [Zero F] [One F] [Add F] [Sub F] [Neg F] [Mul F] [Div F] [NatCast F]

omit [One F] in
/-- The text of an object is a block. -/
theorem marshal_block (hn : Numbers env rnd) (o : YObj F V) (hq : QuietAnn env (kindOf o.which) o.ann) {s : List Char}
    (hs : o.marshal env srt = some s) {r : Got F V} (hr : unmarshal (α := α) env srt o.which s = .ok r) :
    Block (unmarshal (α := α) env srt) o.which s r := by
  have finish : ∀ table, (∀ t ∈ table, Inner t) → write env (kindOf o.which) o.ann table = some s →
      (∀ t, unmarshal (α := α) env srt o.which (t ++ ['\n'] ++ ['\n']) = .ok r →
        unmarshal (α := α) env srt o.which (t ++ ['\n']) = .ok r) → Block (unmarshal (α := α) env srt) o.which s r := by
    intro table ht hw htrim
    obtain ⟨hd, body, e, c1, h1, h2, h3⟩ := write_lines hq ht hw
    have hf := fin_line o.which
    refine ⟨hd, body, _, e, c1, hf.1, h1, h2, h3, hf.2.1, hf.2.2, ?_⟩
    · have e1 : (hd :: body ++ [kEnd ++ (kindOf o.which).tag ++ kV2]).flatMap (· ++ ['\n']) =
          (hd :: body).flatMap (· ++ ['\n']) ++ (kEnd ++ (kindOf o.which).tag ++ kV2) ++ ['\n'] := by
        simp [List.append_assoc]
      have e2 : s = (hd :: body).flatMap (· ++ ['\n']) ++ (kEnd ++ (kindOf o.which).tag ++ kV2) ++ ['\n'] ++ ['\n'] := by
        rw [e]
        simp [List.append_assoc]
      rw [e1]
      rw [e2] at hr
      exact htrim _ hr
  cases o with
  | h1 m ar b a =>
    refine finish (table1 env m ar b) ?_ hs ?_
    · intro t ht
      have d1 := clean_head hn (h := kTotal) (by decide +kernel) (row1 env b.dist)
      have d2 := clean_head hn (h := kUnder) (by decide +kernel) (row1 env b.under)
      have d3 := clean_head hn (h := kOver) (by decide +kernel) (row1 env b.over)
      simp only [table1, List.cons_append, List.nil_append, List.mem_cons] at ht
      rcases ht with rfl | rfl | rfl | rfl | rfl | rfl | rfl | ht
      · exact inner_cons (clean_append (s := kMean) (by decide +kernel) (clean_fmtE hn _)) (by decide) (by decide)
      · exact inner_cons (clean_append (s := kArea) (by decide +kernel) (clean_fmtE hn _)) (by decide) (by decide)
      · decide +kernel
      · exact inner_cons d1 (by decide) (by decide)
      · exact inner_cons d2 (by decide) (by decide)
      · exact inner_cons d3 (by decide) (by decide)
      · decide +kernel
      · obtain ⟨x, -, rfl⟩ := List.mem_map.mp ht
        exact inner_row hn (by simp [rowB1])
    · intro t h
      obtain ⟨x, h1, h2⟩ := outMap_ok h
      have := read_trim (env := env) (k := kH1D) (by decide) (by decide) h1
      simp only [YObj.which, unmarshal, unmarshalH1D, this, outMap, h2]
  | h2 xm ym vol b a =>
    simp only [YObj.marshal, marshalH2D] at hs
    cases hw : walk2 b with
    | none => rw [hw] at hs; cases hs
    | some bins =>
      rw [hw] at hs
      refine finish (table2 env xm ym vol b.dist bins) ?_ hs ?_
      · intro t ht
        have d1 := clean_head hn (h := kTotal) (by decide +kernel) (row2 env b.dist)
        simp only [table2, List.cons_append, List.nil_append, List.mem_cons] at ht
        rcases ht with rfl | rfl | rfl | rfl | rfl | rfl | ht
        · exact inner_cons (clean_append (s := kMean) (by decide +kernel) (clean_append (s := ['(']) (by decide +kernel)
            (clean_append (clean_fmtE hn _) (clean_append (s := [',', ' ']) (by decide +kernel)
              (clean_append (clean_fmtE hn _) (by decide +kernel)))))) (by decide) (by decide)
        · exact inner_cons (clean_append (s := kVolume) (by decide +kernel) (clean_fmtE hn _)) (by decide) (by decide)
        · decide +kernel
        · exact inner_cons d1 (by decide) (by decide)
        · decide +kernel
        · decide +kernel
        · obtain ⟨x, -, rfl⟩ := List.mem_map.mp ht
          exact inner_row hn (by simp [rowB2])
      · intro t h
        obtain ⟨x, h1, h2⟩ := outMap_ok h
        have := read_trim (env := env) (k := kH2D) (by decide) (by decide) h1
        simp only [YObj.which, unmarshal, unmarshalH2D, this, outMap, h2]
  | p1 b a =>
    refine finish (tableP env b) ?_ hs ?_
    · intro t ht
      have d1 := clean_head hn (h := kTotal) (by decide +kernel) (rowP env b.dist)
      have d2 := clean_head hn (h := kUnder) (by decide +kernel) (rowP env b.under)
      have d3 := clean_head hn (h := kOver) (by decide +kernel) (rowP env b.over)
      simp only [tableP, List.cons_append, List.nil_append, List.mem_cons] at ht
      rcases ht with rfl | rfl | rfl | rfl | rfl | ht
      · decide +kernel
      · exact inner_cons d1 (by decide) (by decide)
      · exact inner_cons d2 (by decide) (by decide)
      · exact inner_cons d3 (by decide) (by decide)
      · decide +kernel
      · obtain ⟨x, -, rfl⟩ := List.mem_map.mp ht
        exact inner_row hn (by simp [rowBP])
    · intro t h
      obtain ⟨x, h1, h2⟩ := outMap_ok h
      have := read_trim (env := env) (k := kP1D) (by decide) (by decide) h1
      simp only [YObj.which, unmarshal, unmarshalP1D, this, outMap, h2]
  | s2 pts a =>
    simp only [YObj.marshal, marshalS2D, Option.map_map] at hs
    obtain ⟨s', hs', e⟩ := Option.map_eq_some_iff.mp hs
    simp only [Function.comp_def] at e
    subst e
    refine finish (tableS env (srt pts)) ?_ hs' ?_
    · intro t ht
      simp only [tableS, List.mem_cons] at ht
      rcases ht with rfl | ht
      · decide +kernel
      · obtain ⟨x, -, rfl⟩ := List.mem_map.mp ht
        exact inner_row hn (by simp [rowS])
    · intro t h
      obtain ⟨x, h1, h2⟩ := outMap_ok h
      have := readS_trim h1
      simp only [YObj.which, unmarshal, this, outMap, h2]

omit [One F] in
/-- Objects written to an archive are read from it one by one: as many objects, in the same order and of the same
types, each as its own `UnmarshalYODA` reads its own `MarshalYODA`; blocks of the types without a Go equivalent
(counters, and profiles and scatters of other dimensions), wherever they are, are left out. -/
theorem C135_archive (hn : Numbers env rnd) (parts : List (YObj F V ⊕ List Char)) (rs : List (List (Got F V)))
    (h : List.Forall₂ (fun p r => match p with
      | .inl o => QuietAnn env (kindOf o.which) o.ann ∧
          ∃ s g, YObj.marshal env srt o = some s ∧ unmarshal (α := α) env srt o.which s = .ok g ∧ r = [g]
      | .inr s => Skipped s ∧ r = []) parts rs) :
    ∃ data, writeArchive (parts.map fun p => match p with
        | .inl o => YObj.marshal env srt o
        | .inr s => some s) = some data ∧
      readArchive (unmarshal (α := α) env srt) data = .ok rs.flatten := by
  have key : ∃ l : List (List Char × List (Got F V)), (∀ x ∈ l, Part (unmarshal (α := α) env srt) x.1 x.2) ∧
      writeArchive (parts.map fun p => match p with
        | .inl o => YObj.marshal env srt o
        | .inr s => some s) = some (l.flatMap fun x => x.1) ∧ (l.flatMap fun x => x.2) = rs.flatten := by
    induction h with
    | nil => exact ⟨[], by simp, rfl, rfl⟩
    | @cons p r parts rs hx _ ih =>
      obtain ⟨l, h1, h2, h3⟩ := ih
      cases p with
      | inl o =>
        obtain ⟨hq, s, g, hs, hg, hr⟩ := hx
        refine ⟨(s, r) :: l, ?_, ?_, ?_⟩
        · intro x hx
          rcases List.mem_cons.mp hx with rfl | hx
          · exact .inl ⟨o.which, g, marshal_block hn o hq hs hg, hr⟩
          · exact h1 x hx
        · simp only [List.map_cons, hs, writeArchive, h2, Option.map_some, List.flatMap_cons]
        · simp [h3]
      | inr s =>
        obtain ⟨hsk, hr⟩ := hx
        refine ⟨(s, r) :: l, ?_, ?_, ?_⟩
        · intro x hx
          rcases List.mem_cons.mp hx with rfl | hx
          · exact .inr ⟨hsk, hr⟩
          · exact h1 x hx
        · simp only [List.map_cons, writeArchive, h2, Option.map_some, List.flatMap_cons]
        · simp [h3]
  obtain ⟨l, h1, h2, h3⟩ := key
  exact ⟨_, h2, by rw [readArchive_parts l h1, h3]⟩

end

/-! ### Examples and what is missing -/

theorem toy_quiet (w : Which) : QuietAnn toy (kindOf w) toyAnn where
  yaml := by
    intro y hy
    refine ⟨(annToYODA toy (kindOf w).ty toyAnn).map annLine, (Option.some.inj hy).symm, ?_⟩
    clear hy
    cases w <;> decide +kernel
  path := by
    intro p hp
    have e : get (annToYODA toy (kindOf w).ty toyAnn) kPathY = some ['/', 'h', '1'] := by cases w <;> decide +kernel
    rw [e] at hp
    rw [← Option.some.inj hp]
    decide +kernel

def kCounter : List Char := kBegin ++ ['C', 'O', 'U', 'N', 'T', 'E', 'R', '_', 'V', '2', ' ', '/', 'c']

/-- A counter. -/
def toyCounter : List Char :=
  (kCounter :: [kDash, ['1', '\t', '2']] ++ [kEnd ++ ['C', 'O', 'U', 'N', 'T', 'E', 'R', '_', 'V', '2'], []]).flatMap (· ++ ['\n'])

theorem toy_skipped : Skipped toyCounter :=
  ⟨kCounter, [kDash, ['1', '\t', '2']], _, rfl, by decide +kernel, by decide +kernel, by decide +kernel, by decide +kernel,
    by decide +kernel, by decide +kernel, by decide +kernel⟩

/-- A histogram, a counter and a scatter. -/
example : ∃ data, writeArchive [YObj.marshal toy sortS (.h1 0 1 toyH1 toyAnn), some toyCounter,
      YObj.marshal toy sortS (.s2 toyS2 toyAnn)] = some data ∧
    ∃ a1 a2, readArchive (unmarshal (α := WithBot (WithTop Int)) toy sortS) data =
      .ok [.h1 (.obj toyH1 a1), .s2 (.obj toyS2.reverse a2)] := by
  obtain ⟨s1, m1, a1, r1⟩ : ∃ s, marshalH1D toy 0 1 toyH1 toyAnn = some s ∧
      ∃ a', unmarshalH1D toy [] s = .ok (.obj toyH1 a') := by
    refine C131_exact toy_numbers 0 1 toyH1 toyAnn toy_free (toy_yaml _ (.inl rfl)) (by decide +kernel) rfl rfl
      (by decide) (by decide) ?_ ?_ ⟨_, List.mem_cons_self, rfl⟩ ⟨_, List.mem_cons_of_mem _ List.mem_cons_self, rfl⟩
    · intro d hd
      have h : d ∈ [toyH1.dist, toyH1.under, toyH1.over] ++ toyH1.bins.map (·.dist) := by
        rcases hd with h | h | h | ⟨x, hx, h⟩
        · simp [h]
        · simp [h]
        · simp [h]
        · rw [h]; exact List.mem_append_right _ (List.mem_map_of_mem (f := fun x : Bin1D Int => x.dist) hx)
      clear hd
      revert d
      decide +kernel
    · decide +kernel
  obtain ⟨s2, pts', m2, -, a2, r2⟩ := C134_exact toy_numbers sorts_sortS (by intro x y h; simpa [val] using h) toyS2 toyAnn toy_free
    (toy_yaml _ (.inr (.inr (.inr rfl)))) (by decide +kernel) (by decide +kernel) (by decide +kernel)
  have e : pts' = toyS2.reverse := by
    have h := C134_order_counterexample.1
    rw [m2] at h
    exact Option.some.inj h
  subst e
  obtain ⟨data, h1, h2⟩ := C135_archive (α := WithBot (WithTop Int)) (srt := sortS) toy_numbers
    [.inl (.h1 0 1 toyH1 toyAnn), .inr toyCounter, .inl (.s2 toyS2 toyAnn)]
    [[.h1 (.obj toyH1 a1)], [], [.s2 (.obj toyS2.reverse a2)]]
    (.cons ⟨toy_quiet .h1, s1, _, m1, by simp only [YObj.which, unmarshal, r1, outMap], rfl⟩
      (.cons ⟨toy_skipped, rfl⟩
        (.cons ⟨toy_quiet .s2, s2, _, by simp only [YObj.marshal, m2, Option.map_some],
          by simp only [YObj.which, unmarshal, r2, outMap], rfl⟩ .nil)))
  exact ⟨data, h1, a1, a2, h2⟩

/-- How many objects were read. -/
def countRead {O : Type} : Out (List O) → Option Nat
  | .ok l => some l.length
  | _ => none

def isPanic {O : Type} : Out O → Bool
  | .panic => true
  | _ => false

/-- The end of a block without its beginning, first in an archive, is a panic. -/
theorem C135_panic_counterexample :
    isPanic (readArchive (unmarshal (α := WithBot (WithTop Int)) toy sortS)
      (kEnd ++ ['H', 'I', 'S', 'T', 'O', '1', 'D', '_', 'V', '2', '\n'])) = true := by
  decide +kernel

/-- A counter whose end is missing takes the next histogram with it, without an error. -/
theorem C135_lost_counterexample :
    ((marshalH1D toy 0 1 toyH1 toyAnn).map fun s =>
      countRead (readArchive (unmarshal (α := WithBot (WithTop Int)) toy sortS) s)) = some (some 1) ∧
    ((marshalH1D toy 0 1 toyH1 toyAnn).map fun s =>
      countRead (readArchive (unmarshal (α := WithBot (WithTop Int)) toy sortS) (kCounter ++ '\n' :: s))) = some (some 0) := by
  constructor <;> decide +kernel

end Verif.Hbook.Yoda
