import Verif.Hbook.YodaRead
import Verif.Hbook.YodaToy

/-!
# One-dimensional histograms as YODA texts

The statements speak of the histogram read back from the text of a histogram.  `rnd` is what a number
becomes when it is written with `%e` and read again, `cnt` what a number of entries becomes.
-/

namespace Verif.Hbook.Yoda
open Verif.Text Verif.Fscanf Verif.Strconv Verif.Hbook Verif.Hbook.Brio

section
variable {F V : Type} {env : Env F V} {rnd : F → F}

/-! ### The histogram -/

/-- What a distribution is after a round trip. -/
def Dist1D.round (rnd : F → F) (cnt : Int → Int) (d : Dist1D F) : Dist1D F :=
  { dist := { n := cnt d.dist.n, sumW := rnd d.dist.sumW, sumW2 := rnd d.dist.sumW2 },
    sumWX := rnd d.sumWX, sumWX2 := rnd d.sumWX2 }

/-- What a bin is after a round trip. -/
def Bin1D.round (rnd : F → F) (cnt : Int → Int) (b : Bin1D F) : Bin1D F :=
  { range := ⟨rnd b.range.lo, rnd b.range.hi⟩, dist := Dist1D.round rnd cnt b.dist }

theorem dist1_row [Zero F] (d : Dist1D F) :
    dist1 env ((row1 env d).map fun x => .flt (rnd x)) = Dist1D.round rnd (fun n => env.toInt (rnd (env.ofInt n))) d := rfl

theorem bin1_row [Zero F] (b : Bin1D F) :
    bin1 env ((rowB1 env b).map fun x => .flt (rnd x)) = Bin1D.round rnd (fun n => env.toInt (rnd (env.ofInt n))) b := rfl

theorem plain_H1D : Plain kH1D where
  fin := ⟨_, rfl⟩
  heads := by
    intro h hh
    simp only [kH1D, List.mem_cons, List.not_mem_nil, or_false] at hh
    rcases hh with rfl | rfl | rfl
    · exact ⟨_, _, rfl, .inl rfl⟩
    · exact ⟨_, _, rfl, .inr (.inl rfl)⟩
    · exact ⟨_, _, rfl, .inr (.inr rfl)⟩

/-- What is read from the table of a histogram. -/
theorem loop_table1 (hn : Numbers env rnd) (mean area : F) (b : Binning1D F) :
    loop env kH1D (table1 env mean area b ++ [kEnd ++ kH1D.tag ++ kV2, []]) ⟨[], []⟩ =
      .ok ⟨[(kTotal, (row1 env b.dist).map fun x => .flt (rnd x)), (kUnder, (row1 env b.under).map fun x => .flt (rnd x)),
        (kOver, (row1 env b.over).map fun x => .flt (rnd x))],
        b.bins.map fun x => (rowB1 env x).map fun x => .flt (rnd x)⟩ := by
  have hf : ∃ t, kH1D.fin = 'E' :: t := ⟨_, rfl⟩
  simp only [table1, List.cons_append, List.nil_append]
  rw [loop_comment _ _ _ rfl, loop_comment _ _ _ rfl, loop_comment _ _ _ rfl]
  rw [loop_total hn rfl hf (by simp [row1]) rfl]
  rw [loop_under hn rfl hf (by simp [row1]) rfl]
  rw [loop_over hn rfl hf (by simp [row1]) rfl]
  rw [loop_comment _ _ _ rfl]
  have hrows := loop_rows hn plain_H1D (b.bins.map (rowB1 env)) (by
    intro r hr
    obtain ⟨x, -, rfl⟩ := List.mem_map.mp hr
    rfl) (by decide) [kEnd ++ kH1D.tag ++ kV2, []]
    ⟨[(kTotal, (row1 env b.dist).map fun x => .flt (rnd x)), (kUnder, (row1 env b.under).map fun x => .flt (rnd x)),
        (kOver, (row1 env b.over).map fun x => .flt (rnd x))], []⟩ rfl
  rw [List.map_map, List.map_map] at hrows
  simp only [Function.comp_def, List.nil_append] at hrows
  rw [hrows]
  rw [loop_end _ _ _ (by decide +kernel) (by decide +kernel)]

theorem loFold_eq (l : List (Range F)) (m : F) : loFold env l m = (l.map (·.lo)).foldl env.min m := by
  induction l generalizing m with
  | nil => rfl
  | cons r l ih => simp [loFold, ih]

theorem hiFold_eq (l : List (Range F)) (m : F) : hiFold env l m = (l.map (·.hi)).foldl env.max m := by
  induction l generalizing m with
  | nil => rfl
  | cons r l ih => simp [hiFold, ih]

/-- A histogram written with `MarshalYODA` is read by `UnmarshalYODA`, into a histogram with annotations `old`: the
same bins in the same order, the same total, underflow and overflow, every number rounded to the digits written; the
range is that of the bins.  The name, the title and every other annotation are those of the histogram written; those
of the receiver that the histogram written did not have stay.

Partial: numbers of entries go through the notation of floating-point numbers too; the histogram has no annotation
named as one of the three that YODA uses, and no newline in its name. -/
theorem C131_roundtrip_partial [Zero F] (hn : Numbers env rnd) (mean area : F) (b : Binning1D F) (a old : Ann V) (ha : Free a)
    (hy : Yaml env (annToYODA env kH1D.ty a)) (hname : '\n' ∉ nameOf env a) :
    ∃ s, marshalH1D env mean area b a = some s ∧ ∃ b' a', unmarshalH1D env old s = .ok (.obj b' a') ∧
      (∀ cnt, cnt = (fun n => env.toInt (rnd (env.ofInt n))) →
        b'.bins = b.bins.map (Bin1D.round rnd cnt) ∧ b'.dist = Dist1D.round rnd cnt b.dist ∧
        b'.under = Dist1D.round rnd cnt b.under ∧ b'.over = Dist1D.round rnd cnt b.over) ∧
      b'.xrange.lo = (b.bins.map fun x => rnd x.range.lo).foldl env.min env.inf ∧
      b'.xrange.hi = (b.bins.map fun x => rnd x.range.hi).foldl env.max env.ninf ∧
      nameOf env a' = nameOf env a ∧ get a' kTitle = some ((get a kTitle).getD (env.str [])) ∧
      ∀ k, k ≠ kName → k ≠ kTitle → get a' k = (get a k).or (get old k) := by
  obtain ⟨s, hs, o, ho, hg⟩ := read_write (build1 env) old ha hy hname (k := kH1D) (m := [' ', 'M', 'e', 'a', 'n', ':'])
    (u := ' ' :: env.fmtE mean) rfl (by decide +kernel) (table := table1 env mean area b) rfl (by
      intro t ht
      have d1 := clean_head hn (h := kTotal) (by decide +kernel) (row1 env b.dist)
      have d2 := clean_head hn (h := kUnder) (by decide +kernel) (row1 env b.under)
      have d3 := clean_head hn (h := kOver) (by decide +kernel) (row1 env b.over)
      simp only [table1, List.cons_append, List.nil_append, List.mem_cons] at ht
      rcases ht with rfl | rfl | rfl | rfl | rfl | rfl | rfl | ht
      · exact clean_append (by decide +kernel) (clean_fmtE hn _)
      · exact clean_append (by decide +kernel) (clean_fmtE hn _)
      · decide +kernel
      · exact d1
      · exact d2
      · exact d3
      · decide +kernel
      · obtain ⟨x, -, rfl⟩ := List.mem_map.mp ht
        exact clean_row hn _) (loop_table1 hn mean area b) rfl
  refine ⟨s, hs, _, o, ho, ?_, ?_, ?_, ?_, ?_, ?_⟩
  · rintro cnt rfl
    refine ⟨?_, rfl, rfl, rfl⟩
    simp only [List.map_map]
    rfl
  · simp only [loFold_eq, List.map_map]
    rfl
  · simp only [hiFold_eq, List.map_map]
    rfl
  · simp only [nameOf, hg, annAfter, if_true, hy.str]
  · rw [hg, annAfter, if_neg (by decide), if_pos rfl]
  · intro k h1 h2
    rw [hg, annAfter, if_neg h1, if_neg h2]

/-! ### Exactly -/

/-- A histogram whose numbers have few digits and whose range is that of its bins comes back as it was (the numbers
being those that are not NaN). -/
theorem C131_exact [LinearOrder F] [Zero F] (hn : Numbers env rnd) (mean area : F) (b : Binning1D F) (a : Ann V) (ha : Free a)
    (hy : Yaml env (annToYODA env kH1D.ty a)) (hname : '\n' ∉ nameOf env a)
    (hmin : env.min = min) (hmax : env.max = max) (hinf : b.xrange.lo ≤ env.inf)
    (hninf : env.ninf ≤ b.xrange.hi)
    (hD : ∀ d, d = b.dist ∨ d = b.under ∨ d = b.over ∨ (∃ x ∈ b.bins, d = x.dist) →
      rnd d.dist.sumW = d.dist.sumW ∧ rnd d.dist.sumW2 = d.dist.sumW2 ∧ rnd d.sumWX = d.sumWX ∧ rnd d.sumWX2 = d.sumWX2 ∧
      env.toInt (rnd (env.ofInt d.dist.n)) = d.dist.n)
    (hE : ∀ x ∈ b.bins, rnd x.range.lo = x.range.lo ∧ rnd x.range.hi = x.range.hi ∧
      b.xrange.lo ≤ x.range.lo ∧ x.range.hi ≤ b.xrange.hi)
    (hlo : ∃ x ∈ b.bins, x.range.lo = b.xrange.lo) (hhi : ∃ x ∈ b.bins, x.range.hi = b.xrange.hi) :
    ∃ s, marshalH1D env mean area b a = some s ∧ ∃ a', unmarshalH1D env [] s = .ok (.obj b a') := by
  obtain ⟨s, hs, b', a', hr, hb, h1, h2, -⟩ := C131_roundtrip_partial hn mean area b a [] ha hy hname
  refine ⟨s, hs, a', ?_⟩
  obtain ⟨hb1, hb2, hb3, hb4⟩ := hb _ rfl
  have hround : ∀ d, d = b.dist ∨ d = b.under ∨ d = b.over ∨ (∃ x ∈ b.bins, d = x.dist) →
      Dist1D.round rnd (fun n => env.toInt (rnd (env.ofInt n))) d = d := by
    intro d hd
    obtain ⟨e1, e2, e3, e4, e5⟩ := hD d hd
    simp only [Dist1D.round, e1, e2, e3, e4, e5]
  have hbin : b'.bins = b.bins := by
    rw [hb1]
    conv_rhs => rw [← List.map_id b.bins]
    apply List.map_congr_left
    intro x hx
    obtain ⟨e1, e2, -⟩ := hE x hx
    simp only [Bin1D.round, hround x.dist (.inr (.inr (.inr ⟨x, hx, rfl⟩))), e1, e2, id]
  have fmin : ∀ (l : List F) (m : F), m ∈ l → (∀ y ∈ l, m ≤ y) → ∀ i, m ≤ i → l.foldl min i = m := by
    intro l
    induction l with
    | nil => intro m h; cases h
    | cons y l ih =>
      intro m hm hle i hi
      rw [List.foldl_cons]
      by_cases h : m ∈ l
      · exact ih m h (fun z hz => hle z (by simp [hz])) _ (le_min hi (hle y (by simp)))
      · have e : m = y := by rcases List.mem_cons.mp hm with e | e; exacts [e, absurd e h]
        subst e
        rw [min_eq_right hi]
        have : ∀ l : List F, (∀ z ∈ l, m ≤ z) → l.foldl min m = m := by
          intro l
          induction l with
          | nil => intro _; rfl
          | cons z l ih => intro hz; rw [List.foldl_cons, min_eq_left (hz z (by simp)), ih fun w hw => hz w (by simp [hw])]
        exact this l fun z hz => hle z (by simp [hz])
  have fmax : ∀ (l : List F) (m : F), m ∈ l → (∀ y ∈ l, y ≤ m) → ∀ i, i ≤ m → l.foldl max i = m := by
    intro l
    induction l with
    | nil => intro m h; cases h
    | cons y l ih =>
      intro m hm hle i hi
      rw [List.foldl_cons]
      by_cases h : m ∈ l
      · exact ih m h (fun z hz => hle z (by simp [hz])) _ (max_le hi (hle y (by simp)))
      · have e : m = y := by rcases List.mem_cons.mp hm with e | e; exacts [e, absurd e h]
        subst e
        rw [max_eq_right hi]
        have : ∀ l : List F, (∀ z ∈ l, z ≤ m) → l.foldl max m = m := by
          intro l
          induction l with
          | nil => intro _; rfl
          | cons z l ih => intro hz; rw [List.foldl_cons, max_eq_left (hz z (by simp)), ih fun w hw => hz w (by simp [hw])]
        exact this l fun z hz => hle z (by simp [hz])
  have elo : (b.bins.map fun x => rnd x.range.lo) = b.bins.map fun x => x.range.lo :=
    List.map_congr_left fun x hx => (hE x hx).1
  have ehi : (b.bins.map fun x => rnd x.range.hi) = b.bins.map fun x => x.range.hi :=
    List.map_congr_left fun x hx => (hE x hx).2.1
  have hxlo : b'.xrange.lo = b.xrange.lo := by
    rw [h1, elo, hmin]
    obtain ⟨x, hx, e⟩ := hlo
    refine fmin _ _ (by rw [← e]; exact List.mem_map_of_mem (f := fun x : Bin1D F => x.range.lo) hx) ?_ _ hinf
    intro y hy
    obtain ⟨z, hz, rfl⟩ := List.mem_map.mp hy
    exact (hE z hz).2.2.1
  have hxhi : b'.xrange.hi = b.xrange.hi := by
    rw [h2, ehi, hmax]
    obtain ⟨x, hx, e⟩ := hhi
    refine fmax _ _ (by rw [← e]; exact List.mem_map_of_mem (f := fun x : Bin1D F => x.range.hi) hx) ?_ _ hninf
    intro y hy
    obtain ⟨z, hz, rfl⟩ := List.mem_map.mp hy
    exact (hE z hz).2.2.2
  rw [hr]
  have : b' = b := by
    obtain ⟨x1, x2, x3, x4, ⟨x5, x6⟩⟩ := b'
    obtain ⟨y1, y2, y3, y4, ⟨y5, y6⟩⟩ := b
    simp only at hbin hb2 hb3 hb4 hxlo hxhi
    rw [hbin, hb2, hb3, hb4, hxlo, hxhi, hround _ (.inl rfl), hround _ (.inr (.inl rfl)), hround _ (.inr (.inr (.inl rfl)))]
  rw [this]

end

/-! ### Examples and what is missing -/

/-- Two bins, with an underflow. -/
def toyH1 : Binning1D Int where
  bins := [⟨⟨0, 10⟩, ⟨⟨2, 3, 5⟩, 14, 100⟩⟩, ⟨⟨10, 30⟩, ⟨⟨1, -2, 4⟩, -30, 450⟩⟩]
  dist := ⟨⟨4, 7, 45⟩, 0, 600⟩
  under := ⟨⟨1, 6, 36⟩, -6, 6⟩
  over := ⟨⟨0, 0, 0⟩, 0, 0⟩
  xrange := ⟨0, 30⟩

example : ∃ s, marshalH1D toy 0 1 toyH1 toyAnn = some s ∧ ∃ b' a', unmarshalH1D toy [] s = .ok (.obj b' a') ∧
    b'.dist.dist.n = 4 ∧ nameOf toy a' = ['h', '1'] := by
  obtain ⟨s, h1, b', a', h2, h3, -, -, h4, -⟩ := C131_roundtrip_partial toy_numbers 0 1 toyH1 toyAnn [] toy_free
    (toy_yaml _ (.inl rfl)) (by decide +kernel)
  refine ⟨s, h1, b', a', h2, ?_, by rw [h4]; decide +kernel⟩
  rw [(h3 _ rfl).2.1]
  decide +kernel

example : ∃ s, marshalH1D toy 0 1 toyH1 toyAnn = some s ∧ ∃ a', unmarshalH1D toy [] s = .ok (.obj toyH1 a') := by
  refine C131_exact toy_numbers 0 1 toyH1 toyAnn toy_free (toy_yaml _ (.inl rfl)) (by decide +kernel) rfl rfl
    (by decide) (by decide) ?_ ?_ ⟨_, List.mem_cons_self, rfl⟩ ⟨_, List.mem_cons_of_mem _ List.mem_cons_self, rfl⟩
  · intro d hd
    have h : d ∈ [toyH1.dist, toyH1.under, toyH1.over] ++ toyH1.bins.map (·.dist) := by
      rcases hd with h | h | h | ⟨x, hx, h⟩
      · simp [h]
      · simp [h]
      · simp [h]
      · rw [h]; exact List.mem_append_right _ (List.mem_map_of_mem (f := fun x : Bin1D Int => x.dist) hx)
    clear hd
    revert d
    decide +kernel
  · decide +kernel

/-- Seven digits are written of a number of entries too: a histogram with 12345678 entries is read back with
12345680. -/
theorem C131_entries_counterexample :
    ∃ s, marshalH1D toy 0 1 { toyH1 with dist := ⟨⟨12345678, 7, 45⟩, 0, 600⟩ } toyAnn = some s ∧
      ∃ b' a', unmarshalH1D toy [] s = .ok (.obj b' a') ∧ b'.dist.dist.n = 12345680 := by
  obtain ⟨s, h1, b', a', h2, h3, -⟩ := C131_roundtrip_partial toy_numbers 0 1
    { toyH1 with dist := ⟨⟨12345678, 7, 45⟩, 0, 600⟩ } toyAnn [] toy_free (toy_yaml _ (.inl rfl)) (by decide +kernel)
  refine ⟨s, h1, b', a', h2, ?_⟩
  rw [(h3 _ rfl).2.1]
  decide +kernel

/-- The name read back, when there is one. -/
def readName {F V : Type} (env : Env F V) {B : Type} : Out (Read B V) → Option (List Char)
  | .ok (.obj _ a) => some (nameOf env a)
  | _ => none

/-- An annotation called `Path` replaces the name: the histogram `h1` is read back as `x`. -/
theorem C131_path_counterexample :
    nameOf toy (toyAnn ++ [(kPathY, ['/', 'x'])]) = ['h', '1'] ∧
    ((marshalH1D toy 0 1 toyH1 (toyAnn ++ [(kPathY, ['/', 'x'])])).map fun s =>
      readName toy (unmarshalH1D toy [] s)) = some (some ['x']) := by
  constructor <;> decide +kernel

/-- A newline in the name cuts the header line: the text is not read back. -/
theorem C131_newline_counterexample :
    ((marshalH1D toy 0 1 toyH1 [(kName, ['h', '\n', '1'])]).map fun s => readName toy (unmarshalH1D toy [] s)) =
      some none := by
  decide +kernel

end Verif.Hbook.Yoda
