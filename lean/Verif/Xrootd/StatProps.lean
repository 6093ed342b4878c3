import Verif.Xrootd.Stat
import Verif.Xrootd.Enc

/-!
# Properties of stat information and directory listings (C42, C43)
-/

namespace Verif.Xrootd

theorem lineOf_append {l : Bytes} (h : ∀ b ∈ l, b ≠ 0 ∧ b ≠ 10) {post : Bytes}
    (hp : post = [] ∨ ∃ t, post = 0 :: t ∨ post = 10 :: t) : lineOf (l ++ post) = l := by
  induction l with
  | nil =>
    rcases hp with rfl | ⟨t, rfl | rfl⟩ <;> simp [lineOf]
  | cons b l ih =>
    have hb := h b (by simp)
    simp only [List.cons_append, lineOf]
    rw [if_neg (by simp [hb]), ih (fun c hc => h c (by simp [hc]))]

theorem intEnc_mem {z : Int} {b : UInt8} (h : b ∈ intEnc z) : b ≠ 0 ∧ b ≠ 10 ∧ b ≠ 32 := by
  refine ⟨?_, ?_, ?_⟩ <;> intro hb <;> subst hb <;>
    exact not_mem_intEnc (by decide) (by decide) z h

theorem atoi_toInt (v : BitVec 64) : atoi (intEnc v.toInt) = some v.toInt := by
  have h1 := BitVec.le_toInt v
  have h2 := BitVec.toInt_lt (x := v)
  exact atoi_intEnc _ (by omega) (by omega)

theorem atoi_toInt32 (v : BitVec 32) : atoi (intEnc v.toInt) = some v.toInt := by
  have h1 := BitVec.le_toInt v
  have h2 := BitVec.toInt_lt (x := v)
  exact atoi_intEnc _ (by omega) (by omega)

theorem not_space (z : Int) : 32 ∉ intEnc z := fun h => (intEnc_mem h).2.2 rfl

theorem marshal_line (e : EntryStat) : ∀ b ∈ e.marshal, b ≠ 0 ∧ b ≠ 10 := by
  intro b hb
  unfold EntryStat.marshal at hb
  split at hb
  · simp at hb
  · simp only [List.mem_append, List.mem_cons] at hb
    have sp : b = 32 → b ≠ 0 ∧ b ≠ 10 := by rintro rfl; decide
    have it : ∀ {z : Int}, b ∈ intEnc z → b ≠ 0 ∧ b ≠ 10 := fun h => ⟨(intEnc_mem h).1, (intEnc_mem h).2.1⟩
    rcases hb with h | h | h | h | h | h | h <;> first | exact it h | exact sp h

theorem fields_marshal (o e : EntryStat) (h : e.hasStat = true) :
    statFields o (splitOn 32 e.marshal) = .ok { e with name := o.name } := by
  unfold EntryStat.marshal
  rw [if_neg (by simp [h]), splitOn_append _ _ _ (not_space _), splitOn_append _ _ _ (not_space _),
    splitOn_append _ _ _ (not_space _), splitOn_no_sep _ _ (not_space _)]
  simp only [statFields, atoi_toInt, atoi_toInt32, BitVec.ofInt_toInt]
  rw [← h]

/-- C43: for every entry with stat information, unmarshalling what was marshalled, into any entry
`o` and followed by nothing, a NUL byte or a line feed, gives the same id, size, flags and
modification time, and leaves the name of `o`. -/
theorem C43_roundtrip (e o : EntryStat) (h : e.hasStat = true) (pre post : Bytes)
    (hp : post = [] ∨ ∃ t, post = 0 :: t ∨ post = 10 :: t) :
    ∃ r, dStatInfo o ⟨pre ++ (e.marshal ++ post), pre.length⟩ = .ok (⟨o.name, true, e.id, e.size, e.flags, e.mtime⟩, r) := by
  refine ⟨⟨pre ++ (e.marshal ++ post), min (pre ++ (e.marshal ++ post)).length (pre.length + e.marshal.length + 1)⟩, ?_⟩
  unfold dStatInfo rLine
  simp only
  rw [if_pos (by simp), List.drop_left' rfl, lineOf_append (marshal_line e) hp]
  simp only [fields_marshal o e h]
  rw [← h]

example : (dStatInfo (EntryStat.named [97])).run (EntryStat.marshal ⟨[], true, 7, -3, 0x80000010#32, -9223372036854775808⟩ ++ [0])
    = .ok ⟨[97], true, 7, -3, 0x80000010#32, -9223372036854775808⟩ := by decide +kernel

/-- C43 for the virtual file system information. -/
theorem C43_virtual (v : VirtualStat) (pre post : Bytes)
    (hp : post = [] ∨ ∃ t, post = 0 :: t ∨ post = 10 :: t) :
    ∃ r, dVirtual ⟨pre ++ (v.marshal ++ post), pre.length⟩ = .ok (v, r) := by
  have hl : ∀ b ∈ v.marshal, b ≠ 0 ∧ b ≠ 10 := by
    intro b hb
    simp only [VirtualStat.marshal, List.mem_append, List.mem_cons] at hb
    have sp : b = 32 → b ≠ 0 ∧ b ≠ 10 := by rintro rfl; decide
    have it : ∀ {z : Int}, b ∈ intEnc z → b ≠ 0 ∧ b ≠ 10 := fun h => ⟨(intEnc_mem h).1, (intEnc_mem h).2.1⟩
    rcases hb with h | h | h | h | h | h | h | h | h | h | h <;> first | exact it h | exact sp h
  refine ⟨⟨pre ++ (v.marshal ++ post), min (pre ++ (v.marshal ++ post)).length (pre.length + v.marshal.length + 1)⟩, ?_⟩
  unfold dVirtual rLine
  simp only
  rw [if_pos (by simp), List.drop_left' rfl, lineOf_append hl hp]
  have : virtualFields (splitOn 32 v.marshal) = .ok v := by
    unfold VirtualStat.marshal
    rw [splitOn_append _ _ _ (not_space _), splitOn_append _ _ _ (not_space _), splitOn_append _ _ _ (not_space _),
      splitOn_append _ _ _ (not_space _), splitOn_append _ _ _ (not_space _), splitOn_no_sep _ _ (not_space _)]
    simp only [virtualFields, atoi_toInt, BitVec.ofInt_toInt]
  simp only [this]

/-! ## C42 -/

theorem trimNul_append_nul (b : Bytes) : trimNul (b ++ [0]) = trimNul b := by
  simp [trimNul]

theorem trimNul_of_last {b : Bytes} (h : b.getLast? ≠ some 0) : trimNul b = b := by
  unfold trimNul
  cases hr : b.reverse with
  | nil => rw [List.reverse_eq_nil_iff] at hr; subst hr; rfl
  | cons c cs =>
    have hc : b.getLast? = some c := by
      rw [← List.head?_reverse, hr]; rfl
    rw [List.dropWhile_cons_of_neg (by rw [hc] at h; simpa using h), ← hr, List.reverse_reverse]

/-- What is written, without the final NUL byte: names, or names and stat information, in lines. -/
def linesOf (withStat : Bool) (es : List EntryStat) : List Bytes :=
  es.flatMap fun e => if withStat then [e.name, e.marshal] else [e.name]

theorem marshalEntries_eq (ws : Bool) : ∀ (es : List EntryStat), es ≠ [] →
    marshalEntries ws es = joinLines (linesOf ws es) ++ [0]
  | [], h => absurd rfl h
  | [e], _ => by cases ws <;> simp [marshalEntries, linesOf, joinLines]
  | e :: f :: es, _ => by
    have ih := marshalEntries_eq ws (f :: es) (by simp)
    have hne : ∃ a as, linesOf ws (f :: es) = a :: as := by
      cases ws <;> exact ⟨f.name, _, rfl⟩
    obtain ⟨a, as, ha⟩ := hne
    have hs : linesOf ws (e :: f :: es) = (if ws then [e.name, e.marshal] else [e.name]) ++ linesOf ws (f :: es) := rfl
    rw [marshalEntries, ih, hs, ha]
    cases ws <;> simp [joinLines]

theorem splitOn_join : ∀ (ps : List Bytes), ps ≠ [] → (∀ p ∈ ps, 10 ∉ p) → splitOn 10 (joinLines ps) = ps
  | [], h, _ => absurd rfl h
  | [p], _, h => splitOn_no_sep 10 p (h p (by simp))
  | p :: q :: ps, _, h => by
    show splitOn 10 (p ++ 10 :: joinLines (q :: ps)) = _
    rw [splitOn_append 10 p _ (h p (by simp)),
      splitOn_join (q :: ps) (by simp) (fun x hx => h x (by simp [hx]))]

theorem joinLines_getLast : ∀ (ps : List Bytes) (p : Bytes), ps.getLast? = some p → p ≠ [] →
    (joinLines ps).getLast? = p.getLast?
  | [], p, h, _ => by cases h
  | [q], p, h, _ => by cases h; rfl
  | q :: r :: ps, p, h, hp => by
    have ih := joinLines_getLast (r :: ps) p (by simpa using h) hp
    have hl : p.getLast? ≠ none := by simpa using hp
    show (q ++ 10 :: joinLines (r :: ps)).getLast? = _
    rw [List.getLast?_append, List.getLast?_cons, ih]
    cases hg : p.getLast? with
    | none => exact absurd hg hl
    | some c => simp

theorem linesOf_stat_getLast (es : List EntryStat) (e : EntryStat) :
    (linesOf true (e :: es)).getLast? = some ((e :: es).getLast (by simp)).marshal := by
  induction es generalizing e with
  | nil => rfl
  | cons f es ih =>
    have hs : linesOf true (e :: f :: es) = [e.name, e.marshal] ++ linesOf true (f :: es) := rfl
    rw [hs, List.getLast?_append, ih f]
    rfl

theorem run_statInfo (e : EntryStat) (h : e.hasStat = true) :
    (dStatInfo (EntryStat.named [])).run e.marshal = .ok { e with name := [] } := by
  obtain ⟨r, hr⟩ := C43_roundtrip e (EntryStat.named []) h [] [] (Or.inl rfl)
  simp only [List.nil_append, List.append_nil, List.length_nil] at hr
  unfold Rd.run
  rw [hr]
  simp only
  rw [← h]; rfl

theorem statLines_eq (es : List EntryStat) (h : ∀ e ∈ es, e.hasStat = true) : statLines (linesOf true es) = .ok es := by
  induction es with
  | nil => rfl
  | cons e es ih =>
    have hs : linesOf true (e :: es) = e.name :: e.marshal :: linesOf true es := rfl
    rw [hs]
    simp only [statLines, run_statInfo e (h e (by simp)), ih (fun f hf => h f (by simp [hf]))]

theorem marshal_ne_nil {e : EntryStat} (h : e.hasStat = true) : e.marshal ≠ [] := by
  unfold EntryStat.marshal
  rw [if_neg (by simp [h])]
  simp

theorem dotStat_eq : joinLines (linesOf true [dotEntry]) = dotStat := by decide +kernel

theorem length_linesOf (es : List EntryStat) : (linesOf true es).length = 2 * es.length := by
  induction es with
  | nil => rfl
  | cons e es ih =>
    have hs : linesOf true (e :: es) = e.name :: e.marshal :: linesOf true es := rfl
    rw [hs]; simp only [List.length_cons, ih]; omega

/-- C42: a listing with stat information whose names have no line feed is read back unchanged. -/
theorem C42_with_stat_partial (es : List EntryStat) (h : ∀ e ∈ es, e.hasStat = true) (hn : ∀ e ∈ es, 10 ∉ e.name) :
    ∃ b, marshalList true es = some b ∧ unmarshalList b = .ok (es, true) := by
  have hall : (dotEntry :: es).all (fun e => e.hasStat == true) = true := by
    simp only [List.all_eq_true]
    intro e he
    rcases List.mem_cons.mp he with rfl | he
    · rfl
    · simp [h e he]
  refine ⟨marshalEntries true (dotEntry :: es), ?_, ?_⟩
  · unfold marshalList
    rw [if_pos rfl]
    simp only
    rw [if_pos hall]
  · have hst : ∀ e ∈ dotEntry :: es, e.hasStat = true := by
      intro e he
      rcases List.mem_cons.mp he with rfl | he
      · rfl
      · exact h e he
    have hlast : ((dotEntry :: es).getLast (by simp)).hasStat = true := hst _ (List.getLast_mem _)
    have htrim : trimNul (marshalEntries true (dotEntry :: es)) = joinLines (linesOf true (dotEntry :: es)) := by
      rw [marshalEntries_eq true _ (by simp), trimNul_append_nul]
      apply trimNul_of_last
      rw [joinLines_getLast _ _ (linesOf_stat_getLast es dotEntry) (marshal_ne_nil hlast)]
      intro hc
      exact (marshal_line _ 0 (List.mem_of_getLast? hc)).1 rfl
    have hlines : splitOn 10 (joinLines (linesOf true (dotEntry :: es))) = linesOf true (dotEntry :: es) := by
      apply splitOn_join
      · exact List.cons_ne_nil _ _
      · intro p hp hc
        simp only [linesOf, List.mem_flatMap] at hp
        obtain ⟨e, he, hpe⟩ := hp
        simp only [if_true, List.mem_cons, List.not_mem_nil, or_false] at hpe
        rcases hpe with rfl | rfl
        · rcases List.mem_cons.mp he with rfl | he
          · exact absurd hc (by decide)
          · exact hn e he hc
        · exact (marshal_line _ 10 hc).2 rfl
    have hpre : (dotStat ++ [10]).isPrefixOf (joinLines (linesOf true (dotEntry :: es))) = true
        ∨ joinLines (linesOf true (dotEntry :: es)) = dotStat := by
      cases es with
      | nil => right; exact dotStat_eq
      | cons f es =>
        left
        rw [List.isPrefixOf_iff_prefix]
        have hs : linesOf true (dotEntry :: f :: es) = [46] :: dotEntry.marshal :: (linesOf true (f :: es)) := rfl
        have hs2 : linesOf true (f :: es) = f.name :: f.marshal :: linesOf true es := rfl
        refine ⟨joinLines (linesOf true (f :: es)), ?_⟩
        rw [hs, hs2]
        have hm : dotEntry.marshal = [48, 32, 48, 32, 48, 32, 48] := by decide +kernel
        rw [hm]
        rfl
    have hne : marshalEntries true (dotEntry :: es) ≠ [] := by
      rw [marshalEntries_eq true _ (by simp)]; simp
    unfold unmarshalList
    rw [if_neg hne]
    simp only [htrim, hlines]
    rw [if_neg (not_not_intro hpre), if_neg (by rw [length_linesOf]; omega)]
    have hd : (linesOf true (dotEntry :: es)).drop 2 = linesOf true es := rfl
    rw [hd, statLines_eq es h]

/-- C42: a listing without stat information is read back with the same names, if they have no line
feed, the last one does not end with a NUL byte, and the first two are not `.` and `0 0 0 0`. -/
theorem C42_names_partial (es : List EntryStat) (h : ∀ e ∈ es, e.hasStat = false) (hn : ∀ e ∈ es, 10 ∉ e.name)
    (hz : ∀ e, es.getLast? = some e → e.name.getLast? ≠ some 0)
    (hd : ∀ e f t, es = e :: f :: t → ¬ (e.name = [46] ∧ f.name = [48, 32, 48, 32, 48, 32, 48])) :
    ∃ b, marshalList false es = some b ∧
      unmarshalList b = .ok (es.map fun e => EntryStat.named e.name, false) := by
  refine ⟨marshalEntries false es, ?_, ?_⟩
  · have hall : es.all (fun e => e.hasStat == false) = true := by
      simp only [List.all_eq_true]
      intro e he
      simp [h e he]
    show (if es.all (fun e => e.hasStat == false) = true then some (marshalEntries false es) else none) = _
    rw [if_pos hall]
  · cases es with
    | nil => rfl
    | cons e es =>
      have hl : linesOf false (e :: es) = (e :: es).map EntryStat.name := by
        have hg : ∀ l : List EntryStat, linesOf false l = l.map EntryStat.name := by
          intro l
          induction l with
          | nil => rfl
          | cons f l ih =>
            have hs : linesOf false (f :: l) = f.name :: linesOf false l := rfl
            rw [hs, ih]; rfl
        exact hg _
      have hlines : splitOn 10 (joinLines ((e :: es).map EntryStat.name)) = (e :: es).map EntryStat.name := by
        apply splitOn_join _ (by simp)
        intro p hp
        obtain ⟨f, hf, rfl⟩ := List.mem_map.mp hp
        exact hn f hf
      have htrim : trimNul (marshalEntries false (e :: es)) = joinLines ((e :: es).map EntryStat.name) := by
        rw [marshalEntries_eq false _ (by simp), trimNul_append_nul, hl]
        apply trimNul_of_last
        by_cases hempty : ((e :: es).getLast (by simp)).name = []
        · -- the last name is empty: the last byte is a line feed, or there is none
          have key : ∀ (ps : List Bytes), ps.getLast? = some [] → (joinLines ps).getLast? = some 10 ∨ joinLines ps = [] := by
            intro ps
            induction ps with
            | nil => intro hc; cases hc
            | cons q ps ih =>
              intro hc
              cases ps with
              | nil => right; cases hc; rfl
              | cons r ps =>
                left
                have := ih (by simpa using hc)
                show (q ++ 10 :: joinLines (r :: ps)).getLast? = _
                rcases this with ht | ht
                · rw [List.getLast?_append, List.getLast?_cons, ht]; rfl
                · rw [ht]; simp
          have := key ((e :: es).map EntryStat.name) (by
            rw [List.getLast?_map, List.getLast?_eq_some_getLast (by simp)]
            simp [hempty])
          rcases this with ht | ht
          · rw [ht]; decide
          · rw [ht]; decide
        · rw [joinLines_getLast _ ((e :: es).getLast (by simp)).name (by
            rw [List.getLast?_map, List.getLast?_eq_some_getLast (by simp)]; rfl) hempty]
          exact hz _ (List.getLast?_eq_some_getLast (by simp))
      have hnd : ¬ ((dotStat ++ [10]).isPrefixOf (joinLines ((e :: es).map EntryStat.name)) = true
          ∨ joinLines ((e :: es).map EntryStat.name) = dotStat) := by
        have two : ∀ (rest : Bytes) (ls : List Bytes), splitOn 10 (dotStat ++ rest) = ls →
            (rest = [] ∨ ∃ t, rest = 10 :: t) → ∃ t, ls = [46] :: [48, 32, 48, 32, 48, 32, 48] :: t := by
          intro rest ls hls hr
          have h1 : dotStat ++ rest = [46] ++ 10 :: ([48, 32, 48, 32, 48, 32, 48] ++ rest) := rfl
          rw [h1, splitOn_append _ _ _ (by decide)] at hls
          rcases hr with rfl | ⟨t, rfl⟩
          · rw [List.append_nil, splitOn_no_sep _ _ (by decide)] at hls
            exact ⟨[], hls.symm⟩
          · rw [splitOn_append _ _ _ (by decide)] at hls
            exact ⟨_, hls.symm⟩
        intro hc
        have : ∃ t, (e :: es).map EntryStat.name = [46] :: [48, 32, 48, 32, 48, 32, 48] :: t := by
          rcases hc with hc | hc
          · rw [List.isPrefixOf_iff_prefix] at hc
            obtain ⟨t, ht⟩ := hc
            rw [← ht] at hlines
            exact two (10 :: t) _ (by rw [← hlines]; simp) (Or.inr ⟨t, rfl⟩)
          · rw [hc] at hlines
            exact two [] _ (by rw [← hlines]; simp) (Or.inl rfl)
        obtain ⟨t, ht⟩ := this
        cases es with
        | nil => simp at ht
        | cons f es =>
          simp only [List.map_cons, List.cons.injEq] at ht
          exact hd e f es rfl ⟨ht.1, ht.2.1⟩
      have hne : marshalEntries false (e :: es) ≠ [] := by
        rw [marshalEntries_eq false _ (by simp)]; simp
      unfold unmarshalList
      rw [if_neg hne]
      simp only [htrim, hlines]
      rw [if_pos hnd]
      simp

example : marshalList false [EntryStat.named [97], EntryStat.named [98, 46]] = some [97, 10, 98, 46, 0]
    ∧ unmarshalList [97, 10, 98, 46, 0] = .ok ([EntryStat.named [97], EntryStat.named [98, 46]], false) := by
  decide +kernel

example : ∃ b, marshalList true [⟨[97], true, 1, 2, 3, 4⟩, ⟨[98], true, 5, 6, 7, 8⟩] = some b
    ∧ unmarshalList b = .ok ([⟨[97], true, 1, 2, 3, 4⟩, ⟨[98], true, 5, 6, 7, 8⟩], true) :=
  C42_with_stat_partial _ (by decide) (by decide)

/-- C42 fails for a file name with a line feed: without stat information two entries are read back,
with it the listing cannot be read. -/
theorem C42_linefeed_counterexample :
    (marshalList false [EntryStat.named [97, 10, 98]]).map unmarshalList
      = some (.ok ([EntryStat.named [97], EntryStat.named [98]], false)) ∧
    (marshalList true [⟨[97, 10, 98], true, 0, 0, 0, 0⟩]).map unmarshalList = some .err := by
  constructor <;> decide +kernel

/-- C42: a listing of names starting with `.` and `0 0 0 0` is taken for one with stat information. -/
theorem C42_dot_counterexample :
    (marshalList false [EntryStat.named [46], EntryStat.named [48, 32, 48, 32, 48, 32, 48]]).map unmarshalList
      = some (.ok ([], true)) := by
  decide +kernel

end Verif.Xrootd
