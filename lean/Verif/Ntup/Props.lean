import Verif.Ntup.Model
import Verif.Hbook.Rand
import Verif.Hbook.ProfileFloat
import Mathlib.Data.List.Induction

/-!
# Properties of `hbook/ntup` (C114 – C116)
-/

namespace Verif.Ntup
open Verif.Text Verif.Hbook

/-! ## C114: queries -/

theorem cut_self {sep : List Char} (hs : sep ≠ []) {a : List Char} (b : List Char)
    (ha : ∀ a', a' <+: a → a' ≠ a → ¬ sep <+: a.drop a'.length ++ sep ++ b) : cut sep (a ++ sep ++ b) = some (a, b) := by
  induction a with
  | nil =>
    obtain ⟨c, t, rfl⟩ := List.exists_cons_of_ne_nil hs
    simp only [List.nil_append, List.cons_append, cut]
    rw [if_pos]
    · simp [List.drop_left']
    · exact List.isPrefixOf_iff_prefix.mpr ⟨b, rfl⟩
  | cons c a ih =>
    simp only [List.cons_append, cut]
    rw [if_neg]
    · rw [List.append_assoc] at ih ⊢
      rw [ih]
      · rfl
      · intro a' h1 h2
        have := ha (c :: a') (List.cons_prefix_cons.mpr ⟨rfl, h1⟩) (by simpa using h2)
        simpa using this
    · intro h
      have := ha [] (by simp) (by simp)
      exact this (by simpa using List.isPrefixOf_iff_prefix.mp h)

/-- The token does not occur in the text, nor where the text meets the token following it. -/
def Free (sep a : List Char) : Prop := ∀ i < a.length, ¬ sep <+: a.drop i ++ sep

instance (sep a : List Char) : Decidable (Free sep a) := by unfold Free; infer_instance

theorem cut_free {sep a : List Char} (hs : sep ≠ []) (ha : Free sep a) (b : List Char) :
    cut sep (a ++ sep ++ b) = some (a, b) := by
  apply cut_self hs
  intro a' h1 h2 h3
  have hl : a'.length < a.length := by
    rcases Nat.lt_or_ge a'.length a.length with h | h
    · exact h
    · exact absurd (h1.eq_of_length (le_antisymm h1.length_le h)) h2
  exact ha _ hl (List.prefix_of_prefix_length_le h3 (List.prefix_append _ _) (by simp))

theorem two_free {sep a b : List Char} (hs : sep ≠ []) (ha : Free sep a) (hb : ¬ sep <:+: b) :
    two sep (a ++ sep ++ b) = some (a, b) := by
  simp only [two, cut_free hs ha, (cut_none_of hs).mpr hb]

theorem two_none {sep q : List Char} (hs : sep ≠ []) (hq : ¬ sep <:+: q) : two sep q = none := by
  simp only [two, (cut_none_of hs).mpr hq]

theorem cut_isSome {sep q : List Char} (hs : sep ≠ []) : (cut sep q).isSome = true ↔ sep <:+: q := by
  have := cut_none_of (s := q) hs
  cases h : cut sep q with
  | none => simpa using this.mp h
  | some p =>
    simp only [Option.isSome_some, true_iff]
    by_contra hn
    rw [this.mpr hn] at h
    cases h

/-- The query asks for an order. -/
def Ordered (q : List Char) : Prop := tORDER <:+: q ∨ tOrder <:+: q

instance (q : List Char) : Decidable (Ordered q) := by unfold Ordered; infer_instance

theorem order_eq (q : List Char) :
    (if (cut tORDER q).isSome then [] else if (cut tOrder q).isSome then [] else tById) = if Ordered q then [] else tById := by
  simp only [Ordered, cut_isSome (show tORDER ≠ [] by decide), cut_isSome (show tOrder ≠ [] by decide)]
  split_ifs <;> simp_all

/-- **C114.** Columns and condition of a query are put into a `select` statement on the n-tuple, which
delivers the rows in the order they have there unless the query says otherwise. -/
theorem C114_query_partial (name v w : List Char) :
    (∀ (_ : Free tWHERE v) (_ : ¬ tWHERE <:+: w),
      massageQuery name (v ++ tWHERE ++ w) =
        tSelect ++ v ++ tFrom ++ name ++ (tWhere ++ w) ++ (if Ordered (v ++ tWHERE ++ w) then [] else tById)) ∧
    (∀ (_ : Free tWhere v) (_ : ¬ tWhere <:+: w) (_ : ¬ tWHERE <:+: v ++ tWhere ++ w),
      massageQuery name (v ++ tWhere ++ w) =
        tSelect ++ v ++ tFrom ++ name ++ (tWhere ++ w) ++ (if Ordered (v ++ tWhere ++ w) then [] else tById)) ∧
    (¬ tWHERE <:+: v → ¬ tWhere <:+: v → ¬ Ordered v → massageQuery name v = tSelect ++ v ++ tFrom ++ name ++ tById) := by
  refine ⟨fun h1 h2 => ?_, fun h1 h2 h3 => ?_, fun h1 h2 h3 => ?_⟩
  · simp only [massageQuery, two_free (show tWHERE ≠ [] by decide) h1 h2, order_eq]
  · simp only [massageQuery, two_none (show tWHERE ≠ [] by decide) h3, two_free (show tWhere ≠ [] by decide) h1 h2, order_eq]
  · simp only [massageQuery, two_none (show tWHERE ≠ [] by decide) h1, two_none (show tWhere ≠ [] by decide) h2, order_eq,
      if_neg h3, List.append_nil]

/-- C114: everything from the second `where` on is dropped, as if it had not been written. -/
theorem C114_nested_counterexample (name v w r : List Char) (h1 : Free tWhere v) (h2 : Free tWhere w)
    (h3 : ¬ tWHERE <:+: v ++ tWhere ++ (w ++ tWhere ++ r)) (h4 : ¬ Ordered (v ++ tWhere ++ (w ++ tWhere ++ r))) :
    massageQuery name (v ++ tWhere ++ (w ++ tWhere ++ r)) = tSelect ++ v ++ tFrom ++ name ++ (tWhere ++ w) ++ tById := by
  have : two tWhere (v ++ tWhere ++ (w ++ tWhere ++ r)) = some (v, w) := by
    simp only [two, cut_free (show tWhere ≠ [] by decide) h1, cut_free (show tWhere ≠ [] by decide) h2]
  simp only [massageQuery, two_none (show tWHERE ≠ [] by decide) h3, this, order_eq, if_neg h4]

/-- C114: an order without a condition ends up before the name of the n-tuple, which is not SQL. -/
theorem C114_order_counterexample (name v : List Char) (h1 : ¬ tWHERE <:+: v) (h2 : ¬ tWhere <:+: v) (h3 : Ordered v) :
    massageQuery name v = tSelect ++ v ++ tFrom ++ name := by
  simp only [massageQuery, two_none (show tWHERE ≠ [] by decide) h1, two_none (show tWhere ≠ [] by decide) h2, order_eq,
      if_pos h3, List.append_nil]

example : massageQuery ['n', 't'] (['x', ',', 'y'] ++ tWhere ++ ['z', '>', '1']) =
    tSelect ++ ['x', ',', 'y'] ++ tFrom ++ ['n', 't'] ++ (tWhere ++ ['z', '>', '1']) ++ tById :=
  ((C114_query_partial _ _ _).2.1 (by decide +kernel) (by decide +kernel) (by decide +kernel)).trans
    (by rw [if_neg (by decide +kernel)])

example : massageQuery ['n', 't'] (['x'] ++ tWhere ++ (['z', '>', '1'] ++ tWhere ++ ['y', '>', '2'])) =
    tSelect ++ ['x'] ++ tFrom ++ ['n', 't'] ++ (tWhere ++ ['z', '>', '1']) ++ tById :=
  C114_nested_counterexample _ _ _ _ (by decide +kernel) (by decide +kernel) (by decide +kernel) (by decide +kernel)

example : massageQuery ['n', 't'] ['x', ' ', 'o', 'r', 'd', 'e', 'r', ' ', 'b', 'y', ' ', 'x'] =
    tSelect ++ ['x', ' ', 'o', 'r', 'd', 'e', 'r', ' ', 'b', 'y', ' ', 'x'] ++ tFrom ++ ['n', 't'] :=
  C114_order_counterexample _ _ (by decide +kernel) (by decide +kernel) (by decide +kernel)

/-! ## C115: scans and histograms -/

/-- The state of the caller after its function was called on the rows. -/
def after {σ R E : Type} (call : σ → R → σ × Option E) (s : σ) (rows : List R) : σ := rows.foldl (fun s r => (call s r).1) s

/-- **C115.** The function is called once for every row, in the order of the answer, up to the first
row that cannot be converted (which it is not called for) or the first call that returns an error
(which is the last).  `Scan` returns that error, or that of the data base, or nil. -/
theorem C115_scan {σ R E : Type} (call : σ → R → σ × Option E) (fin : Fin E) (s : σ) (rows : List (Except E R)) :
    ∃ (done : List R) (rest : List (Except E R)), rows = done.map .ok ++ rest ∧
      (scan call fin s rows).1 = after call s done ∧
      (∀ l r t, done = l ++ r :: t → t ≠ [] → (call (after call s l) r).2 = none) ∧
      match (scan call fin s rows).2 with
      | none => rest = [] ∧ (fin = .ok ∨ fin = .eof) ∧ ∀ l r t, done = l ++ r :: t → (call (after call s l) r).2 = none
      | some e => (∃ l r, done = l ++ [r] ∧ (call (after call s l) r).2 = some e) ∨
          ((∀ l r t, done = l ++ r :: t → (call (after call s l) r).2 = none) ∧
            ((rest = [] ∧ fin = .err e) ∨ ∃ t, rest = .error e :: t)) := by
  induction rows generalizing s with
  | nil =>
    refine ⟨[], [], rfl, rfl, by simp, ?_⟩
    simp only [scan]
    cases fin <;> simp
  | cons r rs ih =>
    cases r with
    | error e =>
      refine ⟨[], .error e :: rs, rfl, rfl, by simp, ?_⟩
      simp [scan]
    | ok r =>
      cases hc : call s r with
      | mk s' o =>
        cases o with
        | some e =>
          refine ⟨[r], rs, rfl, ?_, ?_, ?_⟩
          · simp [scan, hc, after]
          · intro l q t h ht
            have := congrArg List.length h
            have := List.length_pos_of_ne_nil ht
            simp at *
            omega
          · simp only [scan, hc]
            exact .inl ⟨[], r, rfl, by simp [after, hc]⟩
        | none =>
          obtain ⟨done, rest, h1, h2, h3, h4⟩ := ih s'
          have hs : after call s [r] = s' := by simp [after, hc]
          have ha : ∀ l, after call s (r :: l) = after call s' l := by
            intro l
            simp [after, hc]
          have step : ∀ (P : List R → Prop) (l : List R) (q : R) (t : List R), r :: done = l ++ q :: t →
              (∀ l q t, done = l ++ q :: t → P t → (call (after call s' l) q).2 = none) → P t →
              (call (after call s l) q).2 = none := by
            intro P l q t h hall hp
            cases l with
            | nil =>
              simp only [List.nil_append, List.cons.injEq] at h
              obtain ⟨rfl, -⟩ := h
              simp [after, hc]
            | cons a l =>
              simp only [List.cons_append, List.cons.injEq] at h
              obtain ⟨rfl, h⟩ := h
              rw [ha]
              exact hall l q t h hp
          have e : scan call fin s (.ok r :: rs) = scan call fin s' rs := by simp [scan, hc]
          refine ⟨r :: done, rest, by rw [h1]; rfl, by rw [e, h2, ha], ?_, ?_⟩
          · intro l q t h ht
            exact step (· ≠ []) l q t h h3 ht
          · rw [e]
            cases hr : (scan call fin s' rs).2 with
            | none =>
              rw [hr] at h4
              refine ⟨h4.1, h4.2.1, fun l q t h => step (fun _ => True) l q t h (fun l q t h _ => h4.2.2 l q t h) trivial⟩
            | some er =>
              rw [hr] at h4
              rcases h4 with ⟨l, q, h5, h6⟩ | ⟨h5, h6⟩
              · exact .inl ⟨r :: l, q, by rw [h5]; rfl, by rw [ha]; exact h6⟩
              · exact .inr ⟨fun l q t h => step (fun _ => True) l q t h (fun l q t h _ => h5 l q t h) trivial, h6⟩

section Hist
variable {K : Type} [Field K] [LinearOrder K] [IsStrictOrderedRing K]

omit [Field K] [IsStrictOrderedRing K] in
theorem isNaN_exact (x : K) : isNaN x = false := rfl

omit [Field K] [IsStrictOrderedRing K] in
theorem fmin_exact (x y : K) : fmin x y = min x y := by
  simp only [fmin, isNaN_exact, Bool.false_eq_true, if_false, flt_exact]
  by_cases h : y < x
  · simp [h, min_eq_right h.le]
  · simp [h, min_eq_left (not_lt.mp h)]

omit [Field K] [IsStrictOrderedRing K] in
theorem fmax_exact (x y : K) : fmax x y = max x y := by
  simp only [fmax, isNaN_exact, Bool.false_eq_true, if_false, flt_exact]
  by_cases h : x < y
  · simp [h, max_eq_right h.le]
  · simp [h, max_eq_left (not_lt.mp h)]

theorem scan_ok {σ R E : Type} (call : σ → R → σ) (fin : Fin E) (hf : fin = .ok ∨ fin = .eof) (s : σ) (xs : List R) :
    scan (fun s r => (call s r, none)) fin s (xs.map .ok) = (xs.foldl call s, none) := by
  induction xs generalizing s with
  | nil => rcases hf with rfl | rfl <;> rfl
  | cons x xs ih =>
    simp only [List.map_cons, scan, List.foldl_cons]
    exact ih _

omit [Field K] [IsStrictOrderedRing K] in
theorem foldl_range (xs : List K) (a b : K) :
    let r := xs.foldl (fun (s : K × K) x => (fmin s.1 x, fmax s.2 x)) (a, b)
    (∀ x ∈ xs, r.1 ≤ x ∧ x ≤ r.2) ∧ r.1 ≤ a ∧ b ≤ r.2 ∧ (r.1 = a ∨ r.1 ∈ xs) ∧ (r.2 = b ∨ r.2 ∈ xs) := by
  induction xs generalizing a b with
  | nil => simp
  | cons x xs ih =>
    simp only [List.foldl_cons, fmin_exact, fmax_exact]
    simp only [fmin_exact, fmax_exact] at ih
    obtain ⟨h1, h2, h3, h4, h5⟩ := ih (min a x) (max b x)
    refine ⟨?_, h2.trans (min_le_left _ _), (le_max_left _ _).trans h3, ?_, ?_⟩
    · intro y hy
      rcases List.mem_cons.mp hy with rfl | hy
      · exact ⟨h2.trans (min_le_right _ _), (le_max_right _ _).trans h3⟩
      · exact h1 y hy
    · rcases h4 with h | h
      · rw [h]
        rcases min_choice a x with e | e <;> rw [e] <;> simp
      · exact .inr (List.mem_cons_of_mem _ h)
    · rcases h5 with h | h
      · rw [h]
        rcases max_choice b x with e | e <;> rw [e] <;> simp
      · exact .inr (List.mem_cons_of_mem _ h)

theorem fills_eq_scan {F α E : Type} [LinearOrder α] [GoFloat F α] [Add F] [Mul F] [One F] (fin : Fin E)
    (hf : fin = .ok ∨ fin = .eof) (h h' : Binning1D F) (xs : List F) (hfill : h.fills (xs.map fun x => (x, 1)) = some h') :
    fillAll h (xs.map (Except.ok (ε := E))) fin = .ok h' := by
  have e := scan_ok (E := E) (fun (h : Option (Binning1D F)) (x : F) => h.bind fun h => h.fill x 1) fin hf (some h) xs
  have key : ∀ (xs : List F) (h : Binning1D F), h.fills (xs.map fun x => (x, 1)) = some h' →
      xs.foldl (fun (h : Option (Binning1D F)) (x : F) => h.bind fun h => h.fill x 1) (some h) = some h' := by
    intro xs
    induction xs with
    | nil => intro h hh; exact hh
    | cons x xs ih =>
      intro h hh
      simp only [List.map_cons, Binning1D.fills] at hh
      simp only [List.foldl_cons, Option.bind_some]
      cases hx : h.fill x 1 with
      | none => rw [hx] at hh; cases hh
      | some g => rw [hx] at hh; exact ih g hh
  rw [key xs h hfill] at e
  simp only [fillAll]
  rw [show (fillCall : Option (Binning1D F) → F → Option (Binning1D F) × Option E) =
    fun h x => (h.bind fun h => h.fill x 1, none) from rfl, e]

/-- **C115** (exact arithmetic): without a histogram the values of a query are put into one of a hundred
bins reaching from the smallest to just above the largest value, all of them into its bins. -/
theorem C115_histogram_partial {E : Type} (succ pred : K → K) (hsucc : ∀ v, v < succ v) (big : K) (fin : Fin E)
    (hf : fin = .ok ∨ fin = .eof) (xs : List K) (hx : xs ≠ []) (hb : ∀ x ∈ xs, -big ≤ x ∧ x ≤ big) :
    ∃ (h : Binning1D K) (lo hi : K), scanH1D succ pred big none (xs.map (Except.ok (ε := E))) fin = .ok h ∧
      lo ∈ xs ∧ hi ∈ xs ∧ (∀ x ∈ xs, lo ≤ x ∧ x ≤ hi) ∧ h.xrange = ⟨lo, succ hi⟩ ∧ h.bins.length = 100 ∧
      h.dist.dist.n = xs.length ∧ h.under = .zero ∧ h.over = .zero ∧
      (∀ r ∈ h.ranges, r.hi - r.lo = (succ hi - lo) / 100) ∧
      ∀ (i : Nat) (b : Bin1D K), h.bins[i]? = some b →
        b.dist.dist.n = (xs.countP fun x => decide (b.range.lo ≤ x ∧ x < b.range.hi)) := by
  obtain ⟨x0, hx0⟩ := List.exists_mem_of_ne_nil xs hx
  have hr := foldl_range xs big (-big)
  have e := scan_ok (E := E) (fun (s : K × K) x => (fmin s.1 x, fmax s.2 x)) fin hf (big, -big) xs
  generalize hst : xs.foldl (fun (s : K × K) x => (fmin s.1 x, fmax s.2 x)) (big, -big) = st at hr e
  obtain ⟨lo, hi⟩ := st
  simp only at hr
  obtain ⟨r1, r2, r3, r4, r5⟩ := hr
  have hlo : lo ∈ xs := by
    rcases r4 with h | h
    · have h1 := r1 x0 hx0
      have h2 := hb x0 hx0
      have : x0 = lo := le_antisymm (by rw [h]; exact h2.2) h1.1
      rw [← this]
      exact hx0
    · exact h
  have hhi : hi ∈ xs := by
    rcases r5 with h | h
    · have h1 := r1 x0 hx0
      have h2 := hb x0 hx0
      have : x0 = hi := le_antisymm h1.2 (by rw [h]; exact h2.1)
      rw [← this]
      exact hx0
    · exact h
  have hup : nextULP succ pred hi = succ hi := by
    simp only [nextULP, nextafter, isNaN_exact, Bool.false_eq_true, if_false]
    have h1 : feq hi (hi + 1) = false := by
      rw [feq_exact]
      simp
    have h2 : flt hi (hi + 1) = true := by
      rw [flt_exact]
      simp
    rw [h1, h2]
    simp
  have hlt : lo < succ hi := lt_of_le_of_lt (r1 hi hhi).1 (hsucc hi)
  obtain ⟨hu1, hu2⟩ := C30_uniform (100 : Int) lo (succ hi)
  obtain ⟨h0, hh0⟩ := Option.isSome_iff_exists.mp (hu1.mpr ⟨hlt, by norm_num⟩)
  obtain ⟨g1, g2, g3, g4, g5, g6, g7, g8⟩ := hu2 h0 hh0
  obtain ⟨h', hf', ha⟩ := C24_fills h0 g2 (xs.map fun x => (x, 1))
  refine ⟨h', lo, hi, ?_, hlo, hhi, r1, ?_⟩
  · simp only [scanH1D]
    rw [show (rangeCall : K × K → K → (K × K) × Option E) = fun s x => ((fmin s.1 x, fmax s.2 x), none) from rfl, e]
    simp only [hup, hh0]
    exact fills_eq_scan fin hf h0 h' xs hf'
  · have nb : ∀ x ∈ xs, ¬ h0.Below x := by
      intro x hm
      simp only [Binning1D.Below, g5, flt_exact, decide_eq_true_eq, not_lt]
      exact (r1 x hm).1
    have nhi : ∀ x ∈ xs, x < succ hi := fun x hm => lt_of_le_of_lt (r1 x hm).2 (hsucc hi)
    have na : ∀ x ∈ xs, ¬ h0.Above x := by
      intro x hm
      simp only [Binning1D.Above, g5, fle_exact, isNaN_exact, decide_eq_true_eq, Bool.false_eq_true, false_or, not_or, not_le,
        not_forall]
      refine ⟨nhi x hm, ?_⟩
      have hne : h0.ranges ≠ [] := by
        intro h
        have := congrArg List.length h
        simp [Binning1D.ranges, g1] at this
      obtain ⟨r, hr⟩ : ∃ r, h0.ranges.getLast? = some r := ⟨_, List.getLast?_eq_some_getLast hne⟩
      refine ⟨r, List.mem_of_getLast? hr, ?_⟩
      rw [g8 r hr]
      exact nhi x hm
    have f1 : ((xs.map fun x => (x, (1 : K))).filter fun p => decide (h0.Below p.1)) = [] := by
      rw [List.filter_eq_nil_iff]
      intro p hp
      obtain ⟨x, hm, rfl⟩ := List.mem_map.mp hp
      simpa using nb x hm
    have f2 : ((xs.map fun x => (x, (1 : K))).filter fun p => decide (h0.Above p.1)) = [] := by
      rw [List.filter_eq_nil_iff]
      intro p hp
      obtain ⟨x, hm, rfl⟩ := List.mem_map.mp hp
      simpa using na x hm
    have hz : ∀ d d' : Dist1D K, Accumulates d [] d' → d' = d := fun d d' h => h.ext (Accumulates.nil d)
    have hu := ha.under
    have ho := ha.over
    rw [f1] at hu
    rw [f2] at ho
    have hrg : h'.ranges = h0.ranges := by
      apply List.ext_getElem?
      intro i
      simp only [Binning1D.ranges, List.getElem?_map]
      cases hb0 : h0.bins[i]? with
      | none =>
        rw [List.getElem?_eq_none (by rw [ha.len]; exact List.getElem?_eq_none_iff.mp hb0)]
      | some b =>
        obtain ⟨b', hb'⟩ : ∃ b', h'.bins[i]? = some b' :=
          ⟨_, List.getElem?_eq_getElem (by rw [ha.len]; exact (List.getElem?_eq_some_iff.mp hb0).1)⟩
        rw [hb']
        simp [(ha.bin i b b' hb0 hb').1]
    refine ⟨by rw [ha.xrange, g5], by rw [ha.len, g1]; rfl, ?_, by rw [hz _ _ hu, g3.under], by rw [hz _ _ ho, g3.over], ?_, ?_⟩
    · rw [ha.total.entries, g3.dist]
      simp [Dist1D.zero, Dist0D.zero]
    · rw [hrg]
      intro r hr
      simpa using g6 r hr
    · intro i b' hb'
      obtain ⟨b, hb0⟩ : ∃ b, h0.bins[i]? = some b :=
        ⟨_, List.getElem?_eq_getElem (by rw [← ha.len]; exact (List.getElem?_eq_some_iff.mp hb').1)⟩
      obtain ⟨q1, q2⟩ := ha.bin i b b' hb0 hb'
      rw [q2.entries, g3.bins b (List.mem_of_getElem? hb0), q1]
      simp only [Dist1D.zero, Dist0D.zero, Int.zero_add, List.filter_map, List.length_map, Nat.cast_inj, Function.comp_def]
      rw [← List.countP_eq_length_filter]
      apply List.countP_congr
      intro x hm
      simp only [Binning1D.Inside, Range.Contains, g5, flt_exact, fle_exact, decide_eq_true_eq]
      have := nhi x hm
      tauto

end Hist

section Floats
variable {F α : Type} [LinearOrder α] [GoFloat F α]

/-- The values of the numbers. -/
theorem fmin_val {x y : F} {a b : α} (hx : val x = some a) (hy : val y = some b) : val (fmin x y) = some (min a b) := by
  have h1 : isNaN x = false := by simp [isNaN, hx]
  have h2 : isNaN y = false := by simp [isNaN, hy]
  simp only [fmin, h1, h2, Bool.false_eq_true, if_false, flt, hx, hy, decide_eq_true_eq]
  split
  · rename_i h
    rw [hy, min_eq_right h.le]
  · rename_i h
    rw [hx, min_eq_left (not_lt.mp h)]

theorem fmax_val {x y : F} {a b : α} (hx : val x = some a) (hy : val y = some b) : val (fmax x y) = some (max a b) := by
  have h1 : isNaN x = false := by simp [isNaN, hx]
  have h2 : isNaN y = false := by simp [isNaN, hy]
  simp only [fmax, h1, h2, Bool.false_eq_true, if_false, flt, hx, hy, decide_eq_true_eq]
  split
  · rename_i h
    rw [hy, max_eq_right h.le]
  · rename_i h
    rw [hx, max_eq_left (not_lt.mp h)]

/-- **C115** (floating point numbers): the axis of the histogram reaches from the smallest value to above
the largest one, as long as adding one to the largest makes a difference. -/
theorem C115_axis [Zero F] [One F] [Add F] [Neg F] [Sub F] [Mul F] [Div F] [NatCast F] {E : Type} (succ pred : F → F)
    (hsucc : ∀ v, flt v (succ v) = true) (big : F) (hbig : isNaN big = false) (hbig' : isNaN (-big) = false) (fin : Fin E)
    (xs : List F) (hx : ∀ x ∈ xs, isNaN x = false) (hone : ∀ x ∈ xs, flt x (x + 1) = true) (hmin : flt (-big) (-big + 1) = true)
    (h : Binning1D F) (hres : scanH1D succ pred big none (xs.map (Except.ok (ε := E))) fin = .ok h) (hf : fin = .ok ∨ fin = .eof) :
    ∃ lo hi, newBinning1D 100 lo hi ≠ none ∧ (∀ x ∈ xs, fle lo x = true ∧ flt x hi = true) ∧
      ∃ h0, newBinning1D 100 lo hi = some h0 ∧ fillAll h0 (xs.map (Except.ok (ε := E))) fin = .ok h := by
  have key : ∀ (xs : List F) (a b : F) (va vb : α), val a = some va → val b = some vb → (∀ x ∈ xs, isNaN x = false) →
      ∃ v1 v2, val (xs.foldl (fun (s : F × F) x => (fmin s.1 x, fmax s.2 x)) (a, b)).1 = some v1 ∧
        val (xs.foldl (fun (s : F × F) x => (fmin s.1 x, fmax s.2 x)) (a, b)).2 = some v2 ∧ v1 ≤ va ∧ vb ≤ v2 ∧
        (∀ x ∈ xs, ∀ v, val x = some v → v1 ≤ v ∧ v ≤ v2) ∧
        ((xs.foldl (fun (s : F × F) x => (fmin s.1 x, fmax s.2 x)) (a, b)).2 = b ∨
          (xs.foldl (fun (s : F × F) x => (fmin s.1 x, fmax s.2 x)) (a, b)).2 ∈ xs) := by
    intro xs
    induction xs with
    | nil =>
      intro a b va vb h1 h2 _
      exact ⟨va, vb, h1, h2, le_refl _, le_refl _, by simp, .inl rfl⟩
    | cons x xs ih =>
      intro a b va vb h1 h2 hn
      obtain ⟨vx, hvx⟩ : ∃ v, val x = some v := by
        have := hn x (by simp)
        simp only [isNaN, Option.isNone_eq_false_iff, Option.isSome_iff_exists] at this
        exact this
      obtain ⟨v1, v2, k1, k2, k3, k4, k5, k6⟩ := ih _ _ _ _ (fmin_val h1 hvx) (fmax_val h2 hvx)
        (fun y hy => hn y (List.mem_cons_of_mem _ hy))
      refine ⟨v1, v2, k1, k2, k3.trans (min_le_left _ _), (le_max_left _ _).trans k4, ?_, ?_⟩
      · intro y hy v hv
        rcases List.mem_cons.mp hy with rfl | hy
        · rw [hvx] at hv
          cases hv
          exact ⟨k3.trans (min_le_right _ _), (le_max_right _ _).trans k4⟩
        · exact k5 y hy v hv
      · simp only [List.foldl_cons]
        rcases k6 with k | k
        · rw [k]
          simp only [fmax]
          split_ifs
          · exact .inl rfl
          · exact .inr (by simp)
          · exact .inr (by simp)
          · exact .inl rfl
        · exact .inr (List.mem_cons_of_mem _ k)
  obtain ⟨vb, hvb⟩ : ∃ v, val big = some v := by
    simpa only [isNaN, Option.isNone_eq_false_iff, Option.isSome_iff_exists] using hbig
  obtain ⟨vm, hvm⟩ : ∃ v, val (-big) = some v := by
    simpa only [isNaN, Option.isNone_eq_false_iff, Option.isSome_iff_exists] using hbig'
  obtain ⟨v1, v2, k1, k2, k3, k4, k5, k6⟩ := key xs big (-big) vb vm hvb hvm hx
  have e := scan_ok (E := E) (fun (s : F × F) x => (fmin s.1 x, fmax s.2 x)) fin hf (big, -big) xs
  simp only [scanH1D] at hres
  rw [show (rangeCall : F × F → F → (F × F) × Option E) = fun s x => ((fmin s.1 x, fmax s.2 x), none) from rfl, e] at hres
  generalize xs.foldl (fun (s : F × F) x => (fmin s.1 x, fmax s.2 x)) (big, -big) = st at *
  obtain ⟨lo, hi⟩ := st
  simp only at hres k1 k2 k6
  have hup : flt hi (hi + 1) = true := by
    rcases k6 with k | k
    · rw [k]; exact hmin
    · exact hone hi k
  have hnext : nextULP succ pred hi = succ hi := by
    obtain ⟨p, q, hp, hq, hpq⟩ := flt_iff.mp hup
    simp only [nextULP, nextafter]
    rw [if_neg (by simp [isNaN, hp]), if_neg (by simp [isNaN, hq]), if_neg (by simp [feq, hp, hq, hpq.ne]), if_pos hup]
  rw [hnext] at hres
  cases hn : newBinning1D 100 lo (succ hi) with
  | none => rw [hn] at hres; cases hres
  | some h0 =>
    rw [hn] at hres
    refine ⟨lo, succ hi, by rw [hn]; simp, ?_, h0, hn, hres⟩
    intro x hm
    obtain ⟨v, hv⟩ : ∃ v, val x = some v := by
      simpa only [isNaN, Option.isNone_eq_false_iff, Option.isSome_iff_exists] using hx x hm
    obtain ⟨l1, l2⟩ := k5 x hm v hv
    refine ⟨fle_iff.mpr ⟨v1, v, k1, hv, l1⟩, ?_⟩
    obtain ⟨p, q, hp, hq, hpq⟩ := flt_iff.mp (hsucc hi)
    rw [k2] at hp
    cases hp
    exact flt_iff.mpr ⟨v, q, hv, hq, lt_of_le_of_lt l2 hpq⟩

end Floats

open Verif.Hbook.Prof in
/-- The next larger floating point number, for positive numbers. -/
def succ64 (x : B64) : B64 :=
  ⟨x.q.map fun a => a + B64.pow2 ((Nat.log2 a.num.natAbs : Int) - Nat.log2 a.den - 52)⟩

open Verif.Hbook.Prof in
def big64 : B64 := ⟨some (2 ^ 1024 - 2 ^ 971)⟩

open Verif.Hbook.Prof in
/-- C115 fails for floating point numbers: of the values 0 and 13 the larger one, which is on the axis, is put into
the overflow, the upper edge of the last bin being rounded down to it. -/
theorem C115_overflow_counterexample :
    (match scanH1D (E := Unit) succ64 id big64 none [.ok ⟨some 0⟩, .ok ⟨some 13⟩] .ok with
      | .ok h => some (h.xrange.lo.q, flt (⟨some 13⟩ : B64) h.xrange.hi, h.over.dist.n)
      | _ => none) = some (some 0, true, 1) := by
  decide +kernel

open Verif.Hbook.Prof in
/-- C115: without rows there is a panic, and so there is if all values are the same and too large for
adding one to make a difference. -/
theorem C115_panic_counterexample :
    scanH1D (E := Unit) succ64 id big64 none [] .ok = .panic ∧
    scanH1D (E := Unit) succ64 id big64 none [.ok ⟨some (2 ^ 53)⟩] .ok = .panic := by
  decide +kernel

/-- **C115.** A histogram that is given gets all values of the query, in order, each with weight one. -/
theorem C115_fill {F α E : Type} [LinearOrder α] [GoFloat F α] [Zero F] [One F] [Add F] [Neg F] [Sub F] [Mul F] [Div F] [NatCast F]
    (succ pred : F → F) (big : F) (fin : Fin E) (hf : fin = .ok ∨ fin = .eof) (h : Binning1D F) (ho : h.Ordered) (xs : List F) :
    ∃ h', scanH1D succ pred big (some h) (xs.map (Except.ok (ε := E))) fin = .ok h' ∧
      h.AfterFills (xs.map fun x => (x, 1)) h' := by
  obtain ⟨h', h1, h2⟩ := C24_fills h ho (xs.map fun x => (x, 1))
  exact ⟨h', fills_eq_scan fin hf h h' xs h1, h2⟩

example : ∃ (h : Binning1D ℚ) (lo hi : ℚ),
    scanH1D (E := Unit) (· + 1 / 1000) id 1000 none ([3, 1, 2].map (Except.ok (ε := Unit))) .eof = .ok h ∧
      lo ∈ [3, 1, 2] ∧ hi ∈ [3, 1, 2] := by
  obtain ⟨h, lo, hi, h1, h2, h3, -⟩ := C115_histogram_partial (E := Unit) (K := ℚ) (· + 1 / 1000) id (by intro v; simp) 1000 .eof
    (.inr rfl) [3, 1, 2] (by simp) (by intro x hx; simp at hx; rcases hx with rfl | rfl | rfl <;> norm_num)
  exact ⟨h, lo, hi, h1, h2, h3⟩

/-! ## C116: columns -/

/-- The column of a field: the first of its tags that is neither empty nor a dash, or its name. -/
inductive Column : SField → List Char × Ty → Prop
  | tagged {f : SField} {l : List (List Char)} {v : List Char} {r : List (List Char)} (h : f.tags = l ++ v :: r)
      (hl : ∀ x ∈ l, x = [] ∨ x = ['-']) (h1 : v ≠ []) (h2 : v ≠ ['-']) : Column f (v, f.ty)
  | named {f : SField} (h : ∀ x ∈ f.tags, x = [] ∨ x = ['-']) : Column f (f.name, f.ty)

theorem getTag_spec (tags : List (List Char)) :
    (getTag tags = [] ∧ ∀ x ∈ tags, x = [] ∨ x = ['-']) ∨
    ∃ l r, tags = l ++ getTag tags :: r ∧ (∀ x ∈ l, x = [] ∨ x = ['-']) ∧ getTag tags ≠ [] ∧ getTag tags ≠ ['-'] := by
  induction tags with
  | nil => exact .inl ⟨rfl, by simp⟩
  | cons v vs ih =>
    simp only [getTag]
    split
    · rename_i h
      exact .inr ⟨[], vs, rfl, by simp, h.1, h.2⟩
    · rename_i h
      have hv : v = [] ∨ v = ['-'] := by
        by_contra hn
        rw [not_or] at hn
        exact h hn
      rcases ih with ⟨h1, h2⟩ | ⟨l, r, h1, h2, h3, h4⟩
      · refine .inl ⟨h1, ?_⟩
        intro x hx
        rcases List.mem_cons.mp hx with rfl | hx
        · exact hv
        · exact h2 x hx
      · refine .inr ⟨v :: l, r, by rw [List.cons_append, ← h1], ?_, h3, h4⟩
        intro x hx
        rcases List.mem_cons.mp hx with rfl | hx
        · exact hv
        · exact h2 x hx

theorem column_of (f : SField) : Column f (if getTag f.tags = [] then f.name else getTag f.tags, f.ty) := by
  rcases getTag_spec f.tags with ⟨h1, h2⟩ | ⟨l, r, h1, h2, h3, h4⟩
  · rw [if_pos h1]
    exact .named h2
  · rw [if_neg h3]
    exact .tagged h1 h2 h3 h4

/-- **C116.** The columns of an n-tuple created from a struct are those of its exported fields, in order,
under the names their tags give them; it is refused if and only if one of these has a type without
columns. -/
theorem C116_struct (fs : List SField) :
    ((∃ k, schemaFromStruct fs = .error k) ↔ ∃ f ∈ fs, f.exported = true ∧ f.ty.kind ≠ .other) ∧
    ∀ l, schemaFromStruct fs = .ok l → List.Forall₂ Column (fs.filter (·.exported)) l := by
  induction fs with
  | nil => exact ⟨by simp [schemaFromStruct], by intro l h; cases h; exact .nil⟩
  | cons f fs ih =>
    obtain ⟨ih1, ih2⟩ := ih
    simp only [schemaFromStruct]
    by_cases he : f.exported = true
    · by_cases hk : f.ty.kind = .other
      · simp only [he, hk, Bool.not_true, Bool.false_eq_true, if_false, ne_eq, not_true_eq_false]
        cases hs : schemaFromStruct fs with
        | error k =>
          rw [hs] at ih1
          simp only [Except.error.injEq, exists_eq', true_iff] at ih1
          obtain ⟨g, hg, h1, h2⟩ := ih1
          refine ⟨⟨fun _ => ⟨g, List.mem_cons_of_mem _ hg, h1, h2⟩, fun _ => ⟨k, rfl⟩⟩, by intro l h; cases h⟩
        | ok l =>
          rw [hs] at ih1
          refine ⟨⟨fun ⟨k, h⟩ => (by cases h), ?_⟩, ?_⟩
          · rintro ⟨g, hg, h1, h2⟩
            rcases List.mem_cons.mp hg with rfl | hg
            · exact absurd hk h2
            · obtain ⟨k, h⟩ := ih1.mpr ⟨g, hg, h1, h2⟩
              cases h
          · intro l' h
            cases h
            rw [List.filter_cons_of_pos he]
            exact .cons (column_of f) (ih2 l hs)
      · simp only [he, hk, Bool.not_true, Bool.false_eq_true, if_false, ne_eq, not_false_eq_true, if_true]
        exact ⟨⟨fun _ => ⟨f, by simp, he, hk⟩, fun _ => ⟨_, rfl⟩⟩, by intro l h; cases h⟩
    · simp only [he, Bool.not_false, if_true]
      refine ⟨ih1.trans ⟨fun ⟨g, hg, h⟩ => ⟨g, List.mem_cons_of_mem _ hg, h⟩, ?_⟩, ?_⟩
      · rintro ⟨g, hg, h1, h2⟩
        rcases List.mem_cons.mp hg with rfl | hg
        · exact absurd h1 he
        · exact ⟨g, hg, h1, h2⟩
      · intro l h
        rw [List.filter_cons_of_neg (by simpa using he)]
        exact ih2 l h

/-- **C116.** The columns of an n-tuple created from values are called `var1`, `var2`, … and have their
types; it is refused if and only if one of these is a type without columns. -/
theorem C116_values (num : Nat → List Char) (ts : List Ty) :
    ((∃ k, schemaFrom num 0 ts = .error k) ↔ ∃ t ∈ ts, t.kind ≠ .other) ∧
    ∀ l, schemaFrom num 0 ts = .ok l → l.length = ts.length ∧
      ∀ (i : Nat) (t : Ty), ts[i]? = some t → l[i]? = some ('v' :: 'a' :: 'r' :: num (i + 1), t) := by
  have key : ∀ (ts : List Ty) (j : Nat), ((∃ k, schemaFrom num j ts = .error k) ↔ ∃ t ∈ ts, t.kind ≠ .other) ∧
      ∀ l, schemaFrom num j ts = .ok l → l.length = ts.length ∧
        ∀ (i : Nat) (t : Ty), ts[i]? = some t → l[i]? = some ('v' :: 'a' :: 'r' :: num (j + i + 1), t) := by
    intro ts
    induction ts with
    | nil => intro j; exact ⟨by simp [schemaFrom], by intro l h; cases h; simp⟩
    | cons t ts ih =>
      intro j
      obtain ⟨ih1, ih2⟩ := ih (j + 1)
      simp only [schemaFrom]
      by_cases hk : t.kind = .other
      · simp only [hk, ne_eq, not_true_eq_false, if_false]
        cases hs : schemaFrom num (j + 1) ts with
        | error k =>
          rw [hs] at ih1
          simp only [Except.error.injEq, exists_eq', true_iff] at ih1
          obtain ⟨g, hg, h1⟩ := ih1
          exact ⟨⟨fun _ => ⟨g, List.mem_cons_of_mem _ hg, h1⟩, fun _ => ⟨k, rfl⟩⟩, by intro l h; cases h⟩
        | ok l =>
          rw [hs] at ih1
          refine ⟨⟨fun ⟨k, h⟩ => (by cases h), ?_⟩, ?_⟩
          · rintro ⟨g, hg, h1⟩
            rcases List.mem_cons.mp hg with rfl | hg
            · exact absurd hk h1
            · obtain ⟨k, h⟩ := ih1.mpr ⟨g, hg, h1⟩
              cases h
          · intro l' h
            cases h
            obtain ⟨h1, h2⟩ := ih2 l hs
            refine ⟨by simp [h1], ?_⟩
            intro i u hi
            cases i with
            | zero => simpa using hi
            | succ i =>
              simp only [List.getElem?_cons_succ] at hi ⊢
              rw [h2 i u hi, show j + 1 + i + 1 = j + (i + 1) + 1 by omega]
      · simp only [hk, ne_eq, not_false_eq_true, if_true]
        exact ⟨⟨fun _ => ⟨t, by simp, hk⟩, fun _ => ⟨_, rfl⟩⟩, by intro l h; cases h⟩
  simpa using key ts 0

example : schemaFromStruct [⟨['X'], true, [['-'], ['x']], ⟨.other, ['f']⟩⟩, ⟨['y'], false, [], ⟨.map, ['m']⟩⟩, ⟨['Z'], true, [], ⟨.other, ['i']⟩⟩] =
    .ok [(['x'], ⟨.other, ['f']⟩), (['Z'], ⟨.other, ['i']⟩)] := by decide +kernel

example : ∃ k, schemaFromStruct [⟨['X'], true, [], ⟨.slice, ['s']⟩⟩] = .error k :=
  (C116_struct _).1.mpr ⟨_, List.mem_singleton_self _, rfl, by decide⟩

end Verif.Ntup
