import Verif.FreeList.Model

/-!
# Properties of the free-segment list (C06, C07)

Specification: `Covers l x` (byte `x` is free according to list `l`), `Separated l`
(sorted, every segment non-empty, consecutive segments neither overlapping nor
adjacent).
-/

namespace Verif.FreeList

/-- Byte `x` lies in some segment of the list. -/
def Covers (l : List Seg) (x : Int) : Prop := ∃ s ∈ l, s.first ≤ x ∧ x ≤ s.last

/-- Segments are non-empty, in increasing order, with at least one byte that is not
free between any two of them. -/
def Separated (l : List Seg) : Prop :=
  (∀ s ∈ l, s.first ≤ s.last) ∧ l.Pairwise (fun a b => a.last + 1 < b.first)

/-! ### Helpers -/

theorem less_iff (a b : Seg) : a.less b = true ↔ a.first < b.first ∨ (a.first = b.first ∧ a.last < b.last) := by
  unfold Seg.less
  split
  · simp [*]
  · split <;> simp <;> omega

theorem insertSeg_perm (s : Seg) (l : List Seg) : (insertSeg s l).Perm (s :: l) := by
  induction l with
  | nil => exact List.Perm.refl _
  | cons c rest ih =>
    unfold insertSeg
    split
    · exact List.Perm.refl _
    · exact (List.Perm.cons c ih).trans (List.Perm.swap s c rest)

theorem insertSeg_sorted (s : Seg) (l : List Seg) (h : l.Pairwise (fun a b => a.first ≤ b.first)) :
    (insertSeg s l).Pairwise (fun a b => a.first ≤ b.first) := by
  induction l with
  | nil => simp [insertSeg]
  | cons c rest ih =>
    have h' := List.pairwise_cons.mp h
    unfold insertSeg
    split
    · rename_i hl
      rw [less_iff] at hl
      refine List.pairwise_cons.mpr ⟨?_, h⟩
      intro b hb
      rcases List.mem_cons.mp hb with rfl | hb
      · omega
      · have := h'.1 b hb; omega
    · rename_i hl
      rw [less_iff] at hl
      refine List.pairwise_cons.mpr ⟨?_, ih h'.2⟩
      intro b hb
      rw [(insertSeg_perm s rest).mem_iff] at hb
      rcases List.mem_cons.mp hb with rfl | hb
      · omega
      · exact h'.1 b hb

theorem sortSegs_aux (l acc : List Seg) (h : acc.Pairwise (fun a b => a.first ≤ b.first)) :
    (l.foldl (fun acc s => insertSeg s acc) acc).Perm (l ++ acc) ∧
    (l.foldl (fun acc s => insertSeg s acc) acc).Pairwise (fun a b => a.first ≤ b.first) := by
  induction l generalizing acc with
  | nil => exact ⟨List.Perm.refl _, h⟩
  | cons s l ih =>
    obtain ⟨h1, h2⟩ := ih (insertSeg s acc) (insertSeg_sorted s acc h)
    refine ⟨h1.trans ?_, h2⟩
    refine ((insertSeg_perm s acc).append_left l).trans ?_
    exact List.perm_middle

theorem sortSegs_perm (l : List Seg) : (sortSegs l).Perm l := by
  have := (sortSegs_aux l [] (by simp)).1
  rw [List.append_nil] at this
  exact this

theorem sortSegs_sorted (l : List Seg) : (sortSegs l).Pairwise (fun a b => a.first ≤ b.first) :=
  (sortSegs_aux l [] (by simp)).2

/-- Covered bytes are unchanged by consolidation of a sorted list. -/
theorem covers_consolidate (l : List Seg) (hs : l.Pairwise (fun a b => a.first ≤ b.first))
    (hne : ∀ s ∈ l, s.first ≤ s.last) (x : Int) :
    (Covers (consolidate l) x ↔ Covers l x) ∧
    (∀ s ∈ consolidate l, s.first ≤ s.last) ∧
    (∀ s ∈ consolidate l, ∀ b, (∀ t ∈ l, b ≤ t.first) → b ≤ s.first) := by
  induction l with
  | nil => simp [consolidate, Covers]
  | cons p rest ih =>
    have hs' := List.pairwise_cons.mp hs
    obtain ⟨ihc, ihn, ihb⟩ := ih hs'.2 (fun s h => hne s (by simp [h]))
    have hp := hne p (by simp)
    have hsplit : Covers (p :: rest) x ↔ (p.first ≤ x ∧ x ≤ p.last) ∨ Covers (consolidate rest) x := by
      rw [ihc]
      simp [Covers]
    rw [hsplit]
    simp only [consolidate]
    cases hr : consolidate rest with
    | nil => exact ⟨by simp [Covers], by simp [hp], by simp; intro b hb _; exact hb⟩
    | cons cur tail =>
      rw [hr] at ihc ihn ihb
      have hcur := ihn cur (by simp)
      have hpc : p.first ≤ cur.first := ihb cur (by simp) p.first hs'.1
      simp only
      split
      · refine ⟨by simp [Covers], ?_, ?_⟩
        · intro s hs2
          rcases List.mem_cons.mp hs2 with rfl | h
          · exact hp
          · exact ihn s h
        · intro s hs2 b hb
          rcases List.mem_cons.mp hs2 with rfl | h
          · exact hb s (by simp)
          · exact ihb s h b (fun t ht => hb t (by simp [ht]))
      · rename_i hgap
        refine ⟨?_, ?_, ?_⟩
        · simp only [Covers, List.mem_cons, exists_eq_or_imp]
          constructor
          · rintro (h | h)
            · by_cases hx : x ≤ p.last
              · exact Or.inl ⟨h.1, hx⟩
              · right; left
                split at h <;> omega
            · exact Or.inr (Or.inr h)
          · rintro (h | h | h)
            · left; split <;> omega
            · left; split <;> omega
            · exact Or.inr h
        · intro s hs2
          rcases List.mem_cons.mp hs2 with rfl | h
          · simp only; split <;> omega
          · exact ihn s (by simp [h])
        · intro s hs2 b hb
          rcases List.mem_cons.mp hs2 with rfl | h
          · exact hb p (by simp)
          · exact ihb s (by simp [h]) b (fun t ht => hb t (by simp [ht]))

/-- Every input segment is contained in a segment of the consolidated list. -/
theorem contained_consolidate (l : List Seg) (hs : l.Pairwise (fun a b => a.first ≤ b.first))
    (hne : ∀ s ∈ l, s.first ≤ s.last) (e : Seg) (he : e ∈ l) :
    ∃ s ∈ consolidate l, s.first ≤ e.first ∧ e.last ≤ s.last := by
  induction l with
  | nil => simp at he
  | cons p rest ih =>
    have hs' := List.pairwise_cons.mp hs
    have hb := (covers_consolidate rest hs'.2 (fun s h => hne s (by simp [h])) 0).2.2
    simp only [consolidate]
    rcases List.mem_cons.mp he with rfl | he
    · cases hr : consolidate rest with
      | nil => exact ⟨e, by simp, by omega, by omega⟩
      | cons cur tail =>
        simp only
        split
        · exact ⟨e, by simp, by omega, by omega⟩
        · refine ⟨_, List.mem_cons_self, ?_, ?_⟩
          · simp
          · simp only; split <;> omega
    · obtain ⟨s, hs2, h1, h2⟩ := ih hs'.2 (fun s h => hne s (by simp [h])) he
      cases hr : consolidate rest with
      | nil => simp [hr] at hs2
      | cons cur tail =>
        rw [hr] at hs2 hb
        simp only
        split
        · exact ⟨s, List.mem_cons_of_mem _ hs2, h1, h2⟩
        · rcases List.mem_cons.mp hs2 with rfl | h
          · refine ⟨_, List.mem_cons_self, ?_, ?_⟩
            · have := hb s (by simp) p.first hs'.1
              simp; omega
            · simp only; split <;> omega
          · exact ⟨s, by simp [h], h1, h2⟩

/-- Disjoint sorted segments consolidate to a separated list. -/
theorem consolidate_separated (l : List Seg) (hne : ∀ s ∈ l, s.first ≤ s.last)
    (hd : l.Pairwise (fun a b => a.last < b.first)) : Separated (consolidate l) ∧
      ∀ s ∈ consolidate l, ∀ b : Int, (∀ t ∈ l, b < t.first) → b < s.first := by
  induction l with
  | nil => simp [consolidate, Separated]
  | cons p rest ih =>
    have hd' := List.pairwise_cons.mp hd
    obtain ⟨⟨ihn, ihp⟩, ihb⟩ := ih (fun s h => hne s (by simp [h])) hd'.2
    have hp := hne p (by simp)
    simp only [consolidate]
    cases hr : consolidate rest with
    | nil =>
      refine ⟨⟨by simp [hp], by simp⟩, ?_⟩
      intro s hs b hb
      simp at hs; subst hs
      exact hb s (by simp)
    | cons cur tail =>
      rw [hr] at ihn ihp ihb
      have hcur := ihn cur (by simp)
      have hpc : p.last < cur.first := ihb cur (by simp) p.last (fun t ht => hd'.1 t ht)
      have ihp' := List.pairwise_cons.mp ihp
      simp only
      split
      · rename_i hgap
        refine ⟨⟨?_, ?_⟩, ?_⟩
        · intro s hs2
          rcases List.mem_cons.mp hs2 with rfl | h
          · exact hp
          · exact ihn s h
        · refine List.pairwise_cons.mpr ⟨?_, ihp⟩
          intro s hs2
          rcases List.mem_cons.mp hs2 with rfl | h
          · exact hgap
          · have := ihp'.1 s h
            omega
        · intro s hs2 b hb
          rcases List.mem_cons.mp hs2 with rfl | h
          · exact hb s (by simp)
          · exact ihb s h b (fun t ht => hb t (by simp [ht]))
      · refine ⟨⟨?_, ?_⟩, ?_⟩
        · intro s hs2
          rcases List.mem_cons.mp hs2 with rfl | h
          · simp only; split <;> omega
          · exact ihn s (by simp [h])
        · refine List.pairwise_cons.mpr ⟨?_, ihp'.2⟩
          intro s hs2
          have := ihp'.1 s hs2
          simp only; split <;> omega
        · intro s hs2 b hb
          rcases List.mem_cons.mp hs2 with rfl | h
          · exact hb p (by simp)
          · exact ihb s (by simp [h]) b (fun t ht => hb t (by simp [ht]))

theorem find_contained (e : Seg) (he : e.first ≤ e.last) (l : List Seg)
    (h : ∃ s ∈ l, s.first ≤ e.first ∧ e.last ≤ s.last) :
    ∃ s, find e l = some s ∧ s ∈ l ∧ s.first ≤ e.first ∧ e.last ≤ s.last := by
  induction l with
  | nil => simp at h
  | cons c rest ih =>
    unfold find
    obtain ⟨s, hs, h1, h2⟩ := h
    split
    · rename_i hc
      rcases List.mem_cons.mp hs with rfl | hs
      · omega
      · obtain ⟨s', a, b, c, d⟩ := ih ⟨s, hs, h1, h2⟩
        exact ⟨s', a, by simp [b], c, d⟩
    · split
      · rename_i hc
        exact ⟨c, rfl, by simp, hc.1, hc.2.2⟩
      · rename_i hc
        rcases List.mem_cons.mp hs with rfl | hs
        · omega
        · obtain ⟨s', a, b, c, d⟩ := ih ⟨s, hs, h1, h2⟩
          exact ⟨s', a, by simp [b], c, d⟩

/-! ### C06 -/

/-- The free list obtained by releasing segments one after the other. -/
def release (segs : List Seg) (fl : List Seg) : List Seg :=
  segs.foldl (fun fl s => (add s.first s.last fl).1) fl

/-- Whatever is released (overlapping or not): exactly the released bytes become
free in addition to those already free, and the returned segment contains the
released one. -/
theorem C06_add_covers (fl : List Seg) (hne : ∀ s ∈ fl, s.first ≤ s.last) (first last : Int)
    (h : first ≤ last) :
    (∀ x, Covers (add first last fl).1 x ↔ Covers fl x ∨ (first ≤ x ∧ x ≤ last)) ∧
    ∃ s, (add first last fl).2 = some s ∧ s ∈ (add first last fl).1 ∧
      s.first ≤ first ∧ last ≤ s.last := by
  have hperm := sortSegs_perm (fl ++ [⟨first, last⟩])
  have hne' : ∀ s ∈ sortSegs (fl ++ [⟨first, last⟩]), s.first ≤ s.last := by
    intro s hs
    rw [hperm.mem_iff] at hs
    rcases List.mem_append.mp hs with h' | h'
    · exact hne s h'
    · simp at h'; subst h'; exact h
  constructor
  · intro x
    simp only [add]
    rw [(covers_consolidate _ (sortSegs_sorted _) hne' x).1]
    simp only [Covers, hperm.mem_iff, List.mem_append, List.mem_singleton, or_and_right, exists_or,
      exists_eq_left]
  · simp only [add]
    exact find_contained ⟨first, last⟩ h _
      (contained_consolidate _ (sortSegs_sorted _) hne' ⟨first, last⟩ (by rw [hperm.mem_iff]; simp))

/-- Releasing a segment disjoint from a well-separated list keeps it well-separated. -/
theorem C06_add_separated (fl : List Seg) (hfl : Separated fl) (first last : Int) (h : first ≤ last)
    (hdis : ∀ x, first ≤ x → x ≤ last → ¬ Covers fl x) : Separated (add first last fl).1 := by
  have hperm := sortSegs_perm (fl ++ [⟨first, last⟩])
  have hsort := sortSegs_sorted (fl ++ [⟨first, last⟩])
  have hne' : ∀ s ∈ sortSegs (fl ++ [⟨first, last⟩]), s.first ≤ s.last := by
    intro s hs
    rw [hperm.mem_iff] at hs
    rcases List.mem_append.mp hs with h' | h'
    · exact hfl.1 s h'
    · simp at h'; subst h'; exact h
  -- any two list positions hold disjoint segments
  have hdisj : (fl ++ [Seg.mk first last]).Pairwise (fun a b => a.last < b.first ∨ b.last < a.first) := by
    rw [List.pairwise_append]
    refine ⟨hfl.2.imp (by intro a b hab; omega), by simp, ?_⟩
    intro a ha b hb
    simp at hb; subst hb
    simp only
    have ha' := hfl.1 a ha
    by_cases h1 : a.last < first
    · exact Or.inl h1
    · by_cases h2 : last < a.first
      · exact Or.inr h2
      · exfalso
        by_cases h3 : first ≤ a.first
        · exact hdis a.first h3 (by omega) ⟨a, ha, by omega, ha'⟩
        · exact hdis first (by omega) h ⟨a, ha, by omega, by omega⟩
  have hdisj' : (sortSegs (fl ++ [⟨first, last⟩])).Pairwise
      (fun a b => a.last < b.first ∨ b.last < a.first) :=
    (hperm.pairwise_iff (fun h => h.symm)).mpr hdisj
  have hfin : (sortSegs (fl ++ [⟨first, last⟩])).Pairwise (fun a b => a.last < b.first) := by
    have hboth := hsort.and hdisj'
    have hmem : (sortSegs (fl ++ [⟨first, last⟩])).Pairwise (fun a b => a.first ≤ a.last ∧ b.first ≤ b.last) := by
      rw [List.pairwise_iff_forall_sublist]
      intro a b hab
      exact ⟨hne' a (hab.subset (by simp)), hne' b (hab.subset (by simp))⟩
    refine (hboth.and hmem).imp ?_
    intro a b hab
    omega
  exact (consolidate_separated _ hne' hfin).1

/-- **C06**: after releasing any sequence of pairwise disjoint segments (in any
order) on top of a well-separated list they do not touch, the free list is
sorted, its segments are disjoint and non-adjacent, and exactly the released
bytes (and those free before) are free. -/
theorem C06_release_history (segs : List Seg) (fl : List Seg) (hfl : Separated fl)
    (hne : ∀ s ∈ segs, s.first ≤ s.last)
    (hd : segs.Pairwise (fun a b => a.last < b.first ∨ b.last < a.first))
    (hdis : ∀ s ∈ segs, ∀ x, s.first ≤ x → x ≤ s.last → ¬ Covers fl x) :
    Separated (release segs fl) ∧
    ∀ x, Covers (release segs fl) x ↔ Covers fl x ∨ Covers segs x := by
  induction segs generalizing fl with
  | nil => exact ⟨hfl, by simp [release, Covers]⟩
  | cons s segs ih =>
    have hd' := List.pairwise_cons.mp hd
    have hs := hne s (by simp)
    have hsep := C06_add_separated fl hfl s.first s.last hs (hdis s (by simp))
    have hcov := (C06_add_covers fl hfl.1 s.first s.last hs).1
    obtain ⟨h1, h2⟩ := ih (add s.first s.last fl).1 hsep (fun t ht => hne t (by simp [ht])) hd'.2 (by
      intro t ht x hx1 hx2 hc
      rw [hcov] at hc
      rcases hc with hc | hc
      · exact hdis t (by simp [ht]) x hx1 hx2 hc
      · have := hd'.1 t ht
        omega)
    refine ⟨h1, ?_⟩
    intro x
    have : release (s :: segs) fl = release segs (add s.first s.last fl).1 := rfl
    rw [this, h2, hcov]
    simp only [Covers, List.mem_cons, exists_eq_or_imp, or_assoc]

/-- Three segments released out of order, merging into two. -/
example : (∀ s ∈ [Seg.mk 30 39, ⟨10, 19⟩, ⟨20, 25⟩], s.first ≤ s.last) ∧
    [Seg.mk 30 39, ⟨10, 19⟩, ⟨20, 25⟩].Pairwise (fun a b => a.last < b.first ∨ b.last < a.first) ∧
    Separated [] ∧ release [⟨30, 39⟩, ⟨10, 19⟩, ⟨20, 25⟩] [] = [⟨10, 25⟩, ⟨30, 39⟩] := by
  refine ⟨by decide, by decide, by simp [Separated], by decide⟩

/-- Without disjointness the list may keep overlapping segments: releasing [1,10]
on top of [2,3] and [5,20] leaves [1,10] and [5,20]. -/
theorem C06_overlap_counterexample :
    (add 1 10 [⟨2, 3⟩, ⟨5, 20⟩]).1 = [⟨1, 10⟩, ⟨5, 20⟩] ∧ Separated [⟨2, 3⟩, ⟨5, 20⟩] ∧
    ¬ Separated (add 1 10 [⟨2, 3⟩, ⟨5, 20⟩]).1 := by
  have h : (add 1 10 [⟨2, 3⟩, ⟨5, 20⟩]).1 = [⟨1, 10⟩, ⟨5, 20⟩] := by decide
  refine ⟨h, by simp [Separated], ?_⟩
  rw [h]
  simp [Separated]

/-! ### C07 -/

/-- Postcondition of the loop of `best` over the list `all`. -/
def BestPost (n : Int) (all : List Seg) : Nat ⊕ Option Nat → Prop
  | .inl i => ∃ h : i < all.length, all[i].free = n ∧ ∀ j (hj : j < i), all[j].free ≠ n
  | .inr (some i) => ∃ h : i < all.length, all[i].free ≥ n + 4 ∧
      (∀ s ∈ all, s.free ≠ n) ∧ ∀ j (hj : j < i), ¬ all[j].free ≥ n + 4
  | .inr none => ∀ s ∈ all, s.free ≠ n ∧ ¬ s.free ≥ n + 4

theorem bestLoop_spec (n : Int) (l : List Seg) (pre : List Seg) (cand : Option Nat)
    (hpre : ∀ s ∈ pre, s.free ≠ n)
    (hcand : match cand with
      | none => ∀ s ∈ pre, ¬ s.free ≥ n + 4
      | some c => ∃ h : c < pre.length, pre[c].free ≥ n + 4 ∧ ∀ j (hj : j < c), ¬ pre[j].free ≥ n + 4) :
    BestPost n (pre ++ l) (bestLoop n l pre.length cand) := by
  induction l generalizing pre cand with
  | nil =>
    simp only [bestLoop, List.append_nil]
    cases cand with
    | none => exact fun s hs => ⟨hpre s hs, hcand s hs⟩
    | some c =>
      obtain ⟨h, h1, h2⟩ := hcand
      exact ⟨h, h1, hpre, h2⟩
  | cons c l ih =>
    simp only [bestLoop]
    have e : pre ++ c :: l = (pre ++ [c]) ++ l := by simp
    by_cases h1 : c.free = n
    · simp only [h1, if_true]
      refine ⟨by simp, by simp [h1], ?_⟩
      intro j hj
      have : (pre ++ c :: l)[j]'(by simp; omega) = pre[j] := by
        rw [List.getElem_append_left]
      rw [this]
      exact hpre _ (by simp)
    · simp only [h1, if_false]
      have hpre' : ∀ s ∈ pre ++ [c], s.free ≠ n := by
        intro s hs
        rcases List.mem_append.mp hs with h | h
        · exact hpre s h
        · simp at h; subst h; exact h1
      by_cases h2 : c.free ≥ n + 4 ∧ cand = none
      · rw [if_pos h2]
        obtain ⟨h2, rfl⟩ := h2
        have := ih (pre ++ [c]) (some pre.length) hpre' (by
          refine ⟨by simp, by simpa using h2, ?_⟩
          intro j hj
          have : (pre ++ [c])[j]'(by simp; omega) = pre[j] := by rw [List.getElem_append_left]
          rw [this]
          exact hcand _ (by simp))
        rw [← e, List.length_append, List.length_singleton] at this
        exact this
      · rw [if_neg h2]
        have := ih (pre ++ [c]) cand hpre' (by
          cases cand with
          | none =>
            intro s hs
            rcases List.mem_append.mp hs with h | h
            · exact hcand s h
            · simp at h; subst h
              intro h3
              exact h2 ⟨h3, rfl⟩
          | some k =>
            obtain ⟨h, h3, h4⟩ := hcand
            refine ⟨by simp; omega, ?_, ?_⟩
            · rw [List.getElem_append_left h]; exact h3
            · intro j hj
              rw [List.getElem_append_left (by omega)]
              exact h4 j hj)
        rw [← e, List.length_append, List.length_singleton] at this
        exact this

/-- **C07**: on a non-empty list the selected segment is
* the first one of exactly the requested size, if there is any; otherwise
* the first one at least 4 bytes larger, if there is any; otherwise
* the last one, extended by 10^9 bytes.
In the first two cases the list is not modified. -/
theorem C07_best_fit (n : Int) (fl : List Seg) (hfl : fl ≠ []) :
    ∃ i, (best n fl).1 = some i ∧ ∃ h : i < fl.length,
      ((fl[i].free = n ∧ (best n fl).2 = fl ∧ ∀ j (hj : j < i), fl[j].free ≠ n) ∨
       (fl[i].free ≥ n + 4 ∧ (best n fl).2 = fl ∧ (∀ s ∈ fl, s.free ≠ n) ∧
          ∀ j (hj : j < i), ¬ fl[j].free ≥ n + 4) ∨
       (i = fl.length - 1 ∧ (∀ s ∈ fl, s.free ≠ n ∧ s.free < n + 4) ∧
          (best n fl).2 = fl.dropLast ++ [{ fl[i] with last := fl[i].last + 1000000000 }])) := by
  have hl : fl.length ≠ 0 := by simpa using hfl
  have := bestLoop_spec n fl [] none (by simp) (by simp)
  unfold best
  rw [if_neg hl]
  simp only [List.length_nil, List.nil_append] at this
  cases hb : bestLoop n fl 0 none with
  | inl i =>
    rw [hb] at this
    obtain ⟨h, h1, h2⟩ := this
    exact ⟨i, rfl, h, Or.inl ⟨h1, rfl, h2⟩⟩
  | inr c =>
    rw [hb] at this
    cases c with
    | some i =>
      obtain ⟨h, h1, h2, h3⟩ := this
      exact ⟨i, rfl, h, Or.inr (Or.inl ⟨h1, rfl, h2, h3⟩)⟩
    | none =>
      refine ⟨fl.length - 1, rfl, by omega, Or.inr (Or.inr ⟨rfl, ?_, ?_⟩)⟩
      · intro s hs
        have := this s hs
        exact ⟨this.1, by omega⟩
      · have hlast : fl = fl.dropLast ++ [fl[fl.length - 1]] := by
          rw [← List.getLast_eq_getElem hfl]
          exact (List.dropLast_concat_getLast hfl).symm
        have hm : ∀ (l : List Seg) (s : Seg) (f : Seg → Seg),
            (l ++ [s]).modify l.length f = l ++ [f s] := by
          intro l s f
          induction l with
          | nil => rfl
          | cons a l ih => simp [ih]
        have hd : fl.dropLast.length = fl.length - 1 := by simp
        conv => lhs; rw [hlast]
        simp only [List.length_append, hd, List.length_singleton]
        have := hm fl.dropLast fl[fl.length - 1] (fun s => { s with last := s.last + 1000000000 })
        rw [hd] at this
        simpa using this

/-- A list where the exact fit comes after a larger candidate. -/
example : best 10 [⟨0, 99⟩, ⟨200, 209⟩, ⟨300, 400⟩] = (some 1, [⟨0, 99⟩, ⟨200, 209⟩, ⟨300, 400⟩]) := by
  decide

end Verif.FreeList
