import Mathlib.Data.List.Sort
import Mathlib.Data.List.Perm.Basic

/-!
# Model of the spans of `groot/riofs/plugin/http`: which bytes of a remote file are cached

Simplification: offsets and lengths are natural numbers (`int64` in the code, negative offsets and
overflow are left out).
-/

namespace Verif.Remote

/-- groot/riofs/plugin/http/span.go:12-15 (`span`). -/
structure Span where
  off : Nat
  len : Nat
deriving DecidableEq, Repr

/-- The loop of groot/riofs/plugin/http/span.go:17-77 (`split`) and what follows it.  `sp.len = 0`
after the switch ends the loop, and then nothing is appended after it. -/
def splitLoop (sp : Span) : List Span → List Span
  | [] => if sp.len ≠ 0 then [sp] else []
  | v :: vs =>
    let b1 := v.off
    let e1 := v.off + v.len
    let b2 := sp.off
    let e2 := sp.off + sp.len
    if e1 ≤ b2 then splitLoop sp vs
    else if e2 ≤ b1 then [sp]
    else if b2 < b1 ∧ e1 ≤ e2 then
      let len := b1 - b2
      let sp' : Span := ⟨e1, sp.len - (v.len + len)⟩
      ⟨b2, len⟩ :: (if sp'.len = 0 then [] else splitLoop sp' vs)
    else if b2 < b1 ∧ b1 < e2 ∧ e2 < e1 then [⟨b2, b1 - b2⟩]
    else if b1 ≤ b2 ∧ e2 ≤ e1 then []
    else if b1 ≤ b2 ∧ e1 < e2 then
      let sp' : Span := ⟨e1, e2 - e1⟩
      if sp'.len = 0 then [] else splitLoop sp' vs
    else if sp.len = 0 then [] else splitLoop sp vs

/-- groot/riofs/plugin/http/span.go:17-77 (`split`): the parts of a span not among the cached ones. -/
def split (sp : Span) (sps : List Span) : List Span :=
  if sps.length = 0 then [sp] else splitLoop sp sps

/-- One turn of the loop of groot/riofs/plugin/http/span.go:81-95 (`consolidate`): the spans from
number `i` on have been dealt with, `j` is the one before. -/
def absorb (j : Span) : List Span → List Span
  | [] => [j]
  | i :: r =>
    let jend := j.off + j.len
    let iend := i.off + i.len
    if jend < i.off then j :: i :: r
    else (if iend ≥ jend then ⟨j.off, j.len + (iend - jend)⟩ else j) :: r

/-- groot/riofs/plugin/http/span.go:81-95 (`consolidate`): the loop runs from the last span to the
second, hence is a fold from the right. -/
def consolidate : List Span → List Span
  | [] => []
  | j :: r => absorb j (consolidate r)

/-- The order of groot/riofs/plugin/http/span.go:102-116 (`add`), as "not greater". -/
def spanLe (a b : Span) : Bool := a.off < b.off || (a.off == b.off && a.off + a.len ≤ b.off + b.len)

/-- groot/riofs/plugin/http/span.go:102-116 (`add`).  Spans that the order does not tell apart are
equal, so it does not matter that `sort.Slice` is not stable. -/
def addSpan (p : List Span) (sp : Span) : List Span := consolidate ((p ++ [sp]).insertionSort (spanLe · · = true))

/-! ### Specification -/

/-- Byte number `x` lies in the span. -/
def Span.has (s : Span) (x : Nat) : Prop := s.off ≤ x ∧ x < s.off + s.len

/-- Byte number `x` lies in one of the spans. -/
def Cov (l : List Span) (x : Nat) : Prop := ∃ s ∈ l, s.has x

/-- The spans are ordered by where they start. -/
def Ordered (l : List Span) : Prop := l.Pairwise fun a b => a.off ≤ b.off

/-- The spans follow each other, none overlapping the next. -/
def Apart (l : List Span) : Prop := l.Pairwise fun a b => a.off + a.len ≤ b.off

@[simp] theorem cov_nil (x : Nat) : Cov [] x ↔ False := by simp [Cov]
@[simp] theorem cov_cons (s : Span) (l : List Span) (x : Nat) : Cov (s :: l) x ↔ s.has x ∨ Cov l x := by simp [Cov]
theorem cov_append (a b : List Span) (x : Nat) : Cov (a ++ b) x ↔ Cov a x ∨ Cov b x := by
  simp only [Cov, List.mem_append]
  constructor
  · rintro ⟨s, h | h, hx⟩
    · exact .inl ⟨s, h, hx⟩
    · exact .inr ⟨s, h, hx⟩
  · rintro (⟨s, h, hx⟩ | ⟨s, h, hx⟩)
    · exact ⟨s, .inl h, hx⟩
    · exact ⟨s, .inr h, hx⟩

/-! ### Splitting -/

theorem cov_ge {l : List Span} {x b : Nat} (h : ∀ s ∈ l, b ≤ s.off) (hc : Cov l x) : b ≤ x := by
  obtain ⟨s, hs, hx⟩ := hc
  exact (h s hs).trans hx.1

theorem splitLoop_spec (sps : List Span) (hs : Ordered sps) (sp : Span) :
    (∀ x, Cov (splitLoop sp sps) x ↔ sp.has x ∧ ¬ Cov sps x) ∧ Apart (splitLoop sp sps) ∧
    (∀ o ∈ splitLoop sp sps, sp.off ≤ o.off ∧ o.off + o.len ≤ sp.off + sp.len) := by
  induction sps generalizing sp with
  | nil =>
    simp only [splitLoop]
    split
    · refine ⟨?_, List.pairwise_singleton _ _, ?_⟩ <;> simp
    · refine ⟨?_, List.Pairwise.nil, ?_⟩
      · intro x
        simp only [cov_nil, Span.has, false_iff]
        omega
      · simp
  | cons v vs ih =>
    have hv : ∀ s ∈ vs, v.off ≤ s.off := fun s h => (List.pairwise_cons.mp hs).1 s h
    replace ih := ih (List.pairwise_cons.mp hs).2
    have key : ∀ x, Cov vs x → v.off ≤ x := fun x h => cov_ge hv h
    simp only [splitLoop]
    split_ifs with h1 h2 h3 h4 h5 h6 h7 h8 h9
    · obtain ⟨a, b, c⟩ := ih sp
      refine ⟨fun x => ?_, b, c⟩
      rw [a, cov_cons]
      simp only [Span.has]
      constructor
      · rintro ⟨hx, hn⟩
        exact ⟨hx, by rintro (h | h); · omega
                      · exact hn h⟩
      · rintro ⟨hx, hn⟩
        exact ⟨hx, fun h => hn (.inr h)⟩
    · refine ⟨fun x => ?_, List.pairwise_singleton _ _, by simp⟩
      simp only [cov_cons, cov_nil, or_false, Span.has]
      constructor
      · intro hx
        refine ⟨hx, ?_⟩
        rintro (h | h)
        · omega
        · have := key x h
          omega
      · rintro ⟨hx, -⟩
        exact hx
    · refine ⟨fun x => ?_, List.pairwise_singleton _ _, ?_⟩
      · simp only [cov_cons, cov_nil, or_false, Span.has] at h4 ⊢
        constructor
        · intro hx
          refine ⟨by omega, ?_⟩
          rintro (h | h)
          · omega
          · have := key x h
            omega
        · rintro ⟨hx, hn⟩
          have : ¬ (v.off ≤ x ∧ x < v.off + v.len) := fun h => hn (.inl h)
          omega
      · simp only [List.mem_singleton, forall_eq]
        omega
    · obtain ⟨a, b, c⟩ := ih ⟨v.off + v.len, sp.len - (v.len + (v.off - sp.off))⟩
      refine ⟨fun x => ?_, ?_, ?_⟩
      · rw [cov_cons, a, cov_cons]
        simp only [Span.has]
        constructor
        · rintro (hx | ⟨hx, hn⟩)
          · refine ⟨by omega, ?_⟩
            rintro (h | h)
            · omega
            · have := key x h
              omega
          · refine ⟨by omega, ?_⟩
            rintro (h | h)
            · omega
            · exact hn h
        · rintro ⟨hx, hn⟩
          have h' : ¬ (v.off ≤ x ∧ x < v.off + v.len) := fun h => hn (.inl h)
          by_cases hlt : x < v.off
          · left; omega
          · right
            exact ⟨by omega, fun h => hn (.inr h)⟩
      · rw [Apart, List.pairwise_cons]
        refine ⟨fun o ho => ?_, b⟩
        have := c o ho
        simp only at this ⊢
        omega
      · intro o ho
        rcases List.mem_cons.mp ho with rfl | ho
        · simp only
          omega
        · have := c o ho
          simp only at this
          omega
    · refine ⟨fun x => ?_, List.pairwise_singleton _ _, ?_⟩
      · simp only [cov_cons, cov_nil, or_false, Span.has]
        constructor
        · intro hx
          refine ⟨by omega, ?_⟩
          rintro (h | h)
          · omega
          · have := key x h
            omega
        · rintro ⟨hx, hn⟩
          have h' : ¬ (v.off ≤ x ∧ x < v.off + v.len) := fun h => hn (.inl h)
          omega
      · simp only [List.mem_singleton, forall_eq]
        omega
    · refine ⟨fun x => ?_, List.Pairwise.nil, by simp⟩
      simp only [cov_nil, false_iff, cov_cons, Span.has]
      rintro ⟨hx, hn⟩
      exact hn (.inl (by omega))
    · exfalso
      omega
    · obtain ⟨a, b, c⟩ := ih ⟨v.off + v.len, sp.off + sp.len - (v.off + v.len)⟩
      refine ⟨fun x => ?_, b, ?_⟩
      · rw [a, cov_cons]
        simp only [Span.has]
        constructor
        · rintro ⟨hx, hn⟩
          refine ⟨by omega, ?_⟩
          rintro (h | h)
          · omega
          · exact hn h
        · rintro ⟨hx, hn⟩
          have h' : ¬ (v.off ≤ x ∧ x < v.off + v.len) := fun h => hn (.inl h)
          exact ⟨by omega, fun h => hn (.inr h)⟩
      · intro o ho
        have := c o ho
        simp only at this
        omega
    · omega
    · omega

/-- The parts to fetch are exactly the bytes asked for that are not cached, none of them twice. -/
theorem split_spec (sps : List Span) (hs : Ordered sps) (sp : Span) :
    (∀ x, Cov (split sp sps) x ↔ sp.has x ∧ ¬ Cov sps x) ∧ Apart (split sp sps) ∧
    (∀ o ∈ split sp sps, sp.off ≤ o.off ∧ o.off + o.len ≤ sp.off + sp.len) := by
  cases sps with
  | nil => refine ⟨?_, List.pairwise_singleton _ _, ?_⟩ <;> simp [split]
  | cons v vs => exact splitLoop_spec (v :: vs) hs sp

/-! ### Adding -/

theorem spanLe_trans (a b c : Span) (h1 : spanLe a b = true) (h2 : spanLe b c = true) : spanLe a c = true := by
  simp only [spanLe, Bool.or_eq_true, Bool.and_eq_true, decide_eq_true_eq, beq_iff_eq] at *
  omega

theorem spanLe_total (a b : Span) : (spanLe a b || spanLe b a) = true := by
  simp only [spanLe, Bool.or_eq_true, Bool.and_eq_true, decide_eq_true_eq, beq_iff_eq]
  omega

theorem spanLe_off {a b : Span} (h : spanLe a b = true) : a.off ≤ b.off := by
  simp only [spanLe, Bool.or_eq_true, Bool.and_eq_true, decide_eq_true_eq, beq_iff_eq] at h
  omega

instance : Std.Total (spanLe · · = true) := ⟨fun a b => by simpa using spanLe_total a b⟩
instance : IsTrans Span (spanLe · · = true) := ⟨spanLe_trans⟩

theorem ordered_sort (l : List Span) : Ordered (l.insertionSort (spanLe · · = true)) :=
  (List.pairwise_insertionSort (spanLe · · = true) l).imp spanLe_off

theorem cov_perm {a b : List Span} (h : a.Perm b) (x : Nat) : Cov a x ↔ Cov b x := by
  simp only [Cov, h.mem_iff]

theorem absorb_off (j : Span) (r : List Span) : ∃ s t, absorb j r = s :: t ∧ s.off = j.off ∧ ∀ u ∈ t, u ∈ r := by
  cases r with
  | nil => exact ⟨j, [], rfl, rfl, by simp⟩
  | cons i r =>
    simp only [absorb]
    split
    · exact ⟨j, i :: r, rfl, rfl, fun u hu => hu⟩
    · refine ⟨_, r, rfl, ?_, fun u hu => List.mem_cons_of_mem _ hu⟩
      split <;> rfl

theorem absorb_spec (j : Span) (r : List Span) (hj : ∀ s ∈ r, j.off ≤ s.off) (hr : Ordered r) :
    (∀ x, Cov (absorb j r) x ↔ j.has x ∨ Cov r x) ∧ Ordered (absorb j r) ∧ ∀ s ∈ absorb j r, j.off ≤ s.off := by
  cases r with
  | nil => simp [absorb, Ordered]
  | cons i r =>
    have hi := hj i List.mem_cons_self
    have hr' := List.pairwise_cons.mp hr
    simp only [absorb]
    split_ifs with h1 h2
    · refine ⟨by simp, List.pairwise_cons.mpr ⟨hj, hr⟩, ?_⟩
      intro s hs
      rcases List.mem_cons.mp hs with rfl | hs
      · exact le_refl _
      · exact hj s hs
    · refine ⟨fun x => ?_, List.pairwise_cons.mpr ⟨fun s hs => hj s (List.mem_cons_of_mem _ hs), hr'.2⟩, ?_⟩
      · simp only [cov_cons, Span.has]
        rw [← or_assoc]
        apply or_congr_left
        omega
      · intro s hs
        rcases List.mem_cons.mp hs with rfl | hs
        · exact le_refl _
        · exact hj s (List.mem_cons_of_mem _ hs)
    · refine ⟨fun x => ?_, List.pairwise_cons.mpr ⟨fun s hs => hj s (List.mem_cons_of_mem _ hs), hr'.2⟩, ?_⟩
      · simp only [cov_cons, Span.has]
        rw [← or_assoc]
        apply or_congr_left
        omega
      · intro s hs
        rcases List.mem_cons.mp hs with rfl | hs
        · exact le_refl _
        · exact hj s (List.mem_cons_of_mem _ hs)

theorem consolidate_spec (l : List Span) (h : Ordered l) :
    (∀ x, Cov (consolidate l) x ↔ Cov l x) ∧ Ordered (consolidate l) ∧
    ∀ b, (∀ s ∈ l, b ≤ s.off) → ∀ s ∈ consolidate l, b ≤ s.off := by
  induction l with
  | nil => exact ⟨fun _ => Iff.rfl, List.Pairwise.nil, fun _ h => h⟩
  | cons j r ih =>
    have hr := List.pairwise_cons.mp h
    obtain ⟨a, b, c⟩ := ih hr.2
    obtain ⟨d, e, f⟩ := absorb_spec j (consolidate r) (c _ hr.1) b
    refine ⟨fun x => ?_, e, fun k hk s hs => ?_⟩
    · rw [consolidate, d, a, cov_cons]
    · exact (hk j List.mem_cons_self).trans (f s hs)

/-- Adding a span adds its bytes to the cached ones and keeps the order. -/
theorem addSpan_spec (p : List Span) (sp : Span) :
    (∀ x, Cov (addSpan p sp) x ↔ Cov p x ∨ sp.has x) ∧ Ordered (addSpan p sp) := by
  obtain ⟨a, b, -⟩ := consolidate_spec _ (ordered_sort (p ++ [sp]))
  refine ⟨fun x => ?_, b⟩
  rw [addSpan, a, cov_perm (List.perm_insertionSort _ _), cov_append]
  simp

end Verif.Remote
