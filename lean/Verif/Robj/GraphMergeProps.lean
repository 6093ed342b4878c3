import Verif.Robj.GraphMerge
import Mathlib.Order.Nat

/-! # What merging graphs gives (C158) -/

namespace Verif.GraphMerge

variable {F : Type} [LinearOrder F]

/-! ### Specification -/

omit [LinearOrder F] in
/-- A graph as the codec and the accessors need it: all arrays have one value for each of the points. -/
def Obj.WF : Obj F → Prop
  | .plain g => (g.x.length : Int) = g.npoints ∧ g.y.length = g.x.length
  | .errs g ex ey => (g.x.length : Int) = g.npoints ∧ g.y.length = g.x.length ∧ ex.length = g.x.length ∧ ey.length = g.x.length
  | .asym g xl xh yl yh => (g.x.length : Int) = g.npoints ∧ g.y.length = g.x.length ∧ xl.length = g.x.length ∧
      xh.length = g.x.length ∧ yl.length = g.x.length ∧ yh.length = g.x.length
  | .multi g xl xh yl yh => (g.x.length : Int) = g.npoints ∧ g.y.length = g.x.length ∧ xl.length = g.x.length ∧
      xh.length = g.x.length ∧ (∃ a l, yl = a :: l ∧ ∀ b ∈ yl, b.length = g.x.length) ∧
      (∃ a l, yh = a :: l ∧ ∀ b ∈ yh, b.length = g.x.length)

omit [LinearOrder F] in
/-- The points of a graph, each with its errors. -/
def Obj.points (o : Obj F) : List (List F) := (List.range o.base.x.length).filterMap o.point

omit [LinearOrder F] in
/-- The kinds which can be merged. -/
def Obj.kind : Obj F → Nat
  | .plain _ => 0
  | .errs _ _ _ => 1
  | .asym _ _ _ _ _ => 2
  | .multi _ _ _ _ _ => 3

/-! ### Points -/

omit [LinearOrder F] in
theorem point_some (o : Obj F) (h : o.WF) {i : Nat} (hi : i < o.base.x.length) : ∃ p, o.point i = some p := by
  cases o with
  | plain g =>
    obtain ⟨_, h2⟩ := h
    simp only [Obj.base] at hi
    exact ⟨[g.x[i], g.y[i]], by simp [Obj.point, hi, h2]⟩
  | errs g ex ey =>
    obtain ⟨_, h2, h3, h4⟩ := h
    simp only [Obj.base] at hi
    exact ⟨[g.x[i], g.y[i], ex[i], ey[i]], by simp [Obj.point, hi, h2, h3, h4]⟩
  | asym g xl xh yl yh =>
    obtain ⟨_, h2, h3, h4, h5, h6⟩ := h
    simp only [Obj.base] at hi
    exact ⟨[g.x[i], g.y[i], xl[i], xh[i], yl[i], yh[i]], by simp [Obj.point, hi, h2, h3, h4, h5, h6]⟩
  | multi g xl xh yl yh =>
    obtain ⟨_, h2, h3, h4, ⟨a, l, rfl, h5⟩, ⟨b, m, rfl, h6⟩⟩ := h
    simp only [Obj.base] at hi
    have ha := h5 a (by simp)
    have hb := h6 b (by simp)
    exact ⟨[g.x[i], g.y[i], xl[i], xh[i], a[i], b[i]], by simp [Obj.point, hi, h2, h3, h4, ha, hb]⟩

theorem merge_ok {a b : Obj F} (ha : a.WF) (hb : b.WF) (hk : a.kind = b.kind) (hm : a.kind ≠ 3) :
    ∃ c, a.merge b = some c ∧ c.WF ∧ c.kind = a.kind ∧ c.base = a.base.merge b.base ∧
      (∀ i, i < a.base.x.length → c.point i = a.point i) ∧ ∀ i, c.point (a.base.x.length + i) = b.point i := by
  cases a with
  | plain g =>
    cases b with
    | plain s =>
      obtain ⟨h1, h2⟩ := ha
      obtain ⟨k1, k2⟩ := hb
      refine ⟨_, rfl, ⟨?_, ?_⟩, rfl, rfl, ?_, ?_⟩
      · simp [Graph.merge]; omega
      · simp [Graph.merge]; omega
      · intro i hi
        simp only [Obj.base] at hi
        simp [Obj.point, Graph.merge, List.getElem?_append, hi, h2]
      · intro i
        have hlt : ¬ g.x.length + i < g.x.length := by omega
        simp [Obj.point, Graph.merge, List.getElem?_append, Obj.base, hlt, h2]
    | _ => simp [Obj.kind] at hk
  | errs g ex ey =>
    cases b with
    | errs s sx sy =>
      obtain ⟨h1, h2, h3, h4⟩ := ha
      obtain ⟨k1, k2, k3, k4⟩ := hb
      refine ⟨_, rfl, ⟨?_, ?_, ?_, ?_⟩, rfl, rfl, ?_, ?_⟩
      · simp [Graph.merge]; omega
      · simp [Graph.merge]; omega
      · simp [Graph.merge]; omega
      · simp [Graph.merge]; omega
      · intro i hi
        simp only [Obj.base] at hi
        simp [Obj.point, Graph.merge, List.getElem?_append, hi, h2, h3, h4]
      · intro i
        have hlt : ¬ g.x.length + i < g.x.length := by omega
        simp [Obj.point, Graph.merge, List.getElem?_append, Obj.base, hlt, h2, h3, h4]
    | _ => simp [Obj.kind] at hk
  | asym g xl xh yl yh =>
    cases b with
    | asym s sxl sxh syl syh =>
      obtain ⟨h1, h2, h3, h4, h5, h6⟩ := ha
      obtain ⟨k1, k2, k3, k4, k5, k6⟩ := hb
      refine ⟨_, rfl, ⟨?_, ?_, ?_, ?_, ?_, ?_⟩, rfl, rfl, ?_, ?_⟩
      · simp [Graph.merge]; omega
      · simp [Graph.merge]; omega
      · simp [Graph.merge]; omega
      · simp [Graph.merge]; omega
      · simp [Graph.merge]; omega
      · simp [Graph.merge]; omega
      · intro i hi
        simp only [Obj.base] at hi
        simp [Obj.point, Graph.merge, List.getElem?_append, hi, h2, h3, h4, h5, h6]
      · intro i
        have hlt : ¬ g.x.length + i < g.x.length := by omega
        simp [Obj.point, Graph.merge, List.getElem?_append, Obj.base, hlt, h2, h3, h4, h5, h6]
    | _ => simp [Obj.kind] at hk
  | multi _ _ _ _ _ => exact absurd rfl hm

theorem filterMap_congr' {A B : Type} {f g : A → Option B} {l : List A} (h : ∀ a ∈ l, f a = g a) :
    l.filterMap f = l.filterMap g := by
  induction l with
  | nil => rfl
  | cons a l ih =>
    rw [List.filterMap_cons, List.filterMap_cons, h a (by simp), ih fun b hb => h b (by simp [hb])]

theorem merge_points {a b : Obj F} (ha : a.WF) (hb : b.WF) (hk : a.kind = b.kind) (hm : a.kind ≠ 3) :
    ∃ c, a.merge b = some c ∧ c.WF ∧ c.kind = a.kind ∧ c.base = a.base.merge b.base ∧ c.points = a.points ++ b.points := by
  obtain ⟨c, h1, h2, h3, h4, h5, h6⟩ := merge_ok ha hb hk hm
  refine ⟨c, h1, h2, h3, h4, ?_⟩
  simp only [Obj.points, h4, Graph.merge, List.length_append, List.range_add, List.filterMap_append]
  congr 1
  · exact filterMap_congr' fun i hi => h5 i (List.mem_range.1 hi)
  · rw [List.filterMap_map]
    exact filterMap_congr' fun i _ => h6 i

/-- **C158 (partial).** Graphs of one kind (plain, with symmetric or with asymmetric errors) are merged into one with the points of
all, each with its own errors, in the order of the graphs, and it can be written and read again. Missing: graphs with several errors
along y (`C158_multi_counterexample`, `C158_multi_error`). -/
theorem C158_points_partial (o : Obj F) (ss : List (Obj F)) (ho : o.WF) (hs : ∀ s ∈ ss, s.WF ∧ s.kind = o.kind)
    (hm : o.kind ≠ 3) :
    ∃ c, mergeAll o ss = some c ∧ c.WF ∧ c.kind = o.kind ∧ c.points = o.points ++ ss.flatMap Obj.points ∧
      c.base.npoints = o.base.npoints + (ss.map fun s => s.base.npoints).sum := by
  induction ss generalizing o with
  | nil => exact ⟨o, rfl, ho, rfl, by simp, by simp⟩
  | cons s ss ih =>
    obtain ⟨c, h1, h2, h3, h4, h5⟩ := merge_points ho (hs s (by simp)).1 (hs s (by simp)).2.symm hm
    obtain ⟨d, k1, k2, k3, k4, k5⟩ := ih c h2 (fun t ht => by rw [h3]; exact hs t (by simp [ht])) (by rw [h3]; exact hm)
    refine ⟨d, by simp [mergeAll, h1, k1], k2, by rw [k3, h3], ?_, ?_⟩
    · rw [k4, h5]; simp
    · rw [k5, h4]
      simp [Graph.merge, Int.add_assoc]

/-- **C158, errors.** Graphs of different kinds are not merged, but for a plain graph into one with several errors. -/
theorem C158_kinds (a b : Obj F) (hk : a.kind ≠ b.kind) (hm : a.kind ≠ 3 ∨ b.kind ≠ 0) : a.merge b = none := by
  cases a <;> cases b <;> simp_all [Obj.kind, Obj.merge]

/-- **C158, several errors.** Two graphs with several errors are never merged. -/
theorem C158_multi_error (a b : Obj F) (ha : a.kind = 3) (hb : b.kind = 3) : a.merge b = none := by
  cases a <;> cases b <;> simp_all [Obj.kind, Obj.merge]

/-! ### Ranges -/

/-- The range of a graph is that of its points: every point is within, and the bounds are points. -/
def Graph.Range (g : Graph F) : Prop :=
  (∀ y ∈ g.y, g.min ≤ y ∧ y ≤ g.max) ∧ g.min ∈ g.y ∧ g.max ∈ g.y

theorem range_merge {g s : Graph F} (hg : g.Range) (hs : s.Range) : (g.merge s).Range := by
  obtain ⟨g1, g2, g3⟩ := hg
  obtain ⟨s1, s2, s3⟩ := hs
  refine ⟨?_, ?_, ?_⟩
  · intro y hy
    rcases List.mem_append.1 hy with hy | hy
    · exact ⟨inf_le_left.trans (g1 y hy).1, (g1 y hy).2.trans le_sup_left⟩
    · exact ⟨inf_le_right.trans (s1 y hy).1, (s1 y hy).2.trans le_sup_right⟩
  · show g.min ⊓ s.min ∈ g.y ++ s.y
    rcases le_total g.min s.min with h | h
    · rw [inf_eq_left.2 h]; exact List.mem_append_left _ g2
    · rw [inf_eq_right.2 h]; exact List.mem_append_right _ s2
  · show g.max ⊔ s.max ∈ g.y ++ s.y
    rcases le_total g.max s.max with h | h
    · rw [sup_eq_right.2 h]; exact List.mem_append_right _ s3
    · rw [sup_eq_left.2 h]; exact List.mem_append_left _ g3

theorem merge_base {a b c : Obj F} (h : a.merge b = some c) : c.base = a.base.merge b.base := by
  cases a <;> cases b <;> simp only [Obj.merge, Option.some.injEq, reduceCtorEq] at h <;> (subst h; rfl)

/-- **C158, ranges.** When the ranges of the graphs are those of their points, so is that of the graph they are merged into. -/
theorem C158_range (o c : Obj F) (ss : List (Obj F)) (ho : o.base.Range) (hs : ∀ s ∈ ss, s.base.Range)
    (h : mergeAll o ss = some c) : c.base.Range := by
  induction ss generalizing o with
  | nil =>
    simp only [mergeAll, Option.some.injEq] at h
    exact h ▸ ho
  | cons s ss ih =>
    simp only [mergeAll] at h
    cases h1 : o.merge s with
    | none => simp [h1] at h
    | some o' =>
      rw [h1] at h
      exact ih o' (merge_base h1 ▸ range_merge ho (hs s (by simp))) (fun t ht => hs t (by simp [ht])) h

/-! ### Scatter plots -/

/-- One value of each array for each of the points. -/
def Scatter.WF (s : Scatter F) : Prop :=
  ∃ g, s.graph = some g ∧ (Obj.plain g).WF ∧ g.npoints = s.npoints ∧ s.color.length = g.x.length ∧ s.size.length = g.x.length

/-- The points: the position, the colour and the size. -/
def Scatter.points (s : Scatter F) : List ((F × F) × F × F) :=
  match s.graph with
  | none => []
  | some g => (g.x.zip g.y).zip (s.color.zip s.size)

/-- **C158, scatter plots.** Merged scatter plots have the points of both with their colours and sizes, and sizes of markers
which cover those of both. -/
theorem C158_scatter (a b : Scatter F) (ha : a.WF) (hb : b.WF) :
    ∃ c, a.merge b = some c ∧ c.WF ∧ c.points = a.points ++ b.points ∧ c.npoints = a.npoints + b.npoints ∧
      c.minMarker ≤ a.minMarker ∧ c.minMarker ≤ b.minMarker ∧ a.maxMarker ≤ c.maxMarker ∧ b.maxMarker ≤ c.maxMarker := by
  obtain ⟨g, g1, ⟨g2, g3⟩, g4, g5, g6⟩ := ha
  obtain ⟨s, s1, ⟨s2, s3⟩, s4, s5, s6⟩ := hb
  simp only [Scatter.merge, g1, s1]
  refine ⟨_, rfl, ⟨g.merge s, rfl, ⟨?_, ?_⟩, ?_, ?_, ?_⟩, ?_, rfl, inf_le_left, inf_le_right, le_sup_left, le_sup_right⟩
  · simp [Graph.merge]; omega
  · simp [Graph.merge]; omega
  · simp [Graph.merge]; omega
  · simp [Graph.merge]; omega
  · simp [Graph.merge]; omega
  · simp only [Scatter.points, g1, s1, Graph.merge]
    rw [List.zip_append (by omega), List.zip_append (by omega), List.zip_append (by simp; omega)]

/-! ### Counterexamples -/

def p1 : Graph Nat := ⟨2, 2, [1, 2], [5, 3], 3, 5⟩
def p2 : Graph Nat := ⟨1, 1, [9], [7], 7, 7⟩

example : (Obj.errs p1 [10, 20] [30, 40]).WF ∧ p1.Range ∧ p2.Range ∧ (mergeAll (.errs p1 [10, 20] [30, 40]) [.errs p2 [50] [60]]).map Obj.points =
    some [[1, 5, 10, 30], [2, 3, 20, 40], [9, 7, 50, 60]] := by
  refine ⟨⟨by decide, by decide, by decide, by decide⟩, ⟨by decide, by decide, by decide⟩, ⟨by decide, by decide, by decide⟩, by decide⟩

example : ∃ s : Scatter Nat, s.WF ∧ s.points = [((1, 5), 6, 8), ((2, 3), 7, 9)] :=
  ⟨⟨2, some p1, [6, 7], [8, 9], 5, 1⟩, ⟨p1, rfl, ⟨by decide, by decide⟩, by decide, by decide, by decide⟩, by decide⟩

/-- **C158, counterexample.** A plain graph is merged into one with several errors, and then its points have no errors: asking
for those of the new points panics, and so does writing the graph. -/
theorem C158_multi_counterexample : ∃ c : Obj Nat, (Obj.multi p1 [1, 1] [2, 2] [[3, 3]] [[4, 4]]).WF ∧
    (Obj.multi p1 [1, 1] [2, 2] [[3, 3]] [[4, 4]]).merge (.plain p2) = some c ∧ c.base.npoints = 3 ∧ c.point 2 = none ∧ ¬ c.WF := by
  refine ⟨_, ⟨by decide, by decide, by decide, by decide, ⟨_, _, rfl, by decide⟩, ⟨_, _, rfl, by decide⟩⟩, rfl, by decide,
    by decide, ?_⟩
  rintro ⟨_, _, h, _⟩
  exact absurd h (by decide)

/-- **C158, counterexample.** Graphs written by ROOT have no range of their own (both bounds are a value which means so, 0 in
this example). Merged into a graph with a range, the points of such a graph may be outside. -/
theorem C158_range_counterexample : ∃ c : Obj Nat, (Obj.plain p1).merge (.plain ⟨1, 1, [9], [7], 0, 0⟩) = some c ∧
    p1.Range ∧ (7 : Nat) ∈ c.base.y ∧ c.base.max < 7 := by
  refine ⟨_, rfl, ⟨by decide, by decide, by decide⟩, by decide, by decide⟩

/-- **C158, counterexample.** A scatter plot with no graph cannot be merged. -/
theorem C158_nil_counterexample (a b : Scatter F) (h : a.graph = none ∨ b.graph = none) : a.merge b = none := by
  unfold Scatter.merge
  rcases h with h | h <;> rw [h]
  cases a.graph <;> rfl

end Verif.GraphMerge
