import Verif.Hbook.Build

/-!
# Two-dimensional fills (C29)
-/

namespace Verif.Hbook

variable {F α : Type} [LinearOrder α] [BoundedOrder α] [GoFloat F α]

/-! ## Specification -/

/-- Position along an axis. -/
inductive Pos
  | low | mid | high
deriving DecidableEq, Repr

/-- Position of a number with respect to an axis from `lo` to `hi`: below `lo`, in
`[lo, hi)`, or at or above `hi` (NaN counts as above). -/
def axisPos (r : Range F) (x : F) : Pos :=
  if flt x r.lo then .low else if flt x r.hi then .mid else .high

/-- The outflow regions, counted from 0 clockwise from north-west: north-west, north,
north-east, east, south-east, south, south-west, west. -/
def region : Pos → Pos → Option Nat
  | .low, .high => some 0
  | .mid, .high => some 1
  | .high, .high => some 2
  | .high, .mid => some 3
  | .high, .low => some 4
  | .mid, .low => some 5
  | .low, .low => some 6
  | .low, .mid => some 7
  | .mid, .mid => none

/-- The cell contains the point. -/
def Bin2D.Contains (b : Bin2D F) (x y : F) : Prop := b.xrange.Contains x ∧ b.yrange.Contains y

instance (b : Bin2D F) (x y : F) : Decidable (b.Contains x y) := by unfold Bin2D.Contains; infer_instance

/-- What one entry adds to a distribution. -/
def Dist2D.plus [Add F] [Mul F] (d : Dist2D F) (x y w : F) : Dist2D F :=
  { x := ⟨⟨d.x.dist.n + 1, d.x.dist.sumW + w, d.x.dist.sumW2 + w * w⟩, d.x.sumWX + w * x, d.x.sumWX2 + w * x * x⟩
    y := ⟨⟨d.y.dist.n + 1, d.y.dist.sumW + w, d.y.dist.sumW2 + w * w⟩, d.y.sumWX + w * y, d.y.sumWX2 + w * y * y⟩
    sumWXY := d.sumWXY + w * x * y }

/-- One axis: ranges in increasing order covering the axis. -/
structure AxisOk (rs : List (Range F)) (axis : Range F) : Prop where
  ordered : OrderedRanges rs
  nonempty : rs ≠ []
  first : ∀ r, rs.head? = some r → r.lo = axis.lo
  last : ∀ r, rs.getLast? = some r → r.hi = axis.hi
  cover : ∀ x, fle axis.lo x = true → flt x axis.hi = true → ∃ r ∈ rs, r.Contains x

/-- A two-dimensional histogram over a grid, with any contents. -/
structure Binning2D.Grid (h : Binning2D F) : Prop where
  xok : AxisOk h.xedges h.xrange
  yok : AxisOk h.yedges h.yrange
  nx : h.nx = h.xedges.length
  ny : h.ny = h.yedges.length
  outs : h.outflows.length = 8
  size : h.bins.length = h.ny * h.nx
  cell : ∀ (i : Nat) (b : Bin2D F), h.bins[i]? = some b →
    h.xedges[i % h.nx]? = some b.xrange ∧ h.yedges[i / h.nx]? = some b.yrange

/-! ## Proofs -/

omit [BoundedOrder α] in
theorem AxisOk.exists_first {rs : List (Range F)} {axis : Range F} (h : AxisOk rs axis) :
    ∃ r, rs.head? = some r ∧ r.lo = axis.lo := by
  cases rs with
  | nil => exact absurd rfl h.nonempty
  | cons a l => exact ⟨a, rfl, h.first a rfl⟩

omit [BoundedOrder α] in
theorem AxisOk.exists_last {rs : List (Range F)} {axis : Range F} (h : AxisOk rs axis) :
    ∃ r, rs.getLast? = some r ∧ r.hi = axis.hi := by
  cases hl : rs.getLast? with
  | none => rw [List.getLast?_eq_none_iff] at hl; exact absurd hl h.nonempty
  | some r => exact ⟨r, rfl, h.last r hl⟩

omit [BoundedOrder α] in
theorem AxisOk.inside {rs : List (Range F)} {axis : Range F} (h : AxisOk rs axis) {r : Range F} (hr : r ∈ rs)
    {x : F} (hc : r.Contains x) : axisPos axis x = .mid := by
  obtain ⟨a, ha, ha'⟩ := h.exists_first
  obtain ⟨b, hb, hb'⟩ := h.exists_last
  have h1 := head_le_lo h.ordered ha hr
  have h2 := fle_last h.ordered hb hr
  unfold axisPos
  rw [if_neg, if_pos]
  · rw [← hb']; exact flt_of_flt_fle hc.2 h2
  · rw [← ha', not_flt_of_fle (fle_trans h1 hc.1)]; simp

omit [BoundedOrder α] in
theorem indexOf_axis {rs : List (Range F)} {axis : Range F} (h : AxisOk rs axis) (x : F) :
    (axisPos axis x = .low ∧ indexOf rs x = -1) ∨ (axisPos axis x = .high ∧ indexOf rs x = -2) ∨
    (axisPos axis x = .mid ∧ ∃ (i : Nat) (r : Range F), rs[i]? = some r ∧ r.Contains x ∧ indexOf rs x = (i : Int)) := by
  obtain ⟨a, ha, ha'⟩ := h.exists_first
  obtain ⟨b, hb, hb'⟩ := h.exists_last
  by_cases hlow : flt x axis.lo = true
  · left
    refine ⟨by unfold axisPos; rw [if_pos hlow], indexOf_under h.ordered ha (by rw [ha']; exact hlow)⟩
  · by_cases hhi : flt x axis.hi = true
    · right; right
      refine ⟨by unfold axisPos; rw [if_neg hlow, if_pos hhi], ?_⟩
      have hx : isNaN x = false := not_nan_left (fle_of_flt hhi)
      have hlo : isNaN axis.lo = false := by
        rw [← ha']; exact not_nan_left (h.ordered.1 a (List.mem_of_mem_head? ha))
      obtain ⟨r, hr, hc⟩ := h.cover x (fle_of_not_flt hx hlo (by simpa using hlow)) hhi
      obtain ⟨i, hi, rfl⟩ := List.mem_iff_getElem.mp hr
      exact ⟨i, _, List.getElem?_eq_getElem hi, hc, indexOf_bin h.ordered (List.getElem?_eq_getElem hi) hc⟩
    · right; left
      refine ⟨by unfold axisPos; rw [if_neg hlow, if_neg hhi], ?_⟩
      apply indexOf_over
      intro r hr
      cases hf : flt x r.hi with
      | false => rfl
      | true =>
        have := flt_of_flt_fle hf (fle_last h.ordered hb hr)
        rw [hb'] at this
        exact absurd this hhi

omit [BoundedOrder α] in
theorem Binning2D.Grid.unique {h : Binning2D F} (hg : h.Grid) {x y : F} {i j : Nat} {a b : Bin2D F}
    (ha : h.bins[i]? = some a) (hb : h.bins[j]? = some b) (ca : a.Contains x y) (cb : b.Contains x y) : i = j := by
  obtain ⟨a1, a2⟩ := hg.cell i a ha
  obtain ⟨b1, b2⟩ := hg.cell j b hb
  have e1 := indexOf_bin hg.xok.ordered a1 ca.1
  have e2 := indexOf_bin hg.xok.ordered b1 cb.1
  have e3 := indexOf_bin hg.yok.ordered a2 ca.2
  have e4 := indexOf_bin hg.yok.ordered b2 cb.2
  rw [e1] at e2; rw [e3] at e4
  have m : i % h.nx = j % h.nx := by omega
  have d : i / h.nx = j / h.nx := by omega
  rw [← Nat.div_add_mod i h.nx, ← Nat.div_add_mod j h.nx, m, d]

section
variable [Add F] [Mul F]

omit [BoundedOrder α] in
/-- **C29**: a fill of a two-dimensional histogram over a grid never panics; it adds the
entry to the total, to the cell containing the point if there is one, and otherwise to
the one outflow region the point lies in.  Cells containing the point exist exactly when
the point lies on both axes, and then there is only one. -/
theorem C29_fill (h : Binning2D F) (hg : h.Grid) (x y w : F) :
    (∃ h', h.fill x y w = some h' ∧ h'.dist = h.dist.plus x y w ∧
      h'.bins = h.bins.map (fun b => if b.Contains x y then { b with dist := b.dist.plus x y w } else b) ∧
      h'.outflows = h.outflows.mapIdx (fun k d =>
        if region (axisPos h.xrange x) (axisPos h.yrange y) = some k then d.plus x y w else d) ∧
      h'.Grid ∧ h'.xrange = h.xrange ∧ h'.yrange = h.yrange) ∧
    (region (axisPos h.xrange x) (axisPos h.yrange y) = none ↔ ∃ b ∈ h.bins, b.Contains x y) ∧
    (∀ (i j : Nat) (a b : Bin2D F), h.bins[i]? = some a → h.bins[j]? = some b →
      a.Contains x y → b.Contains x y → i = j) := by
  have hlen8 := hg.outs
  -- cells contain only points on both axes
  have hcell : ∀ b ∈ h.bins, b.Contains x y → axisPos h.xrange x = .mid ∧ axisPos h.yrange y = .mid := by
    intro b hb hc
    obtain ⟨i, hi, hib⟩ := List.mem_iff_getElem.mp hb
    obtain ⟨c1, c2⟩ := hg.cell i b (by rw [List.getElem?_eq_getElem hi, hib])
    exact ⟨hg.xok.inside (List.mem_of_getElem? c1) hc.1, hg.yok.inside (List.mem_of_getElem? c2) hc.2⟩
  -- the map over the bins is trivial when no cell contains the point
  have hid : (∀ b ∈ h.bins, ¬ b.Contains x y) →
      h.bins.map (fun b => if b.Contains x y then { b with dist := b.dist.plus x y w } else b) = h.bins := by
    intro hn
    conv_rhs => rw [← List.map_id h.bins]
    apply List.map_congr_left
    intro b hb
    rw [if_neg (hn b hb)]; rfl
  have hout : ∀ k, k < 8 → region (axisPos h.xrange x) (axisPos h.yrange y) = some k →
      h.outflows.modify k (·.fill x y w) = h.outflows.mapIdx (fun k d =>
        if region (axisPos h.xrange x) (axisPos h.yrange y) = some k then d.plus x y w else d) := by
    intro k hk hr
    apply List.ext_getElem?
    intro j
    rw [List.getElem?_modify, List.getElem?_mapIdx, hr]
    cases h.outflows[j]? with
    | none => rfl
    | some d =>
      simp only [Option.map_eq_map, Option.map_some, Option.some.injEq]
      rfl
  have hgrid : ∀ h' : Binning2D F, h'.xedges = h.xedges → h'.yedges = h.yedges → h'.nx = h.nx → h'.ny = h.ny →
      h'.xrange = h.xrange → h'.yrange = h.yrange → h'.outflows.length = 8 →
      h'.bins.map (fun b => (b.xrange, b.yrange)) = h.bins.map (fun b => (b.xrange, b.yrange)) → h'.Grid := by
    intro h' e1 e2 e3 e4 e5 e6 e7 e8
    have hl : h'.bins.length = h.bins.length := by
      have := congrArg List.length e8; simpa using this
    refine ⟨by rw [e1, e5]; exact hg.xok, by rw [e2, e6]; exact hg.yok, by rw [e3, e1]; exact hg.nx,
      by rw [e4, e2]; exact hg.ny, e7, by rw [hl, e3, e4]; exact hg.size, ?_⟩
    intro i b hb
    have : (h'.bins.map (fun b => (b.xrange, b.yrange)))[i]? = some (b.xrange, b.yrange) := by
      rw [List.getElem?_map, hb]; rfl
    rw [e8, List.getElem?_map] at this
    cases hc : h.bins[i]? with
    | none => rw [hc] at this; simp at this
    | some c =>
      rw [hc] at this
      simp only [Option.map_some, Option.some.injEq, Prod.mk.injEq] at this
      obtain ⟨t1, t2⟩ := this
      have := hg.cell i c hc
      rw [e1, e2, e3, ← t1, ← t2]; exact this
  have hmapr : (h.bins.map (fun b => if b.Contains x y then { b with dist := b.dist.plus x y w } else b)).map
      (fun b => (b.xrange, b.yrange)) = h.bins.map (fun b => (b.xrange, b.yrange)) := by
    rw [List.map_map]
    apply List.map_congr_left
    intro b _
    simp only [Function.comp]
    split <;> rfl
  refine ⟨?_, ?_, fun i j a b => hg.unique⟩
  · -- outflow regions
    have hregion : ∀ k : Nat, k < 8 → h.coordToIndex x y = -((k : Int) + 1) →
        region (axisPos h.xrange x) (axisPos h.yrange y) = some k →
        ∃ h', h.fill x y w = some h' ∧ h'.dist = h.dist.plus x y w ∧
          h'.bins = h.bins.map (fun b => if b.Contains x y then { b with dist := b.dist.plus x y w } else b) ∧
          h'.outflows = h.outflows.mapIdx (fun k d =>
            if region (axisPos h.xrange x) (axisPos h.yrange y) = some k then d.plus x y w else d) ∧
          h'.Grid ∧ h'.xrange = h.xrange ∧ h'.yrange = h.yrange := by
      intro k hk hi hr
      have hn : ∀ b ∈ h.bins, ¬ b.Contains x y := by
        intro b hb hc
        obtain ⟨p1, p2⟩ := hcell b hb hc
        rw [p1, p2] at hr
        exact absurd hr (by simp [region])
      refine ⟨{ h with dist := h.dist.plus x y w, outflows := h.outflows.modify k (·.fill x y w) }, ?_, rfl,
        (hid hn).symm, hout k hk hr, ?_, rfl, rfl⟩
      · unfold Binning2D.fill
        simp only [hi]
        rw [if_neg (by omega), if_pos (by omega)]
        have : (- -((k : Int) + 1) - 1).toNat = k := by omega
        rw [this, if_pos (by omega)]
        rfl
      · exact hgrid _ rfl rfl rfl rfl rfl rfl (by simp [hlen8]) rfl
    have hnx := hg.nx
    have hny := hg.ny
    rcases indexOf_axis hg.xok x with ⟨px, ix⟩ | ⟨px, ix⟩ | ⟨px, i, r, hr, hrc, ix⟩ <;>
    rcases indexOf_axis hg.yok y with ⟨py, iy⟩ | ⟨py, iy⟩ | ⟨py, j, q, hq, hqc, iy⟩
    · refine hregion 6 (by omega) ?_ (by rw [px, py]; rfl)
      unfold Binning2D.coordToIndex; simp only [ix, iy]; rw [if_neg (by omega)]; rfl
    · refine hregion 0 (by omega) ?_ (by rw [px, py]; rfl)
      unfold Binning2D.coordToIndex; simp only [ix, iy]; rw [if_neg (by omega)]; rfl
    · refine hregion 7 (by omega) ?_ (by rw [px, py]; rfl)
      unfold Binning2D.coordToIndex; simp only [ix, iy]
      rw [if_neg (by omega), if_neg (by omega), if_neg (by omega), if_neg (by omega), if_neg (by omega),
        if_neg (by omega), if_pos trivial]; rfl
    · refine hregion 4 (by omega) ?_ (by rw [px, py]; rfl)
      unfold Binning2D.coordToIndex; simp only [ix, iy]; rw [if_neg (by omega)]; rfl
    · refine hregion 2 (by omega) ?_ (by rw [px, py]; rfl)
      unfold Binning2D.coordToIndex; simp only [ix, iy]; rw [if_neg (by omega)]; rfl
    · refine hregion 3 (by omega) ?_ (by rw [px, py]; rfl)
      unfold Binning2D.coordToIndex; simp only [ix, iy]
      rw [if_neg (by omega), if_neg (by omega), if_neg (by omega), if_neg (by omega), if_neg (by omega),
        if_pos trivial]; rfl
    · refine hregion 5 (by omega) ?_ (by rw [px, py]; rfl)
      unfold Binning2D.coordToIndex; simp only [ix, iy]
      rw [if_neg (by omega), if_neg (by omega), if_neg (by omega), if_neg (by omega), if_neg (by omega),
        if_neg (by omega), if_neg (by omega), if_neg (by omega), if_pos trivial]; rfl
    · refine hregion 1 (by omega) ?_ (by rw [px, py]; rfl)
      unfold Binning2D.coordToIndex; simp only [ix, iy]
      rw [if_neg (by omega), if_neg (by omega), if_neg (by omega), if_neg (by omega), if_neg (by omega),
        if_neg (by omega), if_neg (by omega), if_pos trivial]; rfl
    · -- a cell
      have hi : i < h.nx := by rw [hnx]; exact (List.getElem?_eq_some_iff.mp hr).1
      have hj : j < h.ny := by rw [hny]; exact (List.getElem?_eq_some_iff.mp hq).1
      have hlt : j * h.nx + i < h.bins.length := by
        rw [hg.size]
        calc j * h.nx + i < j * h.nx + h.nx := by omega
          _ = (j + 1) * h.nx := by rw [Nat.succ_mul]
          _ ≤ h.ny * h.nx := Nat.mul_le_mul_right _ hj
      have hidx : h.coordToIndex x y = ((j * h.nx + i : Nat) : Int) := by
        unfold Binning2D.coordToIndex; simp only [ix, iy]
        rw [if_neg (by omega), if_neg (by omega), if_neg (by omega), if_neg (by omega), if_neg (by omega),
          if_neg (by omega), if_neg (by omega), if_neg (by omega), if_neg (by omega)]
        push_cast; rfl
      have hcb : ∃ b, h.bins[j * h.nx + i]? = some b ∧ b.Contains x y := by
        refine ⟨h.bins[j * h.nx + i], List.getElem?_eq_getElem hlt, ?_⟩
        obtain ⟨c1, c2⟩ := hg.cell _ _ (List.getElem?_eq_getElem hlt)
        have e1 : (j * h.nx + i) % h.nx = i := by
          rw [Nat.mul_comm, Nat.mul_add_mod, Nat.mod_eq_of_lt hi]
        have e2 : (j * h.nx + i) / h.nx = j := by
          rw [Nat.mul_comm, Nat.mul_add_div (by omega), Nat.div_eq_of_lt hi]; rfl
        rw [e1, hr] at c1; rw [e2, hq] at c2
        injection c1 with c1
        injection c2 with c2
        exact ⟨by rw [← c1]; exact hrc, by rw [← c2]; exact hqc⟩
      obtain ⟨b, hb, hbc⟩ := hcb
      have hmod : h.bins.modify (j * h.nx + i) (·.fill x y w) =
          h.bins.map (fun b => if b.Contains x y then { b with dist := b.dist.plus x y w } else b) := by
        apply List.ext_getElem?
        intro k
        rw [List.getElem?_modify, List.getElem?_map]
        cases hk : h.bins[k]? with
        | none => rfl
        | some c =>
          simp only [Option.map_eq_map, Option.map_some, Option.some.injEq]
          by_cases hik : j * h.nx + i = k
          · rw [if_pos hik]
            subst hik
            rw [hb] at hk; cases hk
            rw [if_pos hbc]; rfl
          · rw [if_neg hik, if_neg (fun hc => hik (hg.unique hb hk hbc hc))]
      have houtid : h.outflows = h.outflows.mapIdx (fun k d =>
          if region (axisPos h.xrange x) (axisPos h.yrange y) = some k then d.plus x y w else d) := by
        apply List.ext_getElem?
        intro k
        rw [List.getElem?_mapIdx, px, py]
        cases h.outflows[k]? with
        | none => rfl
        | some d => rfl
      refine ⟨{ h with dist := h.dist.plus x y w, bins := h.bins.modify (j * h.nx + i) (·.fill x y w) }, ?_, rfl,
        hmod, houtid, ?_, rfl, rfl⟩
      · unfold Binning2D.fill
        simp only [hidx]
        rw [if_neg (by omega), if_neg (by omega), if_pos (by omega)]
        rfl
      · exact hgrid _ rfl rfl rfl rfl rfl rfl hlen8 (by rw [hmod]; exact hmapr)
  · constructor
    · intro hr
      rcases indexOf_axis hg.xok x with ⟨px, ix⟩ | ⟨px, ix⟩ | ⟨px, i, r, hr', hrc, ix⟩ <;>
      rcases indexOf_axis hg.yok y with ⟨py, iy⟩ | ⟨py, iy⟩ | ⟨py, j, q, hq, hqc, iy⟩ <;>
      rw [px, py] at hr <;> (try (cases hr; done))
      have hi : i < h.nx := by rw [hg.nx]; exact (List.getElem?_eq_some_iff.mp hr').1
      have hj : j < h.ny := by rw [hg.ny]; exact (List.getElem?_eq_some_iff.mp hq).1
      have hlt : j * h.nx + i < h.bins.length := by
        rw [hg.size]
        calc j * h.nx + i < j * h.nx + h.nx := by omega
          _ = (j + 1) * h.nx := by rw [Nat.succ_mul]
          _ ≤ h.ny * h.nx := Nat.mul_le_mul_right _ hj
      refine ⟨h.bins[j * h.nx + i], List.getElem_mem hlt, ?_⟩
      obtain ⟨c1, c2⟩ := hg.cell _ _ (List.getElem?_eq_getElem hlt)
      have e1 : (j * h.nx + i) % h.nx = i := by
        rw [Nat.mul_comm, Nat.mul_add_mod, Nat.mod_eq_of_lt hi]
      have e2 : (j * h.nx + i) / h.nx = j := by
        rw [Nat.mul_comm, Nat.mul_add_div (by omega), Nat.div_eq_of_lt hi]; rfl
      rw [e1, hr'] at c1; rw [e2, hq] at c2
      injection c1 with c1
      injection c2 with c2
      exact ⟨by rw [← c1]; exact hrc, by rw [← c2]; exact hqc⟩
    · rintro ⟨b, hb, hc⟩
      obtain ⟨p1, p2⟩ := hcell b hb hc
      rw [p1, p2]; rfl

omit [BoundedOrder α] in
/-- **C29**: any sequence of fills succeeds, and the total counts every fill. -/
theorem C29_fills (h : Binning2D F) (hg : h.Grid) (fs : List (F × F × F)) :
    ∃ h', h.fills fs = some h' ∧ h'.Grid ∧
      h'.dist = fs.foldl (fun d p => d.plus p.1 p.2.1 p.2.2) h.dist := by
  induction fs generalizing h with
  | nil => exact ⟨h, rfl, hg, rfl⟩
  | cons p fs ih =>
    obtain ⟨x, y, w⟩ := p
    obtain ⟨⟨h', e, hd, -, -, hg', -⟩, -⟩ := C29_fill h hg x y w
    obtain ⟨h'', e', hg'', hd'⟩ := ih h' hg'
    exact ⟨h'', by simp only [Binning2D.fills, e, e'], hg'', by rw [hd', hd]; rfl⟩

end

omit [BoundedOrder α] in
theorem edges_axisOk {edges : List F} (hn : ∀ x ∈ edges, isNaN x = false) (hl : 2 ≤ edges.length)
    (hs : Increasing edges) {a b : F} (ha : edges.head? = some a) (hb : edges.getLast? = some b) :
    AxisOk (edgeRanges edges) ⟨a, b⟩ := by
  match edges, hl with
  | e0 :: e1 :: l, _ =>
    simp only [List.head?_cons, Option.some.injEq] at ha
    subst ha
    obtain ⟨r, hr, hrb⟩ := edgeRanges_last hb
    have ho := edgeRanges_ordered hs
    refine ⟨ho, by simp [edgeRanges], ?_, ?_, ?_⟩
    · intro r' hr'
      rw [edgeRanges_head] at hr'; cases hr'; rfl
    · intro r' hr'
      rw [hr] at hr'; cases hr'; exact hrb
    · intro x h1 h2
      refine edgeRanges_cover hs h1 ⟨r, List.mem_of_getLast? hr, ?_⟩
      rw [hrb]; exact h2

omit [LinearOrder α] [BoundedOrder α] [GoFloat F α] in
theorem gridBins_get [Zero F] (xs ys : List (Range F)) (i : Nat) (b : Bin2D F)
    (h : (gridBins xs ys)[i]? = some b) :
    xs[i % xs.length]? = some b.xrange ∧ ys[i / xs.length]? = some b.yrange := by
  induction ys generalizing i with
  | nil => simp [gridBins] at h
  | cons y ys ih =>
    have hx : gridBins xs (y :: ys) = xs.map (fun xr => ⟨xr, y, .zero⟩) ++ gridBins xs ys := by
      simp [gridBins]
    rw [hx] at h
    by_cases hi : i < xs.length
    · rw [List.getElem?_append_left (by simpa using hi), List.getElem?_map, List.getElem?_eq_getElem hi] at h
      simp only [Option.map_some, Option.some.injEq] at h
      subst h
      rw [Nat.mod_eq_of_lt hi, Nat.div_eq_of_lt hi]
      exact ⟨List.getElem?_eq_getElem hi, rfl⟩
    · rw [List.getElem?_append_right (by simpa using hi)] at h
      simp only [List.length_map] at h
      obtain ⟨h1, h2⟩ := ih _ h
      have hpos : 0 < xs.length := by
        rcases Nat.eq_zero_or_pos xs.length with h0 | h0
        · have : xs = [] := List.eq_nil_of_length_eq_zero h0
          subst this
          simp at h1
        · exact h0
      have e1 : i % xs.length = (i - xs.length) % xs.length := by
        rw [Nat.mod_eq_sub_mod (by omega)]
      have e2 : i / xs.length = (i - xs.length) / xs.length + 1 := by
        rw [Nat.div_eq_sub_div hpos (by omega)]
      rw [e1, e2, List.getElem?_cons_succ]
      exact ⟨h1, h2⟩

omit [BoundedOrder α] in
/-- **C29**: for edges that are numbers, the constructor succeeds exactly when both lists
have at least two edges and increase strictly, and gives an empty grid between the edges. -/
theorem C29_from_edges [Zero F] (xe ye : List F) (hx : ∀ x ∈ xe, isNaN x = false)
    (hy : ∀ y ∈ ye, isNaN y = false) :
    ((newBinning2DFromEdges xe ye).isSome ↔
      (2 ≤ xe.length ∧ Increasing xe) ∧ (2 ≤ ye.length ∧ Increasing ye)) ∧
    ∀ h, newBinning2DFromEdges xe ye = some h →
      h.Grid ∧ h.xedges = edgeRanges xe ∧ h.yedges = edgeRanges ye ∧
      xe.head? = some h.xrange.lo ∧ xe.getLast? = some h.xrange.hi ∧
      ye.head? = some h.yrange.lo ∧ ye.getLast? = some h.yrange.hi := by
  have ix := sorted_nodup_iff xe hx
  have iy := sorted_nodup_iff ye hy
  unfold newBinning2DFromEdges
  by_cases h1 : xe.length ≤ 1
  · rw [if_pos h1]
    exact ⟨⟨fun h => by simp at h, fun h => by omega⟩, fun h hh => by simp at hh⟩
  rw [if_neg h1]
  by_cases h2 : isSorted xe = true
  swap
  · rw [if_pos (by simpa using h2)]
    exact ⟨⟨fun h => by simp at h, fun h => absurd (ix.mpr h.1.2).1 h2⟩, fun h hh => by simp at hh⟩
  rw [if_neg (by simp [h2])]
  by_cases h3 : ye.length ≤ 1
  · rw [if_pos h3]
    exact ⟨⟨fun h => by simp at h, fun h => by omega⟩, fun h hh => by simp at hh⟩
  rw [if_neg h3]
  by_cases h4 : isSorted ye = true
  swap
  · rw [if_pos (by simpa using h4)]
    exact ⟨⟨fun h => by simp at h, fun h => absurd (iy.mpr h.2.2).1 h4⟩, fun h hh => by simp at hh⟩
  rw [if_neg (by simp [h4])]
  dsimp only
  by_cases h5 : (edgeRanges xe).any (fun r => feq r.lo r.hi) = true
  · rw [if_pos h5]
    refine ⟨⟨fun h => by simp at h, fun h => ?_⟩, fun h hh => by simp at hh⟩
    have := (ix.mpr h.1.2).2
    rw [h5] at this; exact absurd this (by simp)
  rw [if_neg h5]
  by_cases h6 : (edgeRanges ye).any (fun r => feq r.lo r.hi) = true
  · rw [if_pos h6]
    refine ⟨⟨fun h => by simp at h, fun h => ?_⟩, fun h hh => by simp at hh⟩
    have := (iy.mpr h.2.2).2
    rw [h6] at this; exact absurd this (by simp)
  rw [if_neg h6]
  have sx := ix.mp ⟨h2, by simpa using h5⟩
  have sy := iy.mp ⟨h4, by simpa using h6⟩
  have nex : xe ≠ [] := by rintro rfl; simp at h1
  have ney : ye ≠ [] := by rintro rfl; simp at h3
  obtain ⟨a, ha⟩ : ∃ a, xe.head? = some a := by cases hh : xe.head? with | none => simp at hh; exact absurd hh nex | some a => exact ⟨a, rfl⟩
  obtain ⟨b, hb⟩ : ∃ a, xe.getLast? = some a := by cases hh : xe.getLast? with | none => simp at hh; exact absurd hh nex | some a => exact ⟨a, rfl⟩
  obtain ⟨c, hc⟩ : ∃ a, ye.head? = some a := by cases hh : ye.head? with | none => simp at hh; exact absurd hh ney | some a => exact ⟨a, rfl⟩
  obtain ⟨d, hd⟩ : ∃ a, ye.getLast? = some a := by cases hh : ye.getLast? with | none => simp at hh; exact absurd hh ney | some a => exact ⟨a, rfl⟩
  rw [ha, hb, hc, hd]
  refine ⟨⟨fun _ => ⟨⟨by omega, sx⟩, ⟨by omega, sy⟩⟩, fun _ => rfl⟩, ?_⟩
  intro h hh
  simp only [Option.some.injEq] at hh
  subst hh
  refine ⟨⟨edges_axisOk hx (by omega) sx ha hb, edges_axisOk hy (by omega) sy hc hd, rfl, rfl, by simp, ?_, ?_⟩,
    rfl, rfl, rfl, rfl, rfl, rfl⟩
  · simp [gridBins, List.length_flatMap]
  · intro i b' hb'
    exact gridBins_get _ _ i b' hb'

end Verif.Hbook
