import Verif.Hbook.RootCnvProps
import Mathlib.Data.List.ProdSigma

/-!
# Properties of the conversions between `hbook` and ROOT histograms, two dimensions; graphs
-/

set_option linter.unusedSectionVars false

namespace Verif.Hbook.RootCnv
open Verif.Hbook Verif.Hbook.Brio Verif.Hbook.Prof

/-! ### Specification -/

/-- The number of the cell of column `ix` and row `iy` of a ROOT histogram with `nx` columns of
bins: columns and rows `0` and `n+1` are the outflows. -/
def rootCell (nx ix iy : Nat) : Nat := ix + (nx + 2) * iy

/-- Every range starts where the one before it ends. -/
def Abutting {F : Type} (rs : List (Range F)) : Prop :=
  ∀ i (h : i + 1 < rs.length), rs[i + 1].lo = rs[i].hi

section
variable {F α C : Type} [LinearOrder α] [BoundedOrder α] [GoFloat F α]
variable [Zero F] [One F] [Add F] [Sub F] [Neg F] [Mul F] [Div F] [NatCast F] [IntCast F]

/-- A histogram whose bins are the products of the columns `xs` and the rows `ys`. -/
structure GridH2 (h : H2 F) (xs ys : List (Range F)) : Prop where
  nx : h.bng.nx = xs.length
  ny : h.bng.ny = ys.length
  xne : xs ≠ []
  yne : ys ≠ []
  len : h.bng.bins.length = xs.length * ys.length
  bins : ∀ ix iy (hx : ix < xs.length) (hy : iy < ys.length),
    ∃ d, h.bng.bins[iy * xs.length + ix]? = some ⟨xs[ix], ys[iy], d⟩
  xabut : Abutting xs
  yabut : Abutting ys
  outflows : h.bng.outflows.length = 8
  xproper : fle h.bng.xrange.hi h.bng.xrange.lo = false
  yproper : fle h.bng.yrange.hi h.bng.yrange.lo = false
  title : h.title ≠ some .other

/-- What a reader of the ROOT histogram `r` sees of `h`: the edges of columns and rows, the contents
and squared errors of the cells of the bins, and the moments. -/
structure Shows2 (k : Cell F C) (h : H2 F) (xs ys : List (Range F)) (r : TH2 F C) : Prop where
  nbins : r.xaxis.nbins = xs.length ∧ r.yaxis.nbins = ys.length
  ncells : r.ncells = (xs.length + 2) * (ys.length + 2) ∧ r.arr.length = r.ncells ∧ r.sumw2.length = r.ncells
  range : r.xaxis.xmin = h.bng.xrange.lo ∧ r.xaxis.xmax = h.bng.xrange.hi ∧
    r.yaxis.xmin = h.bng.yrange.lo ∧ r.yaxis.xmax = h.bng.yrange.hi
  xedges : ∀ i (hi : i < xs.length), binLowEdge r.xaxis ((i : Int) + 1) = some xs[i].lo ∧
    binWidth r.xaxis ((i : Int) + 1) = some (xs[i].hi - xs[i].lo)
  yedges : ∀ i (hi : i < ys.length), binLowEdge r.yaxis ((i : Int) + 1) = some ys[i].lo ∧
    binWidth r.yaxis ((i : Int) + 1) = some (ys[i].hi - ys[i].lo)
  bins : ∀ ix iy (b : Bin2D F), ix < xs.length → iy < ys.length →
    h.bng.bins[iy * xs.length + ix]? = some b →
    r.arr[rootCell xs.length (ix + 1) (iy + 1)]? = some (k.cst b.dist.x.dist.sumW) ∧
    r.sumw2[rootCell xs.length (ix + 1) (iy + 1)]? = some b.dist.x.dist.sumW2
  entries : r.entries = ((h.bng.dist.x.dist.n : Int) : F)
  moments : r.tsumw = h.bng.dist.x.dist.sumW ∧ r.tsumw2 = h.bng.dist.x.dist.sumW2 ∧
    r.tsumwx = h.bng.dist.x.sumWX ∧ r.tsumwx2 = h.bng.dist.x.sumWX2 ∧
    r.tsumwy = h.bng.dist.y.sumWX ∧ r.tsumwy2 = h.bng.dist.y.sumWX2 ∧ r.tsumwxy = h.bng.dist.sumWXY

/-- Two distributions with the sums of weights and of squared weights seen by `SumW` and `SumW2`. -/
def SameW2 (d e : Dist2D F) : Prop := SameW d.x e.x ∧ SameW d.x e.y

/-- The histogram `h'` has the bins, the sums of weights of bins and outflows, the moments, the name
and the title of `h`. -/
structure SameH2 (h h' : H2 F) : Prop where
  dims : h'.bng.nx = h.bng.nx ∧ h'.bng.ny = h.bng.ny ∧ h'.bng.bins.length = h.bng.bins.length
  range : h'.bng.xrange = h.bng.xrange ∧ h'.bng.yrange = h.bng.yrange
  bins : ∀ (i : Nat) (b : Bin2D F), h.bng.bins[i]? = some b → ∃ b' : Bin2D F, h'.bng.bins[i]? = some b' ∧
    b'.xrange = b.xrange ∧ b'.yrange = b.yrange ∧ SameW2 b.dist b'.dist
  outflows : h'.bng.outflows.length = h.bng.outflows.length ∧
    ∀ (i : Nat) (d : Dist2D F), h.bng.outflows[i]? = some d → ∃ d' : Dist2D F, h'.bng.outflows[i]? = some d' ∧ SameW2 d d'
  entries : h'.bng.dist.x.dist.n = h.bng.dist.x.dist.n ∧ h'.bng.dist.y.dist.n = h.bng.dist.x.dist.n
  sums : SameW2 h.bng.dist h'.bng.dist
  moments : h'.bng.dist.x.sumWX = h.bng.dist.x.sumWX ∧ h'.bng.dist.x.sumWX2 = h.bng.dist.x.sumWX2 ∧
    h'.bng.dist.y.sumWX = h.bng.dist.y.sumWX ∧ h'.bng.dist.y.sumWX2 = h.bng.dist.y.sumWX2 ∧
    h'.bng.dist.sumWXY = h.bng.dist.sumWXY
  name : nameOf h'.name = nameOf h.name
  title : titleOf h'.title = titleOf h.title

/-! ### Cells -/

theorem cell2_eq (nx ny ix iy : Nat) (hx : ix ≤ nx + 1) (hy : iy ≤ ny + 1) :
    (cell2 nx ny (ix : Int) (iy : Int)).toNat = rootCell nx ix iy := by
  simp only [cell2, rootCell]
  rw [if_neg (by omega), if_neg (by omega), if_neg (by omega), if_neg (by omega)]
  have : ((ix : Int) + ((nx : Int) + 1 + 1) * (iy : Int)) = ((ix + (nx + 2) * iy : Nat) : Int) := by
    push_cast; ring
  rw [this, Int.toNat_natCast]

theorem rootCell_inj {nx ix iy jx jy : Nat} (hx : ix ≤ nx + 1) (hj : jx ≤ nx + 1)
    (h : rootCell nx ix iy = rootCell nx jx jy) : ix = jx ∧ iy = jy := by
  simp only [rootCell] at h
  have h1 := congrArg (· % (nx + 2)) h
  have h2 := congrArg (· / (nx + 2)) h
  simp only [Nat.add_mul_mod_self_left, Nat.add_mul_div_left _ _ (Nat.succ_pos _)] at h1 h2
  rw [Nat.mod_eq_of_lt (by omega), Nat.mod_eq_of_lt (by omega)] at h1
  rw [Nat.div_eq_of_lt (by omega), Nat.div_eq_of_lt (by omega)] at h2
  exact ⟨h1, by omega⟩

theorem rootCell_lt {nx ny ix iy : Nat} (hx : ix ≤ nx + 1) (hy : iy ≤ ny + 1) :
    rootCell nx ix iy < (nx + 2) * (ny + 2) := by
  simp only [rootCell]
  have : (nx + 2) * iy ≤ (nx + 2) * (ny + 1) := Nat.mul_le_mul_left _ hy
  have e : (nx + 2) * (ny + 2) = (nx + 2) * (ny + 1) + (nx + 2) := by ring
  omega

/-- The cells of the outflows as natural numbers. -/
def outNat (nx ny : Nat) : List (Nat × Nat) :=
  [(0, 0), (0, 1), (0, ny + 1), (nx + 1, 0), (nx + 1, 1), (nx + 1, ny + 1), (1, 0), (1, ny + 1)]

theorem outCells_eq (nx ny : Nat) : outCells nx ny = (outNat nx ny).map fun p => ((p.1 : Int), (p.2 : Int)) := by
  simp [outCells, outNat]

theorem loop2_mem {nx ny : Nat} {p : Nat × Nat} : p ∈ loop2 nx ny ↔ p.1 < nx ∧ p.2 < ny := by
  obtain ⟨a, b⟩ := p
  simp [loop2]

theorem loop2_nodup (nx ny : Nat) : (loop2 nx ny).Nodup := by
  have : loop2 nx ny = (List.range nx) ×ˢ (List.range ny) := rfl
  rw [this]
  exact List.Nodup.product List.nodup_range List.nodup_range

theorem filter_eq_zero (n : Nat) (hn : n ≠ 0) : (List.range n).filter (fun i => i = 0) = [0] := by
  obtain ⟨m, rfl⟩ : ∃ m, n = m + 1 := ⟨n - 1, by omega⟩
  rw [List.range_succ_eq_map]
  simp [List.filter_eq_nil_iff]

theorem loop2_row (nx ny : Nat) (hn : ny ≠ 0) :
    (loop2 nx ny).filter (fun p => p.2 = 0) = (List.range nx).map fun i => (i, 0) := by
  simp only [loop2, List.filter_flatMap, List.filter_map, Function.comp_def]
  simp only [filter_eq_zero ny hn, List.map_cons, List.map_nil]
  induction List.range nx with
  | nil => rfl
  | cons a l ih => simp [ih]

theorem loop2_col (nx ny : Nat) (hn : nx ≠ 0) :
    (loop2 nx ny).filter (fun p => p.1 = 0) = (List.range ny).map fun i => (0, i) := by
  obtain ⟨m, rfl⟩ : ∃ m, nx = m + 1 := ⟨nx - 1, by omega⟩
  simp only [loop2, List.range_succ_eq_map, List.flatMap_cons, List.filter_append, List.filter_flatMap,
    List.filter_map, Function.comp_def]
  rw [List.filter_eq_self.2 (by simp)]
  have : (List.map Nat.succ (List.range m)).flatMap
      (fun a => List.map (fun iy => (a, iy)) (List.filter (fun _ => decide (a = 0)) (List.range ny))) = [] := by
    rw [List.flatMap_eq_nil_iff]
    intro a ha
    obtain ⟨j, -, rfl⟩ := List.mem_map.1 ha
    simp
  rw [this, List.append_nil]

theorem visit2_spec (h : Binning2D F) (B : Nat × Nat → Bin2D F) : ∀ l : List (Nat × Nat),
    (∀ p ∈ l, h.bins[p.2 * h.nx + p.1]? = some (B p)) → visit2 h l = some (l.map fun p => (p, B p))
  | [], _ => rfl
  | p :: l, hp => by
    simp only [visit2]
    rw [hp p (by simp), visit2_spec h B l fun q hq => hp q (List.mem_cons_of_mem _ hq)]
    rfl

/-- All positions written: bins, then outflows. -/
def positions (nx ny : Nat) : List (Nat × Nat) :=
  ((loop2 nx ny).map fun p => (p.1 + 1, p.2 + 1)) ++ outNat nx ny

theorem positions_le {nx ny : Nat} {p : Nat × Nat} (hp : p ∈ positions nx ny) :
    p.1 ≤ nx + 1 ∧ p.2 ≤ ny + 1 := by
  simp only [positions, List.mem_append, List.mem_map] at hp
  rcases hp with ⟨q, hq, rfl⟩ | hp
  · have := loop2_mem.1 hq; simp only; omega
  · simp only [outNat, List.mem_cons, List.not_mem_nil, or_false] at hp
    rcases hp with rfl | rfl | rfl | rfl | rfl | rfl | rfl | rfl <;> simp only <;> omega

theorem positions_nodup {nx ny : Nat} (hx : nx ≠ 0) (hy : ny ≠ 0) : (positions nx ny).Nodup := by
  refine List.Nodup.append ?_ ?_ ?_
  · refine List.Nodup.map ?_ (loop2_nodup nx ny)
    rintro ⟨a, b⟩ ⟨c, d⟩ h
    simp only [Prod.mk.injEq] at h
    ext <;> simp only <;> omega
  · simp only [outNat, List.nodup_cons, List.mem_cons, Prod.mk.injEq, List.not_mem_nil, or_false,
      List.nodup_nil, and_true, not_false_eq_true]
    omega
  · intro p hp hq
    obtain ⟨q, hq', rfl⟩ := List.mem_map.1 hp
    have := loop2_mem.1 hq'
    simp only [outNat, List.mem_cons, Prod.mk.injEq, List.not_mem_nil, or_false] at hq
    omega

theorem writes2_fst {T : Type} (g : Dist2D F → T) (h : Binning2D F) (B : Nat × Nat → Bin2D F)
    (ho : h.outflows.length = 8) :
    (writes2 g h ((loop2 h.nx h.ny).map fun p => (p, B p))).map Prod.fst =
      (positions h.nx h.ny).map fun p => rootCell h.nx p.1 p.2 := by
  simp only [writes2, positions, List.map_append, List.map_map]
  congr 1
  · apply List.map_congr_left
    intro p hp
    have := loop2_mem.1 hp
    simp only [Function.comp]
    have e := cell2_eq h.nx h.ny (p.1 + 1) (p.2 + 1) (by omega) (by omega)
    push_cast at e
    exact e
  · rw [outCells_eq]
    apply List.ext_getElem?
    intro i
    rw [List.getElem?_map, List.getElem?_map, List.getElem?_zipWith, List.getElem?_map]
    by_cases hi : i < 8
    · have hl : (outNat h.nx h.ny).length = 8 := rfl
      rw [List.getElem?_eq_getElem (by omega : i < h.outflows.length),
        List.getElem?_eq_getElem (by omega : i < (outNat h.nx h.ny).length)]
      have hm : (outNat h.nx h.ny)[i] ∈ positions h.nx h.ny :=
        List.mem_append_right _ (List.getElem_mem (by omega))
      have := positions_le hm
      exact congrArg some (cell2_eq h.nx h.ny _ _ this.1 this.2)
    · have hl : (outNat h.nx h.ny).length = 8 := rfl
      rw [List.getElem?_eq_none (by omega : (outNat h.nx h.ny).length ≤ i)]
      rfl

theorem writes2_cells {T : Type} (g : Dist2D F → T) (h : Binning2D F) (B : Nat × Nat → Bin2D F)
    (hx : h.nx ≠ 0) (hy : h.ny ≠ 0) (ho : h.outflows.length = 8) (z : T) :
    ∃ l, setAll (writes2 g h ((loop2 h.nx h.ny).map fun p => (p, B p)))
        (List.replicate ((h.nx + 2) * (h.ny + 2)) z) = some l ∧
      l.length = (h.nx + 2) * (h.ny + 2) ∧
      (∀ ix iy, ix < h.nx → iy < h.ny → l[rootCell h.nx (ix + 1) (iy + 1)]? = some (g (B (ix, iy)).dist)) ∧
      (∀ (i : Nat) (p : Nat × Nat) (d : Dist2D F), (outNat h.nx h.ny)[i]? = some p → h.outflows[i]? = some d →
        l[rootCell h.nx p.1 p.2]? = some (g d)) := by
  have hf := writes2_fst g h B ho
  obtain ⟨l, h1, h2, h3, -⟩ := setAll_spec (writes2 g h ((loop2 h.nx h.ny).map fun p => (p, B p)))
    (List.replicate ((h.nx + 2) * (h.ny + 2)) z)
    (by
      intro w hw
      have : w.1 ∈ (writes2 g h ((loop2 h.nx h.ny).map fun p => (p, B p))).map Prod.fst := List.mem_map_of_mem hw
      rw [hf] at this
      obtain ⟨p, hp, e⟩ := List.mem_map.1 this
      rw [← e, List.length_replicate]
      have := positions_le hp
      exact rootCell_lt this.1 this.2)
    (by
      rw [hf]
      refine List.Nodup.map_on ?_ (positions_nodup hx hy)
      intro p hp q hq e
      have a := positions_le hp
      have b := positions_le hq
      have := rootCell_inj a.1 b.1 e
      exact Prod.ext this.1 this.2)
  refine ⟨l, h1, by rw [h2, List.length_replicate], ?_, ?_⟩
  · intro ix iy hix hiy
    refine h3 (rootCell h.nx (ix + 1) (iy + 1), g (B (ix, iy)).dist) ?_
    simp only [writes2]
    refine List.mem_append_left _ ?_
    rw [List.map_map]
    refine List.mem_map.2 ⟨(ix, iy), loop2_mem.2 ⟨hix, hiy⟩, ?_⟩
    have e := cell2_eq h.nx h.ny (ix + 1) (iy + 1) (by omega) (by omega)
    push_cast at e
    simp only [Function.comp]
    rw [e]
  · intro i p d hp hd
    have hm : p ∈ positions h.nx h.ny := List.mem_append_right _ (List.mem_of_getElem? hp)
    have hl := positions_le hm
    refine h3 (rootCell h.nx p.1 p.2, g d) ?_
    simp only [writes2]
    refine List.mem_append_right _ ?_
    apply List.mem_of_getElem? (i := i)
    rw [List.getElem?_zipWith, outCells_eq, List.getElem?_map, hp, hd]
    simp only [Option.map_some]
    rw [cell2_eq h.nx h.ny _ _ hl.1 hl.2]

/-- The edges of abutting ranges. -/
theorem lows_edges (rs : List (Range F)) (hab : Abutting rs) (last : F)
    (hlast : ∀ r, rs.getLast? = some r → r.hi = last) :
    (rs.map (·.lo) ++ [last]).length = rs.length + 1 ∧
    ∀ i (hi : i < rs.length), (rs.map (·.lo) ++ [last])[i]? = some rs[i].lo ∧
      (rs.map (·.lo) ++ [last])[i + 1]? = some rs[i].hi := by
  refine ⟨by simp, ?_⟩
  intro i hi
  constructor
  · rw [List.getElem?_append_left (by simpa using hi), List.getElem?_map, List.getElem?_eq_getElem hi]
    rfl
  · by_cases hn : i + 1 < rs.length
    · rw [List.getElem?_append_left (by simpa using hn), List.getElem?_map, List.getElem?_eq_getElem hn]
      simp only [Option.map_some, hab i hn]
    · have e : i + 1 = (rs.map (·.lo)).length := by simp; omega
      rw [e, List.getElem?_append_right (le_refl _), Nat.sub_self]
      have : rs.getLast? = some rs[i] := by
        rw [List.getLast?_eq_getElem?, show rs.length - 1 = i by omega, List.getElem?_eq_getElem hi]
      rw [List.getElem?_cons_zero, hlast _ this]

theorem GridH2.bin_at {h : H2 F} {xs ys : List (Range F)} (hg : GridH2 h xs ys) :
    ∃ B : Nat × Nat → Bin2D F, ∀ ix iy (hx : ix < xs.length) (hy : iy < ys.length),
      h.bng.bins[iy * xs.length + ix]? = some (B (ix, iy)) ∧ (B (ix, iy)).xrange = xs[ix] ∧
      (B (ix, iy)).yrange = ys[iy] := by
  refine ⟨fun p => (h.bng.bins[p.2 * xs.length + p.1]?).getD ⟨⟨0, 0⟩, ⟨0, 0⟩, .zero⟩, ?_⟩
  intro ix iy hx hy
  obtain ⟨d, hd⟩ := hg.bins ix iy hx hy
  simp [hd]

/-- The fields of the ROOT histogram made of `h`. -/
theorem newH2From_fields (k : Cell F C) (h : H2 F) (xs ys : List (Range F)) (hg : GridH2 h xs ys) :
    ∃ r, newH2From k h = some r ∧
      r.entries = ((h.bng.dist.x.dist.n : Int) : F) ∧
      (r.tsumw = h.bng.dist.x.dist.sumW ∧ r.tsumw2 = h.bng.dist.x.dist.sumW2 ∧
        r.tsumwx = h.bng.dist.x.sumWX ∧ r.tsumwx2 = h.bng.dist.x.sumWX2 ∧
        r.tsumwy = h.bng.dist.y.sumWX ∧ r.tsumwy2 = h.bng.dist.y.sumWX2 ∧ r.tsumwxy = h.bng.dist.sumWXY) ∧
      r.ncells = (xs.length + 2) * (ys.length + 2) ∧
      (r.xaxis.nbins = xs.length ∧ r.yaxis.nbins = ys.length) ∧
      (r.xaxis.xmin = h.bng.xrange.lo ∧ r.xaxis.xmax = h.bng.xrange.hi ∧
        r.yaxis.xmin = h.bng.yrange.lo ∧ r.yaxis.xmax = h.bng.yrange.hi) ∧
      (∀ i (hi : i < xs.length), r.xaxis.xbins[i]? = some xs[i].lo ∧ r.xaxis.xbins[i + 1]? = some xs[i].hi) ∧
      (∀ i (hi : i < ys.length), r.yaxis.xbins[i]? = some ys[i].lo ∧ r.yaxis.xbins[i + 1]? = some ys[i].hi) ∧
      r.name = nameOf h.name ∧ some r.title = titleOf h.title ∧
      (r.arr.length = r.ncells ∧ r.sumw2.length = r.ncells) ∧
      (∀ ix iy (b : Bin2D F), ix < xs.length → iy < ys.length → h.bng.bins[iy * xs.length + ix]? = some b →
        r.arr[rootCell xs.length (ix + 1) (iy + 1)]? = some (k.cst b.dist.x.dist.sumW) ∧
        r.sumw2[rootCell xs.length (ix + 1) (iy + 1)]? = some b.dist.x.dist.sumW2) ∧
      (∀ (i : Nat) (p : Nat × Nat) (d : Dist2D F), (outNat xs.length ys.length)[i]? = some p →
        h.bng.outflows[i]? = some d → r.arr[rootCell xs.length p.1 p.2]? = some (k.cst d.x.dist.sumW) ∧
        r.sumw2[rootCell xs.length p.1 p.2]? = some d.x.dist.sumW2) := by
  obtain ⟨B, hB⟩ := hg.bin_at
  have hx0 : xs.length ≠ 0 := fun h0 => hg.xne (List.length_eq_zero_iff.1 h0)
  have hy0 : ys.length ≠ 0 := fun h0 => hg.yne (List.length_eq_zero_iff.1 h0)
  have hv : visit2 h.bng (loop2 h.bng.nx h.bng.ny) = some ((loop2 h.bng.nx h.bng.ny).map fun p => (p, B p)) := by
    apply visit2_spec
    intro p hp
    have := loop2_mem.1 hp
    rw [hg.nx, hg.ny] at this
    rw [hg.nx]
    exact (hB p.1 p.2 this.1 this.2).1
  obtain ⟨a, a1, a2, a3, a4⟩ := writes2_cells (fun d => k.cst d.x.dist.sumW) h.bng B
    (by rw [hg.nx]; exact hx0) (by rw [hg.ny]; exact hy0) hg.outflows k.zero
  obtain ⟨b, b1, b2, b3, b4⟩ := writes2_cells (fun d => d.x.dist.sumW2) h.bng B
    (by rw [hg.nx]; exact hx0) (by rw [hg.ny]; exact hy0) hg.outflows 0
  obtain ⟨t, ht⟩ : ∃ t, titleOf h.title = some t := by
    cases e : h.title with
    | none => exact ⟨_, rfl⟩
    | some x =>
      cases x with
      | str s => exact ⟨_, rfl⟩
      | nil => exact ⟨_, rfl⟩
      | other => exact absurd e hg.title
  have hxl : h.bng.bins[h.bng.nx - 1]? = some (B (xs.length - 1, 0)) := by
    have := (hB (xs.length - 1) 0 (by omega) (by omega)).1
    rw [Nat.zero_mul, Nat.zero_add] at this
    rw [hg.nx]; exact this
  have hyl : h.bng.bins[(h.bng.ny - 1) * h.bng.nx]? = some (B (0, ys.length - 1)) := by
    have := (hB 0 (ys.length - 1) (by omega) (by omega)).1
    rw [Nat.add_zero] at this
    rw [hg.nx, hg.ny]; exact this
  have hxlows : xLows ((loop2 h.bng.nx h.bng.ny).map fun p => (p, B p)) = xs.map (·.lo) := by
    simp only [xLows, List.filter_map, Function.comp_def]
    rw [hg.nx, hg.ny, loop2_row _ _ hy0, List.map_map, List.map_map]
    apply List.ext_getElem
    · simp
    · intro i h1 h2
      have hi : i < xs.length := by simpa using h2
      simp only [List.getElem_map, List.getElem_range, Function.comp]
      rw [(hB i 0 hi (by omega)).2.1]
  have hylows : yLows ((loop2 h.bng.nx h.bng.ny).map fun p => (p, B p)) = ys.map (·.lo) := by
    simp only [yLows, List.filter_map, Function.comp_def]
    rw [hg.nx, hg.ny, loop2_col _ _ hx0, List.map_map, List.map_map]
    apply List.ext_getElem
    · simp
    · intro i h1 h2
      have hi : i < ys.length := by simpa using h2
      simp only [List.getElem_map, List.getElem_range, Function.comp]
      rw [(hB 0 i (by omega) hi).2.2]
  have hxe := lows_edges xs hg.xabut (B (xs.length - 1, 0)).xrange.hi (by
    intro r hr
    rw [List.getLast?_eq_getElem?, List.getElem?_eq_getElem (by omega)] at hr
    cases hr
    rw [(hB (xs.length - 1) 0 (by omega) (by omega)).2.1])
  have hye := lows_edges ys hg.yabut (B (0, ys.length - 1)).yrange.hi (by
    intro r hr
    rw [List.getLast?_eq_getElem?, List.getElem?_eq_getElem (by omega)] at hr
    cases hr
    rw [(hB 0 (ys.length - 1) (by omega) (by omega)).2.2])
  simp only [newH2From]
  rw [hv]
  simp only []
  rw [if_neg (by rw [hg.nx, hg.ny]; omega), a1, b1, hxl, hyl, ht]
  refine ⟨_, rfl, rfl, ⟨rfl, rfl, rfl, rfl, rfl, rfl, rfl⟩, ?_, ⟨hg.nx, hg.ny⟩, ⟨rfl, rfl, rfl, rfl⟩, ?_, ?_, rfl, rfl,
    ⟨a2, b2⟩, ?_, ?_⟩
  · simp only [hg.nx, hg.ny]
  · simp only [hxlows]; exact hxe.2
  · simp only [hylows]; exact hye.2
  · intro ix iy c hix hiy hc
    rw [(hB ix iy hix hiy).1] at hc
    cases hc
    rw [hg.nx, hg.ny] at a3 b3
    exact ⟨a3 ix iy hix hiy, b3 ix iy hix hiy⟩
  · intro i p d hp hd
    rw [hg.nx, hg.ny] at a4 b4
    exact ⟨a4 i p d hp hd, b4 i p d hp hd⟩

theorem newH2From_shows (k : Cell F C) (h : H2 F) (xs ys : List (Range F)) (hg : GridH2 h xs ys) :
    ∃ r, newH2From k h = some r ∧ Shows2 k h xs ys r := by
  obtain ⟨r, e, e1, e2, e3, e4, e5, e6, e7, -, -, e10, e11, -⟩ := newH2From_fields k h xs ys hg
  refine ⟨r, e, e4, ⟨e3, e10.1, e10.2⟩, e5, ?_, ?_, e11, e1, e2⟩
  · intro i hi
    exact ⟨binLowEdge_of _ i (by rw [e4.1]; exact hi) _ (e6 i hi).1,
      binWidth_of _ i (by rw [e4.1]; exact hi) _ _ (e6 i hi).1 (e6 i hi).2⟩
  · intro i hi
    exact ⟨binLowEdge_of _ i (by rw [e4.2]; exact hi) _ (e7 i hi).1,
      binWidth_of _ i (by rw [e4.2]; exact hi) _ _ (e7 i hi).1 (e7 i hi).2⟩

/-! ### From ROOT -/

/-- The distribution read off a cell. -/
def cellDist2 (v : Env F) (k : Cell F C) (c : C) (s : F) : Dist2D F :=
  ⟨cellDist v k c s, cellDist v k c s, 0⟩

theorem dist2_of (v : Env F) (k : Cell F C) (r : TH2 F C) (ix iy : Nat) (hx : ix ≤ r.xaxis.nbins + 1)
    (hy : iy ≤ r.yaxis.nbins + 1) (c : C) (s : F)
    (hc : r.arr[rootCell r.xaxis.nbins ix iy]? = some c)
    (hs : r.sumw2[rootCell r.xaxis.nbins ix iy]? = some s) :
    dist2 v k r (ix : Int) (iy : Int) = some (cellDist2 v k c s) := by
  have hl : r.sumw2.length > 0 := by
    rcases Nat.eq_zero_or_pos r.sumw2.length with h0 | h0
    · rw [List.length_eq_zero_iff.1 h0] at hs; simp at hs
    · exact h0
  simp only [dist2]
  rw [cell2_eq _ _ _ _ hx hy, if_pos hl, hc, hs]
  simp only [if_pos hl]
  rfl

/-- **C104.** A `hbook` histogram in two dimensions converts to a ROOT histogram showing the edges of
its columns and rows, the contents and squared errors of its bins at the cells ROOT expects, and the
moments; converted back it has the same bins, sums of weights of bins and outflows, moments, name and
title.

Partial: exact widths, lossless cells; the ROOT cells of the outflows are not the ones ROOT expects
(`C104_outflow_counterexample`), and a converted histogram with columns of different widths fills
the wrong bins (`C104_fill_counterexample`). -/
theorem C104_hist2d_roundtrip_partial (v : Env F) (k : Cell F C) (h : H2 F) (xs ys : List (Range F))
    (hg : GridH2 h xs ys) (hx : ∀ x ∈ xs, Exact x) (hy : ∀ y ∈ ys, Exact y)
    (hn : v.toInt ((h.bng.dist.x.dist.n : Int) : F) = h.bng.dist.x.dist.n)
    (hk : ∀ d, (d ∈ h.bng.outflows ∨ ∃ b ∈ h.bng.bins, d = b.dist) →
      k.back (k.cst d.x.dist.sumW) = d.x.dist.sumW) :
    ∃ r h', newH2From k h = some r ∧ Shows2 k h xs ys r ∧ asH2 v k r = some h' ∧ SameH2 h h' := by
  obtain ⟨r, e, sh⟩ := newH2From_shows k h xs ys hg
  obtain ⟨r', e', e1, e2, e3, e4, e5, e6, e7, e8, e9, e10, e11, e12⟩ := newH2From_fields k h xs ys hg
  rw [e] at e'
  cases e'
  have hx0 : xs.length ≠ 0 := fun h0 => hg.xne (List.length_eq_zero_iff.1 h0)
  have hy0 : ys.length ≠ 0 := fun h0 => hg.yne (List.length_eq_zero_iff.1 h0)
  -- the bins
  have hbin : ∀ i (b : Bin2D F), h.bng.bins[i]? = some b →
      bin2 v k r (i % xs.length) (i / xs.length) =
        some ⟨b.xrange, b.yrange, cellDist2 v k (k.cst b.dist.x.dist.sumW) b.dist.x.dist.sumW2⟩ := by
    intro i b hb
    have hi : i < xs.length * ys.length := by
      rw [← hg.len]; exact (List.getElem?_eq_some_iff.1 hb).1
    have hix : i % xs.length < xs.length := Nat.mod_lt _ (by omega)
    have hiy : i / xs.length < ys.length := Nat.div_lt_of_lt_mul hi
    have hidx : i / xs.length * xs.length + i % xs.length = i := Nat.div_add_mod' i xs.length
    obtain ⟨d, hd⟩ := hg.bins (i % xs.length) (i / xs.length) hix hiy
    rw [hidx, hb] at hd
    cases hd
    have hc := e11 (i % xs.length) (i / xs.length) _ hix hiy (by rw [hidx]; exact hb)
    have hd := dist2_of v k r (i % xs.length + 1) (i / xs.length + 1) (by rw [e4.1]; omega) (by rw [e4.2]; omega)
      _ _ (by rw [e4.1]; exact hc.1) (by rw [e4.1]; exact hc.2)
    simp only [Nat.cast_add, Nat.cast_one] at hd
    simp only [bin2]
    rw [(sh.xedges _ hix).1, (sh.xedges _ hix).2, (sh.yedges _ hiy).1, (sh.yedges _ hiy).2, hd]
    have ex := hx _ (List.getElem_mem hix)
    have ey := hy _ (List.getElem_mem hiy)
    simp only [Exact] at ex ey
    simp only [ex, ey]
  have hbins : collect (fun i => bin2 v k r (i % r.xaxis.nbins) (i / r.xaxis.nbins))
      (List.range (r.xaxis.nbins * r.yaxis.nbins)) =
      some (h.bng.bins.map fun b => ⟨b.xrange, b.yrange, cellDist2 v k (k.cst b.dist.x.dist.sumW) b.dist.x.dist.sumW2⟩) := by
    rw [e4.1, e4.2, ← hg.len]
    have : h.bng.bins.length = (h.bng.bins.map fun b : Bin2D F => (⟨b.xrange, b.yrange,
      cellDist2 v k (k.cst b.dist.x.dist.sumW) b.dist.x.dist.sumW2⟩ : Bin2D F)).length := by simp
    rw [this]
    apply collect_range
    intro i hi
    have hi' : i < h.bng.bins.length := by simpa using hi
    rw [hbin i _ (List.getElem?_eq_getElem hi'), List.getElem_map]
  -- the outflows
  have hout : collect (outDist v k r) (List.range 8) =
      some (h.bng.outflows.map fun d => cellDist2 v k (k.cst d.x.dist.sumW) d.x.dist.sumW2) := by
    have : 8 = (h.bng.outflows.map fun d : Dist2D F => cellDist2 v k (k.cst d.x.dist.sumW) d.x.dist.sumW2).length := by
      rw [List.length_map, hg.outflows]
    rw [this]
    apply collect_range
    intro i hi
    have hi' : i < h.bng.outflows.length := by simpa using hi
    have h8 : i < (outNat xs.length ys.length).length := by rw [hg.outflows] at hi'; exact hi'
    have hp := e12 i _ _ (List.getElem?_eq_getElem h8) (List.getElem?_eq_getElem hi')
    have hm : (outNat xs.length ys.length)[i] ∈ positions xs.length ys.length :=
      List.mem_append_right _ (List.getElem_mem h8)
    have hle := positions_le hm
    simp only [outDist]
    rw [e4.1, e4.2, outCells_eq, List.getElem?_map, List.getElem?_eq_getElem h8]
    simp only [Option.map_some]
    rw [List.getElem_map]
    exact dist2_of v k r _ _ (by rw [e4.1]; exact hle.1) (by rw [e4.2]; exact hle.2) _ _
      (by rw [e4.1]; exact hp.1) (by rw [e4.1]; exact hp.2)
  have hnew : ∃ hh, newBinning2D (r.xaxis.nbins : Int) r.xaxis.xmin r.xaxis.xmax (r.yaxis.nbins : Int)
      r.yaxis.xmin r.yaxis.xmax = some hh ∧ hh.nx = xs.length ∧ hh.ny = ys.length ∧
      hh.xrange = h.bng.xrange ∧ hh.yrange = h.bng.yrange := by
    simp only [newBinning2D]
    rw [e5.1, e5.2.1, e5.2.2.1, e5.2.2.2, e4.1, e4.2, if_neg (by rw [hg.xproper]; decide),
      if_neg (by rw [hg.yproper]; decide), if_neg (by omega), if_neg (by omega)]
    exact ⟨_, rfl, Int.toNat_natCast _, Int.toNat_natCast _, rfl, rfl⟩
  obtain ⟨hh, n0, n1, n2, n3, n4⟩ := hnew
  have has : ∃ h', asH2 v k r = some h' ∧ h'.bng.nx = xs.length ∧ h'.bng.ny = ys.length ∧
      h'.bng.xrange = h.bng.xrange ∧ h'.bng.yrange = h.bng.yrange ∧
      h'.bng.bins = (h.bng.bins.map fun b => ⟨b.xrange, b.yrange, cellDist2 v k (k.cst b.dist.x.dist.sumW) b.dist.x.dist.sumW2⟩) ∧
      h'.bng.outflows = (h.bng.outflows.map fun d => cellDist2 v k (k.cst d.x.dist.sumW) d.x.dist.sumW2) ∧
      h'.bng.dist = ⟨⟨⟨v.toInt r.entries, r.tsumw, r.tsumw2⟩, r.tsumwx, r.tsumwx2⟩,
        ⟨⟨v.toInt r.entries, r.tsumw, r.tsumw2⟩, r.tsumwy, r.tsumwy2⟩, r.tsumwxy⟩ ∧
      h'.name = some (.str r.name) ∧ h'.title = some (.str r.title) := by
    simp only [asH2]
    rw [n0, hbins, hout]
    exact ⟨_, rfl, n1, n2, n3, n4, rfl, rfl, rfl, rfl, rfl⟩
  obtain ⟨h', g0, g1, g2, g3, g4, g5, g6, g7, g8, g9⟩ := has
  obtain ⟨m1, m2, m3, m4, m5, m6, m7⟩ := e2
  refine ⟨r, h', e, sh, g0, ⟨⟨by rw [g1, hg.nx], by rw [g2, hg.ny], by rw [g5, List.length_map]⟩, ⟨g3, g4⟩, ?_,
    ⟨by rw [g6, List.length_map], ?_⟩, ?_, ?_, ?_, ?_, ?_⟩⟩
  · intro i b hb
    have := hk b.dist (Or.inr ⟨b, List.mem_of_getElem? hb, rfl⟩)
    rw [g5, List.getElem?_map, hb]
    exact ⟨_, rfl, rfl, rfl, ⟨this, rfl⟩, ⟨this, rfl⟩⟩
  · intro i d hd
    have := hk d (Or.inl (List.mem_of_getElem? hd))
    rw [g6, List.getElem?_map, hd]
    exact ⟨_, rfl, ⟨this, rfl⟩, ⟨this, rfl⟩⟩
  · rw [g7, e1]; exact ⟨hn, hn⟩
  · rw [g7, m1, m2]; exact ⟨⟨rfl, rfl⟩, ⟨rfl, rfl⟩⟩
  · rw [g7, m3, m4, m5, m6, m7]; exact ⟨rfl, rfl, rfl, rfl, rfl⟩
  · rw [g8, e8]; rfl
  · rw [g9, ← e9]; rfl

/-! ### Graphs -/

/-- **C105.** The points of a scatter become the points of the ROOT graph in their order, with their
errors, and come back: a graph with asymmetric errors, the one `rootcnv.FromS2D` makes, keeps
everything; one with symmetric errors keeps the points whose errors are symmetric; a plain graph
keeps the coordinates. -/
theorem C105_graph_roundtrip (kind : GKind) (mx mn : F → F → F) (lo hi : F) (s : S2 F)
    (ht : s.title = none ∨ ∃ t, s.title = some (.str t)) :
    ∃ g s', newGraphFrom kind mx mn lo hi s = some g ∧ s2dOf kind g = some s' ∧
      g.npoints = s.pts.length ∧ nameOf s'.name = nameOf s.name ∧ titleOf s'.title = titleOf s.title ∧
      s'.pts.length = s.pts.length ∧
      ∀ i (h : i < s.pts.length) (h' : i < s'.pts.length),
        s'.pts[i].x = s.pts[i].x ∧ s'.pts[i].y = s.pts[i].y ∧
        (kind = .plain → s'.pts[i].errX = ⟨0, 0⟩ ∧ s'.pts[i].errY = ⟨0, 0⟩) ∧
        (kind = .errs → s'.pts[i].errX = ⟨s.pts[i].errX.lo, s.pts[i].errX.lo⟩ ∧
          s'.pts[i].errY = ⟨s.pts[i].errY.lo, s.pts[i].errY.lo⟩) ∧
        (kind = .asymm → s'.pts[i] = s.pts[i]) := by
  obtain ⟨t, h1, h2⟩ : ∃ t, graphTitleOf s.title = some t ∧ titleOf s.title = some t := by
    rcases ht with h | ⟨t, h⟩ <;> rw [h]
    · exact ⟨_, rfl, rfl⟩
    · exact ⟨_, rfl, rfl⟩
  have e : ∃ g, newGraphFrom kind mx mn lo hi s = some g ∧ g.npoints = s.pts.length ∧
      g.name = nameOf s.name ∧ g.title = t ∧ g.x = s.pts.map (·.x) ∧ g.y = s.pts.map (·.y) ∧
      (kind ≠ .plain → g.xlo = s.pts.map (·.errX.lo) ∧ g.ylo = s.pts.map (·.errY.lo)) ∧
      (kind = .errs → g.xhi = s.pts.map (·.errX.lo) ∧ g.yhi = s.pts.map (·.errY.lo)) ∧
      (kind = .asymm → g.xhi = s.pts.map (·.errX.hi) ∧ g.yhi = s.pts.map (·.errY.hi)) := by
    simp only [newGraphFrom]
    rw [h1]
    refine ⟨_, rfl, rfl, rfl, rfl, rfl, rfl, ?_, ?_, ?_⟩ <;> cases kind <;> simp
  obtain ⟨g, e0, e1, e2, e3, e4, e5, e6, e7, e8⟩ := e
  let p' : Point2D F → Point2D F := fun p => match kind with
    | .plain => ⟨p.x, p.y, ⟨0, 0⟩, ⟨0, 0⟩⟩
    | .errs => ⟨p.x, p.y, ⟨p.errX.lo, p.errX.lo⟩, ⟨p.errY.lo, p.errY.lo⟩⟩
    | .asymm => p
  have hc : collect (graphPoint kind g) (List.range g.x.length) = some (s.pts.map p') := by
    have hl : g.x.length = (s.pts.map p').length := by rw [e4]; simp
    rw [hl]
    apply collect_range
    intro i hi
    have hi' : i < s.pts.length := by simpa using hi
    rw [List.getElem_map]
    simp only [graphPoint, e4, e5, List.getElem?_map, List.getElem?_eq_getElem hi', Option.map_some]
    cases kind with
    | plain => rfl
    | errs =>
      have a := e6 (by simp)
      have b := e7 rfl
      simp only [a.1, a.2, b.1, b.2, List.getElem?_map, List.getElem?_eq_getElem hi', Option.map_some]
      rfl
    | asymm =>
      have a := e6 (by simp)
      have b := e8 rfl
      simp only [a.1, a.2, b.1, b.2, List.getElem?_map, List.getElem?_eq_getElem hi', Option.map_some]
      rfl
  refine ⟨g, ⟨s.pts.map p', some (.str g.name), some (.str g.title)⟩, e0, ?_, e1, by simp [nameOf, e2], ?_,
    by simp, ?_⟩
  · simp only [s2dOf]; rw [hc]
  · simp only [titleOf]; rw [e3, ← h2]; rfl
  · intro i h h'
    simp only [List.getElem_map]
    cases kind <;> simp [p']

/-- **C105.** Merging graphs appends the points of the second to those of the first, with their errors. -/
theorem C105_graph_merge (kind : GKind) (mx mn : F → F → F) (a b : TGraph F) (sa sb : S2 F)
    (ha : s2dOf kind a = some sa) (hb : s2dOf kind b = some sb)
    (hla : a.y.length = a.x.length ∧ (kind ≠ .plain → a.xlo.length = a.x.length ∧
      a.xhi.length = a.x.length ∧ a.ylo.length = a.x.length ∧ a.yhi.length = a.x.length))
    (hna : a.npoints = a.x.length) (hnb : b.npoints = b.x.length) :
    ∃ s, s2dOf kind (mergeGraph mx mn a b) = some s ∧ s.pts = sa.pts ++ sb.pts ∧ s.name = sa.name ∧
      s.title = sa.title ∧ (mergeGraph mx mn a b).npoints = s.pts.length := by
  have hcol : ∀ {T : Type} (f : Nat → Option T) (n : Nat) (l : List T), collect f (List.range n) = some l →
      l.length = n ∧ ∀ i (hi : i < l.length), f i = some l[i] := by
    intro T f n l h
    have aux : ∀ (is : List Nat) (l : List T), collect f is = some l →
        l.length = is.length ∧ ∀ i (hi : i < l.length) (hi' : i < is.length), f is[i] = some l[i] := by
      intro is
      induction is with
      | nil => intro l h; simp only [collect] at h; cases h; exact ⟨rfl, fun i hi => absurd hi (by simp)⟩
      | cons j is ih =>
        intro l h
        simp only [collect] at h
        cases hf : f j with
        | none => rw [hf] at h; simp at h
        | some x =>
          cases hc : collect f is with
          | none => rw [hf, hc] at h; simp at h
          | some xs =>
            rw [hf, hc] at h
            cases h
            obtain ⟨h1, h2⟩ := ih xs hc
            refine ⟨by simp [h1], ?_⟩
            intro i hi hi'
            cases i with
            | zero => simpa using hf
            | succ i => simpa using h2 i (by simpa using hi) (by simpa using hi')
    obtain ⟨h1, h2⟩ := aux _ _ h
    refine ⟨by simpa using h1, fun i hi => ?_⟩
    have := h2 i hi (by omega)
    simpa using this
  have split : ∀ (g : TGraph F) (s : S2 F), s2dOf kind g = some s →
      collect (graphPoint kind g) (List.range g.x.length) = some s.pts ∧
      s.name = some (.str g.name) ∧ s.title = some (.str g.title) := by
    intro g s h
    simp only [s2dOf] at h
    cases hc : collect (graphPoint kind g) (List.range g.x.length) with
    | none => rw [hc] at h; simp at h
    | some pts => rw [hc] at h; cases h; exact ⟨rfl, rfl, rfl⟩
  obtain ⟨a1, a2, a3⟩ := split a sa ha
  obtain ⟨b1, b2, b3⟩ := split b sb hb
  obtain ⟨a4, a5⟩ := hcol _ _ _ a1
  obtain ⟨b4, b5⟩ := hcol _ _ _ b1
  have hm : collect (graphPoint kind (mergeGraph mx mn a b))
      (List.range (mergeGraph mx mn a b).x.length) = some (sa.pts ++ sb.pts) := by
    have hl : (mergeGraph mx mn a b).x.length = (sa.pts ++ sb.pts).length := by
      simp [mergeGraph, a4, b4]
    rw [hl]
    apply collect_range
    intro i hi
    rw [List.length_append] at hi
    by_cases h : i < sa.pts.length
    · rw [List.getElem_append_left h, ← a5 i h]
      rw [a4] at h
      have hy := hla.1
      simp only [graphPoint, mergeGraph]
      rw [List.getElem?_append_left h, List.getElem?_append_left (by omega)]
      cases kind with
      | plain => rfl
      | errs =>
        obtain ⟨q1, q2, q3, q4⟩ := hla.2 (by simp)
        rw [List.getElem?_append_left (by omega), List.getElem?_append_left (by omega),
          List.getElem?_append_left (by omega), List.getElem?_append_left (by omega)]
      | asymm =>
        obtain ⟨q1, q2, q3, q4⟩ := hla.2 (by simp)
        rw [List.getElem?_append_left (by omega), List.getElem?_append_left (by omega),
          List.getElem?_append_left (by omega), List.getElem?_append_left (by omega)]
    · have h := Nat.not_lt.1 h
      rw [List.getElem_append_right h, ← b5 (i - sa.pts.length) (by omega)]
      rw [a4] at h ⊢
      have hy := hla.1
      simp only [graphPoint, mergeGraph]
      rw [List.getElem?_append_right h, List.getElem?_append_right (by omega), hy]
      cases kind with
      | plain => rfl
      | errs =>
        obtain ⟨q1, q2, q3, q4⟩ := hla.2 (by simp)
        rw [List.getElem?_append_right (by omega), List.getElem?_append_right (by omega),
          List.getElem?_append_right (by omega), List.getElem?_append_right (by omega), q1, q2, q3, q4]
      | asymm =>
        obtain ⟨q1, q2, q3, q4⟩ := hla.2 (by simp)
        rw [List.getElem?_append_right (by omega), List.getElem?_append_right (by omega),
          List.getElem?_append_right (by omega), List.getElem?_append_right (by omega), q1, q2, q3, q4]
  refine ⟨⟨sa.pts ++ sb.pts, some (.str a.name), some (.str a.title)⟩, ?_, rfl, a2.symm, a3.symm, ?_⟩
  · simp only [s2dOf]; rw [hm]; rfl
  · simp [mergeGraph, hna, hnb, a4, b4]

end

end Verif.Hbook.RootCnv
