import Verif.Hbook.RootCnv
import Verif.Hbook.Stats
import Mathlib.Data.List.Nodup

/-!
# Properties of the conversions between `hbook` and ROOT histograms, one dimension
-/

set_option linter.unusedSectionVars false

namespace Verif.Hbook.RootCnv
open Verif.Hbook Verif.Hbook.Brio Verif.Hbook.Prof

/-! ### Lists -/

theorem setAll_spec {C : Type} : ∀ (ws : List (Nat × C)) (l : List C),
    (∀ w ∈ ws, w.1 < l.length) → (ws.map Prod.fst).Nodup →
    ∃ l', setAll ws l = some l' ∧ l'.length = l.length ∧ (∀ w ∈ ws, l'[w.1]? = some w.2) ∧
      ∀ i, i ∉ ws.map Prod.fst → l'[i]? = l[i]?
  | [], l, _, _ => ⟨l, rfl, rfl, by simp, by simp⟩
  | (i, c) :: ws, l, hb, hn => by
    have hi : i < l.length := hb (i, c) (by simp)
    rw [List.map_cons, List.nodup_cons] at hn
    obtain ⟨l', h1, h2, h3, h4⟩ := setAll_spec ws (l.set i c)
      (fun w hw => by rw [List.length_set]; exact hb w (List.mem_cons_of_mem _ hw)) hn.2
    refine ⟨l', ?_, by rw [h2, List.length_set], ?_, ?_⟩
    · simp only [setAll]; rw [if_pos hi, h1]
    · intro w hw
      rcases List.mem_cons.1 hw with rfl | hw
      · rw [h4 i hn.1, List.getElem?_set_self hi]
      · exact h3 w hw
    · intro j hj
      rw [List.map_cons, List.mem_cons, not_or] at hj
      rw [h4 j hj.2, List.getElem?_set_ne (Ne.symm hj.1)]

theorem collect_spec {T : Type} (f : Nat → Option T) : ∀ (l : List Nat) (g : Nat → T),
    (∀ i ∈ l, f i = some (g i)) → collect f l = some (l.map g)
  | [], _, _ => rfl
  | i :: l, g, h => by
    simp only [collect]
    rw [h i (by simp), collect_spec f l g fun j hj => h j (List.mem_cons_of_mem _ hj)]
    rfl

theorem collect_range {T : Type} (f : Nat → Option T) (l : List T)
    (h : ∀ i (hi : i < l.length), f i = some l[i]) : collect f (List.range l.length) = some l := by
  cases l with
  | nil => rfl
  | cons a l' =>
    rw [collect_spec f _ (fun i => (a :: l')[i]?.getD a)]
    · congr 1
      apply List.ext_getElem
      · simp
      · intro i h1 h2; simp [List.getElem?_eq_getElem h2]
    · intro i hi
      have hi := List.mem_range.1 hi
      rw [h i hi, List.getElem?_eq_getElem hi]; rfl

/-! ### Specification -/

/-- Every bin starts where the one before it ends. -/
def Consecutive {F : Type} (bins : List (Bin1D F)) : Prop :=
  ∀ i (h : i + 1 < bins.length), bins[i + 1].range.lo = bins[i].range.hi

section
variable {F α C : Type} [LinearOrder α] [BoundedOrder α] [GoFloat F α]
variable [Zero F] [One F] [Add F] [Sub F] [Neg F] [Mul F] [Div F] [NatCast F] [IntCast F]

/-- The width of the range is computed without rounding. -/
def Exact (r : Range F) : Prop := (r.hi - r.lo) + r.lo = r.hi

/-- What a reader of the ROOT histogram `r` sees of `h`: the bins with their edges, contents and
errors, the two outflows in the first and last cells, and the moments. -/
structure Shows (v : Env F) (k : Cell F C) (h : H1 F) (r : TH1 F C) : Prop where
  nbins : r.xaxis.nbins = h.bng.bins.length
  ncells : r.ncells = h.bng.bins.length + 2 ∧ r.arr.length = r.ncells ∧ r.sumw2.length = r.ncells
  range : r.xaxis.xmin = h.bng.xrange.lo ∧ r.xaxis.xmax = h.bng.xrange.hi
  edges : ∀ i (hi : i < h.bng.bins.length),
    binLowEdge r.xaxis ((i : Int) + 1) = some h.bng.bins[i].range.lo ∧
    binWidth r.xaxis ((i : Int) + 1) = some (h.bng.bins[i].range.hi - h.bng.bins[i].range.lo)
  bins : ∀ i (hi : i < h.bng.bins.length),
    content1 k r ((i : Int) + 1) = some (k.back (k.cst h.bng.bins[i].dist.dist.sumW)) ∧
    error1 v k r ((i : Int) + 1) = some (v.sqrt h.bng.bins[i].dist.dist.sumW2)
  under : content1 k r 0 = some (k.back (k.cst h.bng.under.dist.sumW)) ∧
    error1 v k r 0 = some (v.sqrt h.bng.under.dist.sumW2)
  over : content1 k r ((h.bng.bins.length : Int) + 1) = some (k.back (k.cst h.bng.over.dist.sumW)) ∧
    error1 v k r ((h.bng.bins.length : Int) + 1) = some (v.sqrt h.bng.over.dist.sumW2)
  entries : r.entries = ((h.bng.dist.dist.n : Int) : F)
  moments : r.tsumw = h.bng.dist.dist.sumW ∧ r.tsumw2 = h.bng.dist.dist.sumW2 ∧
    r.tsumwx = h.bng.dist.sumWX ∧ r.tsumwx2 = h.bng.dist.sumWX2

/-- Two distributions with the same sums of weights and of squared weights. -/
def SameW (d e : Dist1D F) : Prop := e.dist.sumW = d.dist.sumW ∧ e.dist.sumW2 = d.dist.sumW2

/-- The histogram `h'` has the bins, the sums of weights of bins and outflows, the moments, the name
and the title of `h`. -/
structure SameH1 (h h' : H1 F) : Prop where
  len : h'.bng.bins.length = h.bng.bins.length
  range : h'.bng.xrange = h.bng.xrange
  bins : ∀ i (hi : i < h.bng.bins.length) (hi' : i < h'.bng.bins.length),
    h'.bng.bins[i].range = h.bng.bins[i].range ∧ SameW h.bng.bins[i].dist h'.bng.bins[i].dist
  under : SameW h.bng.under h'.bng.under
  over : SameW h.bng.over h'.bng.over
  dist : h'.bng.dist = h.bng.dist
  name : nameOf h'.name = nameOf h.name
  title : titleOf h'.title = titleOf h.title

/-! ### To ROOT -/

theorem edgesOf_length (bins : List (Bin1D F)) (hne : bins ≠ []) :
    (edgesOf bins).length = bins.length + 1 := by
  cases bins with
  | nil => exact absurd rfl hne
  | cons b bs => simp [edgesOf]

theorem edgesOf_hi (bins : List (Bin1D F)) (i : Nat) (hi : i < bins.length) :
    (edgesOf bins)[i + 1]? = some bins[i].range.hi := by
  cases bins with
  | nil => simp at hi
  | cons b bs => simp only [edgesOf, List.getElem?_cons_succ, List.getElem?_map,
      List.getElem?_eq_getElem hi, Option.map_some]

theorem edgesOf_lo (bins : List (Bin1D F)) (hc : Consecutive bins) (i : Nat) (hi : i < bins.length) :
    (edgesOf bins)[i]? = some bins[i].range.lo := by
  cases i with
  | zero =>
    cases bins with
    | nil => simp at hi
    | cons b bs => simp [edgesOf]
  | succ i => rw [edgesOf_hi bins i (by omega), hc i hi]

theorem writes1_fst {T : Type} (g : Dist1D F → T) (h : Binning1D F) :
    (writes1 g h).map Prod.fst = (List.range h.bins.length).map (· + 1) ++ [0, h.bins.length + 1] := by
  simp only [writes1, List.map_append, List.map_map, List.map_cons, List.map_nil]
  congr 1
  apply List.ext_getElem
  · simp
  · intro i h1 h2; simp

theorem writes1_cells {T : Type} (g : Dist1D F → T) (h : Binning1D F) (z : T) :
    ∃ l, setAll (writes1 g h) (List.replicate (h.bins.length + 2) z) = some l ∧
      l.length = h.bins.length + 2 ∧ l[0]? = some (g h.under) ∧
      l[h.bins.length + 1]? = some (g h.over) ∧
      ∀ i (hi : i < h.bins.length), l[i + 1]? = some (g h.bins[i].dist) := by
  obtain ⟨l, h1, h2, h3, -⟩ := setAll_spec (writes1 g h) (List.replicate (h.bins.length + 2) z)
    (by
      intro w hw
      have : w.1 ∈ (writes1 g h).map Prod.fst := List.mem_map_of_mem hw
      rw [writes1_fst] at this
      rw [List.length_replicate]
      simp only [List.mem_append, List.mem_map, List.mem_range, List.mem_cons, List.not_mem_nil, or_false] at this
      rcases this with ⟨j, hj, h'⟩ | h' | h' <;> omega)
    (by
      rw [writes1_fst]
      refine List.Nodup.append ?_ ?_ ?_
      · exact List.Nodup.map (fun a b hab => Nat.succ.inj hab) List.nodup_range
      · simp
      · intro x hx hy
        simp only [List.mem_map, List.mem_range, List.mem_cons, List.not_mem_nil, or_false] at hx hy
        obtain ⟨j, hj, rfl⟩ := hx
        omega)
  refine ⟨l, h1, by rw [h2, List.length_replicate], ?_, ?_, ?_⟩
  · exact h3 (0, g h.under) (by simp [writes1])
  · exact h3 (h.bins.length + 1, g h.over) (by simp [writes1])
  · intro i hi
    refine h3 (i + 1, g h.bins[i].dist) ?_
    simp only [writes1, List.mem_append, List.mem_map]
    refine Or.inl ⟨(h.bins[i], i), ?_, rfl⟩
    rw [List.mem_zipIdx_iff_getElem?]
    exact List.getElem?_eq_getElem hi

theorem cell1_eq (n i : Nat) (hi : i ≤ n + 1) : (cell1 n (i : Int)).toNat = i := by
  simp only [cell1]
  rw [if_neg (by omega), if_neg (by omega)]
  exact Int.toNat_natCast i

/-- A histogram with a bin, a proper range, consecutive bins and a printable title, as every
constructor of `hbook` makes it. -/
structure Regular (h : H1 F) : Prop where
  ne : h.bng.bins ≠ []
  proper : fle h.bng.xrange.hi h.bng.xrange.lo = false
  consecutive : Consecutive h.bng.bins
  title : h.title ≠ some .other

theorem binLowEdge_of (a : TAxis F) (i : Nat) (hi : i < a.nbins) (x : F) (hx : a.xbins[i]? = some x) :
    binLowEdge a ((i : Int) + 1) = some x := by
  have hl : a.xbins.length ≠ 0 := by
    intro h0; rw [List.length_eq_zero_iff.1 h0] at hx; simp at hx
  simp only [binLowEdge]
  rw [if_neg (by omega)]
  have : ((i : Int) + 1 - 1).toNat = i := by omega
  rw [this, hx]

theorem binWidth_of (a : TAxis F) (i : Nat) (hi : i < a.nbins) (x y : F) (hx : a.xbins[i]? = some x)
    (hy : a.xbins[i + 1]? = some y) : binWidth a ((i : Int) + 1) = some (y - x) := by
  have hl : a.xbins.length ≠ 0 := by
    intro h0; rw [List.length_eq_zero_iff.1 h0] at hx; simp at hx
  simp only [binWidth]
  rw [if_neg (by omega), if_neg hl, if_neg (by omega : ¬ ((i : Int) + 1 > a.nbins)),
    if_neg (by omega : ¬ ((i : Int) + 1 < 1))]
  have e1 : ((i : Int) + 1 - 1).toNat = i := by omega
  have e2 : ((i : Int) + 1).toNat = i + 1 := by omega
  rw [e1, e2, hx, hy]

/-- The fields of the ROOT histogram made of `h`. -/
theorem newH1From_fields (k : Cell F C) (h : H1 F) (ht : h.title ≠ some .other) :
    ∃ r, newH1From k h = some r ∧
      r.entries = ((h.bng.dist.dist.n : Int) : F) ∧ r.tsumw = h.bng.dist.dist.sumW ∧
      r.tsumw2 = h.bng.dist.dist.sumW2 ∧ r.tsumwx = h.bng.dist.sumWX ∧ r.tsumwx2 = h.bng.dist.sumWX2 ∧
      r.ncells = h.bng.bins.length + 2 ∧
      r.xaxis = ⟨h.bng.bins.length, h.bng.xrange.lo, h.bng.xrange.hi, edgesOf h.bng.bins⟩ ∧
      r.name = nameOf h.name ∧ some r.title = titleOf h.title ∧
      (r.arr.length = h.bng.bins.length + 2 ∧ r.arr[0]? = some (k.cst h.bng.under.dist.sumW) ∧
        r.arr[h.bng.bins.length + 1]? = some (k.cst h.bng.over.dist.sumW) ∧
        ∀ i (hi : i < h.bng.bins.length), r.arr[i + 1]? = some (k.cst h.bng.bins[i].dist.dist.sumW)) ∧
      (r.sumw2.length = h.bng.bins.length + 2 ∧ r.sumw2[0]? = some h.bng.under.dist.sumW2 ∧
        r.sumw2[h.bng.bins.length + 1]? = some h.bng.over.dist.sumW2 ∧
        ∀ i (hi : i < h.bng.bins.length), r.sumw2[i + 1]? = some h.bng.bins[i].dist.dist.sumW2) := by
  obtain ⟨a, a1, a2⟩ := writes1_cells (fun d => k.cst d.dist.sumW) h.bng k.zero
  obtain ⟨b, b1, b2⟩ := writes1_cells (fun d => d.dist.sumW2) h.bng 0
  obtain ⟨t, ht'⟩ : ∃ t, titleOf h.title = some t := by
    cases e : h.title with
    | none => exact ⟨_, rfl⟩
    | some x =>
      cases x with
      | str s => exact ⟨_, rfl⟩
      | nil => exact ⟨_, rfl⟩
      | other => exact absurd e ht
  simp only [newH1From]
  rw [a1, b1, ht']
  exact ⟨_, rfl, rfl, rfl, rfl, rfl, rfl, rfl, rfl, rfl, rfl, a2, b2⟩

theorem newH1From_shows (v : Env F) (k : Cell F C) (h : H1 F) (hr : Regular h) :
    ∃ r, newH1From k h = some r ∧ Shows v k h r ∧ r.name = nameOf h.name ∧ some r.title = titleOf h.title ∧
      r.xaxis.xbins = edgesOf h.bng.bins := by
  obtain ⟨r, e, e1, e2, e3, e4, e5, e6, e7, e8, e9, ⟨a1, a2, a3, a4⟩, b1, b2, b3, b4⟩ :=
    newH1From_fields k h hr.title
  have hnb : r.xaxis.nbins = h.bng.bins.length := by rw [e7]
  have hxb : r.xaxis.xbins = edgesOf h.bng.bins := by rw [e7]
  have hc : ∀ i : Nat, i ≤ h.bng.bins.length + 1 → (cell1 r.xaxis.nbins (i : Int)).toNat = i := by
    intro i hi; rw [hnb]; exact cell1_eq _ _ hi
  have hcont : ∀ (i : Nat) (c : C), i ≤ h.bng.bins.length + 1 → r.arr[i]? = some c →
      content1 k r (i : Int) = some (k.back c) := by
    intro i c hi hc'; simp only [content1]; rw [hc i hi, hc']; rfl
  have herr : ∀ (i : Nat) (x : F), i ≤ h.bng.bins.length + 1 → r.sumw2[i]? = some x →
      error1 v k r (i : Int) = some (v.sqrt x) := by
    intro i x hi hx; simp only [error1]; rw [if_pos (by omega), hc i hi, hx]; rfl
  refine ⟨r, e, ⟨hnb, ⟨e6, by omega, by omega⟩, by rw [e7]; exact ⟨rfl, rfl⟩, ?_, ?_, ?_, ?_, e1, e2, e3, e4, e5⟩,
    e8, e9, hxb⟩
  · intro i hi
    exact ⟨binLowEdge_of _ i (by omega) _ (by rw [hxb]; exact edgesOf_lo _ hr.consecutive i hi),
      binWidth_of _ i (by omega) _ _ (by rw [hxb]; exact edgesOf_lo _ hr.consecutive i hi)
        (by rw [hxb]; exact edgesOf_hi _ i hi)⟩
  · intro i hi
    have := hcont (i + 1) _ (by omega) (a4 i hi)
    have h' := herr (i + 1) _ (by omega) (b4 i hi)
    push_cast at this h'
    exact ⟨this, h'⟩
  · exact ⟨hcont 0 _ (by omega) a2, herr 0 _ (by omega) b2⟩
  · have := hcont (h.bng.bins.length + 1) _ (by omega) a3
    have h' := herr (h.bng.bins.length + 1) _ (by omega) b3
    push_cast at this h'
    exact ⟨this, h'⟩

/-! ### From ROOT -/

/-- A ROOT histogram with errors and edges: one cell per bin and two for the outflows. -/
structure WellFormed (r : TH1 F C) : Prop where
  pos : r.xaxis.nbins ≠ 0
  arr : r.arr.length = r.xaxis.nbins + 2
  sumw2 : r.sumw2.length = r.xaxis.nbins + 2
  edges : r.xaxis.xbins.length = r.xaxis.nbins + 1
  proper : fle r.xaxis.xmax r.xaxis.xmin = false

/-- The distribution read off cell `i`. -/
def cellDist (v : Env F) (k : Cell F C) (c : C) (s : F) : Dist1D F :=
  ⟨⟨entriesOf v (k.back c) (v.sqrt s), k.back c, s⟩, 0, 0⟩

theorem dist1_of (v : Env F) (k : Cell F C) (r : TH1 F C) (i : Nat) (hi : i ≤ r.xaxis.nbins + 1)
    (c : C) (s : F) (hc : r.arr[i]? = some c) (hs : r.sumw2[i]? = some s) :
    dist1 v k r i = some (cellDist v k c s) := by
  have hl : r.sumw2.length > 0 := by
    rcases Nat.eq_zero_or_pos r.sumw2.length with h0 | h0
    · rw [List.length_eq_zero_iff.1 h0] at hs; simp at hs
    · exact h0
  simp only [dist1, content1, error1]
  rw [if_pos hl, if_pos hl, cell1_eq _ _ hi, hc, hs]
  rfl

/-- The histogram read off a well-formed ROOT histogram. -/
theorem asH1_fields (v : Env F) (k : Cell F C) (r : TH1 F C) (w : WellFormed r) :
    ∃ h, asH1 v k r = some h ∧
      h.bng.xrange = ⟨r.xaxis.xmin, r.xaxis.xmax⟩ ∧
      h.bng.bins.length = r.xaxis.nbins ∧
      h.bng.dist = ⟨⟨v.toInt r.entries, r.tsumw, r.tsumw2⟩, r.tsumwx, r.tsumwx2⟩ ∧
      h.name = some (.str r.name) ∧ h.title = some (.str r.title) ∧
      (∀ c s, r.arr[0]? = some c → r.sumw2[0]? = some s → h.bng.under = cellDist v k c s) ∧
      (∀ c s, r.arr[r.xaxis.nbins + 1]? = some c → r.sumw2[r.xaxis.nbins + 1]? = some s →
        h.bng.over = cellDist v k c s) ∧
      (∀ i (hi : i < h.bng.bins.length) c s lo hi', r.arr[i + 1]? = some c → r.sumw2[i + 1]? = some s →
        r.xaxis.xbins[i]? = some lo → r.xaxis.xbins[i + 1]? = some hi' →
        h.bng.bins[i] = ⟨⟨lo, (hi' - lo) + lo⟩, cellDist v k c s⟩) := by
  obtain ⟨wp, wa, ws, we, wr⟩ := w
  have get : ∀ {T : Type} (l : List T) (i : Nat), i < l.length → ∃ x, l[i]? = some x :=
    fun l i hi => ⟨l[i], List.getElem?_eq_getElem hi⟩
  have hd : ∀ i, i ≤ r.xaxis.nbins + 1 → ∃ c s, r.arr[i]? = some c ∧ r.sumw2[i]? = some s ∧
      dist1 v k r i = some (cellDist v k c s) := by
    intro i hi
    obtain ⟨c, hc⟩ := get r.arr i (by omega)
    obtain ⟨s, hs⟩ := get r.sumw2 i (by omega)
    exact ⟨c, s, hc, hs, dist1_of v k r i hi c s hc hs⟩
  have hb : ∀ i, i < r.xaxis.nbins → ∃ c s lo hi, r.arr[i + 1]? = some c ∧ r.sumw2[i + 1]? = some s ∧
      r.xaxis.xbins[i]? = some lo ∧ r.xaxis.xbins[i + 1]? = some hi ∧
      bin1 v k r i = some ⟨⟨lo, (hi - lo) + lo⟩, cellDist v k c s⟩ := by
    intro i hi
    obtain ⟨c, s, hc, hs, e⟩ := hd (i + 1) (by omega)
    obtain ⟨lo, hlo⟩ := get r.xaxis.xbins i (by omega)
    obtain ⟨hi', hhi⟩ := get r.xaxis.xbins (i + 1) (by omega)
    refine ⟨c, s, lo, hi', hc, hs, hlo, hhi, ?_⟩
    simp only [bin1]
    rw [binLowEdge_of _ i hi lo hlo, binWidth_of _ i hi lo hi' hlo hhi, e]
  obtain ⟨cu, su, hcu, hsu, eu⟩ := hd 0 (by omega)
  obtain ⟨co, so, hco, hso, eo⟩ := hd (r.xaxis.nbins + 1) (by omega)
  have hcol : ∃ bins, collect (bin1 v k r) (List.range r.xaxis.nbins) = some bins ∧
      bins.length = r.xaxis.nbins ∧ ∀ i (hi : i < bins.length), bin1 v k r i = some bins[i] := by
    refine ⟨(List.range r.xaxis.nbins).map fun i => (bin1 v k r i).getD ⟨⟨0, 0⟩, .zero⟩, ?_, by simp, ?_⟩
    · apply collect_spec
      intro i hi
      obtain ⟨c, s, lo, hi', -, -, -, -, e⟩ := hb i (List.mem_range.1 hi)
      rw [e]; rfl
    · intro i hi
      have hi : i < r.xaxis.nbins := by simpa using hi
      obtain ⟨c, s, lo, hi', -, -, -, -, e⟩ := hb i hi
      simp [e]
  obtain ⟨bins, hbins, hlen, hget⟩ := hcol
  have hnew : newBinning1D (r.xaxis.nbins : Int) r.xaxis.xmin r.xaxis.xmax =
      some (freshBinning ((List.range r.xaxis.nbins).map fun i : Nat =>
        Range.mk (r.xaxis.xmin + (i : F) * ((Range.mk r.xaxis.xmin r.xaxis.xmax).width / (r.xaxis.nbins : F)))
          (r.xaxis.xmin + ((i + 1 : Nat) : F) * ((Range.mk r.xaxis.xmin r.xaxis.xmax).width / (r.xaxis.nbins : F))))
        ⟨r.xaxis.xmin, r.xaxis.xmax⟩) := by
    simp only [newBinning1D]
    rw [if_neg (by rw [wr]; decide), if_neg (by omega), Int.toNat_natCast]
  simp only [asH1]
  rw [hnew, eu, eo, hbins]
  refine ⟨_, rfl, rfl, hlen, rfl, rfl, rfl, ?_, ?_, ?_⟩
  · intro c s hc hs
    rw [hcu] at hc; rw [hsu] at hs
    cases hc; cases hs; rfl
  · intro c s hc hs
    rw [hco] at hc; rw [hso] at hs
    cases hc; cases hs; rfl
  · intro i hi c s lo hi' h1 h2 h3 h4
    obtain ⟨c', s', lo', hi'', g1, g2, g3, g4, e⟩ := hb i (by rw [← hlen]; exact hi)
    rw [g1] at h1; rw [g2] at h2; rw [g3] at h3; rw [g4] at h4
    cases h1; cases h2; cases h3; cases h4
    have := hget i hi
    rw [e] at this
    exact (Option.some.inj this).symm

/-- **C101.** A `hbook` histogram with consecutive bins converts to a ROOT histogram showing its
edges, contents, errors, outflows and moments, and comes back with all of them, as well as with its
name and title.

Partial: the widths are assumed to be computed exactly (`Exact`) and the sums of weights to survive
the type of the cells (always so for `TH1D`); the numbers of entries and the moments of the bins do
not come back (`C101_entries_counterexample`). -/
theorem C101_hist_roundtrip_partial (v : Env F) (k : Cell F C) (h : H1 F) (hr : Regular h)
    (hx : ∀ b ∈ h.bng.bins, Exact b.range)
    (hn : v.toInt ((h.bng.dist.dist.n : Int) : F) = h.bng.dist.dist.n)
    (hk : ∀ d, d = h.bng.under ∨ d = h.bng.over ∨ (∃ b ∈ h.bng.bins, d = b.dist) →
      k.back (k.cst d.dist.sumW) = d.dist.sumW) :
    ∃ r h', newH1From k h = some r ∧ Shows v k h r ∧ asH1 v k r = some h' ∧ SameH1 h h' := by
  obtain ⟨r, e, sh, -, -, -⟩ := newH1From_shows v k h hr
  obtain ⟨r', e', e1, e2, e3, e4, e5, e6, e7, e8, e9, ⟨a1, a2, a3, a4⟩, b1, b2, b3, b4⟩ :=
    newH1From_fields k h hr.title
  rw [e] at e'
  cases e'
  have hnb : r.xaxis.nbins = h.bng.bins.length := by rw [e7]
  have hxb : r.xaxis.xbins = edgesOf h.bng.bins := by rw [e7]
  have hpos : h.bng.bins.length ≠ 0 := fun h0 => hr.ne (List.length_eq_zero_iff.1 h0)
  obtain ⟨h', f0, f1, f2, f3, f4, f5, f6, f7, f8⟩ := asH1_fields v k r
    ⟨by omega, by omega, by omega, by rw [hxb, edgesOf_length _ hr.ne, hnb], by rw [e7]; exact hr.proper⟩
  refine ⟨r, h', e, sh, f0, ⟨by omega, by rw [f1, e7], ?_, ?_, ?_, ?_, ?_, ?_⟩⟩
  · intro i hi hi'
    have hm : h.bng.bins[i] ∈ h.bng.bins := List.getElem_mem hi
    rw [f8 i hi' _ _ _ _ (a4 i hi) (b4 i hi) (by rw [hxb]; exact edgesOf_lo _ hr.consecutive i hi)
      (by rw [hxb]; exact edgesOf_hi _ i hi)]
    refine ⟨?_, hk _ (Or.inr (Or.inr ⟨_, hm, rfl⟩)), rfl⟩
    have := hx _ hm
    simp only [Exact] at this
    simp only [this]
  · rw [f6 _ _ a2 b2]
    exact ⟨hk _ (Or.inl rfl), rfl⟩
  · rw [f7 _ _ (by rw [hnb]; exact a3) (by rw [hnb]; exact b3)]
    exact ⟨hk _ (Or.inr (Or.inl rfl)), rfl⟩
  · rw [f3, e1, e2, e3, e4, e5, hn]
  · rw [f4, e8]; rfl
  · rw [f5, ← e9]; rfl

/-! ### ROOT histograms through `hbook`, and merges -/

/-- The edges of the bins made of consecutive edges. -/
theorem edgesOf_bins (bins : List (Bin1D F)) (es : List F) (hl : es.length = bins.length + 1)
    (hne : bins ≠ [])
    (h : ∀ i (hi : i < bins.length), es[i]? = some bins[i].range.lo ∧ es[i + 1]? = some bins[i].range.hi) :
    edgesOf bins = es := by
  apply List.ext_getElem?
  intro i
  cases i with
  | zero =>
    cases bins with
    | nil => exact absurd rfl hne
    | cons b bs =>
      have := (h 0 (by simp)).1
      rw [this]; simp [edgesOf]
  | succ i =>
    by_cases hi : i < bins.length
    · rw [edgesOf_hi bins i hi, (h i hi).2]
    · rw [List.getElem?_eq_none (by rw [edgesOf_length _ hne]; omega), List.getElem?_eq_none (by omega)]

/-- The edges of a ROOT axis are computed on without rounding. -/
def ExactAxis (a : TAxis F) : Prop :=
  ∀ i lo hi, a.xbins[i]? = some lo → a.xbins[i + 1]? = some hi → (hi - lo) + lo = hi

/-- **C102.** A ROOT histogram with edges and sums of squared weights, converted to `hbook` and back,
is the same histogram.

Partial: exact widths, lossless cells, and an integral number of entries; a histogram without sums
of squared weights loses its errors (`C102_no_errors_counterexample`). -/
theorem C102_root_roundtrip_partial (v : Env F) (k : Cell F C) (r : TH1 F C) (w : WellFormed r)
    (hnc : r.ncells = r.xaxis.nbins + 2) (hx : ExactAxis r.xaxis)
    (hk : ∀ c ∈ r.arr, k.cst (k.back c) = c)
    (hn : ((v.toInt r.entries : Int) : F) = r.entries) :
    ∃ h, asH1 v k r = some h ∧ newH1From k h = some r := by
  obtain ⟨h, f0, f1, f2, f3, f4, f5, f6, f7, f8⟩ := asH1_fields v k r w
  obtain ⟨r', e, e1, e2, e3, e4, e5, e6, e7, e8, e9, ⟨a1, a2, a3, a4⟩, b1, b2, b3, b4⟩ :=
    newH1From_fields k h (by rw [f5]; simp)
  refine ⟨h, f0, ?_⟩
  rw [e]
  obtain ⟨wp, wa, ws, we, wr⟩ := w
  have get : ∀ {T : Type} (l : List T) (i : Nat), i < l.length → ∃ x, l[i]? = some x :=
    fun l i hi => ⟨l[i], List.getElem?_eq_getElem hi⟩
  have hbins : h.bng.bins ≠ [] := by intro h0; rw [h0] at f2; exact wp f2.symm
  have hcell : ∀ i, i < r.xaxis.nbins + 2 → r'.arr[i]? = r.arr[i]? ∧ r'.sumw2[i]? = r.sumw2[i]? := by
    intro i hi
    obtain ⟨c, hc⟩ := get r.arr i (by omega)
    obtain ⟨s, hs⟩ := get r.sumw2 i (by omega)
    have hcm : k.cst (k.back c) = c := hk c (List.mem_of_getElem? hc)
    rw [hc, hs]
    rcases Nat.eq_zero_or_pos i with rfl | hpos
    · rw [a2, b2, f6 c s hc hs]; simp only [cellDist, hcm, and_self]
    · obtain ⟨j, rfl⟩ : ∃ j, i = j + 1 := ⟨i - 1, by omega⟩
      by_cases hj : j < h.bng.bins.length
      · obtain ⟨lo, hlo⟩ := get r.xaxis.xbins j (by omega)
        obtain ⟨hi', hhi⟩ := get r.xaxis.xbins (j + 1) (by omega)
        rw [a4 j hj, b4 j hj, f8 j hj c s lo hi' hc hs hlo hhi]
        simp only [cellDist, hcm, and_self]
      · have hjn : j = r.xaxis.nbins := by omega
        subst hjn
        rw [f2] at a3 b3
        rw [a3, b3, f7 c s hc hs]; simp only [cellDist, hcm, and_self]
  have harr : r'.arr = r.arr := by
    apply List.ext_getElem?
    intro i
    by_cases hi : i < r.xaxis.nbins + 2
    · exact (hcell i hi).1
    · rw [List.getElem?_eq_none (by omega), List.getElem?_eq_none (by omega)]
  have hs2 : r'.sumw2 = r.sumw2 := by
    apply List.ext_getElem?
    intro i
    by_cases hi : i < r.xaxis.nbins + 2
    · exact (hcell i hi).2
    · rw [List.getElem?_eq_none (by omega), List.getElem?_eq_none (by omega)]
  have hed : edgesOf h.bng.bins = r.xaxis.xbins := by
    apply edgesOf_bins _ _ (by omega) hbins
    intro i hi
    obtain ⟨c, hc⟩ := get r.arr (i + 1) (by omega)
    obtain ⟨s, hs⟩ := get r.sumw2 (i + 1) (by omega)
    obtain ⟨lo, hlo⟩ := get r.xaxis.xbins i (by omega)
    obtain ⟨hi', hhi⟩ := get r.xaxis.xbins (i + 1) (by omega)
    rw [f8 i hi c s lo hi' hc hs hlo hhi, hlo, hhi, hx i lo hi' hlo hhi]
    exact ⟨rfl, rfl⟩
  have hax : r'.xaxis = r.xaxis := by
    rw [e7, f1, f2, hed]
  rw [f3] at e1 e2 e3 e4 e5
  rw [f4] at e8
  rw [f5] at e9
  have he1 : r'.entries = r.entries := by rw [e1]; exact hn
  cases r
  cases r'
  simp only at *
  subst harr hs2 hax e2 e3 e4 e5 he1 hnc
  have e8' := e8
  simp only [nameOf] at e8'
  have e9' : _ = _ := Option.some.inj e9
  subst e8' e9'
  rw [e6, f2]

/-- **C103.** Merging a ROOT histogram into one over the same bins adds, cell by cell, the contents
and the sums of squared weights, outflows included, adds the moments and the numbers of entries, and
leaves the axis, the name and the title.

Partial: exact widths, cells with sums of squared weights; the inner edges of the second histogram
are not looked at (`C103_edges_counterexample`). -/
theorem C103_merge_partial (v : Env F) (k : Cell F C) (a b : TH1 F C) (wa : WellFormed a) (wb : WellFormed b)
    (hax : b.xaxis = a.xaxis) (hx : ExactAxis a.xaxis)
    (hfin : feq a.xaxis.xmin a.xaxis.xmin = true ∧ feq a.xaxis.xmax a.xaxis.xmax = true)
    (hone : ∀ x : F, 1 * x = x) :
    ∃ r, merge1 v k a b = some r ∧ r.xaxis = a.xaxis ∧ r.name = a.name ∧ r.title = a.title ∧
      WellFormed r ∧
      (∀ (i : Nat) ca cb, a.arr[i]? = some ca → b.arr[i]? = some cb →
        r.arr[i]? = some (k.cst (k.back ca + k.back cb))) ∧
      (∀ (i : Nat) sa sb, a.sumw2[i]? = some sa → b.sumw2[i]? = some sb → r.sumw2[i]? = some (sa + sb)) ∧
      r.tsumw = a.tsumw + b.tsumw ∧ r.tsumw2 = a.tsumw2 + b.tsumw2 ∧
      r.tsumwx = a.tsumwx + b.tsumwx ∧ r.tsumwx2 = a.tsumwx2 + b.tsumwx2 ∧
      r.entries = ((v.toInt a.entries + v.toInt b.entries : Int) : F) := by
  obtain ⟨h, f0, f1, f2, f3, f4, f5, f6, f7, f8⟩ := asH1_fields v k a wa
  obtain ⟨g, g0, g1, g2, g3, g4, g5, g6, g7, g8⟩ := asH1_fields v k b wb
  rw [hax] at g1 g2 g7 g8
  have wb' := wb
  obtain ⟨-, wba, wbs, wbe, -⟩ := wb
  obtain ⟨wp, waa, was, wae, wr⟩ := wa
  rw [hax] at wba wbs wbe
  have hadd : ∃ s, addH1D h.bng g.bng = some s ∧ s.xrange = h.bng.xrange ∧
      s.bins = List.zipWith (fun b o => b.addScaled 1 1 o) h.bng.bins g.bng.bins ∧
      s.dist = h.bng.dist.addScaled 1 1 g.bng.dist ∧ s.under = h.bng.under.addScaled 1 1 g.bng.under ∧
      s.over = h.bng.over.addScaled 1 1 g.bng.over := by
    simp only [addH1D, addScaledH1D]
    rw [if_neg (by omega), if_neg (by rw [f1, g1]; simp [hfin.1, hfin.2])]
    refine ⟨_, rfl, rfl, ?_, ?_, ?_, ?_⟩ <;> simp only [hone]
  obtain ⟨s, s0, s1, s2, s3, s4, s5⟩ := hadd
  have hsl : s.bins.length = a.xaxis.nbins := by rw [s2, List.length_zipWith]; omega
  obtain ⟨r, e, e1, e2, e3, e4, e5, e6, e7, e8, e9, ⟨a1, a2, a3, a4⟩, b1, b2, b3, b4⟩ :=
    newH1From_fields k { h with bng := s } (by rw [show _ = h.title from rfl, f5]; simp)
  simp only at e1 e2 e3 e4 e5 e6 e7 e8 e9 a1 a2 a3 a4 b1 b2 b3 b4
  have get : ∀ {T : Type} (l : List T) (i : Nat), i < l.length → ∃ x, l[i]? = some x :=
    fun l i hi => ⟨l[i], List.getElem?_eq_getElem hi⟩
  have hsb : ∀ i (hi : i < s.bins.length), ∃ (h1 : i < h.bng.bins.length) (h2 : i < g.bng.bins.length),
      s.bins[i] = h.bng.bins[i].addScaled 1 1 g.bng.bins[i] := by
    intro i hi
    refine ⟨by omega, by omega, ?_⟩
    have : s.bins[i]? = some (h.bng.bins[i].addScaled 1 1 g.bng.bins[i]) := by
      rw [s2, List.getElem?_zipWith, List.getElem?_eq_getElem (by omega), List.getElem?_eq_getElem (by omega)]
    rw [List.getElem?_eq_getElem hi] at this
    exact Option.some.inj this
  have hcell : ∀ (i : Nat) (ca cb : C) (sa sb : F), a.arr[i]? = some ca → b.arr[i]? = some cb → a.sumw2[i]? = some sa →
      b.sumw2[i]? = some sb → r.arr[i]? = some (k.cst (k.back ca + k.back cb)) ∧ r.sumw2[i]? = some (sa + sb) := by
    intro i ca cb sa sb hca hcb hsa hsb'
    have hi : i < a.xaxis.nbins + 2 := by
      rw [← waa]; exact (List.getElem?_eq_some_iff.1 hca).1
    rcases Nat.eq_zero_or_pos i with rfl | hpos
    · rw [a2, b2, s4, f6 ca sa hca hsa, g6 cb sb hcb hsb']
      simp only [cellDist, Dist1D.addScaled, Dist0D.addScaled, hone, and_self]
    · obtain ⟨j, rfl⟩ : ∃ j, i = j + 1 := ⟨i - 1, by omega⟩
      by_cases hj : j < s.bins.length
      · obtain ⟨h1, h2, hh⟩ := hsb j hj
        obtain ⟨lo, hlo⟩ := get a.xaxis.xbins j (by omega)
        obtain ⟨hi', hhi⟩ := get a.xaxis.xbins (j + 1) (by omega)
        rw [a4 j hj, b4 j hj, hh, f8 j h1 ca sa lo hi' hca hsa hlo hhi,
          g8 j h2 cb sb lo hi' hcb hsb' hlo hhi]
        simp only [cellDist, Bin1D.addScaled, Dist1D.addScaled, Dist0D.addScaled, hone, and_self]
      · have hjn : j = a.xaxis.nbins := by omega
        subst hjn
        rw [hsl] at a3 b3
        rw [a3, b3, s5, f7 ca sa hca hsa, g7 cb sb hcb hsb']
        simp only [cellDist, Dist1D.addScaled, Dist0D.addScaled, hone, and_self]
  have hbins : s.bins ≠ [] := by intro h0; rw [h0] at hsl; exact wp hsl.symm
  have hed : edgesOf s.bins = a.xaxis.xbins := by
    apply edgesOf_bins _ _ (by omega) hbins
    intro i hi
    obtain ⟨h1, h2, hh⟩ := hsb i hi
    obtain ⟨c, hc⟩ := get a.arr (i + 1) (by omega)
    obtain ⟨t, ht⟩ := get a.sumw2 (i + 1) (by omega)
    obtain ⟨lo, hlo⟩ := get a.xaxis.xbins i (by omega)
    obtain ⟨hi', hhi⟩ := get a.xaxis.xbins (i + 1) (by omega)
    rw [hh]
    simp only [Bin1D.addScaled]
    rw [f8 i h1 c t lo hi' hc ht hlo hhi, hlo, hhi, hx i lo hi' hlo hhi]
    exact ⟨rfl, rfl⟩
  have hax' : r.xaxis = a.xaxis := by rw [e7, s1, f1, hsl, hed]
  refine ⟨r, ?_, hax', ?_, ?_, ⟨?_, ?_, ?_, ?_, ?_⟩, ?_, ?_, ?_, ?_, ?_, ?_, ?_⟩
  · simp only [merge1]; rw [f0, g0]; simp only [s0]; exact e
  · rw [e8, f4]; rfl
  · rw [f5] at e9; exact Option.some.inj e9
  · rw [hax']; exact wp
  · rw [hax', a1, hsl]
  · rw [hax', b1, hsl]
  · rw [hax']; exact wae
  · rw [hax']; exact wr
  · intro i ca cb hca hcb
    have hi := (List.getElem?_eq_some_iff.1 hca).1
    obtain ⟨sa, hsa⟩ := get a.sumw2 i (by omega)
    obtain ⟨sb, hsb'⟩ := get b.sumw2 i (by omega)
    exact (hcell i ca cb sa sb hca hcb hsa hsb').1
  · intro i sa sb hsa hsb'
    have hi := (List.getElem?_eq_some_iff.1 hsa).1
    obtain ⟨ca, hca⟩ := get a.arr i (by omega)
    obtain ⟨cb, hcb⟩ := get b.arr i (by omega)
    exact (hcell i ca cb sa sb hca hcb hsa hsb').2
  · rw [e2, s3, f3, g3]; simp only [Dist1D.addScaled, Dist0D.addScaled, hone]
  · rw [e3, s3, f3, g3]; simp only [Dist1D.addScaled, Dist0D.addScaled, hone]
  · rw [e4, s3, f3, g3]; simp only [Dist1D.addScaled, Dist0D.addScaled, hone]
  · rw [e5, s3, f3, g3]; simp only [Dist1D.addScaled, Dist0D.addScaled, hone]
  · rw [e1, s3, f3, g3]; simp only [Dist1D.addScaled, Dist0D.addScaled]

end

end Verif.Hbook.RootCnv
