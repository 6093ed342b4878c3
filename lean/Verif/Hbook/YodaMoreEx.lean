import Verif.Hbook.YodaMoreProps
import Verif.Hbook.YodaH1DProps

/-!
# Profiles and two-dimensional histograms as YODA texts: examples and what is missing
-/

namespace Verif.Hbook.Yoda
open Verif.Text Verif.Fscanf Verif.Strconv Verif.Hbook Verif.Hbook.Brio

theorem toy_minMax : MinMax (α := WithBot (WithTop Int)) toy where
  min := by
    rintro x y _ _ ⟨rfl⟩ ⟨rfl⟩
    simp only [toy, val, Option.some.injEq]
    rcases le_total x y with h | h
    · rw [min_eq_left h, min_eq_left]; exact WithBot.coe_le_coe.mpr (WithTop.coe_le_coe.mpr h)
    · rw [min_eq_right h, min_eq_right]; exact WithBot.coe_le_coe.mpr (WithTop.coe_le_coe.mpr h)
  max := by
    rintro x y _ _ ⟨rfl⟩ ⟨rfl⟩
    simp only [toy, val, Option.some.injEq]
    rcases le_total x y with h | h
    · rw [max_eq_right h, max_eq_right]; exact WithBot.coe_le_coe.mpr (WithTop.coe_le_coe.mpr h)
    · rw [max_eq_left h, max_eq_left]; exact WithBot.coe_le_coe.mpr (WithTop.coe_le_coe.mpr h)

/-- A profile with two bins. -/
def toyP1 : BinningP1D Int where
  bins := [⟨⟨0, 10⟩, ⟨⟨⟨2, 3, 5⟩, 14, 100⟩, ⟨⟨2, 3, 5⟩, 7, 30⟩, 21⟩⟩, ⟨⟨10, 30⟩, ⟨⟨⟨1, -2, 4⟩, -30, 450⟩, ⟨⟨1, -2, 4⟩, 8, 31⟩, 22⟩⟩]
  dist := ⟨⟨⟨4, 7, 45⟩, 0, 600⟩, ⟨⟨4, 7, 45⟩, 9, 32⟩, 23⟩
  under := ⟨⟨⟨1, 6, 36⟩, -6, 6⟩, ⟨⟨1, 6, 36⟩, 10, 33⟩, 24⟩
  over := ⟨⟨⟨0, 0, 0⟩, 0, 0⟩, ⟨⟨0, 0, 0⟩, 0, 0⟩, 0⟩
  xrange := ⟨0, 30⟩
  xstep := 15

example : ∃ s, marshalP1D toy toyP1 toyAnn = some s ∧ ∃ b' a', unmarshalP1D toy [] s = .ok (.obj b' a') ∧
    b'.dist.x.dist.n = 4 ∧ b'.dist.y.sumWX = 9 ∧ nameOf toy a' = ['h', '1'] := by
  obtain ⟨s, h1, b', a', h2, h3, -, -, h4, -⟩ := C132_roundtrip_partial toy_numbers toy_minMax toyP1 toyAnn [] toy_free
    (toy_yaml _ (.inr (.inr (.inl rfl)))) (by decide +kernel) (by decide) (by decide +kernel)
  refine ⟨s, h1, b', a', h2, ?_, ?_, by rw [h4]; decide +kernel⟩
  · rw [(h3 _ rfl).2.1]
    decide +kernel
  · rw [(h3 _ rfl).2.1]
    decide +kernel

/-- What is written of a profile leaves out the mixed sums: the profile read back is another one than that written,
although all of its numbers have few digits. -/
theorem C132_lossy_counterexample :
    ∃ s, marshalP1D toy toyP1 toyAnn = some s ∧ ∃ b' a', unmarshalP1D toy [] s = .ok (.obj b' a') ∧
      b'.dist.sumWXY = 0 ∧ toyP1.dist.sumWXY = 23 ∧ b'.dist.y.dist.sumW = 0 ∧ toyP1.dist.y.dist.sumW = 7 := by
  obtain ⟨s, h1, b', a', h2, h3, -, -, h4, -⟩ := C132_roundtrip_partial toy_numbers toy_minMax toyP1 toyAnn [] toy_free
    (toy_yaml _ (.inr (.inr (.inl rfl)))) (by decide +kernel) (by decide) (by decide +kernel)
  refine ⟨s, h1, b', a', h2, ?_, rfl, ?_, rfl⟩
  · rw [(h3 _ rfl).2.1]
    decide +kernel
  · rw [(h3 _ rfl).2.1]
    decide +kernel

/-- Whether the reading of a text panicked. -/
def panicked {B V : Type} : Out (Read B V) → Bool
  | .panic => true
  | _ => false

/-- A text without bins, and one all of whose bins are empty ranges, make the reader panic. -/
theorem C132_panic_counterexample :
    ((marshalP1D toy { toyP1 with bins := [] } toyAnn).map fun s => panicked (unmarshalP1D toy [] s)) = some true ∧
    ((marshalP1D toy { toyP1 with bins := [⟨⟨12345678, 12345679⟩, .zero⟩] } toyAnn).map fun s =>
      panicked (unmarshalP1D toy [] s)) = some true := by
  constructor <;> decide +kernel

/-! ### Two-dimensional histograms -/

/-- A histogram of two columns, of different widths, and two rows. -/
def toyH2 : Binning2D Int where
  bins := [⟨⟨0, 10⟩, ⟨0, 7⟩, ⟨⟨⟨2, 3, 5⟩, 14, 100⟩, ⟨⟨2, 3, 5⟩, 7, 30⟩, 21⟩⟩, ⟨⟨10, 30⟩, ⟨0, 7⟩, .zero⟩,
    ⟨⟨0, 10⟩, ⟨7, 10⟩, ⟨⟨⟨1, -2, 4⟩, -30, 450⟩, ⟨⟨1, -2, 4⟩, 8, 31⟩, 22⟩⟩, ⟨⟨10, 30⟩, ⟨7, 10⟩, .zero⟩]
  dist := ⟨⟨⟨4, 7, 45⟩, 0, 600⟩, ⟨⟨4, 7, 45⟩, 9, 32⟩, 23⟩
  outflows := ⟨⟨⟨1, 6, 36⟩, -6, 6⟩, ⟨⟨1, 6, 36⟩, 10, 33⟩, 24⟩ :: List.replicate 7 .zero
  xrange := ⟨0, 30⟩
  yrange := ⟨0, 10⟩
  nx := 2
  ny := 2
  xedges := [⟨0, 10⟩, ⟨10, 30⟩]
  yedges := [⟨0, 7⟩, ⟨7, 10⟩]

def toyX : Nat → Range Int
  | 0 => ⟨0, 10⟩
  | _ => ⟨10, 30⟩

def toyY : Nat → Range Int
  | 0 => ⟨0, 7⟩
  | _ => ⟨7, 10⟩

theorem toy_grid : Grid2 toyH2 toyX toyY where
  len := rfl
  nx := by decide
  ny := by decide
  bin := by
    intro ix hx iy hy
    have h1 : ix = 0 ∨ ix = 1 := by simp only [toyH2] at hx; omega
    have h2 : iy = 0 ∨ iy = 1 := by simp only [toyH2] at hy; omega
    rcases h1 with rfl | rfl <;> rcases h2 with rfl | rfl <;> exact ⟨_, rfl, rfl, rfl⟩

/-- What becomes of the histogram. -/
theorem toyH2_read : ∃ s, marshalH2D toy 1 2 3 toyH2 toyAnn = some s ∧ ∃ b' a', unmarshalH2D toy [] s = .ok (.obj b' a') ∧
    b'.nx = 2 ∧ b'.ny = 2 ∧ b'.bins = toyH2.bins ∧ b'.dist = toyH2.dist ∧ b'.outflows = List.replicate 8 .zero ∧
    IsLeastOf (α := WithBot (WithTop Int)) b'.xrange.lo [0, 10, 0, 10] ∧
    IsGreatestOf (α := WithBot (WithTop Int)) b'.xrange.hi [10, 30, 10, 30] ∧
    IsLeastOf (α := WithBot (WithTop Int)) b'.yrange.lo [0, 0, 7, 7] ∧
    IsGreatestOf (α := WithBot (WithTop Int)) b'.yrange.hi [7, 7, 10, 10] ∧
    b'.xedges = evenly 2 b'.xrange.lo b'.xrange.hi ∧ b'.yedges = evenly 2 b'.yrange.lo b'.yrange.hi := by
  obtain ⟨s, h1, b', a', h2, hx, hy, h3, ho, hxl, hxh, hyl, hyh, ex, ey, -⟩ := C133_roundtrip_partial toy_numbers
    toy_minMax 1 2 3 toyH2 toyAnn [] toy_free (toy_yaml _ (.inr (.inl rfl))) (by decide +kernel) toy_grid
    (by decide +kernel) (by decide +kernel) (by decide +kernel) (by decide +kernel)
  refine ⟨s, h1, b', a', h2, hx, hy, ?_, ?_, ho, hxl, hxh, hyl, hyh, ex, ey⟩
  · rw [(h3 _ rfl).1]
    rfl
  · rw [(h3 _ rfl).2]
    rfl

example : ∃ s, marshalH2D toy 1 2 3 toyH2 toyAnn = some s ∧ ∃ b' a', unmarshalH2D toy [] s = .ok (.obj b' a') ∧
    b'.nx = 2 ∧ b'.bins = toyH2.bins := by
  obtain ⟨s, h1, b', a', h2, h3, -, h4, -⟩ := toyH2_read
  exact ⟨s, h1, b', a', h2, h3, h4⟩

/-- The index of the bin of a point in the histogram read back. -/
def readIndex (x y : Int) : Out (Read (Binning2D Int) (List Char)) → Option Int
  | .ok (.obj b _) => some (Binning2D.coordToIndex (α := WithBot (WithTop Int)) b x y)
  | _ => none

/-- The edges of the histogram read back are evenly spaced whatever those of the bins: the point `(12, 1)` belongs to
the bin `10..30`, of index 1, and a histogram read back fills the bin of index 0 with it, which is `0..10`. -/
theorem C133_edges_counterexample :
    Binning2D.coordToIndex (α := WithBot (WithTop Int)) toyH2 12 1 = 1 ∧
    ((marshalH2D toy 1 2 3 toyH2 toyAnn).map fun s =>
      readIndex 12 1 (unmarshalH2D (α := WithBot (WithTop Int)) toy [] s)) = some (some 0) := by
  constructor <;> decide +kernel

/-- The outflows are lost. -/
theorem C133_outflow_counterexample :
    ∃ s, marshalH2D toy 1 2 3 toyH2 toyAnn = some s ∧ ∃ b' a', unmarshalH2D toy [] s = .ok (.obj b' a') ∧
      b'.outflows ≠ toyH2.outflows := by
  obtain ⟨s, h1, b', a', h2, -, -, -, -, h3, -⟩ := toyH2_read
  refine ⟨s, h1, b', a', h2, ?_⟩
  rw [h3]
  intro h
  have := congrArg (fun l => (l.head?.map fun d : Dist2D Int => d.sumWXY)) h
  simp [toyH2, Dist2D.zero] at this

end Verif.Hbook.Yoda
