/-!
# Model of tiled plots (hplot/tiledplot.go, C194)

A plot is a value of any type, a tile that was emptied is none. How a tile divides the canvas is not part of the model: a drawing is a
list of plots with the column and the row of the tile they are drawn in.
-/

namespace Verif.Hplot.Tiled

structure TP (P : Type) where
  rows : Nat
  cols : Nat
  plots : List (Option P)
deriving DecidableEq

/-- hplot/tiledplot.go:22-45 (`NewTiledPlot`): the plots are made one after the other, `new k` is the one at `k`. -/
def newTiled {P : Type} (new : Nat → P) (rows cols : Nat) : TP P := ⟨rows, cols, (List.range (rows * cols)).map fun k => some (new k)⟩

/-- hplot/tiledplot.go:50-52 (`Plot`): none is a panic -/
def plot {P : Type} (t : TP P) (i j : Nat) : Option (Option P) := t.plots[j * t.cols + i]?

/-- One row of hplot/tiledplot.go:85-93: the plot, its column and its row; none is a panic -/
def drawRow {P : Type} (t : TP P) (row : Nat) : List Nat → Option (List (P × Nat × Nat))
  | [] => some []
  | col :: cs =>
    match t.plots[row * t.cols + col]? with
    | none => none
    | some none => drawRow t row cs
    | some (some p) => (drawRow t row cs).map ((p, col, row) :: ·)

/-- The rows of hplot/tiledplot.go:84-94. -/
def drawRows {P : Type} (t : TP P) : List Nat → Option (List (P × Nat × Nat))
  | [] => some []
  | row :: rs => (drawRow t row (List.range t.cols)).bind fun a => (drawRows t rs).map (a ++ ·)

/-- hplot/tiledplot.go:58-96 (`Draw`). The aligned drawing of lines 60-81 goes through the same tiles in the same order; only the
areas they have differ. -/
def draw {P : Type} (t : TP P) : Option (List (P × Nat × Nat)) := drawRows t (List.range t.rows)

end Verif.Hplot.Tiled
