import Mathlib.Algebra.Order.Field.Basic

/-!
# Model of the place of a label (hplot/label.go, C196)

In exact arithmetic. The box of a text is given by its ends relative to the place of the label, in units of the canvas. Axes are linear.
-/

namespace Verif.Hplot.Label

section
variable {K : Type} [Field K] [LinearOrder K]

/-- Ends of the box of the text: `box.Min` and `box.Max`, divided by the size of the canvas. -/
structure Box (K : Type) where
  loX : K
  hiX : K
  loY : K
  hiY : K

/-- hplot/label.go:173-187 and 189-203 (`adjustX`, `adjustY`), with the size of the box -/
def adjust (x size : K) : K :=
  let x1 := if 1 < x + size then x - (size - (1 - x)) else x
  if x1 < 0 then 0 else x1

/-- hplot/label.go:131-147: the place in units of the canvas, none is a panic -/
def place (auto : Bool) (b : Box K) (x y : K) : Option (K × K) :=
  if 1 < x + b.hiX ∨ 1 < y + b.hiY then
    if auto then some (adjust x (b.hiX - b.loX), adjust y (b.hiY - b.loY)) else none
  else some (x, y)

/-- The ranges of the axes of a plot. -/
structure Axes (K : Type) where
  minX : K
  maxX : K
  minY : K
  maxY : K

/-- hplot/label.go:205-209 (`scale`), for a linear axis -/
def scale (v lo hi : K) : K := lo + v * (hi - lo)

structure Lbl (K : Type) where
  x : K
  y : K
  normalized : Bool
  auto : Bool
  /-- `plt`: the place it was drawn at first -/
  plt : Option (K × K)

/-- hplot/label.go:50-90 (`NewLabel`): none is a panic -/
def newLabel (x y : K) (normalized auto : Bool) : Option (Lbl K) :=
  if normalized ∧ ¬ ((0 ≤ x ∧ x ≤ 1) ∧ (0 ≤ y ∧ y ≤ 1)) then none else some ⟨x, y, normalized, auto, none⟩

/-- hplot/label.go:119-165 (`labels`), as called by `Plot`: the label after it and the place it is drawn at -/
def draw (l : Lbl K) (b : Box K) (a : Axes K) : Option (Lbl K × K × K) :=
  match l.plt with
  | some p => some (l, p)
  | none =>
    if l.normalized then
      (place l.auto b l.x l.y).map fun p =>
        ({ l with plt := some (scale p.1 a.minX a.maxX, scale p.2 a.minY a.maxY) }, scale p.1 a.minX a.maxX, scale p.2 a.minY a.maxY)
    else some ({ l with plt := some (l.x, l.y) }, l.x, l.y)

end

end Verif.Hplot.Label
