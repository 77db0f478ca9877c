import Verif.Model.Py
import Mathlib.Data.Rat.Floor
/-
The picture of a canvas (gsp_matplotlib/core/canvas.py).

Simplifications: `rnd` is the rounding of floating point numbers, a parameter; the resolution is
positive; what Matplotlib draws on a picture of a given size is a parameter, `draw`. The limits of
Matplotlib on the size of a picture are left out.
-/

namespace Verif

/-- A size as the canvas keeps it: a Python int, or a float. A measure evaluates to a float, whatever
its unit and its value (canvas.py:21-24, gsp/transform/measure.py:85-96). -/
inductive CanvasLen where
  | int (n : Int)
  | float (q : ℚ)
deriving DecidableEq

/-- Its value. -/
def CanvasLen.value : CanvasLen → ℚ
  | .int n => n
  | .float q => q

/-- `_width`, `_height`, `_dpi`, and the size of the figure in inches. -/
structure MplCanvas where
  width : CanvasLen
  height : CanvasLen
  dpi : ℚ
  inches : ℚ × ℚ
deriving DecidableEq

/-- `Canvas.__init__` (canvas.py:17-37). `set_size_inches` refuses negative sizes. -/
def MplCanvas.make (rnd : ℚ → ℚ) (width height : CanvasLen) (dpi : ℚ) : Except Err MplCanvas :=
  let inches := (rnd (width.value / dpi), rnd (height.value / dpi))
  if inches.1 < 0 ∨ inches.2 < 0 then .error .valueError
  else .ok ⟨width, height, dpi, inches⟩

/-- The user gives the window another size, in pixels: Matplotlib changes the figure, and the canvas
keeps the sizes it was made with (canvas.py:26-27). -/
def MplCanvas.resize (rnd : ℚ → ℚ) (c : MplCanvas) (W H : Nat) : MplCanvas :=
  { c with inches := (rnd (W / c.dpi), rnd (H / c.dpi)) }

/-- Columns and rows of the picture: Matplotlib takes the integer part of the size of the figure in
pixels. -/
def MplCanvas.pixels (rnd : ℚ → ℚ) (c : MplCanvas) : Nat × Nat :=
  (⌊rnd (c.inches.1 * c.dpi)⌋.toNat, ⌊rnd (c.inches.2 * c.dpi)⌋.toNat)

/-- The bytes of a picture of `W` columns and `H` rows: row by row, four bytes for a pixel
(`format="raw"`, canvas.py:51-54). `draw W H row column channel` is what Matplotlib draws. -/
def rawBytes (draw : Nat → Nat → Nat → Nat → Nat → Nat) (W H : Nat) : List Nat :=
  (List.range (H * W * 4)).map (fun k => draw W H (k / (W * 4)) (k / 4 % W) (k % 4))

/-- An array with three axes, in C order. -/
structure PixArray where
  rows : Nat
  cols : Nat
  depth : Nat
  data : List Nat
deriving DecidableEq

/-- `a[i, j, k]`. -/
def PixArray.item (a : PixArray) (i j k : Nat) : Option Nat :=
  a.data[(i * a.cols + j) * a.depth + k]?

/-- `Canvas.render(None)` (canvas.py:48-55). `reshape` takes no floats, and the size of the last axis
must come out as an integer; with an axis of size 0 it cannot. -/
def MplCanvas.image (rnd : ℚ → ℚ) (draw : Nat → Nat → Nat → Nat → Nat → Nat) (c : MplCanvas) :
    Except Err PixArray :=
  let data := rawBytes draw (c.pixels rnd).1 (c.pixels rnd).2
  match c.height, c.width with
  | .int h, .int w =>
    if h ≤ 0 ∨ w ≤ 0 then .error .valueError
    else if data.length % (h.toNat * w.toNat) ≠ 0 then .error .valueError
    else .ok ⟨h.toNat, w.toNat, data.length / (h.toNat * w.toNat), data⟩
  | _, _ => .error .typeError

end Verif
