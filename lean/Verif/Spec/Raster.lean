import Verif.Model.Raster
/-
Rounding to the nearest double, and what the picture of a canvas is.
-/

namespace Verif

/-- `rnd` takes a positive number to a nearest number with 53 binary digits. Which one is taken when
there are two is left open; there is no smallest and no largest exponent. -/
def Nearest64 (rnd : ℚ → ℚ) : Prop :=
  ∀ q : ℚ, 0 < q → ∃ e : ℤ, (2 : ℚ) ^ 52 * 2 ^ e ≤ q ∧ q < (2 : ℚ) ^ 53 * 2 ^ e ∧
    ∃ m : ℤ, rnd q = m * 2 ^ e ∧ |rnd q - q| ≤ 2 ^ e / 2

/-- The array has `h` rows of `w` pixels of four bytes, those that are drawn on a picture of this
size. -/
structure IsPicture (draw : Nat → Nat → Nat → Nat → Nat → Nat) (w h : Nat) (a : PixArray) : Prop where
  rows : a.rows = h
  cols : a.cols = w
  depth : a.depth = 4
  items : ∀ i < h, ∀ j < w, ∀ k < 4, a.item i j k = some (draw w h i j k)

end Verif
