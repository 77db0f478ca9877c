import Verif.Lemmas.RoundedPlace
import Verif.Props.RoundedDepth
/-
C111: rounding does not move what is drawn.
-/

namespace Verif

/-- **C111.** Every vertex is drawn at its exact place but for a few roundings, whatever the matrices are, however
numpy adds up, and however the results are rounded. -/
theorem places_rounded (fl : ℚ → ℚ) (u K D : ℚ) (hu : 0 ≤ u) (hfl : ∀ x, |fl x - x| ≤ u * |x|)
    (hK : 1000 * (u * K) ≤ 1) (way : RenderWay) (hway : way.Sums) (s : RScene) (n : Nat) (i : Fin 4)
    (hn : s.Seen K D n i) : |s.placeRounded fl way n i - s.place n i| ≤ 28 * (1 + D) * (u * K) :=
  s.place_near hfl hu hway hK hn

/-- **C111.** With numbers of 24 bits and a camera of the examples, every vertex of a scene in the cube from -1 to 1
is drawn less than an eighth of a pixel from its exact place, in viewports of up to 4096 pixels. -/
theorem camera_places_rounded (fl : ℚ → ℚ) (hfl : ∀ x, |fl x - x| ≤ 1 / 2 ^ 24 * |x|) (way : RenderWay)
    (hway : way.Sums) (s : RScene) (hs : s.OfCamera) (hx : |s.proj 0 0| ≤ 16 / 5) (hy : |s.proj 1 1| ≤ 16 / 5)
    (n : Nat) (i : Fin 4) (hi : i = 0 ∨ i = 1) (width : ℚ) (h0 : 0 ≤ width) (h1 : width ≤ 4096) :
    |pixelOf width (s.placeRounded fl way n i) - pixelOf width (s.place n i)| < 1 / 8 := by
  have h := places_rounded fl (1 / 2 ^ 24) 6 5 (by norm_num) hfl (by norm_num) way hway s n i (hs.seen hx hy n hi)
  have e : pixelOf width (s.placeRounded fl way n i) - pixelOf width (s.place n i) =
      width / 2 * (s.placeRounded fl way n i - s.place n i) := by
    unfold pixelOf
    ring
  rw [e, abs_mul, abs_of_nonneg (by linarith)]
  have := mul_le_mul (show width / 2 ≤ 2048 by linarith) h (abs_nonneg _) (by norm_num)
  norm_num at this
  linarith

/-- The scene `turned` is one of these; rounding moves its second point a little. -/
example : |turned.proj 0 0| ≤ 16 / 5 := by decide +kernel

example : |turned.proj 1 1| ≤ 16 / 5 := by decide +kernel

example : turned.placeRounded (chop 23) plainWay 1 1 ≠ turned.place 1 1 := by decide +kernel

example : turned.place 1 1 ≠ 0 := by decide +kernel

/-- A turned scene with a point just in front of the plane of the eye; all numbers have 24 bits. -/
def grazing : RScene where
  proj := !![3, 0, 0, 0; 0, 3, 0, 0; 0, 0, -1, -2; 0, 0, -1, 0]
  view := !![1, 0, 0, 0; 0, 1, 0, 0; 0, 0, 1, -5; 0, 0, 0, 1]
  model := !![chop 23 (4 / 5), 0, -(chop 23 (3 / 5)), 0; 0, 1, 0, 0; chop 23 (3 / 5), 0, chop 23 (4 / 5), 0; 0, 0, 0, 1]
  vertex := fun _ => (chop 23 (31 / 10), 1 / 2 ^ 24, chop 23 (157 / 40))

/-- Why the points of C111 must not be too close to the plane of the eye: this one is in front of the eye and in the
window, and is drawn more than an eighth of the window away. -/
theorem near_eye_moves : 0 < grazing.clip 0 3 ∧ |grazing.place 0 1| ≤ 1 ∧
    1 / 4 < |grazing.placeRounded (chop 23) plainWay 0 1 - grazing.place 0 1| :=
  ⟨by decide +kernel, by decide +kernel, by decide +kernel⟩

end Verif
