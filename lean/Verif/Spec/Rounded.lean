import Mathlib.Order.Monotone.Basic
import Mathlib.Data.Int.Log
import Mathlib.Algebra.Order.Field.Rat
import Mathlib.Data.Rat.Floor
/-
What is known of the rounding of floats, and a rounding.
-/

namespace Verif

/-- A rounding to floats with relative error at most `u`: larger numbers are not rounded to smaller ones, a
float is rounded to itself, and so are 1 and 5. -/
structure Rounds (fl : ℚ → ℚ) (u : ℚ) : Prop where
  mono : Monotone fl
  idem : ∀ x, fl (fl x) = fl x
  close : ∀ x, |fl x - x| ≤ u * |x|
  one : fl 1 = 1
  five : fl 5 = 5

/-- Cutting a positive number after `p` bits that follow the first. -/
def chopPos (p : Nat) (x : ℚ) : ℚ :=
  (⌊x * 2 ^ ((p : Int) - Int.log 2 x)⌋ : ℚ) * 2 ^ (Int.log 2 x - p)

/-- Cutting a number after `p` bits that follow the first: with 52, Python's floats rounded towards 0. -/
def chop (p : Nat) (x : ℚ) : ℚ :=
  if 0 < x then chopPos p x else if x < 0 then -chopPos p (-x) else 0

end Verif
