import Verif.Spec.Deliver
import Verif.Model.Tracked
import Verif.Model.Values
/-
Which calls and which keys are wrong.
-/

namespace Verif

/-- Python can call a function with these arguments: there are no more than it has parameters, every
name is that of a parameter that is not given by position, and every other parameter has a default. -/
structure Sig.Accepts (sg : Sig) (args : List Val) (kwargs : Dict String Val) : Prop where
  few : args.length ≤ sg.params.length
  known : ∀ k ∈ dkeys kwargs, k ∈ sg.params.drop args.length
  full : ∀ k ∈ sg.params.drop args.length, k ∈ dkeys kwargs ∨ k ∈ dkeys sg.defaults

/-- The values of the parameters: what is given, by position or by name, else the default. -/
def IsBound (sg : Sig) (args : List Val) (kwargs b : Dict String Val) : Prop :=
  dkeys b = sg.params ∧
    ∀ k ∈ sg.params, dget b k = (dget (sg.params.zip args) k).or ((dget kwargs k).or (dget sg.defaults k))

/-- Some argument has a type that is not declared and cannot be converted. -/
def HasBadArg (P : Prog) (cs : Dict (String × String) Nat) (sg : Sig) (b : Dict String Val) : Prop :=
  ∃ k v, dget b k = some v ∧ recordedArg P cs sg k v = none

/-- A key of an array: no more components than axes, integers within the axis, counted from either
end, and slices that numpy has resolved: nothing, or items of the axis. -/
def KeyFits : List AxKey → List Nat → Prop
  | [], _ => True
  | .at i :: ks, n :: sh => -(n : Int) ≤ i ∧ i < n ∧ KeyFits ks sh
  | .range a c d :: ks, n :: sh =>
    (∀ j : Nat, j < c → 0 ≤ a + j * d ∧ a + j * d < n) ∧ KeyFits ks sh
  | _ :: _, [] => False

/-- A bound of a colormap counts as given if it is a number other than zero. -/
def BoundGiven (q : Option ℚ) : Prop := ∃ x, q = some x ∧ x ≠ 0

/-- The lower and the upper end a colormap uses for an array: the bound if given, else the least and the
greatest item. -/
def IsLow (xs : List ℚ) (lo : Option ℚ) (a : ℚ) : Prop :=
  (BoundGiven lo ∧ lo = some a) ∨ (¬ BoundGiven lo ∧ a ∈ xs ∧ ∀ x ∈ xs, a ≤ x)
@[inherit_doc IsLow]
def IsHigh (xs : List ℚ) (hi : Option ℚ) (b : ℚ) : Prop :=
  (BoundGiven hi ∧ hi = some b) ∨ (¬ BoundGiven hi ∧ b ∈ xs ∧ ∀ x ∈ xs, x ≤ b)

end Verif
