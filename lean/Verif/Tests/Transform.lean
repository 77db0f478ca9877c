import Verif.Model.Transform
/-
tests/test_transform.py of the project, on the model, for every kind of numbers.
-/

namespace Verif.TestTransform

/-- Two new transforms. -/
def two (V : Type) : THeap V := (newT (newT [] .transform none).1 .transform none).1

/-- test_transform_add, _sub, _mul and _div (:7-41): the operands are copies whose base is the
transform they are copies of. -/
example {V : Type} (S : TSem V) (b : Bin) :
    ∃ h op l r, binT S 5 (two V) b 0 (.ref 1) = (h, .ok 2) ∧
      h[2]? = some ⟨none, none, none, .arith op (.ref l) (.ref r)⟩ ∧
      baseOf h 5 l = .ok 0 ∧ baseOf h 5 r = .ok 1 := by
  cases b <;> exact ⟨_, _, _, _, rfl, rfl, rfl, rfl⟩

/-- test_transform_call (:43-48). -/
example {V : Type} (S : TSem V) :
    ∃ h t x, callT S 5 (two V) 0 (.ref 1) = (h, .ok 2) ∧ h[2]? = some t ∧
      baseOf h 5 2 = .ok 0 ∧ t.next = some x ∧ baseOf h 5 x = baseOf h 5 1 :=
  ⟨_, _, _, rfl, rfl, rfl, rfl, rfl⟩

end Verif.TestTransform
