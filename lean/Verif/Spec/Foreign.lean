import Verif.Model.Foreign
import Verif.Spec.Tracked
/-
The buffer of a view of somebody else's array.
-/

namespace Verif

/-- The bytes of the vectors of an array of `n` vectors, `stride` bytes apart and each of `row`
consecutive bytes, one after the other. -/
def packedRows (mem : List Nat) (n stride row : Nat) : List Nat :=
  (List.range n).flatMap (fun i => (List.range row).map (fun b => mem[i * stride + b]?.getD 0))

/-- An assignment, through views or not, whose slices go forwards. -/
def ForwardWrite (op : List (List AxKey) × List AxKey × List Nat) : Prop :=
  (∀ k ∈ op.1, Forward k) ∧ Forward op.2.1

/-- An assignment to all of `n` vectors at once: `P[...] = v`, `P[:, key] = v`, `P.xy = v`. -/
def AllVectors (n : Nat) (op : List (List AxKey) × List AxKey × List Nat) : Prop :=
  op.1 = [] ∧ Forward op.2.1 ∧ (op.2.1 = [] ∨ ∃ ks, op.2.1 = .range 0 n 1 :: ks)

/-- An assignment to one number: `P[i, j] = x`, with as many indices as there are axes. -/
def OneNumber (axes : Nat) (op : List (List AxKey) × List AxKey × List Nat) : Prop :=
  op.1 = [] ∧ op.2.1.length = axes ∧ ∀ k ∈ op.2.1, ∃ i, k = .at i

instance (op) : Decidable (ForwardWrite op) := by unfold ForwardWrite; infer_instance

end Verif
