import Verif.Model.Tracked
/-
Vocabulary of the properties of tracked arrays.
-/

namespace Verif

/-- The region holds the byte at offset `p`. -/
def Reports (d : Option (Int × Int)) (p : Nat) : Prop :=
  ∃ a b, d = some (a, b) ∧ a ≤ (p : Int) ∧ (p : Int) < b

/-- Every operation meets `P` in the state it finds. -/
def Along (P : ArrState → ArrOp → Prop) : ArrState → List ArrOp → Prop
  | _, [] => True
  | s, op :: ops => P s op ∧ Along P (arrStep s op).1 ops

instance {P : ArrState → ArrOp → Prop} [∀ s op, Decidable (P s op)] :
    ∀ s ops, Decidable (Along P s ops)
  | _, [] => isTrue trivial
  | s, op :: ops =>
    have := instDecidableAlong (P := P) (arrStep s op).1 ops
    inferInstanceAs (Decidable (P s op ∧ Along P (arrStep s op).1 ops))

/-- No slice of the key goes backwards. -/
def Forward (key : List AxKey) : Prop :=
  ∀ k ∈ key, match k with
    | .at _ => True
    | .range _ _ d => 0 ≤ d

instance (key : List AxKey) : Decidable (Forward key) := by
  unfold Forward
  have : ∀ k : AxKey, Decidable (match k with | .at _ => True | .range _ _ d => 0 ≤ d) := by
    intro k; cases k <;> infer_instance
  infer_instance

/-- Assignments to a single number go through the array itself, not through a view. -/
def SingleByOwner (s : ArrState) : ArrRef → List AxKey → Prop
  | .owner, _ => True
  | .view i, key => match s.layout (.view i) with
    | none => True
    | some L => match L.sub key with
      | .error _ => True
      | .ok T => T.shape ≠ []

instance (s : ArrState) : ∀ r key, Decidable (SingleByOwner s r key)
  | .owner, _ => isTrue trivial
  | .view i, key => by
    unfold SingleByOwner
    dsimp only
    split
    · infer_instance
    · split <;> infer_instance

/-- Operations that mark what they modify: no slice goes backwards, single numbers are assigned
through the array itself, and the operators in place are `+=`, `-=` and `*=`. -/
def Marks (s : ArrState) : ArrOp → Prop
  | .view _ key => Forward key
  | .write dst key _ => Forward key ∧ SingleByOwner s dst key
  | .iadd _ _ => True
  | .idiv _ _ => False
  | .clear => True

instance (s : ArrState) : ∀ op, Decidable (Marks s op)
  | .view _ _ | .write _ _ _ | .iadd _ _ | .idiv _ _ | .clear => by
    unfold Marks; infer_instance

/-- A layout that goes forward along all axes. -/
def Layout.Up (L : Layout) : Prop := 0 ≤ L.off ∧ ∀ s ∈ L.strides, 0 ≤ s

instance (L : Layout) : Decidable L.Up := by unfold Layout.Up; infer_instance

/-- Operations that tell the tracker what they modify: no operator in place, no view of a view
that goes backwards, and no assignment to a slice that goes backwards but through views. -/
def Tells (s : ArrState) : ArrOp → Prop
  | .view .owner _ => True
  | .view (.view i) _ => ∀ L ∈ s.layout (.view i), L.Up
  | .write .owner key _ => Forward key
  | .write (.view _) _ _ => True
  | .iadd _ _ => False
  | .idiv _ _ => False
  | .clear => True

instance (s : ArrState) : ∀ op, Decidable (Tells s op)
  | .view .owner _ | .view (.view _) _ | .write .owner _ _ | .write (.view _) _ _ | .iadd _ _
  | .idiv _ _ | .clear => by
    unfold Tells; infer_instance

/-- Operations whose modifications the next assignment through the array itself tells the
tracker. -/
def Gathers : ArrOp → Prop
  | .view _ key => Forward key
  | .write .owner key _ => Forward key
  | .write (.view _) _ _ => False
  | .iadd _ _ => True
  | .idiv _ _ => False
  | .clear => False

instance : ∀ op, Decidable (Gathers op)
  | .view _ _ | .write .owner _ _ | .write (.view _) _ _ | .iadd _ _ | .idiv _ _ | .clear => by
    unfold Gathers; infer_instance

end Verif
