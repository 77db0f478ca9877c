import Verif.Model.Keys
/-
What dictionaries of objects should do: one collection per viewport, found again whatever happens
to the objects.
-/

namespace Verif

/-- The collections used, when `made` are the viewports that have one: the viewport itself decides,
not its attributes. -/
def ownCollections (made : List Nat) : List KOp → List Nat
  | [] => []
  | .render v :: ops =>
    if v ∈ made then made.idxOf v :: ownCollections made ops
    else made.length :: ownCollections (made ++ [v]) ops
  | _ :: ops => ownCollections made ops

/-- The renders are on objects that exist: `n` counts them. -/
def Existing (n : Nat) : List KOp → Prop
  | [] => True
  | .make _ _ :: ops => Existing (n + 1) ops
  | .render v :: ops => v < n ∧ Existing n ops
  | _ :: ops => Existing n ops

/-- No identifier is changed. -/
def KeepsIds (ops : List KOp) : Prop := ∀ op ∈ ops, ∀ r id, op ≠ .setId r id

/-- A new process: no objects, nothing drawn. -/
def KState.fresh : KState := ⟨[], 0, [], []⟩

/-- Attributes that can be compared with themselves: no arrays but those of one item, objects nested
less than `n` deep, and values of other libraries that are equal to themselves. -/
def Calm (cmp : Nat → Nat → Except Err Bool) (h : List KObj) : Nat → AVal → Prop
  | 0, _ => False
  | _ + 1, .opaque m => cmp m m = .ok true
  | _ + 1, .array l => l.length = 1
  | n + 1, .ref r => ∃ o, h[r]? = some o ∧ (dkeys o.attrs).Nodup ∧ ∀ p ∈ o.attrs, Calm cmp h n p.2

/-- Objects of a class have the same attributes. -/
def SameShape (h : List KObj) : Prop :=
  ∀ x ∈ h, ∀ y ∈ h, x.cls = y.cls → ∀ k, k ∈ dkeys x.attrs ↔ k ∈ dkeys y.attrs

/-- Attributes are named once. -/
def NamedOnce (h : List KObj) : Prop := ∀ x ∈ h, (dkeys x.attrs).Nodup

end Verif
