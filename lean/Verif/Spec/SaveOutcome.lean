import Verif.Spec.Json
/-
Which saves raise, and what they leave (C51).
-/

namespace Verif

/-- No delayed conversion of the queue builds an object. -/
def BuildsNone (P : Prog) (u : Queue) : Prop :=
  ∀ c ∈ u.commands, ∀ p ∈ c.params, ∀ f x, p.2 = .conv f x → ∀ cls kw, P.conv f x ≠ .make cls kw

/-- No two parameters of a command get the same name in the file. -/
def NamesApart (P : Prog) (w : World) (u : Queue) : Prop :=
  ∀ c ∈ u.commands, ∀ ss, c.params.mapM (settle P w) = some ss → (dkeys ss).Nodup

/-- The value of a parameter cannot be settled, for the reason `e`: its conversion raises, the object it
looks up is not registered, or the object it stands for does not exist. -/
inductive Refuses (P : Prog) (w : World) : Val → Err → Prop
  | raises {f x g e} : P.conv f x = .pure g → g x = .error e → Refuses P w (.conv f x) e
  | missing {f x key} : P.conv f x = .look key → (key x).bind (dget w.objects) = none →
      Refuses P w (.conv f x) .keyError
  | dangling {v r} : evaluated P v = some (.obj r) ∨ found P w v = some r → w.heap[r]? = none →
      Refuses P w v .attributeError

/-- Values that `json.dump` writes: all but delayed conversions and instances without an encoding. -/
def Writable (ij : Codec) : Val → Prop
  | .inst c p => (ij c p).isSome = true
  | .conv _ _ => False
  | _ => True

/-- The first parameter of the queue that cannot be settled, and why. -/
def FirstRefused (P : Prog) (w : World) (u : Queue) (e : Err) : Prop :=
  ∃ pre c post ps p qs, u.commands = pre ++ c :: post ∧ c.params = ps ++ p :: qs ∧
    (∀ c' ∈ pre, ∀ p' ∈ c'.params, (settle P w p').isSome = true) ∧
    (∀ p' ∈ ps, (settle P w p').isSome = true) ∧ Refuses P w p.2 e

/-- All parameters of the queue can be settled. -/
def AllSettle (P : Prog) (w : World) (u : Queue) : Prop :=
  ∀ c ∈ u.commands, ∀ p ∈ c.params, (settle P w p).isSome = true

/-- And their values can be written. -/
def AllWritable (P : Prog) (ij : Codec) (w : World) (u : Queue) : Prop :=
  ∀ c ∈ u.commands, ∀ p ∈ c.params, ∀ s, settle P w p = some s → Writable ij s.2

end Verif
