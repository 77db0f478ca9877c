import Verif.Model.Frames
import Verif.Spec.Tracked
/-
What saved frames should be.
-/

namespace Verif

/-- All are bytes. -/
def AreBytes (l : List Nat) : Prop := ∀ x ∈ l, x < 256

instance (l : List Nat) : Decidable (AreBytes l) := inferInstanceAs (Decidable (∀ x ∈ l, x < 256))

/-- The operation stores bytes only. -/
def ArrOp.Bytes : ArrOp → Prop
  | .write _ _ new | .iadd _ new | .idiv _ new => AreBytes new
  | .view _ _ | .clear => True

/-- The session stores bytes only. -/
def StoresBytes (ops : List FOp) : Prop := ∀ op, .array op ∈ ops → op.Bytes

/-- The operations on the array. -/
def arrOps : List FOp → List ArrOp
  | [] => []
  | .array op :: ops => op :: arrOps ops
  | .draw :: ops => arrOps ops

/-- `set_data` as documented (gsp/core/buffer.py:42-53): "Update buffer content at given offset with
new data". -/
def documentedSet (cur : List Nat) (off : Int) (t : List Char) : Option (List Nat) :=
  (b64decode t).map (fun b => cur.take off.toNat ++ b.take (cur.length - off.toNat) ++
    cur.drop (off.toNat + b.length))

end Verif
