import Verif.Spec.Listing
import Verif.Model.Print
/-
What a printed command or queue should tell.
-/

namespace Verif

/-- The command is printed as the creation of an object. -/
def Cmd.Creation (c : Cmd) : Prop := c.meth = "" ∨ '.' ∈ c.meth.toList

/-- The two commands are the same for a reader of their texts: same number, same class, same
object, and both create it or both call the same method. -/
structure ReadsSame (c c' : Cmd) : Prop where
  cid : c'.cid = c.cid
  cls : c'.cls = c.cls
  object : ∃ v v' n, dget c.params "id" = some v ∧ dget c'.params "id" = some v' ∧
    shownNumber v = some n ∧ shownNumber v' = some n
  method : c.Creation ∧ c'.Creation ∨ ¬ c.Creation ∧ ¬ c'.Creation ∧ c'.meth = c.meth

/-- Names as Python has them: no parenthesis and no line break. -/
def PlainNames (c : Cmd) : Prop :=
  '(' ∉ c.cls.toList ∧ '\n' ∉ c.cls.toList ∧ '\n' ∉ c.meth.toList

/-- The id of the command is a number. -/
def PrintsNumber (c : Cmd) : Prop := ∃ v n, dget c.params "id" = some v ∧ shownNumber v = some n

end Verif
