import Verif.Model.Threads
/-
What recording from several threads should give.
-/

namespace Verif

/-- The calls that are recorded: constructors and methods that return. -/
def TCall.recorded : TCall → Bool
  | .create ok => ok
  | .use _ ok => ok
  | .run _ => false

/-- The commands of all queues. -/
def TWorld.all (s : TWorld) : List TCmd := s.queues.flatMap (·.commands)

/-- The calls of a thread that have returned and are recorded, in their order. -/
def TThread.returned (th : TThread) : List Nat :=
  (List.range th.next).filter fun k => (th.script[k]?).any TCall.recorded

/-- The calls of a thread of which commands tell, in the order of the commands. -/
def toldOf (t : Nat) (cs : List TCmd) : List Nat :=
  (cs.filter fun c => c.thread = t).map (·.call)

/-- A thread runs no queue. -/
def NoRun (script : List TCall) : Prop := ∀ q, TCall.run q ∉ script

/-- A thread is between two calls, or in a call other than `run`. -/
def TThread.outside (th : TThread) : Prop :=
  th.frame = none ∧ (∀ q, th.pc ≠ .runSave q) ∧ (∀ q b, th.pc ≠ .runSet q b)

end Verif
