import Verif.Spec.Deliver
/-
A replay seen command by command.
-/

namespace Verif

/-- The process `w2` executes the commands `cmds`, one for each action of the session `as`, and
is in the state `st k` after `k` of them. At that point it holds what the session held after its
first `k` actions: `ref k` gives the copies, `made k` the objects built by conversions. A copy once
made stays the copy of its object, and the calls an object has received stay as they are: each
command only adds to them. -/
structure InStep (P P2 : Prog) (cs : Dict (String × String) Nat) (t : Val → Val) (as : List Act)
    (w2 : World) (cmds : List Cmd) (st : Nat → World) (ref : Nat → List Nat)
    (made : Nat → List (Nat × String × Dict String Val)) : Prop where
  one : cmds.length = as.length
  start : st 0 = { w2 with queues := (st 0).queues } ∧ ref 0 = [] ∧ made 0 = []
  runs : ∀ k c, cmds[k]? = some c → execute P2 (st k) c = (st (k + 1), .ok ())
  holds : ∀ k ≤ as.length,
    Rebuilt P P2 cs t (runActs P (World.start cs) (as.take k)) w2 (st k) (ref k) (made k)
  stays : ∀ k < as.length, ref k <+: ref (k + 1) ∧ made k <+: made (k + 1)
  adds : ∀ k < as.length, ∀ (i : Nat) o, (st k).heap[i]? = some o →
    ∃ o', (st (k + 1)).heap[i]? = some o' ∧ o'.cls = o.cls ∧ o.log <+: o'.log

end Verif
