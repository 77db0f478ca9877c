import Verif.Model.Py
/-
Several threads of a program that create objects, call recorded methods and run queues
(gsp/object.py, gsp/io/command.py).

Python runs the threads one at a time and may change between them at any read or write of what they share:
the two counters, the dictionary of objects, `CommandQueue.active`, and the list and the flag of a queue. One
step of a thread is one such read or write. Simplifications: a counter is read and increased in one step
(`next` of an `itertools.count`), and so is an item of a dictionary set or appended to a list, as in CPython;
what calls compute, and the check of their arguments, does not concern other threads; recording is on; a
command that a queue executes succeeds, and takes no new identifier.
-/

namespace Verif

/-- A recorded command: its number, the identifier of its object, and which call of which thread it is; or
(`inner`) that it was recorded while that call, `run`, executed a command. -/
structure TCmd where
  cid : Nat
  oid : Nat
  thread : Nat
  call : Nat
  inner : Bool
deriving DecidableEq

/-- A CommandQueue (command.py:72-95). -/
structure TQueue where
  readonly : Bool
  commands : List TCmd
deriving DecidableEq

/-- What a thread calls: a constructor, a method of the object with an identifier, both of which may raise,
or `run` of a queue. -/
inductive TCall where
  | create (ok : Bool)
  | use (oid : Nat) (ok : Bool)
  | run (q : Nat)
deriving DecidableEq

/-- What `run` (command.py:150-154) remembers: the queue, its flag, and how far it is. -/
structure RunFrame where
  q : Nat
  saved : Bool
  i : Nat
deriving DecidableEq

/-- Where a thread is. -/
inductive Pc where
  /-- Before its next call. -/
  | start
  /-- Before `Object.objects[self.id] = self` (object.py:69). -/
  | register (oid : Nat)
  /-- Before `CommandQueue.active is None` (command.py:64). -/
  | active (oid : Nat)
  /-- Before `CommandQueue.active = self` of the new queue (command.py:95). -/
  | fresh (oid : Nat)
  /-- Before `CommandQueue.active = …` (command.py:65). -/
  | assign (oid q : Nat)
  /-- Before `return CommandQueue.active` (command.py:66). -/
  | getActive (oid : Nat)
  /-- Before `not queue.readonly` (command.py:296). -/
  | check (oid q : Nat)
  /-- Before `CID()` (command.py:358). -/
  | number (oid q : Nat)
  /-- Before `not self.readonly` (command.py:175). -/
  | push (oid q cid : Nat)
  /-- Before `self.commands.append(command)` (command.py:176). -/
  | append (oid q cid : Nat)
  /-- Before `readonly = self.readonly` (command.py:150). -/
  | runSave (q : Nat)
  /-- Before `self.readonly = True` (command.py:151). -/
  | runSet (q : Nat) (saved : Bool)
  /-- Before the next command of the loop (command.py:152). -/
  | runLoop
  /-- Before `self.readonly = readonly` (command.py:154). -/
  | runEnd
deriving DecidableEq

/-- A thread: the calls it makes one after the other, the number of those that have ended, and where it is. -/
structure TThread where
  script : List TCall
  next : Nat
  pc : Pc
  frame : Option RunFrame

/-- What threads share, and the threads. An object is known by the call that created it. -/
structure TWorld where
  oids : Nat
  objects : Dict Nat (Nat × Nat)
  cids : Nat
  active : Option Nat
  queues : List TQueue
  threads : Nat → TThread

/-- The flag of a queue. -/
def TWorld.readonly (s : TWorld) (q : Nat) : Bool := (s.queues[q]?).any (·.readonly)

/-- The commands of a queue. -/
def TWorld.commands (s : TWorld) (q : Nat) : List TCmd := ((s.queues[q]?).map (·.commands)).getD []

/-- A change of a queue. -/
def TWorld.onQueue (s : TWorld) (q : Nat) (f : TQueue → TQueue) : TWorld :=
  { s with queues := s.queues.modify q f }

/-- A thread gets on. -/
def TWorld.put (s : TWorld) (t : Nat) (th : TThread) : TWorld :=
  { s with threads := fun u => if u = t then th else s.threads u }

/-- The end of a call, or of the execution of one command of a queue. -/
def TThread.done (th : TThread) : TThread :=
  match th.frame with
  | none => { th with next := th.next + 1, pc := .start }
  | some f => { th with pc := .runLoop, frame := some { f with i := f.i + 1 } }

/-- One step of a thread: Object.__init__ (object.py:66-69), the wrapper of a recorded function
(command.py:202-304), NamedSingleton.__call__ (63-66), CommandQueue.__init__ (92-95), Command.__init__
(358-370), push (175-178) and run (150-154). -/
def tstep (s : TWorld) (t : Nat) : TWorld :=
  let th := s.threads t
  match th.pc with
  | .start =>
    match th.script[th.next]? with
    | none => s
    | some (.create _) => ({ s with oids := s.oids + 1 } : TWorld).put t { th with pc := .register (s.oids + 1) }
    | some (.use oid ok) => if ok then s.put t { th with pc := .active oid } else s.put t th.done
    | some (.run q) => s.put t { th with pc := .runSave q }
  | .register oid =>
    let s := { s with objects := dset s.objects oid (t, th.next) }
    if th.script[th.next]? = some (.create true) then s.put t { th with pc := .active oid }
    else s.put t th.done
  | .active oid =>
    if s.active = none then s.put t { th with pc := .fresh oid } else s.put t { th with pc := .getActive oid }
  | .fresh oid =>
    ({ s with queues := s.queues ++ [⟨false, []⟩], active := some s.queues.length } : TWorld).put t
      { th with pc := .assign oid s.queues.length }
  | .assign oid q => ({ s with active := some q } : TWorld).put t { th with pc := .getActive oid }
  | .getActive oid =>
    match s.active with
    | none => s.put t th.done
    | some q => s.put t { th with pc := .check oid q }
  | .check oid q => if s.readonly q then s.put t th.done else s.put t { th with pc := .number oid q }
  | .number oid q => ({ s with cids := s.cids + 1 } : TWorld).put t { th with pc := .push oid q (s.cids + 1) }
  | .push oid q cid => if s.readonly q then s.put t th.done else s.put t { th with pc := .append oid q cid }
  | .append oid q cid =>
    (s.onQueue q (fun u => { u with
      commands := u.commands ++ [⟨cid, oid, t, th.next, th.frame.isSome⟩] })).put t th.done
  | .runSave q => s.put t { th with pc := .runSet q (s.readonly q) }
  | .runSet q saved =>
    (s.onQueue q (fun u => { u with readonly := true })).put t
      { th with pc := .runLoop, frame := some ⟨q, saved, 0⟩ }
  | .runLoop =>
    match th.frame with
    | none => s
    | some f => match (s.commands f.q)[f.i]? with
      | some c => s.put t { th with pc := .active c.oid }
      | none => s.put t { th with pc := .runEnd }
  | .runEnd =>
    match th.frame with
    | none => s
    | some f => (s.onQueue f.q (fun u => { u with readonly := f.saved })).put t
        { th with next := th.next + 1, pc := .start, frame := none }

/-- A schedule: the threads in the order of their steps. -/
def trun (s : TWorld) (sched : List Nat) : TWorld := sched.foldl tstep s

/-- The threads before their first calls; with a queue that is active, or before there is one. -/
def tinit (scripts : Nat → List TCall) (queue : Bool) : TWorld where
  oids := 0
  objects := []
  cids := 0
  active := if queue then some 0 else none
  queues := if queue then [⟨false, []⟩] else []
  threads t := ⟨scripts t, 0, .start, none⟩

end Verif
