import Verif.Model.Json
import Verif.Model.Convert
/-
tests/test_io.py of the project, on the model. The tests run one after the other in one process, so
each begins where the one before it ended. They were written for an older `run(globals(), locals())`;
`run` with the module of the test is meant here.

A float is its code; `float 123` is 123.0.
-/

namespace Verif.TestIo

/-- `Foo` and `Bar` (test_io.py:9-17), and the conversions of the tests: `int(value) + 1` (:63-65),
`int(value)` (:88-91, 122-125) and `4*int(value)` (:101-104). `Bar` is recorded by the constructor of
`Foo`, which it calls. -/
def prog : Prog where
  sig := fun c f => if (c = "Foo" ∨ c = "Bar") ∧ f = "__init__" then
    some ⟨["value"], [], [("value", ["int"])]⟩ else none
  override := fun _ _ => none
  mro := fun c => if c = "Bar" then ["Bar", "Foo", "Object", "object"]
    else if c = "Foo" then ["Foo", "Object", "object"]
    else if c = "OID" then ["OID", "int", "object"] else [c, "object"]
  metaBases := fun _ => ["object"]
  raises := fun _ _ _ => none
  conv := fun i _ => .pure (fun v => match v with
    | .float n => .ok (.int (if i = 0 then n + 1 else if i = 1 then n else 4 * n))
    | _ => .error .typeError)
  resolve := fun c => if c = "Foo" ∨ c = "Bar" then some c else none

/-- The commands of a queue. -/
def commands (w : World) (q : Nat) : List Cmd := (w.queues[q]?.map (·.commands)).getD []

/-- The values received by the constructor of the object registered under an id. -/
def valueOf (w : World) (id : Int) : Option Val :=
  (dget w.objects id).bind fun r => w.heap[r]?.bind fun o => o.log.head?.bind fun c => dget c.2 "value"

/-- An operation raised this. -/
def raised (w : World) (op : Op) : Option Err := match (step prog w op).2 with
  | .error e => some e
  | .ok () => none

def foo (v : Val) : Op := .create "Foo" [v] [] false

/-- After test_io_recording (:19-28). -/
def w1 : World := runOps prog .fresh
  [.resetObjects, .queue (some "active"), .setReadonly 0 false, foo (.int 1), foo (.int 2),
   foo (.int 3)]

example : w1.objects.length = 3 ∧ (commands w1 0).length = 3 := by decide +kernel

/-- After test_io_no_recording (:30-39). -/
def w2 : World := runOps prog w1
  [.resetObjects, .empty 0, .setReadonly 0 true, foo (.int 1), foo (.int 2), foo (.int 3)]

example : w2.objects.length = 3 ∧ (commands w2 0).length = 0 := by decide +kernel

/-- After test_io_queue_execution (:42-52): `CommandQueue()` is the queue "default", which is not the
active one. -/
def w3 : World := runOps prog w2 [.resetObjects, .queue (some "default"), .setReadonly 1 false,
  foo (.int 123), .run 1]

example : valueOf w3 7 = some (.int 123) := by decide +kernel

/-- test_io_type_checking (:54-58). -/
example : raised w3 (foo (.float 123)) = some .valueError := by decide +kernel

def w4 : World := runOps prog w3 [foo (.float 123)]

/-- After test_conversion (:60-77). `"active"` is the queue "default" since test_io_queue_execution. -/
def w5 : World := runOps prog w4 [.register "float" "int" 0, .empty 1, .setReadonly 1 false,
  foo (.float 123), .resetObjects, .run 1]

example : w4.active = some 1 ∧ (w5.heap[10]?).map (·.born) = some 11 ∧
    valueOf w5 10 = some (.int 124) := by decide +kernel

/-- test_conversion_registered (:79-85). -/
example : raised w5 (.register "float" "int" 1) = some .typeError := by decide +kernel

/-- test_conversion_unregister (:87-93). -/
def w6 : World := { w5 with converters := unregisterLoop w5.converters ["float"] "int" }

example : raised w6 (.register "float" "int" 1) = none := by decide +kernel

def w7 : World := runOps prog w6 [.register "float" "int" 1]

/-- Before `dump` in test_io_to_json (:95-113). -/
def w8 : World := runOps prog { w7 with converters := unregisterLoop w7.converters ["float"] "int" }
  [.register "float" "int" 2, .queue (some "test"), .empty 2, .setReadonly 2 false,
   foo (.float 123)]

example : (dumpQueue prog (fun _ _ => none) 5 w8 (some 2)).map (fun p => p.2.toOption.map (·.map
    (fun c => (c.method, c.params.bind (dget · "value"))))) =
    some (some [(some "Foo/__init__", some (.int (123 * 4)))]) := by decide +kernel

/-- After test_io_inheritance (:116-134). -/
def w9 : World := runOps prog { w8 with converters := unregisterLoop w8.converters ["float"] "int" }
  [.register "float" "int" 1, .empty 2, .setReadonly 2 false,
   .create "Bar" [.float 123] [] false]

def w10 : World := runOps prog w9 [.resetObjects, .run 2]

example : (w9.heap[12]?).map (fun o => (o.id, o.cls)) = some (13, "Bar") ∧
    valueOf w9 13 = some (.float 123) ∧ valueOf w10 13 = some (.int 123) := by decide +kernel

end Verif.TestIo
