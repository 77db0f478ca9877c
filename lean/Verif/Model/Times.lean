import Mathlib.Data.Rat.Floor
/-
The times of commands (gsp/io/command.py, gsp/io/json.py, gsp/io/text.py, gsp/io/ansi.py).

Times are microseconds since 1970, as the clock of `datetime.now()` counts them. `fl` rounds to floating point
numbers. Simplifications: a call is known by a number; the time zone is left out (`datetime.timestamp` undoes
what `datetime.now` has done, also when the clocks are changed); JSON gives floating point numbers back as they
were written.
-/

namespace Verif

/-- `datetime.timestamp(datetime.now())` (command.py:359): Python adds the microseconds, divided by 10^6, to the
seconds. -/
def stampOf (fl : ℚ → ℚ) (now : Nat) : ℚ := fl ((now / 1000000 : Nat) + fl ((now % 1000000 : Nat) / 1000000))

/-- Rounding to the nearest integer, to the even one of two (`ROUND_HALF_EVEN` of `datetime.fromtimestamp`). -/
def nearestInt (x : ℚ) : Int :=
  if Int.fract x < 1 / 2 then ⌊x⌋
  else if 1 / 2 < Int.fract x then ⌊x⌋ + 1
  else if ⌊x⌋ % 2 = 0 then ⌊x⌋ else ⌊x⌋ + 1

/-- The integer part of `modf`: towards 0. -/
def wholePart (x : ℚ) : Int := if 0 ≤ x then ⌊x⌋ else ⌈x⌉

/-- `datetime.fromtimestamp(command.timestamp)` (text.py:24, ansi.py:26), in microseconds: the part after the
point is taken times 10^6 and rounded to an integer. (The subtraction of the integer part is exact.) -/
def listedTime (fl : ℚ → ℚ) (t : ℚ) : Int :=
  wholePart t * 1000000 + nearestInt (fl ((t - wholePart t) * 1000000))

/-- A command: its number, its time, and the call it repeats (command.py:358-370). -/
structure Stamped where
  cid : Nat
  stamp : ℚ
  call : Nat
deriving DecidableEq

/-- An entry of a file (json.py:51-54). `hasId` is false when someone else has written the file and left out the
identifier of the object. -/
structure StampEntry where
  cid : Nat
  stamp : ℚ
  call : Nat
  hasId : Bool
deriving DecidableEq

/-- The number of commands made, the queues, and the files. -/
structure StampWorld where
  made : Nat
  queues : Nat → List Stamped
  files : Nat → Option (List StampEntry)

/-- What a program does: calls that a queue records, `empty`, `save`, `load`; someone else may put a file. -/
inductive StampOp where
  | call (q c : Nat)
  | empty (q : Nat)
  | save (q f : Nat)
  | load (q f : Nat)
  | put (f : Nat) (entries : List StampEntry)
deriving DecidableEq

/-- Another value of a function. -/
def setAt {α : Type} (g : Nat → α) (k : Nat) (v : α) : Nat → α := fun j => if j = k then v else g j

/-- Command.__init__ (command.py:358-370): a number and the time are taken first; without an identifier
`ValueError` is raised after that. -/
def newStamped (fl : ℚ → ℚ) (clock : Nat → Nat) (w : StampWorld) (c : Nat) (hasId : Bool) :
    StampWorld × Option Stamped :=
  ({ w with made := w.made + 1 },
    if hasId then some ⟨w.made + 1, stampOf fl (clock w.made), c⟩ else none)

/-- The loop of `load` (json.py:93-101); `false`: it was left by an exception. -/
def stampLoad (fl : ℚ → ℚ) (clock : Nat → Nat) (w : StampWorld) (q : Nat) : List StampEntry → StampWorld × Bool
  | [] => (w, true)
  | e :: es =>
    match newStamped fl clock w e.call e.hasId with
    | (w', none) => (w', false)
    | (w', some s) => stampLoad fl clock { w' with queues := setAt w'.queues q (w'.queues q ++ [s]) } q es

/-- One operation; `false`: it raised. The clock is read once for every command: `clock n` is what it shows
when the command `n + 1` is made. A recorded call makes a command and appends it (command.py:296-300); `save`
writes the number and the time of every command (json.py:51-54, 60-73); `load` empties the queue and makes new
commands (json.py:86-103). The queue is the one that is used (see C12 for which this is). -/
def stampStep (fl : ℚ → ℚ) (clock : Nat → Nat) (w : StampWorld) : StampOp → StampWorld × Bool
  | .call q c =>
    match newStamped fl clock w c true with
    | (w', none) => (w', false)
    | (w', some s) => ({ w' with queues := setAt w'.queues q (w'.queues q ++ [s]) }, true)
  | .empty q => ({ w with queues := setAt w.queues q [] }, true)
  | .save q f =>
    ({ w with files := setAt w.files f (some ((w.queues q).map (fun s => ⟨s.cid, s.stamp, s.call, true⟩))) }, true)
  | .load q f =>
    match w.files f with
    | none => (w, false)
    | some es => stampLoad fl clock { w with queues := setAt w.queues q [] } q es
  | .put f es => ({ w with files := setAt w.files f (some es) }, true)

/-- A history; what raises does not end the program. -/
def stampRun (fl : ℚ → ℚ) (clock : Nat → Nat) (w : StampWorld) (ops : List StampOp) : StampWorld :=
  ops.foldl (fun w op => (stampStep fl clock w op).1) w

/-- Before the first call. -/
def stampInit : StampWorld := ⟨0, fun _ => [], fun _ => none⟩

end Verif
