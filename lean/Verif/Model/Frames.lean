import Verif.Model.Tracked
import Verif.Model.Base64
/-
Buffers and lists (gsp/core/buffer.py, gsp/core/list.py, gsp_matplotlib/core/buffer.py), and what a
session with a changing array records, saves and shows when it is replayed.
-/

namespace Verif

/-! ### Buffers -/

/-- A buffer: the number of items it was given, the bytes of an item, and its data
(gsp_matplotlib/core/buffer.py:15-27). -/
structure Buf where
  count : Nat
  item : Nat
  data : Option (List Nat)
deriving DecidableEq, Repr

/-- `Buffer.__len__` (gsp/core/buffer.py:56-59). -/
def Buf.len (b : Buf) : Nat := b.count

/-- `Buffer.__array__` (gsp_matplotlib/core/buffer.py:37-43): the items read from the data by
`np.frombuffer`, which raises `ValueError` unless they fit. Without data, `np.empty` makes items with
any contents, here `garbage`. -/
def Buf.array (garbage : Nat → List Nat) (b : Buf) : Except Err (List (List Nat)) :=
  match b.data with
  | none => .ok ((List.range b.count).map garbage)
  | some d =>
    if b.item = 0 ∨ d.length % b.item ≠ 0 then .error .valueError
    else .ok ((List.range (d.length / b.item)).map (fun i => (d.drop (i * b.item)).take b.item))

/-- `Buffer.set_data` (gsp_matplotlib/core/buffer.py:29-35) does nothing. -/
def Buf.setData (b : Buf) (_off : Int) (_bytes : List Nat) : Buf := b

/-- `Tracker.__init__` (gsp_matplotlib/__init__.py:70-75): the buffer of an array with items of
`item` bytes. `len` of an array without axes raises `TypeError`. -/
def trackerBuf (item : Nat) (mem : List Nat) : List Nat → Except Err Buf
  | [] => .error .typeError
  | n :: _ => .ok (Buf.setData ⟨n, item, some mem⟩ 0 mem)

/-- The partition of a list (gsp/core/list.py:23-24). -/
inductive ItemSizes where
  | int (n : Int)
  | buffer (b : Buf)
deriving DecidableEq, Repr

/-- `List.__len__` (gsp/core/list.py:40-46): for equal parts it looks for a variable `data` that does
not exist. -/
def listLen : Buf → ItemSizes → Except Err Nat
  | _, .int _ => .error .nameError
  | _, .buffer b => .ok b.len

/-! ### Frames -/

/-- What `__setitem__` tells the tracker (tracked.py:145-156): offset and bytes of `set_data`. -/
def sentBy (s : ArrState) : ArrOp → Option (Int × List Nat)
  | .write dst key new =>
    match s.layout dst with
    | none => none
    | some L => match L.sub key with
      | .error _ => none
      | .ok T =>
        if new.length = (T.bytes s.item).length then
          if s.tracker then
            let mem := writeBytes s.mem (T.bytes s.item) new
            let iv := match dst with
              | .owner => (updDirty s.dirty (markOf s.item L key T)).getD (0, 0)
              | .view i => s.ownOf i
            some (iv.1, pySlice mem iv.1 iv.2)
          else none
        else none
  | _ => none

/-- A session with one array: operations on it, and renders of a visual that shows it. -/
inductive FOp where
  | array (op : ArrOp)
  | draw
deriving DecidableEq

/-- What the renders show while the session runs: the data of the buffer is the memory of the array
(gsp_matplotlib/__init__.py:74), whose current bytes `np.frombuffer` reads without a copy. -/
def liveFrames (s : ArrState) : List FOp → List (List Nat)
  | [] => []
  | .array op :: ops => liveFrames (arrStep s op).1 ops
  | .draw :: ops => s.mem :: liveFrames s ops

/-- The array at the end. -/
def lastState (s : ArrState) : List FOp → ArrState
  | [] => s
  | .array op :: ops => lastState (arrStep s op).1 ops
  | .draw :: ops => lastState s ops

/-- The commands of a saved file: contents are base64 text (gsp/io/json.py:15-18). -/
inductive SavedCmd where
  | buffer (count : Nat) (data : List Char)
  | setData (off : Int) (data : List Char)
  | draw
deriving DecidableEq

/-- The commands recorded after the creation of the array. The bytes of `set_data` are a copy. -/
def savedRest (s : ArrState) : List FOp → List SavedCmd
  | [] => []
  | .array op :: ops =>
    (match sentBy s op with
      | some (off, bytes) => [.setData off (b64encode bytes)]
      | none => []) ++ savedRest (arrStep s op).1 ops
  | .draw :: ops => .draw :: savedRest s ops

/-- The file saved at the end of the session: the creation of the buffer was recorded with the memory
of the array, which is read when the file is written (gsp/io/json.py:15-16), and followed by a
`set_data` with all the bytes (gsp_matplotlib/__init__.py:75). -/
def savedFile (s : ArrState) (count : Nat) (ops : List FOp) : List SavedCmd :=
  .buffer count (b64encode (lastState s ops).mem) :: .setData 0 (b64encode s.mem) :: savedRest s ops

/-- Replaying a file: what the renders show. `upd` is `set_data`. A buffer decodes its text
(gsp_matplotlib/core/buffer.py:22-24); `none` stands for the exception of a wrong text. -/
def replayFrames (upd : List Nat → Int → List Char → Option (List Nat)) :
    List Nat → List SavedCmd → Option (List (List Nat))
  | _, [] => some []
  | cur, c :: cs =>
    match c with
    | .buffer _ t =>
      match b64decode t with
      | none => none
      | some b => replayFrames upd b cs
    | .setData off t =>
      match upd cur off t with
      | none => none
      | some b => replayFrames upd b cs
    | .draw => (replayFrames upd cur cs).map (cur :: ·)

/-- `set_data` of the backend: the contents stay (gsp_matplotlib/core/buffer.py:29-35). -/
def backendSet (cur : List Nat) (_off : Int) (_t : List Char) : Option (List Nat) := some cur

end Verif
