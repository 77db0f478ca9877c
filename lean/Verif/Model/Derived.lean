import Verif.Model.Tracked
/-
Several tracked arrays, some computed from others (gsp_matplotlib/glm/ndarray/tracked.py), and
assignments through index arrays and masks.

A copy, the result of an operator or of a function of numpy (`a + 1`, `a.copy()`, `a[mask]`,
`a.astype(t)`, a `reshape` that copies) is an array with memory of its own that
`__array_finalize__` (tracked.py:42-53) gives the tracker of the array it was computed from, and its
region. `np.concatenate` and `np.stack` give it no array, and the tracker they get has no buffer
(`Tracker(None)`, gsp_matplotlib/__init__.py:71-73).

Simplifications as in Tracked.lean; operators of two arrays take the tracker of the first.
-/

namespace Verif

/-- An array with memory of its own. `ext` is its `_extents`, `buf` the buffer of its tracker, if it
has one. The `mirror` of `arr` is not used: the buffers are kept apart. -/
structure Root where
  arr : ArrState
  ext : Int × Int
  buf : Option Nat
deriving DecidableEq

/-- A buffer: the array whose memory it was made with (`ndarray.data`,
gsp_matplotlib/__init__.py:74), and the bytes it holds if it does what `set_data` tells. -/
structure TrackBuf where
  array : Nat
  bytes : List Nat
deriving DecidableEq

/-- All arrays and buffers of a program. -/
structure Family where
  roots : List Root
  bufs : List TrackBuf
deriving DecidableEq

/-- Operations: an array made by GSP, one computed from array `i` or one of its views, one joined
from others, and an operation on array `i` and its views. -/
inductive FamOp where
  | make (item : Nat) (shape mem : List Nat)
  | derive (i : Nat) (src : ArrRef) (item : Nat) (shape mem : List Nat)
  | join (item : Nat) (shape mem : List Nat)
  | on (i : Nat) (op : ArrOp)
deriving DecidableEq

/-- An operation on an array and its views: `+=` through the array itself marks its `_extents`
(tracked.py:164-174), which are those of the array it was computed from (48-49). -/
def rootStep (ext : Int × Int) (a : ArrState) (op : ArrOp) : ArrState × Option Err :=
  match op with
  | .iadd .owner new =>
    ({ (arrStep a (.iadd .owner new)).1 with dirty := updDirty a.dirty ext },
      (arrStep a (.iadd .owner new)).2)
  | op => arrStep a op

/-- One operation. `make` is tracked.py:36-40 with gsp_matplotlib/__init__.py:70-75, `derive`
tracked.py:42-53. Assignments tell the buffer of the tracker (tracked.py:145-156); without one
`set_data` raises `AttributeError` (gsp_matplotlib/__init__.py:77-78), after the assignment. -/
def famStep (f : Family) : FamOp → Family × Option Err
  | .make item shape mem =>
    (⟨f.roots ++ [⟨arrInit item shape true mem, (0, ((shape.prod * item : Nat) : Int)), some f.bufs.length⟩],
      f.bufs ++ [⟨f.roots.length, mem⟩]⟩, none)
  | .derive i src item shape mem =>
    match f.roots[i]? with
    | none => (f, some .nameError)
    | some r => match r.arr.layout src with
      | none => (f, some .nameError)
      | some L =>
        ({ f with roots := f.roots ++
          [⟨{ arrInit item shape true mem with dirty := some (r.arr.extOf src L) },
            r.arr.extOf src L, r.buf⟩] }, none)
  | .join item shape mem =>
    ({ f with roots := f.roots ++ [⟨arrInit item shape true mem, (0, ((shape.prod * item : Nat) : Int)), none⟩] }, none)
  | .on i op =>
    match f.roots[i]? with
    | none => (f, some .nameError)
    | some r => match r.buf.bind (fun b => f.bufs[b]?) with
      | none =>
        let (a, e) := rootStep r.ext { r.arr with tracker := false } op
        let e' := match op, e with
          | .write _ _ _, none => some Err.attributeError
          | _, e => e
        ({ f with roots := f.roots.set i { r with arr := { a with tracker := true } } }, e')
      | some u =>
        let (a, e) := rootStep r.ext { r.arr with mirror := u.bytes } op
        (⟨f.roots.set i { r with arr := a },
          f.bufs.modify (r.buf.getD 0) (fun u => { u with bytes := a.mirror })⟩, e)

/-- A program; errors leave the program going on. -/
def famRun (f : Family) (ops : List FamOp) : Family := ops.foldl (fun f op => (famStep f op).1) f

/-- What a visual that was given array `i` or one of its views is saved with: the buffer of the
tracker (gsp_matplotlib/__init__.py:54-67), whose data are the memory it was made with, read when the
file is written. -/
def savedBytes (f : Family) (i : Nat) : Except Err (List Nat) :=
  match f.roots[i]? with
  | none => .error .nameError
  | some r => match r.buf.bind (fun b => f.bufs[b]?) with
    | none => .error .attributeError
    | some u => match f.roots[u.array]? with
      | none => .error .nameError
      | some q => .ok q.arr.mem

/-- The bytes of the items of an array or a view. -/
def Family.contents (f : Family) (i : Nat) (ref : ArrRef) : Option (List Nat) :=
  (f.roots[i]?).bind (fun r => (r.arr.layout ref).map (fun L =>
    (L.bytes r.arr.item).map (fun p => r.arr.mem[p.toNat]?.getD 0)))

/-! ### Index arrays and masks -/

/-- Keys that pick rows: a list of indices, an array of indices (a mask is one: the indices of its
true items), and several arrays at once or a mask of two axes. -/
inductive PickKey where
  | list (rows : List Int)
  | array (rows : List Int)
  | grid
deriving DecidableEq

/-- Bytes of a row. -/
def ArrState.rowBytes (s : ArrState) : Nat := (s.shape.drop 1).prod * s.item

/-- Offsets of the bytes of the rows. -/
def ArrState.rowsAt (s : ArrState) (rows : List Nat) : List Int :=
  rows.flatMap (fun r => (List.range s.rowBytes).map (fun b : Nat => ((r * s.rowBytes + b : Nat) : Int)))

/-- numpy refuses indices that are not in the array (tracked.py:124). -/
def ArrState.noRow (s : ArrState) (r : Int) : Bool := r < -(s.shape.headD 0 : Int) || (s.shape.headD 0 : Int) ≤ r

/-- The rows that indices name; negative ones count from the end. -/
def ArrState.rowsOf (s : ArrState) (rows : List Int) : List Nat :=
  rows.map (fun r => (if r < 0 then r + (s.shape.headD 0 : Int) else r).toNat)

/-- `Z[key] = …` through the array itself (tracked.py:123-156). numpy makes a copy of the rows picked,
whose base is an array that is not tracked: lists, and tuples of arrays, are refused (136-139); for a
single array the region marked is that of the copy, which begins at 0 (141-142). -/
def pickWrite (s : ArrState) (key : PickKey) (new : List Nat) : ArrState × Option Err :=
  match key with
  | .grid => (s, some .notImplemented)
  | .list rows =>
    if rows.any s.noRow then (s, some .indexError) else (s, some .notImplemented)
  | .array rows =>
    if rows.any s.noRow then (s, some .indexError)
    else
      let s1 := { s with dirty := updDirty s.dirty (0, ((rows.length * s.rowBytes : Nat) : Int)) }
      if new.length = rows.length * s.rowBytes then
        let s2 := { s1 with mem := writeBytes s.mem (s.rowsAt (s.rowsOf rows)) new }
        if s.tracker then
          let iv := s2.dirty.getD (0, 0)
          ({ s2 with mirror := mirrorSet s2.mirror iv.1 (pySlice s2.mem iv.1 iv.2), dirty := none }, none)
        else (s2, none)
      else (s1, some .valueError)

/-- Operations with such keys among the others. -/
inductive PickOp where
  | plain (op : ArrOp)
  | pick (key : PickKey) (new : List Nat)
deriving DecidableEq

/-- One operation. -/
def pickStep (s : ArrState) : PickOp → ArrState × Option Err
  | .plain op => arrStep s op
  | .pick key new => pickWrite s key new

/-- A history. -/
def pickRun (s : ArrState) (ops : List PickOp) : ArrState := ops.foldl (fun s op => (pickStep s op).1) s

end Verif
