import Verif.Model.Tracked
/-
gsp_matplotlib/glm/tracked_array.py: the older class of tracked arrays, that no other module imports.

Its code is that of ndarray/tracked.py (Model/Tracked.lean) but for what an assignment tells the tracker.
-/

namespace Verif

/-- Whether `Z.view(np.ubyte)` is possible: the items of the last axis must be next to each other
(`ndarray.view`, for an item of another size). -/
def Layout.byteView (item : Nat) (L : Layout) : Bool :=
  item = 1 || L.shape.prod = 0 || L.shape.getLast? = some 1 || L.strides.getLast? = some (item : Int)

/-- The bytes of a view, in the order of its items: `self.view(np.ubyte).ravel()`. -/
def readBytes (mem : List Nat) (ps : List Int) : List Nat := ps.map (fun p => mem.getD p.toNat 0)

/-- One operation. Assignments through a view (tracked_array.py:104-129): the bytes of the view, at the offset
0, since the region `_dirty` of the view is that of `__array_finalize__` (45-46), `0, size*itemsize`, and its
`_update` (68-79) is that of the array. All other operations do as in ndarray/tracked.py. -/
def legacyStep (s : ArrState) : ArrOp → ArrState × Option Err
  | .write (.view i) key new =>
    match s.layout (.view i) with
    | none => (s, some .nameError)
    | some L => match L.sub key with
      | .error e => (s, some e)
      | .ok T =>
        let s1 := { s with dirty := updDirty s.dirty (markOf s.item L key T) }
        if new.length = (T.bytes s.item).length then
          let s2 := { s1 with mem := writeBytes s.mem (T.bytes s.item) new }
          if s.tracker then
            if L.byteView s.item then
              ({ s2 with mirror := mirrorSet s2.mirror 0 (readBytes s2.mem (L.bytes s.item)),
                         dirty := none }, none)
            else (s2, some .valueError)
          else (s2, none)
        else (s1, some .valueError)
  | op => arrStep s op

/-- A history. -/
def legacyRun (s : ArrState) (ops : List ArrOp) : ArrState :=
  ops.foldl (fun s op => (legacyStep s op).1) s

end Verif
