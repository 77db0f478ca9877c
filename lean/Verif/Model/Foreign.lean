import Verif.Model.Tracked
/-
Tracked views of arrays that are not tracked: `as_vec2`, `as_vec3`, `as_vec4`
(gsp_matplotlib/glm/vec234.py:11-32, 199-219, 343-363), and `obj.view(glm.ndarray.tracked)`, which
turns an array given by the user into a buffer (gsp_matplotlib/__init__.py:37, 46, 61).

Such a view, `P`, has a base that is not tracked, so that it is itself the one that keeps the region
and the buffer for all views made of it (tracked.py:73-84, 149-152): numpy takes it for the base of
those, as the array behind it is of another class. Its items need not be consecutive: a field of an
array of structures has gaps between its vectors.

Simplifications as in Tracked.lean. The memory begins with the first byte of `P`. The items of the
last axis are consecutive, or numpy refuses the `view(np.ubyte)` of tracked.py:152.
-/

namespace Verif

/-- `P`, its memory, the region and the buffer of its tracker. -/
structure Foreign where
  item : Nat
  shape : List Nat
  strides : List Int
  mem : List Nat
  dirty : Option (Int × Int)
  mirror : List Nat
deriving DecidableEq

/-- The layout of `P`, seen from its first byte. -/
def Foreign.layout (s : Foreign) : Layout := ⟨0, s.shape, s.strides⟩

/-- `base.view(np.ubyte).ravel()` (tracked.py:152): the bytes of the items one after the other, copied
when there are gaps. -/
def Foreign.data (s : Foreign) : List Nat :=
  (s.layout.bytes s.item).map (fun p => s.mem[p.toNat]?.getD 0)

/-- Making `P`: its region is where the array lies in the array behind it, `lead` bytes after its
beginning (tracked.py:46-50); its buffer is filled (gsp_matplotlib/__init__.py:75). -/
def foreignInit (item : Nat) (shape : List Nat) (strides : List Int) (lead : Nat) (mem : List Nat) :
    Foreign where
  item := item
  shape := shape
  strides := strides
  mem := mem
  dirty := some (lead, lead + (spanGo shape strides + item))
  mirror := Foreign.data ⟨item, shape, strides, mem, none, []⟩

/-- `P[k1][k2]…`. -/
def subPath (L : Layout) : List (List AxKey) → Except Err Layout
  | [] => .ok L
  | k :: ks => match L.sub k with
    | .error e => .error e
    | .ok T => subPath T ks

/-- `P[k1]…[kn][key] = value` (tracked.py:123-159). Through a view the region sent is the `_dirty` of
the view: the extents of the array it was made of (tracked.py:46-50). A number has no items. -/
def foreignWrite (s : Foreign) (path : List (List AxKey)) (key : List AxKey) (new : List Nat) :
    Foreign × Option Err :=
  match subPath s.layout path with
  | .error e => (s, some e)
  | .ok V =>
    if V.shape = [] ∧ path ≠ [] then (s, some .typeError)
    else match V.sub key with
    | .error e => (s, some e)
    | .ok T =>
      let s1 := { s with dirty := updDirty s.dirty (markOf s.item V key T) }
      if new.length = (T.bytes s.item).length then
        let s2 := { s1 with mem := writeBytes s.mem (T.bytes s.item) new }
        let iv := match path with
          | [] => s2.dirty.getD (0, 0)
          | _ => match subPath s.layout path.dropLast with
            | .ok U => U.extents s.item
            | .error _ => (0, 0)
        ({ s2 with mirror := mirrorSet s2.mirror iv.1 (pySlice s2.data iv.1 iv.2),
                   dirty := none }, none)
      else (s1, some .valueError)

/-- A history of assignments; a refused one changes no item, and the program goes on. -/
def foreignRun (s : Foreign) (ops : List (List (List AxKey) × List AxKey × List Nat)) : Foreign :=
  ops.foldl (fun s op => (foreignWrite s op.1 op.2.1 op.2.2).1) s

end Verif
