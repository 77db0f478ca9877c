import Verif.Model.Visual
/-
Tracked arrays (gsp_matplotlib/glm/ndarray/tracked.py): an array that owns its memory, its views,
the region reported as dirty, and the buffer that follows it (`Tracker`,
gsp_matplotlib/__init__.py:70-78, and the one of tracked.py:16-22).

Simplifications: one array that owns its memory, in C order, and the views numpy makes of it by
indexing with integers and slices; all these views have the owner for base, as numpy shortens
chains of views of one class. A slice is given as numpy resolves it: its first index, the number of
indices and the step. The bytes an assignment stores are given, broadcasting and conversion having
been done. Arrays of structures, new axes and lists as keys are not modelled.
-/

namespace Verif

/-- The layout of a view: offset of its first item in the memory of the owner, shape and strides,
in bytes. -/
structure Layout where
  off : Int
  shape : List Nat
  strides : List Int
deriving DecidableEq

/-- One component of a key. -/
inductive AxKey where
  | at (i : Int)
  | range (start : Int) (count : Nat) (step : Int)
deriving DecidableEq

/-- C order strides. -/
def cStrides (item : Nat) : List Nat → List Int
  | [] => []
  | _ :: sh => ((sh.prod * item : Nat) : Int) :: cStrides item sh

/-- numpy indexing on the layout: integers in range remove an axis, slices keep it. An empty
slice starts at 0 with step 1. A slice numpy would not resolve to is refused. -/
def subGo (off : Int) : List AxKey → List Nat → List Int → Except Err Layout
  | [], sh, st => .ok ⟨off, sh, st⟩
  | .at i :: ks, n :: sh, s :: st =>
    if -n ≤ i ∧ i < n then subGo (off + i % n * s) ks sh st else .error .indexError
  | .range a c d :: ks, n :: sh, s :: st =>
    if c = 0 then
      match subGo off ks sh st with
      | .ok L => .ok ⟨L.off, 0 :: L.shape, s :: L.strides⟩
      | .error e => .error e
    else if 0 ≤ a ∧ a < n ∧ 0 ≤ a + (c - 1) * d ∧ a + (c - 1) * d < n then
      match subGo (off + a * s) ks sh st with
      | .ok L => .ok ⟨L.off, c :: L.shape, s * d :: L.strides⟩
      | .error e => .error e
    else .error .indexError
  | _ :: _, _, _ => .error .indexError

/-- `np.ndarray.__getitem__(self, key)`. -/
def Layout.sub (L : Layout) (key : List AxKey) : Except Err Layout :=
  subGo L.off key L.shape L.strides

/-- Offsets of the items, in C order. -/
def elemsGo (off : Int) : List Nat → List Int → List Int
  | n :: sh, s :: st => (List.range n).flatMap (fun i : Nat => elemsGo (off + i * s) sh st)
  | _, _ => [off]

/-- Offsets of the bytes of the items. -/
def Layout.bytes (item : Nat) (L : Layout) : List Int :=
  (elemsGo L.off L.shape L.strides).flatMap (fun o => (List.range item).map (fun b : Nat => o + b))

/-- Σ (n - 1)·s. -/
def spanGo : List Nat → List Int → Int
  | n :: sh, s :: st => ((n : Int) - 1) * s + spanGo sh st
  | _, _ => 0

/-- `_compute_extents` of a view (tracked.py:86-97, first branch). -/
def Layout.extents (item : Nat) (L : Layout) : Int × Int :=
  (L.off, L.off + (spanGo L.shape L.strides + item))

/-- `np.ravel_multi_index(np.mod(key, shape), shape)` (tracked.py:131-132). -/
def ravelGo : List AxKey → List Nat → Int
  | .at i :: ks, n :: sh => i % n * (sh.prod : Nat) + ravelGo ks sh
  | _, _ => 0

/-- A view: its layout, and its own `_dirty`, which `__array_finalize__` (tracked.py:42-53) sets
to the extents of the array it was made from, and nothing changes after. `_extents` is set to the
extents of the view by `__getitem__` (tracked.py:120). -/
structure ArrView where
  layout : Layout
  own : Int × Int
deriving DecidableEq

/-- The array, its views and its tracker: `mirror` holds the bytes of the buffer that follows. -/
structure ArrState where
  item : Nat
  shape : List Nat
  mem : List Nat
  dirty : Option (Int × Int)
  tracker : Bool
  mirror : List Nat
  views : List ArrView
deriving DecidableEq

/-- The layout of the owner. -/
def ArrState.owner (s : ArrState) : Layout := ⟨0, s.shape, cStrides s.item s.shape⟩

/-- A new array: all of it is dirty (tracked.py:46-50), and its buffer has been filled
(gsp_matplotlib/__init__.py:75). -/
def arrInit (item : Nat) (shape : List Nat) (tracker : Bool) (mem : List Nat) : ArrState where
  item := item
  shape := shape
  mem := mem
  dirty := some (0, ((shape.prod * item : Nat) : Int))
  tracker := tracker
  mirror := mem
  views := []

/-- The array an operation goes through: the owner, or a view. -/
inductive ArrRef where
  | owner
  | view (i : Nat)
deriving DecidableEq

/-- Its layout. -/
def ArrState.layout (s : ArrState) : ArrRef → Option Layout
  | .owner => some s.owner
  | .view i => (s.views[i]?).map (·.layout)

/-- `_compute_extents` (tracked.py:86-97): the extents of the owner are the whole. -/
def ArrState.extOf (s : ArrState) : ArrRef → Layout → Int × Int
  | .owner, _ => (0, ((s.shape.prod * s.item : Nat) : Int))
  | .view _, L => L.extents s.item

/-- The `_dirty` of a view. -/
def ArrState.ownOf (s : ArrState) (i : Nat) : Int × Int :=
  match s.views[i]? with
  | some v => v.own
  | none => (0, 0)

/-- Operations: `V = Z[key]`, `Z[key] = …`, `Z += …` (and `-=`, `*=`), `Z /= …` (and the other
operators in place), and `Z.clear()`. The bytes stored follow the order of the items. -/
inductive ArrOp where
  | view (src : ArrRef) (key : List AxKey)
  | write (dst : ArrRef) (key : List AxKey) (new : List Nat)
  | iadd (dst : ArrRef) (new : List Nat)
  | idiv (dst : ArrRef) (new : List Nat)
  | clear
deriving DecidableEq

/-- `_update` (tracked.py:73-84), on the owner. -/
def updDirty (d : Option (Int × Int)) (iv : Int × Int) : Option (Int × Int) :=
  match d with
  | none => some iv
  | some (a, b) => some (min a iv.1, max b iv.2)

/-- Stores bytes at their offsets. -/
def writeBytes (mem : List Nat) (ps : List Int) (new : List Nat) : List Nat :=
  (ps.zip new).foldl (fun m p => if 0 ≤ p.1 then m.set p.1.toNat p.2 else m) mem

/-- `V[offset:offset+len(bytes)] = bytes` (tracked.py:19-21). The offset is never negative. -/
def mirrorSet (mirror : List Nat) (off : Int) (bytes : List Nat) : List Nat :=
  mirror.take off.toNat ++ (bytes.take (mirror.length - off.toNat)) ++
    mirror.drop (off.toNat + bytes.length)

/-- The region `__setitem__` marks (tracked.py:125-142): for a single number, its place in the
array the assignment goes through. -/
def markOf (item : Nat) (L : Layout) (key : List AxKey) (T : Layout) : Int × Int :=
  if T.shape = [] then
    (ravelGo key L.shape * item, ravelGo key L.shape * item + item)
  else T.extents item

/-- One operation. -/
def arrStep (s : ArrState) : ArrOp → ArrState × Option Err
  | .view src key =>
    match s.layout src with
    | none => (s, some .nameError)
    | some L => match L.sub key with
      | .error e => (s, some e)
      | .ok T =>
        -- a single number is no view (tracked.py:118-119)
        if T.shape = [] then (s, none)
        else
          ({ s with views := s.views ++ [⟨T, s.extOf src L⟩] }, none)
  | .write dst key new =>
    match s.layout dst with
    | none => (s, some .nameError)
    | some L => match L.sub key with
      | .error e => (s, some e)
      | .ok T =>
        let s1 := { s with dirty := updDirty s.dirty (markOf s.item L key T) }
        if new.length = (T.bytes s.item).length then
          let s2 := { s1 with mem := writeBytes s.mem (T.bytes s.item) new }
          if s.tracker then
            let iv := match dst with
              | .owner => s2.dirty.getD (0, 0)
              | .view i => s.ownOf i
            ({ s2 with mirror := mirrorSet s2.mirror iv.1 (pySlice s2.mem iv.1 iv.2),
                       dirty := none }, none)
          else (s2, none)
        else (s1, some .valueError)
  | .iadd dst new =>
    match s.layout dst with
    | none => (s, some .nameError)
    | some L =>
      let s1 := { s with dirty := updDirty s.dirty (s.extOf dst L) }
      if new.length = (L.bytes s.item).length then
        ({ s1 with mem := writeBytes s.mem (L.bytes s.item) new }, none)
      else (s1, some .valueError)
  | .idiv dst new =>
    match s.layout dst with
    | none => (s, some .nameError)
    | some L =>
      if new.length = (L.bytes s.item).length then
        ({ s with mem := writeBytes s.mem (L.bytes s.item) new }, none)
      else (s, some .valueError)
  | .clear => ({ s with dirty := none }, none)

/-- A history; errors leave the array as it is and the program goes on. -/
def arrRun (s : ArrState) (ops : List ArrOp) : ArrState := ops.foldl (fun s op => (arrStep s op).1) s

end Verif
