import Mathlib.Tactic.Tauto
import Verif.Model.TrackedLegacy
import Verif.Props.Tracked
import Verif.Props.TrackedExact
/-
C104: the mirror of the older tracked arrays.
-/

namespace Verif

/-- No assignment through a view. -/
def NotByView : ArrOp → Prop
  | .write (.view _) _ _ => False
  | _ => True

instance : ∀ op, Decidable (NotByView op)
  | .write (.view _) _ _ => isFalse id
  | .write .owner _ _ | .view _ _ | .iadd _ _ | .idiv _ _ | .clear => isTrue trivial

theorem legacyRun_eq {s : ArrState} {ops : List ArrOp} (h : ∀ op ∈ ops, NotByView op) :
    legacyRun s ops = arrRun s ops := by
  induction ops generalizing s with
  | nil => rfl
  | cons op ops ih =>
    have e : legacyStep s op = arrStep s op := by
      have := h op (by simp)
      unfold legacyStep
      split
      · exact this.elim
      · rfl
    show legacyRun (legacyStep s op).1 ops = arrRun (arrStep s op).1 ops
    rw [e, ih (fun o ho => h o (by simp [ho]))]

/-- **C104.** As long as assignments are made to the array itself, and tell what they modify, the tracker
holds the bytes of the array. Missing: assignments through views, see `legacy_view_told` and
`legacy_mirror_fails`. -/
theorem legacy_mirror_partial {item : Nat} {shape mem : List Nat} {ops : List ArrOp}
    (hm : mem.length = shape.prod * item) (ho : ∀ op ∈ ops, NotByView op)
    (h : Along Tells (arrInit item shape true mem) ops) :
    (legacyRun (arrInit item shape true mem) ops).mirror =
      (legacyRun (arrInit item shape true mem) ops).mem := by
  rw [legacyRun_eq ho]
  exact mirror_follows_partial hm h

/-- Rows, slices and single numbers. -/
example : let ops : List ArrOp := [.view .owner [.range 0 2 2], .write .owner [.at 1] [7, 8],
      .write .owner [.at (-1), .at 0] [9], .write .owner [.range 0 2 2, .at 1] [5, 6]];
    (∀ op ∈ ops, NotByView op) ∧ Along Tells (arrInit 1 [3, 2] true [0, 0, 0, 0, 0, 0]) ops ∧
      (legacyRun (arrInit 1 [3, 2] true [0, 0, 0, 0, 0, 0]) ops).mirror = [0, 5, 7, 8, 9, 6] := by
  decide +kernel

theorem mirrorSet_zero {mirror bytes : List Nat} (h : bytes.length ≤ mirror.length) :
    mirrorSet mirror 0 bytes = bytes ++ mirror.drop bytes.length := by
  simp [mirrorSet, List.take_of_length_le h]

/-- **C104.** What an assignment through a view tells, whatever the view and the history: the tracker gets
the bytes of the whole view at its beginning, wherever the view is, and keeps the others; and the array then
says that there is nothing to tell. -/
theorem legacy_view_told {s : ArrState} {i : Nat} {key : List AxKey} {new : List Nat} {L : Layout}
    (hL : s.layout (.view i) = some L) (ht : s.tracker = true)
    (hn : (L.bytes s.item).length ≤ s.mirror.length)
    (h : (legacyStep s (.write (.view i) key new)).2 = none) :
    let s' := (legacyStep s (.write (.view i) key new)).1
    s'.mirror = readBytes s'.mem (L.bytes s.item) ++ s.mirror.drop (L.bytes s.item).length ∧
      s'.dirty = none := by
  simp only [legacyStep, hL] at h ⊢
  cases hT : L.sub key with
  | error e => simp [hT] at h
  | ok T =>
    simp only [hT] at h ⊢
    split at h
    · rename_i hl
      simp only [ht, if_true] at h ⊢
      split at h
      · rename_i hb
        simp only [hl, hb, if_true]
        refine ⟨?_, trivial⟩
        rw [mirrorSet_zero (by simpa [readBytes] using hn)]
        simp [readBytes]
      · simp at h
    · simp at h

/-- **C104.** So after an assignment through a view that returns, the tracker holds the bytes of the array
just when the array begins with the bytes of the view and the rest of it was told before. -/
theorem legacy_view_told_iff {s : ArrState} {i : Nat} {key : List AxKey} {new : List Nat} {L : Layout}
    (hL : s.layout (.view i) = some L) (ht : s.tracker = true)
    (hn : (L.bytes s.item).length ≤ s.mirror.length)
    (h : (legacyStep s (.write (.view i) key new)).2 = none) :
    let s' := (legacyStep s (.write (.view i) key new)).1
    s'.mirror = s'.mem ↔
      s'.mem.take (L.bytes s.item).length = readBytes s'.mem (L.bytes s.item) ∧
        s'.mem.drop (L.bytes s.item).length = s.mirror.drop (L.bytes s.item).length := by
  intro s'
  have e := (legacy_view_told hL ht hn h).1
  have hl : (readBytes s'.mem (L.bytes s.item)).length = (L.bytes s.item).length := by simp [readBytes]
  change s'.mirror = _ at e
  rw [e]
  constructor
  · intro he
    constructor
    · conv_lhs => rw [← he]
      rw [← hl, List.take_left]
    · conv_lhs => rw [← he]
      rw [← hl, List.drop_left]
  · rintro ⟨h1, h2⟩
    rw [← h1, ← h2, List.take_append_drop]

/-- A view of the last two items: what is told of it goes to the first two. -/
example : let s := legacyRun (arrInit 1 [4] true [1, 2, 3, 4]) [.view .owner [.range 2 2 1]];
    (∃ L, s.layout (.view 0) = some L ∧ (L.bytes s.item).length ≤ s.mirror.length) ∧ s.tracker = true ∧
      (legacyStep s (.write (.view 0) [.at 0] [9])).2 = none := by
  refine ⟨⟨⟨2, [2], [1]⟩, by decide +kernel, by decide +kernel⟩, by decide +kernel, by decide +kernel⟩

/-- **C104.** Of the assignments through a view that numpy makes, those raise `ValueError` (after the array is
modified) whose view has items of several bytes and several of them in the last axis, which are not next to each
other; the tracker is then told nothing. -/
theorem legacy_view_raises {s : ArrState} {i : Nat} {key : List AxKey} {new : List Nat} {L T : Layout}
    (hL : s.layout (.view i) = some L) (ht : s.tracker = true) (hT : L.sub key = .ok T)
    (hn : new.length = (T.bytes s.item).length) :
    let s' := (legacyStep s (.write (.view i) key new)).1
    let e := (legacyStep s (.write (.view i) key new)).2
    s'.mem = writeBytes s.mem (T.bytes s.item) new ∧
    (e = some .valueError ↔ s.item ≠ 1 ∧ L.shape.prod ≠ 0 ∧
      L.shape.getLast? ≠ some 1 ∧ L.strides.getLast? ≠ some (s.item : Int)) ∧
    (e ≠ some .valueError → e = none) ∧ (e = some .valueError → s'.mirror = s.mirror) := by
  have hb : L.byteView s.item = true ↔ ¬ (s.item ≠ 1 ∧ L.shape.prod ≠ 0 ∧
      L.shape.getLast? ≠ some 1 ∧ L.strides.getLast? ≠ some (s.item : Int)) := by
    simp only [Layout.byteView, Bool.or_eq_true, decide_eq_true_eq]
    tauto
  simp only [legacyStep, hL, hT, if_pos hn, if_pos ht]
  by_cases h : L.byteView s.item = true
  · have := hb.1 h
    simp only [if_pos h]
    simp [-not_and, this]
  · have : ¬ ¬ _ := fun c => h (hb.2 c)
    rw [not_not] at this
    simp [if_neg h, this]

/-- `V = Z[::2]` of an array of three rows and four columns of numbers of two bytes can be assigned, and
`V = Z[:, ::2]` raises. -/
example :
    (let s := legacyRun (arrInit 2 [3, 4] true (List.replicate 24 1)) [.view .owner [.range 0 2 2, .range 0 4 1]];
      (legacyStep s (.write (.view 0) [.at 0, .at 0] [9, 9])).2 = none) ∧
    (let s := legacyRun (arrInit 2 [3, 4] true (List.replicate 24 1)) [.view .owner [.range 0 3 1, .range 0 2 2]];
      (legacyStep s (.write (.view 0) [.at 0, .at 0] [9, 9])).2 = some .valueError) := by
  decide +kernel

/-- The claim fails: `V = Z[2:]; V[0] = 9` puts the last two items in the place of the first two, in the
tracker; and with items of two bytes, a view of every second item raises after it has been assigned. -/
theorem legacy_mirror_fails :
    (let ops : List ArrOp := [.view .owner [.range 2 2 1], .write (.view 0) [.at 0] [9]];
      (legacyRun (arrInit 1 [4] true [1, 2, 3, 4]) ops).mem = [1, 2, 9, 4] ∧
      (legacyRun (arrInit 1 [4] true [1, 2, 3, 4]) ops).mirror = [9, 4, 3, 4] ∧
      (legacyRun (arrInit 1 [4] true [1, 2, 3, 4]) ops).dirty = none) ∧
    (let s := legacyRun (arrInit 2 [4] true [1, 1, 2, 2, 3, 3, 4, 4]) [.view .owner [.range 0 2 2]];
      (legacyStep s (.write (.view 0) [.at 0] [9, 9])).2 = some .valueError ∧
      (legacyStep s (.write (.view 0) [.at 0] [9, 9])).1.mem = [9, 9, 2, 2, 3, 3, 4, 4] ∧
      (legacyStep s (.write (.view 0) [.at 0] [9, 9])).1.mirror = [1, 1, 2, 2, 3, 3, 4, 4]) := by
  decide +kernel

end Verif
