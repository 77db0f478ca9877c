import Verif.Props.Derived
/-! # C83: what additions in place report -/

namespace Verif

/-- The regions that arrays made by GSP mark when they are added to. -/
def FamExt (f : Family) (os : List (Option Nat)) : Prop :=
  ∀ (i : Nat) r, os[i]? = some (some i) → f.roots[i]? = some r →
    r.ext = (0, ((r.arr.shape.prod * r.arr.item : Nat) : Int))

theorem famExt_snoc {f : Family} {os : List (Option Nat)} (hl : os.length = f.roots.length)
    (h : FamExt f os) {o : Option Nat} {r : Root} {bufs : List TrackBuf}
    (hr : o = some f.roots.length → r.ext = (0, ((r.arr.shape.prod * r.arr.item : Nat) : Int))) :
    FamExt ⟨f.roots ++ [r], bufs⟩ (os ++ [o]) := by
  intro i q ho hq
  dsimp only at hq
  by_cases hi : i < f.roots.length
  · rw [List.getElem?_append_left (hl ▸ hi)] at ho
    rw [List.getElem?_append_left hi] at hq
    exact h i q ho hq
  · have hlt := (List.getElem?_eq_some_iff.1 hq).1
    have hi : i = f.roots.length := by
      simp only [List.length_append, List.length_singleton] at hlt
      omega
    subst hi
    rw [List.getElem?_concat_length] at hq
    rw [← hl, List.getElem?_concat_length, hl] at ho
    cases hq
    exact hr (Option.some.inj ho)

theorem famExt_set {f : Family} {os : List (Option Nat)} (h : FamExt f os) {i : Nat} {r r' : Root}
    {bufs : List TrackBuf} (hi : f.roots[i]? = some r) (he : r'.ext = r.ext)
    (hs : r'.arr.shape = r.arr.shape) (ht : r'.arr.item = r.arr.item) :
    FamExt ⟨f.roots.set i r', bufs⟩ os := by
  intro j q ho hq
  dsimp only at hq
  by_cases hij : i = j
  · subst hij
    rw [List.getElem?_set_self (List.getElem?_eq_some_iff.1 hi).1] at hq
    cases hq
    rw [he, hs, ht]
    exact h i r ho hi
  · rw [List.getElem?_set_ne hij] at hq
    exact h j q ho hq

theorem famExt_step {f : Family} {os : List (Option Nat)} (hi : FamInv f os) (h : FamExt f os) (op : FamOp) :
    FamExt (famStep f op).1 (originsStep os (famStep f op).2.isNone op) := by
  cases op with
  | make item shape mem => exact famExt_snoc hi.len h (fun _ => rfl)
  | derive i src item shape mem =>
    simp only [famStep]
    cases hr : f.roots[i]? with
    | none => exact h
    | some r =>
      dsimp only
      cases hl : r.arr.layout src with
      | none => exact h
      | some L =>
        simp only [originsStep, Option.isNone_none, if_true]
        refine famExt_snoc hi.len h (fun ho => ?_)
        cases hoi : os[i]? with
        | none => rw [hoi] at ho; cases ho
        | some o =>
          rw [hoi] at ho
          cases o with
          | none => cases ho
          | some m =>
            obtain ⟨_, _, _, _, _, _, _, hm⟩ := hi.made i m hoi
            have : m = f.roots.length := Option.some.inj ho
            omega
  | join item shape mem => exact famExt_snoc hi.len h (fun ho => by cases ho)
  | on i op =>
    simp only [famStep, originsStep]
    cases hr : f.roots[i]? with
    | none => exact h
    | some r =>
      dsimp only
      cases hb : r.buf.bind (fun b => f.bufs[b]?) with
      | none =>
        obtain ⟨_, h2, h3⟩ := rootStep_size r.ext { r.arr with tracker := false } op
        exact famExt_set h hr rfl h2 h3
      | some u =>
        obtain ⟨_, h2, h3⟩ := rootStep_size r.ext { r.arr with mirror := u.bytes } op
        exact famExt_set h hr rfl h2 h3

theorem famExt_run {f : Family} {os : List (Option Nat)} (hi : FamInv f os) (h : FamExt f os)
    (ops : List FamOp) : FamExt (famRun f ops) (origins f ops os) := by
  induction ops generalizing f os with
  | nil => exact h
  | cons op ops ih => exact ih (famInv_step hi op) (famExt_step hi h op)

/-- C83. `+=` on any array, made, computed or joined: it reports the region that the array has, besides
what was reported before. -/
theorem addition_marks {f : Family} {i : Nat} {r : Root} (hr : f.roots[i]? = some r) (new : List Nat) :
    ∃ q, (famStep f (.on i (.iadd .owner new))).1.roots[i]? = some q ∧ q.ext = r.ext ∧
      (∀ p : Nat, r.ext.1 ≤ p → (p : Int) < r.ext.2 → Reports q.arr.dirty p) ∧
      (r.arr.dirty = none → ∀ p : Nat, Reports q.arr.dirty p → r.ext.1 ≤ p ∧ (p : Int) < r.ext.2) := by
  have hroot : ∀ s : ArrState, (rootStep r.ext s (.iadd .owner new)).1.dirty = updDirty s.dirty r.ext :=
    fun s => rfl
  have hrep : ∀ d : Option (Int × Int), (∀ p : Nat, r.ext.1 ≤ p → (p : Int) < r.ext.2 →
      Reports (updDirty d r.ext) p) ∧
      (d = none → ∀ p : Nat, Reports (updDirty d r.ext) p → r.ext.1 ≤ p ∧ (p : Int) < r.ext.2) := by
    intro d
    constructor
    · intro p h1 h2
      cases d with
      | none => exact ⟨_, _, rfl, h1, h2⟩
      | some iv =>
        obtain ⟨a, b⟩ := iv
        exact ⟨_, _, rfl, by omega, by omega⟩
    · rintro rfl p ⟨a, b, hab, h1, h2⟩
      have he : r.ext = (a, b) := Option.some.inj hab
      rw [he]
      exact ⟨h1, h2⟩
  have hlt := (List.getElem?_eq_some_iff.1 hr).1
  simp only [famStep, hr]
  cases hb : r.buf.bind (fun b => f.bufs[b]?) with
  | none =>
    dsimp only
    refine ⟨_, List.getElem?_set_self hlt, rfl, ?_, ?_⟩
    · exact (hrep r.arr.dirty).1
    · exact (hrep r.arr.dirty).2
  | some u =>
    dsimp only
    refine ⟨_, List.getElem?_set_self hlt, rfl, ?_, ?_⟩
    · exact (hrep r.arr.dirty).1
    · exact (hrep r.arr.dirty).2

/-- The claim: whatever was computed from whatever, `+=` on an array reports each of its bytes. -/
def AdditionsReported : Prop :=
  ∀ (ops : List FamOp), (∀ op ∈ ops, op.Sized) → ∀ (i : Nat) (r q : Root) (new : List Nat),
    (famRun Family.empty ops).roots[i]? = some r →
    (famStep (famRun Family.empty ops) (.on i (.iadd .owner new))).1.roots[i]? = some q →
    ∀ p < r.arr.mem.length, Reports q.arr.dirty p

/-- C83 (part). It does for the arrays made by GSP, after any program with any number of other arrays.
Missing: arrays computed from others (`additions_reported_fails`). -/
theorem additions_reported_partial {ops : List FamOp} (hs : ∀ op ∈ ops, op.Sized) {i : Nat} {r : Root}
    (ho : (origins Family.empty ops [])[i]? = some (some i))
    (hr : (famRun Family.empty ops).roots[i]? = some r) (new : List Nat) :
    ∃ q, (famStep (famRun Family.empty ops) (.on i (.iadd .owner new))).1.roots[i]? = some q ∧
      ∀ p < r.arr.mem.length, Reports q.arr.dirty p := by
  have hext := famExt_run (f := Family.empty) (os := []) famInv_empty
    (fun i r h => by simp at h) ops i r ho hr
  have hsz := famSized_run (f := Family.empty) (fun r hr => by simp [Family.empty] at hr) hs r
    (List.mem_of_getElem? hr)
  obtain ⟨q, h1, _, h2, _⟩ := addition_marks hr new
  refine ⟨q, h1, fun p hp => h2 p ?_ ?_⟩
  · rw [hext]; exact Int.natCast_nonneg p
  · rw [hext, ← hsz]; exact Int.ofNat_lt.2 hp

/-- An array of three items and one computed from its last two: `+=` on the latter, after its region was
cleared, reports items 1 and 2 of an array that has items 0 and 1. -/
def shiftedDemo : List FamOp :=
  [.make 1 [3] [10, 20, 30], .on 0 (.view .owner [.range 1 2 1]), .derive 0 (.view 0) 1 [2] [40, 60],
    .on 1 .clear]

/-- C83 fails here: the region is that of the array or view it was computed from. -/
theorem additions_reported_fails : ¬ AdditionsReported := by
  intro h
  have hq : ∃ r q : Root, (famRun Family.empty shiftedDemo).roots[1]? = some r ∧ r.arr.mem.length = 2 ∧
      (famStep (famRun Family.empty shiftedDemo) (.on 1 (.iadd .owner [41, 61]))).1.roots[1]? = some q ∧
      q.arr.dirty = some (1, 3) ∧ q.arr.mem = [41, 61] := by
    refine ⟨_, _, rfl, rfl, rfl, ?_, ?_⟩ <;> decide +kernel
  obtain ⟨r, q, h1, h2, h3, h4, _⟩ := hq
  obtain ⟨a, b, hab, ha, _⟩ := h shiftedDemo (by decide +kernel) 1 r q [41, 61] h1 h3 0 (by omega)
  rw [h4] at hab
  cases hab
  simp at ha

/-- The made array of the same program meets the hypotheses of `additions_reported_partial`. -/
example : (origins Family.empty shiftedDemo [])[0]? = some (some 0) ∧ (∀ op ∈ shiftedDemo, op.Sized) ∧
    (famRun Family.empty shiftedDemo).roots.length = 2 := by decide +kernel

/-- C83: an array without a buffer (joined from others). Each assignment through it or its views raises:
the exception of the assignment if it has one, else AttributeError; the items are changed as those of an
array that is not tracked, and no buffer is. Additions in place do not raise. -/
theorem joined_write_raises {f : Family} {i : Nat} {r : Root} (hr : f.roots[i]? = some r)
    (hb : r.buf = none) (dst : ArrRef) (key : List AxKey) (new : List Nat) :
    (famStep f (.on i (.write dst key new))).2 =
      some ((arrStep { r.arr with tracker := false } (.write dst key new)).2.getD .attributeError) ∧
    ((famStep f (.on i (.write dst key new))).1.roots[i]?).map (·.arr.mem) =
      some (arrStep { r.arr with tracker := false } (.write dst key new)).1.mem ∧
    (famStep f (.on i (.write dst key new))).1.bufs = f.bufs ∧
    (famStep f (.on i (.iadd .owner new))).2 =
      (arrStep { r.arr with tracker := false } (.iadd .owner new)).2 := by
  have hlt := (List.getElem?_eq_some_iff.1 hr).1
  simp only [famStep, hr, hb, Option.bind_none, rootStep]
  refine ⟨?_, ?_, trivial, trivial⟩
  · cases (arrStep { r.arr with tracker := false } (.write dst key new)).2 <;> rfl
  · rw [List.getElem?_set_self hlt]
    rfl

/-- Two items joined from two arrays: the first is set, AttributeError is raised. -/
example : let f := famRun Family.empty [.make 1 [1] [5], .join 1 [2] [5, 5]]
    (famStep f (.on 1 (.write .owner [.at 0] [7]))).2 = some .attributeError ∧
    ((famStep f (.on 1 (.write .owner [.at 0] [7]))).1.roots[1]?).map (·.arr.mem) = some [7, 5] := by
  decide +kernel

end Verif
