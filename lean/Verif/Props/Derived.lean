import Verif.Lemmas.Derived
import Verif.Props.Tracked
/-! # C82, C83 and C84: arrays computed from tracked arrays, index arrays and masks -/

namespace Verif

/-! ### C82 -/


/-- C82, exactly. In any program, a visual that was given an array, or one of its views, is saved with
all the bytes that the array made by GSP it comes from has when the file is written; it cannot be saved
if the array was joined from others. -/
theorem saved_is_origin (ops : List FamOp) (i : Nat) :
    match (origins Family.empty ops [])[i]? with
    | none => savedBytes (famRun Family.empty ops) i = .error .nameError
    | some none => savedBytes (famRun Family.empty ops) i = .error .attributeError
    | some (some m) => ∃ q, (famRun Family.empty ops).roots[m]? = some q ∧
        savedBytes (famRun Family.empty ops) i = .ok q.arr.mem := by
  have h := famInv_run famInv_empty ops
  generalize famRun Family.empty ops = f at h ⊢
  generalize origins Family.empty ops [] = os at h ⊢
  unfold savedBytes
  cases ho : os[i]? with
  | none =>
    have : f.roots[i]? = none := by
      rw [List.getElem?_eq_none_iff] at ho ⊢
      rw [← h.len]; exact ho
    simp [this]
  | some o =>
    cases o with
    | none =>
      obtain ⟨r, h1, h2⟩ := h.none i ho
      simp [h1, h2]
    | some m =>
      obtain ⟨r, b, u, h1, h2, h3, h4, h5⟩ := h.made i m ho
      subst h4
      refine ⟨_, List.getElem?_eq_getElem h5, ?_⟩
      simp [h1, h2, h3, List.getElem?_eq_getElem h5]

/-- The full claim of C82: visuals are saved with the contents of the arrays they were given. -/
def SavesContents : Prop :=
  ∀ (ops : List FamOp) (i : Nat) (ref : ArrRef) (c : List Nat),
    (famRun Family.empty ops).contents i ref = some c → savedBytes (famRun Family.empty ops) i = .ok c

/-- Visuals given an array made by GSP are saved with its contents as they are when the file is
written. Missing: views, and arrays computed from others, see `saved_contents_fails`. -/
theorem saved_contents_partial {ops : List FamOp} (hs : ∀ op ∈ ops, op.Sized) {i : Nat}
    (ho : (origins Family.empty ops [])[i]? = some (some i)) :
    ∃ c, (famRun Family.empty ops).contents i .owner = some c ∧
      savedBytes (famRun Family.empty ops) i = .ok c := by
  have h := saved_is_origin ops i
  rw [ho] at h
  obtain ⟨q, h1, h2⟩ := h
  exact ⟨_, contents_owner (famSized_run (fun r hr => by simp [Family.empty] at hr) hs) h1, h2⟩

/-- Exactly: a visual given an array or a view is saved with its contents when they are the same as
those of the array made by GSP it comes from, and only then. -/
theorem saved_contents_exact {ops : List FamOp} (hs : ∀ op ∈ ops, op.Sized) {i : Nat} {ref : ArrRef}
    {c : List Nat} (hc : (famRun Family.empty ops).contents i ref = some c) :
    savedBytes (famRun Family.empty ops) i = .ok c ↔
      ∃ m, (origins Family.empty ops [])[i]? = some (some m) ∧
        (famRun Family.empty ops).contents m .owner = some c := by
  have hf := famSized_run (f := Family.empty) (fun r hr => by simp [Family.empty] at hr) hs
  have h := saved_is_origin ops i
  cases ho : (origins Family.empty ops [])[i]? with
  | none => rw [ho] at h; simp [h]
  | some o =>
    cases o with
    | none => rw [ho] at h; simp [h]
    | some m =>
      rw [ho] at h
      obtain ⟨q, h1, h2⟩ := h
      rw [h2]
      constructor
      · intro h3
        exact ⟨m, rfl, by rw [contents_owner hf h1]; cases h3; rfl⟩
      · rintro ⟨m', h3, h4⟩
        cases h3
        rw [contents_owner hf h1] at h4
        cases h4
        rfl

/-- A program: an array of three numbers of one byte, a view of it, a copy, an array joined, and
assignments through all of them. -/
def familyDemo : List FamOp :=
  [.make 1 [3] [10, 20, 30], .on 0 (.view .owner [.range 1 2 1]), .derive 0 .owner 1 [3] [10, 20, 30],
    .derive 0 (.view 0) 1 [2] [21, 31], .join 1 [1] [5], .on 0 (.write .owner [.at 0] [11])]

example : (∀ op ∈ familyDemo, op.Sized) ∧
    (origins Family.empty familyDemo [])[0]? = some (some 0) ∧
    (famRun Family.empty familyDemo).contents 0 .owner = some [11, 20, 30] ∧
    savedBytes (famRun Family.empty familyDemo) 0 = .ok [11, 20, 30] := by
  decide +kernel

/-- C82 fails: a view is saved with the whole array, a copy with the array it was copied from, the
result of an operator with its operand, and an array joined from others cannot be saved. -/
theorem saved_contents_fails : ¬ SavesContents ∧
    ((famRun Family.empty familyDemo).contents 0 (.view 0) = some [20, 30] ∧
      savedBytes (famRun Family.empty familyDemo) 0 = .ok [11, 20, 30]) ∧
    ((famRun Family.empty familyDemo).contents 1 .owner = some [10, 20, 30] ∧
      savedBytes (famRun Family.empty familyDemo) 1 = .ok [11, 20, 30]) ∧
    ((famRun Family.empty familyDemo).contents 2 .owner = some [21, 31] ∧
      savedBytes (famRun Family.empty familyDemo) 2 = .ok [11, 20, 30]) ∧
    ((famRun Family.empty familyDemo).contents 3 .owner = some [5] ∧
      savedBytes (famRun Family.empty familyDemo) 3 = .error .attributeError) := by
  refine ⟨fun h => ?_, by decide +kernel, by decide +kernel, by decide +kernel, by decide +kernel⟩
  have := h familyDemo 2 .owner [21, 31] (by decide +kernel)
  revert this
  decide +kernel

/-! ### C83 -/

/-- The full claim of C83: the buffer of an array made by GSP holds the bytes of the array,
whatever is done with arrays computed from it. -/
def BuffersFollow : Prop :=
  ∀ (ops : List FamOp) (b : Nat) (u : TrackBuf), (∀ op ∈ ops, op.Sized) →
    (famRun Family.empty ops).bufs[b]? = some u →
    (famRun Family.empty ops).contents u.array .owner = some u.bytes

/-- Buffers belong to arrays made by GSP and hold their bytes. -/
def FamFollows (f : Family) (os : List (Option Nat)) : Prop :=
  ∀ (b : Nat) (u : TrackBuf), f.bufs[b]? = some u → os[u.array]? = some (some u.array) ∧
    ∃ q, f.roots[u.array]? = some q ∧ q.buf = some b ∧ Follows { q.arr with mirror := u.bytes }

theorem tells_mirror {s : ArrState} {m : List Nat} {op : ArrOp} (h : Tells s op) :
    Tells { s with mirror := m } op := by
  unfold Tells at h ⊢
  exact h

theorem rootStep_quiet {ext : Int × Int} {s : ArrState} {op : ArrOp}
    (h : ∀ d k n, op ≠ .write d k n) : (rootStep ext s op).1.mirror = s.mirror := by
  cases op with
  | write d k n => exact (h d k n rfl).elim
  | view src key =>
    simp only [rootStep, arrStep]
    repeat' (first | split | rfl)
  | iadd dst new =>
    cases dst <;> simp only [rootStep, arrStep] <;> repeat' (first | split | rfl)
  | idiv dst new =>
    simp only [rootStep, arrStep]
    repeat' (first | split | rfl)
  | clear => rfl

theorem rootStep_tells {ext : Int × Int} {s : ArrState} {op : ArrOp} (h : Tells s op) :
    rootStep ext s op = arrStep s op := by
  cases op with
  | iadd dst new => exact h.elim
  | _ => rfl

theorem famFollows_step {f : Family} {os : List (Option Nat)} (hi : FamInv f os) (h : FamFollows f os)
    {op : FamOp} (hp : Plainly f os op) :
    FamFollows (famStep f op).1 (originsStep os (famStep f op).2.isNone op) := by
  have grow : ∀ {o : Option Nat} {r : Root}, FamFollows ⟨f.roots ++ [r], f.bufs⟩ (os ++ [o]) := by
    intro o r b u hb
    obtain ⟨h1, q, h2, h3, h4⟩ := h b u hb
    refine ⟨?_, q, ?_, h3, h4⟩
    · rw [List.getElem?_append_left (List.getElem?_eq_some_iff.1 h1).1]; exact h1
    · rw [List.getElem?_append_left (List.getElem?_eq_some_iff.1 h2).1]; exact h2
  cases op with
  | make item shape mem =>
    intro b u hb
    simp only [famStep, originsStep] at hb ⊢
    by_cases hlt : b < f.bufs.length
    · rw [List.getElem?_append_left hlt] at hb
      exact grow b u hb
    · rw [List.getElem?_append_right (by omega)] at hb
      cases h0 : b - f.bufs.length with
      | succ n => rw [h0] at hb; simp at hb
      | zero =>
        rw [h0] at hb
        simp only [List.getElem?_cons_zero, Option.some.injEq] at hb
        subst hb
        have hbe : b = f.bufs.length := by omega
        subst hbe
        refine ⟨by simp [← hi.len], ⟨arrInit item shape true mem, (0, ((shape.prod * item : Nat) : Int)),
          some f.bufs.length⟩, by simp, rfl, rfl, hp, rfl, ?_, ?_⟩
        · intro a b he
          simp only [arrInit, Option.some.injEq, Prod.mk.injEq] at he
          omega
        · intro v hv
          simp [arrInit] at hv
  | derive i src item shape mem =>
    simp only [famStep]
    cases hr : f.roots[i]? with
    | none => exact h
    | some r =>
      dsimp only
      cases hl : r.arr.layout src with
      | none => exact h
      | some L => exact grow
  | join item shape mem => exact grow
  | on i op =>
    simp only [famStep, originsStep]
    cases hr : f.roots[i]? with
    | none => exact h
    | some r =>
      dsimp only
      cases hb0 : r.buf.bind (fun b => f.bufs[b]?) with
      | none =>
        intro b u hb
        obtain ⟨h1, q, h2, h3, h4⟩ := h b u hb
        refine ⟨h1, q, ?_, h3, h4⟩
        dsimp only
        rw [List.getElem?_set_ne]
        · exact h2
        · intro he
          rw [← he, hr] at h2
          cases h2
          rw [h3] at hb0
          change f.bufs[b]? = none at hb0
          rw [hb] at hb0
          cases hb0
      | some u0 =>
        obtain ⟨b0, hrb, hu0⟩ := Option.bind_eq_some_iff.1 hb0
        obtain ⟨g1, q0, g2, g3, g4⟩ := h b0 u0 hu0
        have uniq : ∀ (b : Nat) (u : TrackBuf), f.bufs[b]? = some u → u.array = i → b = b0 ∧ u = u0 := by
          intro b u hb he
          obtain ⟨h1, q, h2, h3, h4⟩ := h b u hb
          rw [he, hr] at h2
          cases h2
          rw [hrb] at h3
          cases h3
          rw [hu0] at hb
          cases hb
          exact ⟨rfl, rfl⟩
        dsimp only
        rw [hrb]
        by_cases he : u0.array = i
        · subst he
          rw [hr] at g2
          cases g2
          have ht : Tells { r.arr with mirror := u0.bytes } op := by
            simp only [Plainly, g1, if_true] at hp
            exact tells_mirror (hp r hr)
          have hst := rootStep_tells (ext := r.ext) ht
          dsimp only at hst
          rw [hst]
          intro b u hb
          simp only [Option.getD_some] at hb
          by_cases hbb : b0 = b
          · subst hbb
            rw [List.getElem?_modify_eq, hu0] at hb
            simp only [Option.map_eq_map, Option.map_some, Option.some.injEq] at hb
            subst hb
            refine ⟨g1, _, List.getElem?_set_self (List.getElem?_eq_some_iff.1 hr).1, rfl, ?_⟩
            exact follows_step g4 ht
          · simp only [List.getElem?_modify, if_neg hbb, id_map'] at hb
            obtain ⟨h1, q, h2, h3, h4⟩ := h b u hb
            refine ⟨h1, q, ?_, h3, h4⟩
            dsimp only
            rw [List.getElem?_set_ne]
            · exact h2
            · intro he
              exact hbb (uniq b u hb he.symm).1.symm
        · have hos : os[i]? ≠ some (some i) := by
            intro ho
            obtain ⟨r', b', u', h1, h2, h3, h4, h5⟩ := hi.made i i ho
            exact he ((uniq b' u' h3 h4).2 ▸ h4)
          have hq : ∀ d k n, op ≠ .write d k n := by
            intro d k n ho
            subst ho
            simp only [Plainly, if_neg hos] at hp
          intro b u hb
          have hm := rootStep_quiet (ext := r.ext) (s := { r.arr with mirror := u0.bytes }) hq
          dsimp only at hm
          simp only [Option.getD_some, hm] at hb
          have hb' : f.bufs[b]? = some u := by
            by_cases hbb : b0 = b
            · subst hbb
              rw [List.getElem?_modify_eq, hu0] at hb
              simp only [Option.map_eq_map, Option.map_some, Option.some.injEq] at hb
              rw [hu0, ← hb]
            · simpa only [List.getElem?_modify, if_neg hbb, id_map'] using hb
          obtain ⟨h1, q, h2, h3, h4⟩ := h b u hb'
          refine ⟨h1, q, ?_, h3, h4⟩
          dsimp only
          rw [List.getElem?_set_ne]
          · exact h2
          · intro he'
            exact he ((uniq b u hb' he'.symm).2 ▸ he'.symm)

theorem famFollows_run {f : Family} {os : List (Option Nat)} (hi : FamInv f os) (h : FamFollows f os)
    {ops : List FamOp} (hp : AlongPlainly f os ops) : FamFollows (famRun f ops) (origins f ops os) := by
  induction ops generalizing f os with
  | nil => exact h
  | cons op ops ih => exact ih (famInv_step hi op) (famFollows_step hi h hp.1) hp.2

/-- Buffers hold the bytes of their arrays as long as assignments go through the arrays made by GSP
and their views: copies, results and arrays joined may be made, read and changed by operators in
place. Missing: assignments to items of copies and results, see `buffers_follow_fails`. -/
theorem buffers_follow_partial {ops : List FamOp} (hs : ∀ op ∈ ops, op.Sized)
    (hp : AlongPlainly Family.empty [] ops) {b : Nat} {u : TrackBuf}
    (hb : (famRun Family.empty ops).bufs[b]? = some u) :
    (famRun Family.empty ops).contents u.array .owner = some u.bytes := by
  obtain ⟨_, q, h2, _, h4⟩ := famFollows_run famInv_empty (fun b u h => by simp [Family.empty] at h) hp b u hb
  rw [contents_owner (famSized_run (fun r hr => by simp [Family.empty] at hr) hs) h2]
  exact congrArg some h4.2.2.1.symm

/-- A program that goes by the rules: a view assigned, a copy changed by `+=`, the array assigned. -/
def plainDemo : List FamOp :=
  [.make 1 [3] [10, 20, 30], .on 0 (.view .owner [.range 1 2 1]), .on 0 (.write (.view 0) [.at 0] [21]),
    .derive 0 .owner 1 [3] [10, 21, 30], .on 1 (.iadd .owner [1, 2, 3]), .on 0 (.write .owner [.at 0] [11])]

theorem plainDemo_plain : AlongPlainly Family.empty [] plainDemo := by
  refine ⟨rfl, ?_, ?_, trivial, ?_, ?_, trivial⟩
  · unfold Plainly
    dsimp only
    rw [if_pos (by decide +kernel)]
    intro r _
    trivial
  · rw [Plainly, if_pos (by decide +kernel)]
    intro r _
    trivial
  · unfold Plainly
    dsimp only
    rw [if_neg (by decide +kernel)]
    trivial
  · rw [Plainly, if_pos (by decide +kernel)]
    intro r _
    show Forward [.at 0]
    decide

example : (∀ op ∈ plainDemo, op.Sized) ∧ AlongPlainly Family.empty [] plainDemo ∧
    (famRun Family.empty plainDemo).bufs = [⟨0, [11, 21, 30]⟩] ∧
    (famRun Family.empty plainDemo).contents 0 .owner = some [11, 21, 30] ∧
    (famRun Family.empty plainDemo).contents 1 .owner = some [1, 2, 3] :=
  ⟨by decide +kernel, plainDemo_plain, by decide +kernel, by decide +kernel, by decide +kernel⟩

/-- What happens otherwise: the first assignment to items of a copy tells the buffer of the original
all the bytes of the copy. -/
theorem copy_overwrites {f : Family} {i b : Nat} {r : Root} {u : TrackBuf} {mem new : List Nat}
    {key : List AxKey} (hr : f.roots[i]? = some r) (hb : r.buf = some b) (hu : f.bufs[b]? = some u)
    (hl : u.bytes.length = mem.length) (hm : mem.length = r.arr.shape.prod * r.arr.item)
    (hok : (famStep (famStep f (.derive i .owner r.arr.item r.arr.shape mem)).1
      (.on f.roots.length (.write .owner key new))).2 = none) :
    ∃ q, (famStep (famStep f (.derive i .owner r.arr.item r.arr.shape mem)).1
        (.on f.roots.length (.write .owner key new))).1.roots[f.roots.length]? = some q ∧
      (famStep (famStep f (.derive i .owner r.arr.item r.arr.shape mem)).1
        (.on f.roots.length (.write .owner key new))).1.bufs[b]? = some ⟨u.array, q.arr.mem⟩ ∧
      ∀ j < f.roots.length, (famStep (famStep f (.derive i .owner r.arr.item r.arr.shape mem)).1
        (.on f.roots.length (.write .owner key new))).1.roots[j]? = f.roots[j]? := by
  obtain ⟨c, hc⟩ : ∃ c : Root, c = ⟨{ arrInit r.arr.item r.arr.shape true mem with
    dirty := some (0, ((r.arr.shape.prod * r.arr.item : Nat) : Int)) },
    (0, ((r.arr.shape.prod * r.arr.item : Nat) : Int)), r.buf⟩ := ⟨_, rfl⟩
  have h1 : (famStep f (.derive i .owner r.arr.item r.arr.shape mem)).1 = ⟨f.roots ++ [c], f.bufs⟩ := by
    rw [hc]
    simp only [famStep, hr, ArrState.layout, ArrState.extOf]
  rw [h1] at hok ⊢
  have h2 : (f.roots ++ [c])[f.roots.length]? = some c := by simp
  have h3 : c.buf.bind (fun b => f.bufs[b]?) = some u := by rw [hc]; simp [hb, hu]
  have hcb : c.buf = some b := by rw [hc]; exact hb
  simp only [famStep, h2, h3, rootStep] at hok ⊢
  refine ⟨_, List.getElem?_set_self (by simp), ?_, ?_⟩
  · simp only [hcb, Option.getD_some, List.getElem?_modify, if_true, hu, Option.map_eq_map, Option.map_some,
      Option.some.injEq, TrackBuf.mk.injEq, true_and]
    have hcl : c.arr.owner.sub key = c.arr.owner.sub key := rfl
    simp only [arrStep, ArrState.layout] at hok ⊢
    have ho : ArrState.owner { c.arr with mirror := u.bytes } = c.arr.owner := rfl
    simp only [ho] at hok ⊢
    cases hs : c.arr.owner.sub key with
    | error e => rw [hs] at hok; simp at hok
    | ok T =>
      simp only [hs] at hok ⊢
      split at hok
      · rename_i hnl
        have htr : c.arr.tracker = true := by rw [hc]; rfl
        rw [if_pos hnl]
        simp only [htr, if_true]
        have hd : c.arr.dirty = some (0, ((r.arr.shape.prod * r.arr.item : Nat) : Int)) := by rw [hc]
        have hmark := mark_low (item := c.arr.item) hs (owner_low c.arr)
        have hmem : c.arr.mem = mem := by rw [hc]; rfl
        simp only [hd, updDirty, Option.getD_some]
        refine mirrorSet_eq (by rw [writeBytes_length, hmem, hl]) (by omega) ?_
        intro p hp _
        rw [writeBytes_length, hmem, hm] at hp
        constructor <;> omega
      · simp at hok
  · intro j hj
    rw [List.getElem?_set_ne (by omega), List.getElem?_append_left hj]

example : (famStep (famStep (famRun Family.empty [.make 1 [3] [10, 20, 30]])
      (.derive 0 .owner 1 [3] [10, 20, 30])).1 (.on 1 (.write .owner [.at 2] [99]))).2 = none ∧
    (famStep (famStep (famRun Family.empty [.make 1 [3] [10, 20, 30]])
      (.derive 0 .owner 1 [3] [10, 20, 30])).1 (.on 1 (.write .owner [.at 2] [99]))).1.bufs =
      [⟨0, [10, 20, 99]⟩] := by
  decide +kernel

/-- C83 fails: after an assignment to an item of a copy, the buffer of the array holds the number
assigned. -/
theorem buffers_follow_fails : ¬ BuffersFollow := by
  intro h
  have := h [.make 1 [3] [10, 20, 30], .derive 0 .owner 1 [3] [10, 20, 30],
    .on 1 (.write .owner [.at 2] [99])] 0 ⟨0, [10, 20, 99]⟩ (by decide +kernel) (by decide +kernel)
  revert this
  decide +kernel

/-! ### C84 -/

theorem noRow_iff {s : ArrState} {r : Int} :
    s.noRow r = true ↔ ∀ k, ¬ NamesRow (s.shape.headD 0) r k := by
  unfold ArrState.noRow NamesRow
  simp only [Bool.or_eq_true, decide_eq_true_eq]
  constructor
  · intro h k hk; omega
  · intro h
    by_contra hc
    by_cases h0 : r < 0
    · exact h (r + s.shape.headD 0).toNat (by omega)
    · exact h r.toNat (by omega)

/-- The rows picked are the rows named. -/
theorem mem_rowsOf {s : ArrState} {rows : List Int} (h : ∀ r ∈ rows, s.noRow r = false) {k : Nat} :
    k ∈ s.rowsOf rows ↔ ∃ r ∈ rows, NamesRow (s.shape.headD 0) r k := by
  simp only [ArrState.rowsOf, List.mem_map]
  constructor
  · rintro ⟨r, hr, rfl⟩
    have := h r hr
    simp only [ArrState.noRow, Bool.or_eq_false_iff, decide_eq_false_iff_not] at this
    refine ⟨r, hr, ?_⟩
    unfold NamesRow
    split <;> omega
  · rintro ⟨r, hr, hk⟩
    refine ⟨r, hr, ?_⟩
    unfold NamesRow at hk
    split <;> omega

/-- Lists of indices, several arrays at once and masks of two axes are refused and change nothing. -/
theorem pick_refused (s : ArrState) (rows : List Int) (new : List Nat) :
    (pickWrite s .grid new).1 = s ∧ (pickWrite s .grid new).2 = some .notImplemented ∧
    (pickWrite s (.list rows) new).1 = s ∧
    ((pickWrite s (.list rows) new).2 = some .indexError ↔
      ∃ r ∈ rows, ∀ k, ¬ NamesRow (s.shape.headD 0) r k) ∧
    ((pickWrite s (.list rows) new).2 = some .notImplemented ↔
      ∀ r ∈ rows, ∃ k, NamesRow (s.shape.headD 0) r k) := by
  have hiff : rows.any s.noRow = true ↔ ∃ r ∈ rows, ∀ k, ¬ NamesRow (s.shape.headD 0) r k := by
    simp [noRow_iff]
  refine ⟨rfl, rfl, ?_, ?_, ?_⟩
  · unfold pickWrite
    dsimp only
    split <;> rfl
  · rw [← hiff]
    unfold pickWrite
    dsimp only
    split <;> simp_all
  · have : (∀ r ∈ rows, ∃ k, NamesRow (s.shape.headD 0) r k) ↔ ¬ rows.any s.noRow = true := by
      rw [hiff]; push Not; rfl
    rw [this]
    unfold pickWrite
    dsimp only
    split <;> simp_all

/-- The bytes of the rows picked. -/
theorem mem_rowsAt {s : ArrState} {rows : List Nat} {p : Int} :
    p ∈ s.rowsAt rows ↔ ∃ r ∈ rows, ∃ b < s.rowBytes, p = ((r * s.rowBytes + b : Nat) : Int) := by
  simp only [ArrState.rowsAt, List.mem_flatMap, List.mem_map, List.mem_range]
  constructor
  · rintro ⟨r, hr, b, hb, rfl⟩; exact ⟨r, hr, b, hb, rfl⟩
  · rintro ⟨r, hr, b, hb, rfl⟩; exact ⟨r, hr, b, hb, rfl⟩

theorem leading_bytes {n k r b : Nat} (h1 : r < n) (hb : b < k) : r * k + b < n * k := by
  have h2 : (r + 1) * k ≤ n * k := Nat.mul_le_mul_right k h1
  rw [Nat.succ_mul] at h2
  omega

/-- An array that is not tracked, its region empty, is assigned through an index array or a mask:
the region reports the first bytes, as many as are assigned. So it reports all the rows assigned
when they are the first ones, and only then. -/
theorem pick_region {s : ArrState} {rows : List Int} {new : List Nat} (ht : s.tracker = false) (hd : s.dirty = none)
    (hk : 0 < s.rowBytes) (hok : (pickWrite s (.array rows) new).2 = none) :
    (∀ p, Reports (pickWrite s (.array rows) new).1.dirty p ↔ p < rows.length * s.rowBytes) ∧
    ((∀ r ∈ rows, ∀ k, NamesRow (s.shape.headD 0) r k → ∀ b < s.rowBytes,
        Reports (pickWrite s (.array rows) new).1.dirty (k * s.rowBytes + b)) ↔
      ∀ r ∈ rows, ∀ k, NamesRow (s.shape.headD 0) r k → k < rows.length) := by
  have hdirty : (pickWrite s (.array rows) new).1.dirty =
      some (0, ((rows.length * s.rowBytes : Nat) : Int)) := by
    unfold pickWrite at hok ⊢
    dsimp only at hok ⊢
    split at hok
    · simp at hok
    · rename_i h1
      rw [if_neg h1]
      split at hok
      · rename_i h2
        rw [if_pos h2]
        simp [ht, hd, updDirty]
      · simp at hok
  have hrep : ∀ p, Reports (pickWrite s (.array rows) new).1.dirty p ↔ p < rows.length * s.rowBytes := by
    intro p
    rw [hdirty]
    unfold Reports
    constructor
    · rintro ⟨a, b, h1, h2, h3⟩
      simp only [Option.some.injEq, Prod.mk.injEq] at h1
      omega
    · intro h
      exact ⟨_, _, rfl, by omega, by omega⟩
  refine ⟨hrep, ?_⟩
  constructor
  · intro h r hr k hrk
    have := (hrep _).1 (h r hr k hrk 0 hk)
    rw [Nat.add_zero] at this
    exact Nat.lt_of_mul_lt_mul_right this
  · intro h r hr k hrk b hb
    exact (hrep _).2 (leading_bytes (h r hr k hrk) hb)

example : (pickWrite { arrInit 1 [4] false [0, 0, 0, 0] with dirty := none } (.array [0, 3]) [8, 9]) =
    ({ arrInit 1 [4] false [8, 0, 0, 9] with dirty := some (0, 2), mirror := [0, 0, 0, 0] }, none) := by
  decide +kernel

theorem mirrorSet_beyond {mirror data : List Nat} {n p : Nat} (hp : n ≤ p) :
    (mirrorSet mirror 0 (pySlice data 0 (n : Int)))[p]? = mirror[p]? := by
  have hb : pySlice data 0 (n : Int) = data.take (min n data.length) := by
    unfold pySlice
    have h1 : (if (0 : Int) < 0 then max 0 (0 + (data.length : Int)) else min 0 data.length).toNat = 0 := by
      rw [if_neg (by omega)]; omega
    have h2 : (if (n : Int) < 0 then max 0 ((n : Int) + (data.length : Int)) else min (n : Int) data.length).toNat =
        min n data.length := by
      rw [if_neg (by omega)]; omega
    simp only [h1, h2, List.drop_zero]
  rw [hb]
  unfold mirrorSet
  simp only [Int.toNat_zero, List.take_zero, List.nil_append, Nat.sub_zero, Nat.zero_add]
  generalize hc : data.take (min n data.length) = c
  have hcl : c.length ≤ p := by rw [← hc, List.length_take]; omega
  by_cases hm : c.length ≤ mirror.length
  · rw [List.take_of_length_le hm, List.getElem?_append_right hcl, List.getElem?_drop]
    congr 1
    omega
  · rw [List.getElem?_append_right (by rw [List.length_take]; omega), List.getElem?_drop,
      List.getElem?_eq_none (by omega), List.getElem?_eq_none (by omega)]

/-- Exactly: the tracker of an array it held, whose region is empty, holds it after the assignment
when the bytes after the first ones, as many as were assigned, are as before. -/
theorem pick_mirror {s : ArrState} {rows : List Int} {new : List Nat} (hf : Follows s) (hd : s.dirty = none)
    (hok : (pickWrite s (.array rows) new).2 = none) :
    (pickWrite s (.array rows) new).1.mem = writeBytes s.mem (s.rowsAt (s.rowsOf rows)) new ∧
    ((pickWrite s (.array rows) new).1.mirror = (pickWrite s (.array rows) new).1.mem ↔
      ∀ p, rows.length * s.rowBytes ≤ p → (writeBytes s.mem (s.rowsAt (s.rowsOf rows)) new)[p]? = s.mem[p]?) := by
  obtain ⟨htr, hlen, hmi, hdn, hvs⟩ := hf
  unfold pickWrite at hok ⊢
  dsimp only at hok ⊢
  split at hok
  · simp at hok
  · rename_i h1
    rw [if_neg h1]
    split at hok
    · rename_i h2
      simp only [if_pos h2, htr, if_true, hd, updDirty, Option.getD_some]
      refine ⟨trivial, ?_⟩
      generalize hw : writeBytes s.mem (s.rowsAt (s.rowsOf rows)) new = w
      have hwl : w.length = s.mem.length := by rw [← hw, writeBytes_length]
      have hl : s.mirror.length = w.length := by rw [hwl, hmi]
      generalize hN : rows.length * s.rowBytes = N
      constructor
      · intro h p hp
        rw [← h, mirrorSet_beyond hp, hmi]
      · intro h
        refine mirrorSet_eq hl (Int.le_refl 0) ?_
        intro p _ hne
        refine ⟨by omega, ?_⟩
        by_contra hc
        exact hne (by rw [hmi]; exact h p (by omega))
    · simp at hok

theorem pick_follows {s : ArrState} {key : PickKey} {new : List Nat} (hf : Follows s)
    (hk : key.Leading (s.shape.headD 0)) :
    Follows (pickWrite s key new).1 := by
  have hf' := hf
  obtain ⟨htr, hlen, hmi, hdn, hvs⟩ := hf
  cases key with
  | grid => exact hf'
  | list rows => rw [(pick_refused s rows new).2.2.1]; exact hf'
  | array rows =>
    unfold pickWrite
    dsimp only
    split
    · exact hf'
    · rename_i hany
      have hdn' : DirtyNonneg (updDirty s.dirty (0, ((rows.length * s.rowBytes : Nat) : Int))) :=
        dirtyNonneg_upd hdn (Int.le_refl 0)
      split
      · have hlen' : (writeBytes s.mem (s.rowsAt (s.rowsOf rows)) new).length = s.mem.length := writeBytes_length _ _ _
        simp only [htr, if_true]
        refine ⟨rfl, by rw [hlen', hlen], ?_, fun a b h => (by cases h), ?_⟩
        · obtain ⟨iv, hiv⟩ : ∃ iv, updDirty s.dirty (0, ((rows.length * s.rowBytes : Nat) : Int)) = some iv := by
            unfold updDirty; split <;> exact ⟨_, rfl⟩
          simp only [hiv, Option.getD_some]
          refine mirrorSet_eq (by rw [hlen', hmi]) (hdn' iv.1 iv.2 hiv) ?_
          intro p _ hp
          have hin : (p : Int) ∈ s.rowsAt (s.rowsOf rows) := by
            by_contra hc
            exact hp (by rw [hmi]; exact writeBytes_getElem? hc)
          obtain ⟨r, hr, b, hb, hpe⟩ := mem_rowsAt.1 hin
          have hlt : r * s.rowBytes + b < rows.length * s.rowBytes := by
            refine leading_bytes ?_ hb
            obtain ⟨i, hi, hir⟩ := (mem_rowsOf (by simpa using hany)).1 hr
            by_contra hc
            have := hk r hir.1 (by omega)
            rcases hir.2 with rfl | rfl
            · exact this.1 hi
            · exact this.2 hi
          obtain ⟨x, y, hab, h1, h2⟩ := reports_upd_right (d := s.dirty) (p := p)
            (iv := (0, ((rows.length * s.rowBytes : Nat) : Int))) ⟨by simp only; omega, by simp only; omega⟩
          rw [hiv] at hab
          simp only [Option.some.injEq] at hab
          subst hab
          exact ⟨h1, h2⟩
        · intro v hv
          obtain ⟨h1, h2, h3⟩ := hvs v hv
          exact ⟨h1, h2, fun p hp => h3 p (by rw [← hlen']; exact hp)⟩
      · exact ⟨htr, hlen, hmi, hdn', hvs⟩

theorem pick_follows_run {s : ArrState} {ops : List PickOp} (h : Follows s) (ht : AlongPick s ops) :
    Follows (pickRun s ops) := by
  induction ops generalizing s with
  | nil => exact h
  | cons op ops ih =>
    cases op with
    | plain op => exact ih (follows_step h ht.1) ht.2
    | pick key new => exact ih (pick_follows h ht.1) ht.2

/-- The full claim of C84: the tracker holds the bytes of the array when, besides the operations it
is told of, items are assigned through index arrays and masks. -/
def PicksTracked : Prop :=
  ∀ (item : Nat) (shape mem : List Nat) (ops : List PickOp), mem.length = shape.prod * item →
    (∀ op ∈ ops, ∃ key new, op = .pick key new) →
    (pickRun (arrInit item shape true mem) ops).mirror = (pickRun (arrInit item shape true mem) ops).mem

/-- The tracker holds the bytes of the array along all histories where index arrays pick among the
first rows, as many as they pick. Missing: all others, see `picks_tracked_fails`. -/
theorem picks_tracked_partial {item : Nat} {shape mem : List Nat} {ops : List PickOp}
    (hm : mem.length = shape.prod * item) (h : AlongPick (arrInit item shape true mem) ops) :
    (pickRun (arrInit item shape true mem) ops).mirror = (pickRun (arrInit item shape true mem) ops).mem := by
  refine (pick_follows_run ⟨rfl, hm, rfl, ?_, by intro v hv; simp [arrInit] at hv⟩ h).2.2.1
  intro a b he
  simp only [arrInit, Option.some.injEq, Prod.mk.injEq] at he
  omega

example : AlongPick (arrInit 1 [3, 2] true [0, 0, 0, 0, 0, 0])
      [.plain (.write .owner [.at 2, .at 1] [6]), .pick (.array [-2, 0]) [3, 4, 1, 2],
        .pick (.list [2]) [9, 9], .plain (.view .owner [.at 2])] ∧
    (pickRun (arrInit 1 [3, 2] true [0, 0, 0, 0, 0, 0])
      [.plain (.write .owner [.at 2, .at 1] [6]), .pick (.array [-2, 0]) [3, 4, 1, 2],
        .pick (.list [2]) [9, 9], .plain (.view .owner [.at 2])]).mirror = [1, 2, 3, 4, 0, 6] := by
  decide +kernel

/-- C84 fails: the first assignment tells the whole array, but of the second, to the last of four
items, the tracker is told the first item. -/
theorem picks_tracked_fails : ¬ PicksTracked ∧
    (pickRun (arrInit 1 [4] true [0, 0, 0, 0]) [.pick (.array [0]) [1], .pick (.array [3]) [9]]).mem =
      [1, 0, 0, 9] ∧
    (pickRun (arrInit 1 [4] true [0, 0, 0, 0]) [.pick (.array [0]) [1], .pick (.array [3]) [9]]).mirror =
      [1, 0, 0, 0] := by
  refine ⟨fun h => ?_, by decide +kernel, by decide +kernel⟩
  have := h 1 [4] [0, 0, 0, 0] [.pick (.array [0]) [1], .pick (.array [3]) [9]] rfl (by
    intro op hop
    simp only [List.mem_cons, List.not_mem_nil, or_false] at hop
    rcases hop with rfl | rfl <;> exact ⟨_, _, rfl⟩)
  revert this
  decide +kernel

end Verif
