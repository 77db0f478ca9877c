import Verif.Lemmas.Errors
import Verif.Lemmas.Viewport
/-! # C85 and C86: which exception is raised -/

namespace Verif

/-! ### C85 -/

/-- The outcome of a method call, in all cases: `AttributeError` if the object has no such method,
`TypeError` if Python cannot call it with these arguments, the exception of the body if it raises one,
`ValueError` if recording is on and an argument is of a wrong type, and success otherwise. In the first
three cases nothing at all is changed. -/
theorem call_outcome {P : Prog} (hP : P.SigsWF) {w : World} (hval : w.ActiveValid) {r : Nat} {o : Obj}
    (ho : w.heap[r]? = some o) (f : String) (args : List Val) {kwargs : Dict String Val}
    (hkw : (dkeys kwargs).Nodup) (nc : Bool) :
    (P.sig o.cls f = none → step P w (.call r f args kwargs nc) = (w, .error .attributeError)) ∧
    ∀ sg, P.sig o.cls f = some sg →
      (¬ sg.Accepts args kwargs → step P w (.call r f args kwargs nc) = (w, .error .typeError)) ∧
      (sg.Accepts args kwargs → ∃ b, IsBound sg args kwargs b ∧
        (∀ e, P.raises o f b = some e → step P w (.call r f args kwargs nc) = (w, .error e)) ∧
        (P.raises o f b = none → w.recording = true ∧ HasBadArg P w.converters sg b →
          (step P w (.call r f args kwargs nc)).2 = .error .valueError) ∧
        (P.raises o f b = none → ¬ (w.recording = true ∧ HasBadArg P w.converters sg b) →
          (step P w (.call r f args kwargs nc)).2 = .ok ())) := by
  refine ⟨fun hs => ?_, fun sg hs => ⟨fun hna => ?_, fun ha => ?_⟩⟩
  · simp [step, callMethod, ho, hs]
  · cases hb : bindArgs sg args kwargs with
    | ok b => exact (hna (accepts_of_bindArgs (hP _ _ _ hs).1 hb)).elim
    | error e =>
      rw [bindArgs_error hb] at hb
      simp [step, callMethod, ho, hs, hb]
  · obtain ⟨b, hb⟩ := bindArgs_of_accepts ha
    refine ⟨b, bound_of_bindArgs (hP _ _ _ hs).1 hb, fun e he => ?_, fun hr hbad => ?_, fun hr hok => ?_⟩
    · simp [step, callMethod, ho, hs, hb, he]
    · cases hres : (step P w (.call r f args kwargs nc)).2 with
      | ok u =>
        obtain ⟨o', sg', b', h1, h2, h3, h4, h5⟩ := call_ok_inv hP hkw hbad.1 hres
        rw [ho] at h1
        cases h1
        rw [hs] at h2
        cases h2
        rw [hb] at h3
        cases h3
        obtain ⟨k, v, hv, hn⟩ := hbad.2
        obtain ⟨u, hu⟩ := h5 k v hv
        rw [hn] at hu
        cases hu
      | error e =>
        rw [rejection_is_value_error P w r f args kwargs nc o sg b e ho hval hs hb hr (by
          simpa [step] using hres)]
    · obtain ⟨w', h1, _⟩ := callMethod_form (nc := nc) ho hs hP hkw hb hr (fun hrec k v hv => by
        cases hu : recordedArg P w.converters sg k v with
        | some u => exact ⟨u, rfl⟩
        | none => exact (hok ⟨hrec, k, v, hv, hu⟩).elim)
      simp [step, h1]

/-- The same for the creation of an object. An argument Python cannot pass leaves nothing behind. If the
body of the constructor raises, the object stays in the table of objects and its identifier is taken. -/
theorem create_outcome {P : Prog} (hP : P.SigsWF) {w : World} (hval : w.ActiveValid) (cls : String)
    {sg : Sig} (hs : P.sig cls "__init__" = some sg) (args : List Val) {kwargs : Dict String Val}
    (hkw : (dkeys kwargs).Nodup) (nc : Bool) :
    (¬ sg.Accepts args kwargs → step P w (.create cls args kwargs nc) = (w, .error .typeError)) ∧
    (sg.Accepts args kwargs → ∃ b, IsBound sg args kwargs b ∧
      let o : Obj := ⟨1 + (w.oidCounter : Int), cls, [], 1 + (w.oidCounter : Int)⟩
      (∀ e, P.raises o "__init__" b = some e →
        step P w (.create cls args kwargs nc) = ((newObject w cls).1, .error e)) ∧
      (P.raises o "__init__" b = none → w.recording = true ∧ HasBadArg P w.converters sg b →
        (step P w (.create cls args kwargs nc)).2 = .error .valueError) ∧
      (P.raises o "__init__" b = none → ¬ (w.recording = true ∧ HasBadArg P w.converters sg b) →
        (step P w (.create cls args kwargs nc)).2 = .ok ())) := by
  have ho : (newObject w cls).1.heap[w.heap.length]? =
      some (Obj.mk (1 + (w.oidCounter : Int)) cls [] (1 + (w.oidCounter : Int))) := by
    simp [newObject]
  refine ⟨fun hna => ?_, fun ha => ?_⟩
  · cases hb : bindArgs sg args kwargs with
    | ok b => exact (hna (accepts_of_bindArgs (hP _ _ _ hs).1 hb)).elim
    | error e =>
      rw [bindArgs_error hb] at hb
      simp [step, construct, hs, hb]
  · obtain ⟨b, hb⟩ := bindArgs_of_accepts ha
    refine ⟨b, bound_of_bindArgs (hP _ _ _ hs).1 hb, fun e he => ?_, fun hr hbad => ?_, fun hr hok => ?_⟩
    · simp only [step, construct, hs, hb, newObject_ref, ho, he]
    · cases hres : (step P w (.create cls args kwargs nc)).2 with
      | ok u =>
        obtain ⟨sg', b', h2, h3, h4, h5⟩ := create_ok_inv hP hkw hbad.1 hres
        rw [hs] at h2
        cases h2
        rw [hb] at h3
        cases h3
        obtain ⟨k, v, hv, hn⟩ := hbad.2
        obtain ⟨u, hu⟩ := h5 k v hv
        rw [hn] at hu
        cases hu
      | error e =>
        have hlog := logCall_eq ho "__init__" b
        have hlt := (List.getElem?_eq_some_iff.1 ho).1
        have ho1 : (logCall (newObject w cls).1 w.heap.length "__init__" b).heap[w.heap.length]? =
            some (Obj.mk (1 + (w.oidCounter : Int)) cls [("__init__", b)] (1 + (w.oidCounter : Int))) := by
          rw [hlog]; simp [hlt]
        have hrec : (logCall (newObject w cls).1 w.heap.length "__init__" b).recording = true := by
          rw [hlog]; exact hbad.1
        have hv1 : (logCall (newObject w cls).1 w.heap.length "__init__" b).ActiveValid := by
          rw [hlog]; exact hval
        simp only [step, construct, hs, hb, newObject_ref, ho, hr] at hres
        cases hc : checkParams P (logCall (newObject w cls).1 w.heap.length "__init__" b) sg.annots
            (collect sg (1 + (w.oidCounter : Int)) args kwargs) with
        | error e' =>
          rw [recordCall_rejected hrec ho1 hc] at hres
          cases hres
          rw [checkParams_error hc]
        | ok ps => rw [recordCall_accepted hv1 hrec ho1 hc] at hres; simp at hres
    · obtain ⟨w', h1, _⟩ := construct_form (nc := nc) hs hP hkw hb hr (fun hrec k v hv => by
        cases hu : recordedArg P w.converters sg k v with
        | some u => exact ⟨u, rfl⟩
        | none => exact (hok ⟨hrec, k, v, hv, hu⟩).elim)
      simp [step, h1]

/-- All outcomes occur. -/
example :
    let w := runOps demo World.fresh [.create "Foo" [.int 1] [] false]
    (step demo w (.call 0 "paint" [] [] false)).2 = .error .attributeError ∧
    (step demo w (.call 0 "set_value" [.int 1, .str "cm", .int 2, .int 3] [] false)).2 = .error .typeError ∧
    (step demo w (.call 0 "set_value" [.int 1] [("value", .int 2)] false)).2 = .error .typeError ∧
    (step demo w (.call 0 "set_value" [.int 1] [("colour", .int 2)] false)).2 = .error .typeError ∧
    (step demo w (.call 0 "set_value" [] [] false)).2 = .error .typeError ∧
    (step demo w (.call 0 "set_value" [.int (-1)] [] false)).2 = .error .valueError ∧
    (step demo w (.call 0 "set_value" [.str "x"] [] false)).2 = .error .valueError ∧
    (step demo w (.call 0 "set_value" [.int 7] [] false)).2 = .ok () ∧
    (step demo w (.create "Foo" [] [] false)).2 = .error .typeError := by decide

/-- The classes of GSP meet the condition on signatures, and a new session the one on the queues. -/
example (A : ArrayInfo) : (gspProg A).SigsWF ∧ World.fresh.ActiveValid :=
  ⟨gspProg_wf A, by unfold World.ActiveValid; decide⟩

/-! ### C86 -/

/-- After any history, an assignment through the array or one of its views raises `IndexError` for a key
that does not fit its shape, and nothing is changed; `ValueError` for a value with the wrong number of
bytes, and neither the array nor the buffer that follows it is changed; and succeeds otherwise. Asking for
a view raises `IndexError` in the same case and in no other. -/
theorem array_key_errors (item : Nat) (shape : List Nat) (tr : Bool) (mem : List Nat) (ops : List ArrOp)
    (dst : ArrRef) (L : Layout) :
    let s := arrRun (arrInit item shape tr mem) ops
    s.layout dst = some L → ∀ (key : List AxKey) (new : List Nat),
    (¬ KeyFits key L.shape → arrStep s (.write dst key new) = (s, some .indexError) ∧
      arrStep s (.view dst key) = (s, some .indexError)) ∧
    (KeyFits key L.shape → (arrStep s (.view dst key)).2 = none ∧
      ∃ T, L.sub key = .ok T ∧
      (new.length ≠ (T.bytes s.item).length →
        (arrStep s (.write dst key new)).2 = some .valueError ∧
        (arrStep s (.write dst key new)).1.mem = s.mem ∧
        (arrStep s (.write dst key new)).1.mirror = s.mirror) ∧
      (new.length = (T.bytes s.item).length → (arrStep s (.write dst key new)).2 = none)) := by
  intro s hL key new
  have hlen := arrRun_lens item shape tr mem ops dst L hL
  obtain ⟨hfit, hno⟩ := sub_fits hlen key
  refine ⟨fun hk => ?_, fun hk => ?_⟩
  · simp only [arrStep, hL, hno hk, and_self]
  · obtain ⟨T, hT, _⟩ := hfit hk
    refine ⟨?_, T, hT, fun hn => ?_, fun hn => ?_⟩
    · simp only [arrStep, hL, hT]
      split <;> rfl
    · simp only [arrStep, hL, hT, if_neg hn, and_self]
    · simp only [arrStep, hL, hT, if_pos hn]
      split <;> rfl

/-- A 3 × 2 array: the fourth row does not exist, the last one does, and takes four bytes. -/
example :
    let s := arrInit 2 [3, 2] true (List.replicate 12 0)
    (arrStep s (.write .owner [.at 3] [1, 2, 3, 4])).2 = some .indexError ∧
    (arrStep s (.write .owner [.at (-1)] [1, 2, 3, 4])).2 = none ∧
    (arrStep s (.write .owner [.at (-1)] [1, 2, 3])).2 = some .valueError ∧
    ¬ KeyFits [.at 3] [3, 2] ∧ KeyFits [.at (-1)] [3, 2] ∧ KeyFits [.range 0 2 2, .at 1] [3, 2] := by
  refine ⟨by decide, by decide, by decide, ?_, ?_, ?_⟩
  · simp [KeyFits]
  · simp [KeyFits]
  · simp only [KeyFits]
    exact ⟨fun j hj => by omega, by omega, by omega, trivial⟩

/-- A number read out of a foreign array has no items: assigning to one is a `TypeError`, and nothing is
changed. -/
theorem number_has_no_items (s : Foreign) {path : List (List AxKey)} (hp : path ≠ []) {V : Layout}
    (hV : subPath s.layout path = .ok V) (h0 : V.shape = []) (key : List AxKey) (new : List Nat) :
    foreignWrite s path key new = (s, some .typeError) := by
  simp [foreignWrite, hV, h0, hp]

/-- A component that is not written in one of the notations is an `AttributeError`; all others are read. -/
theorem component_errors (names : List (List Char)) (Z : Rows) (key : List Char) :
    ((∃ s ∈ names, ∀ c ∈ key, c ∈ s) → ∃ R, getAttr names Z key = .ok R) ∧
    (¬ (∃ s ∈ names, ∀ c ∈ key, c ∈ s) → getAttr names Z key = .error .attributeError) := by
  have hiff : swizzleIndices names key = none ↔ ¬ ∃ s ∈ names, ∀ c ∈ key, c ∈ s := by
    unfold swizzleIndices
    cases hf : names.find? (fun s => key.all (fun c => s.contains c)) with
    | none =>
      simp only [true_iff]
      rintro ⟨s, hs, hc⟩
      have := List.find?_eq_none.1 hf s hs
      simp at this
      obtain ⟨c, h1, h2⟩ := this
      exact h2 (hc c h1)
    | some s =>
      simp only [reduceCtorEq, false_iff, not_not]
      refine ⟨s, List.mem_of_find?_eq_some hf, ?_⟩
      have := List.find?_some hf
      simpa using this
  unfold getAttr
  cases hs : swizzleIndices names key with
  | none => exact ⟨fun h => (hiff.1 hs h).elim, fun _ => rfl⟩
  | some idx => exact ⟨fun _ => ⟨_, rfl⟩, fun h => by rw [hiff.2 h] at hs; cases hs⟩

example : getAttr vec3Names [[1, 2, 3]] "zy".toList = .ok [[3, 2]] ∧
    getAttr vec3Names [[1, 2, 3]] "xg".toList = .error .attributeError ∧
    getAttr vec3Names [[1, 2, 3]] "w".toList = .error .attributeError := by decide +kernel

/-- Colouring an array raises `ValueError` if it has no items and a bound is not given, and if the lower
end is above the upper end; else there is one colour per item. Colouring a number, which has neither a
least nor a greatest item, raises `AttributeError` unless both bounds are given. -/
theorem colormap_errors (lut : Option String → ℚ → List ℚ) (c : Option String) (lo hi : Option ℚ)
    (xs : List ℚ) :
    (xs = [] → ¬ (BoundGiven lo ∧ BoundGiven hi) →
      cmapVal lut c lo hi (some (.vec xs)) = .error .valueError) ∧
    (∀ a b, IsLow xs lo a → IsHigh xs hi b →
      (b < a → cmapVal lut c lo hi (some (.vec xs)) = .error .valueError) ∧
      (a ≤ b → ∃ rows, cmapVal lut c lo hi (some (.vec xs)) = .ok (.mat 4 rows) ∧
        rows.length = xs.length)) ∧
    (∀ x, ¬ (BoundGiven lo ∧ BoundGiven hi) →
      cmapVal lut c lo hi (some (.num x)) = .error .attributeError) := by
  refine ⟨fun h0 hn => ?_, fun a b ha hb => ?_, fun x hn => ?_⟩
  · subst h0
    simp only [cmapVal, TVal.elems, cmapBounds]
    by_cases hlo : BoundGiven lo
    · obtain ⟨a, ha⟩ := boundOr_given hlo (.error .valueError)
      have hhi : ¬ BoundGiven hi := fun h => hn ⟨hlo, h⟩
      simp only [ha, boundOr_missing hhi, Except.bind, listMin, listMax]
    · simp only [boundOr_missing hlo, Except.bind, listMin]
  · have hc : cmapBounds lo hi (.ok xs) = .ok (a, b) := by
      simp only [cmapBounds, boundOr_low ha, boundOr_high hb]
    simp only [cmapVal, TVal.elems, hc, normalise]
    refine ⟨fun h => ?_, fun h => ?_⟩
    · rw [if_neg (ne_of_gt h), if_pos h]
    · by_cases he : a = b
      · rw [if_pos he]
        exact ⟨_, rfl, by simp⟩
      · rw [if_neg he, if_neg (not_lt.2 h)]
        exact ⟨_, rfl, by simp⟩
  · simp only [cmapVal, TVal.elems, cmapBounds]
    by_cases hlo : BoundGiven lo
    · obtain ⟨a, ha⟩ := boundOr_given hlo (.error .attributeError)
      have hhi : ¬ BoundGiven hi := fun h => hn ⟨hlo, h⟩
      simp only [ha, boundOr_missing hhi, Except.bind]
    · simp only [boundOr_missing hlo, Except.bind]

/-- With the bounds exchanged nothing is coloured; with no bounds the data are. -/
example (lut : Option String → ℚ → List ℚ) :
    cmapVal lut none (some 2) (some 1) (some (.vec [1, 2])) = .error .valueError ∧
    ∃ rows, cmapVal lut none none none (some (.vec [1, 2])) = .ok (.mat 4 rows) ∧ rows.length = 2 := by
  have g : ∀ q : ℚ, q ≠ 0 → BoundGiven (some q) := fun q h => ⟨q, rfl, h⟩
  have hno : ¬ BoundGiven none := by rintro ⟨x, h, _⟩; cases h
  constructor
  · exact ((colormap_errors lut none (some 2) (some 1) [1, 2]).2.1 2 1
      (Or.inl ⟨g 2 (by norm_num), rfl⟩) (Or.inl ⟨g 1 (by norm_num), rfl⟩)).1 (by norm_num)
  · exact ((colormap_errors lut none none none [1, 2]).2.1 1 2
      (Or.inr ⟨hno, by simp, by simp⟩) (Or.inr ⟨hno, by simp, by simp⟩)).2 (by norm_num)

/-- A viewport cannot be placed without a position, nor without a size if its canvas has none: this is a
`TypeError`. A size of 0 pixels along one axis, and not less along the other, is a `ValueError`. Every
other viewport can be made. -/
theorem viewport_errors (x y width height canvasW canvasH : Extent) (cw ch : ℚ) :
    (x = .absent ∨ y = .absent ∨ (width.truthy = false ∧ canvasW = .absent) ∨
        (height.truthy = false ∧ canvasH = .absent) →
      VPort.make x y width height canvasW canvasH cw ch = .error .typeError) ∧
    (¬ (x = .absent ∨ y = .absent ∨ (width.truthy = false ∧ canvasW = .absent) ∨
        (height.truthy = false ∧ canvasH = .absent)) →
      ∃ w h, (if width.truthy then width else canvasW).part cw = .ok w ∧
        (if height.truthy then height else canvasH).part ch = .ok h ∧
        (min (w * cw) (h * ch) = 0 →
          VPort.make x y width height canvasW canvasH cw ch = .error .valueError) ∧
        (min (w * cw) (h * ch) ≠ 0 →
          ∃ v, VPort.make x y width height canvasW canvasH cw ch = .ok v)) := by
  have part : ∀ (E : Extent) (s : ℚ), (E = .absent ∧ E.part s = .error .typeError) ∨
      (E ≠ .absent ∧ ∃ q, E.part s = .ok q) := by
    intro E s
    cases E <;> simp [Extent.part]
  have sized : ∀ W C : Extent, (if W.truthy then W else C) = .absent ↔
      (W.truthy = false ∧ C = .absent) := by
    intro W C
    cases hW : W.truthy with
    | false => simp
    | true =>
      simp only [if_true, Bool.true_eq_false, false_and, iff_false]
      rintro rfl
      cases hW
  rw [← sized, ← sized]
  simp only [VPort.make]
  generalize (if width.truthy then width else canvasW) = W
  generalize (if height.truthy then height else canvasH) = H
  rcases part x cw with ⟨hx, px⟩ | ⟨hx, qx, px⟩
  · exact ⟨fun _ => by simp only [VPort.update, px]; rfl, fun h => absurd (Or.inl hx) h⟩
  rcases part y ch with ⟨hy, py⟩ | ⟨hy, qy, py⟩
  · exact ⟨fun _ => by simp only [VPort.update, px, py]; rfl, fun h => absurd (.inr (.inl hy)) h⟩
  rcases part W cw with ⟨hW, pW⟩ | ⟨hW, qW, pW⟩
  · exact ⟨fun _ => by simp only [VPort.update, px, py, pW]; rfl,
      fun h => absurd (.inr (.inr (.inl hW))) h⟩
  rcases part H ch with ⟨hH, pH⟩ | ⟨hH, qH, pH⟩
  · exact ⟨fun _ => by simp only [VPort.update, px, py, pW, pH]; rfl,
      fun h => absurd (.inr (.inr (.inr hH))) h⟩
  refine ⟨fun h => ?_, fun _ => ⟨qW, qH, pW, pH, fun h => ?_, fun h => ?_⟩⟩
  · rcases h with h | h | h | h
    exacts [absurd h hx, absurd h hy, absurd h hW, absurd h hH]
  · rw [update_flat px py pW pH h]; rfl
  · rw [update_ok px py pW pH h]; exact ⟨_, rfl⟩

example : (∃ v, VPort.make (.int 0) (.float 0) .absent .absent (.int 512) (.int 512) 512 512 = .ok v) ∧
    VPort.make .absent (.float 0) .absent .absent (.int 512) (.int 512) 512 512 = .error .typeError ∧
    VPort.make (.int 0) (.int 0) (.transform fun _ => 0) .absent (.int 512) (.int 512) 512 512 =
      .error .valueError := by
  refine ⟨?_, (viewport_errors ..).1 (by simp), ?_⟩
  · obtain ⟨w, h, hw, hh, -, hv⟩ := (viewport_errors (.int 0) (.float 0) .absent .absent (.int 512)
      (.int 512) 512 512).2 (by simp)
    cases hw; cases hh
    exact hv (by norm_num)
  · obtain ⟨w, h, hw, hh, hv, -⟩ := (viewport_errors (.int 0) (.int 0) (.transform fun _ => 0) .absent
      (.int 512) (.int 512) 512 512).2 (by simp [Extent.truthy])
    cases hw; cases hh
    exact hv (by norm_num)

/-- A tracked array without axes cannot be made: `TypeError`. -/
theorem scalar_array_error (item : Nat) (mem : List Nat) (shape : List Nat) :
    (shape = [] → trackerBuf item mem shape = .error .typeError) ∧
    (shape ≠ [] → ∃ b, trackerBuf item mem shape = .ok b) := by
  cases shape <;> simp [trackerBuf]

/-- Comparing an array with something that is no array is false for an array of one item and a
`ValueError` for any other. -/
theorem compare_array_errors (cmp : Nat → Nat → Except Err Bool) (h : List KObj) (fuel : Nat)
    (l : List Nat) (x : AVal) (hx : ∀ m, x ≠ .array m) :
    (l.length = 1 → eqVal cmp h (fuel + 1) (.array l) x = .ok false ∧
      eqVal cmp h (fuel + 1) x (.array l) = .ok false) ∧
    (l.length ≠ 1 → eqVal cmp h (fuel + 1) (.array l) x = .error .valueError ∧
      eqVal cmp h (fuel + 1) x (.array l) = .error .valueError) := by
  cases x with
  | array m => exact (hx m rfl).elim
  | «opaque» n => exact ⟨fun h => by simp [eqVal, h], fun h => by simp [eqVal, h]⟩
  | ref r => exact ⟨fun h => by simp [eqVal, h], fun h => by simp [eqVal, h]⟩

end Verif
