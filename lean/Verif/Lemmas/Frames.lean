import Verif.Spec.Frames
import Verif.Lemmas.Tracked
import Verif.Props.Tracked
import Verif.Props.Base64
/-! Lemmas about saved frames. -/

namespace Verif

theorem writeBytes_areBytes {mem : List Nat} {ps : List Int} {new : List Nat} (hm : AreBytes mem)
    (hn : AreBytes new) : AreBytes (writeBytes mem ps new) := by
  unfold writeBytes
  have hz : ∀ p ∈ ps.zip new, p.2 < 256 := fun p hp => hn _ (List.of_mem_zip hp).2
  generalize ps.zip new = l at hz
  induction l generalizing mem with
  | nil => exact hm
  | cons p l ih =>
    simp only [List.foldl_cons]
    refine ih ?_ (fun q hq => hz q (List.mem_cons_of_mem _ hq))
    split
    · intro x hx
      rcases List.mem_or_eq_of_mem_set hx with h | h
      · exact hm x h
      · rw [h]
        exact hz p List.mem_cons_self
    · exact hm

theorem pySlice_areBytes {l : List Nat} (a b : Int) (h : AreBytes l) : AreBytes (pySlice l a b) := by
  intro x hx
  unfold pySlice at hx
  exact h x (List.mem_of_mem_take (List.mem_of_mem_drop hx))

theorem arrStep_areBytes {s : ArrState} {op : ArrOp} (hm : AreBytes s.mem)
    (ho : op.Bytes) : AreBytes (arrStep s op).1.mem := by
  cases op with
  | clear => exact hm
  | view src key =>
    unfold arrStep
    simp only
    split
    · exact hm
    · split
      · exact hm
      · split <;> exact hm
  | write dst key new =>
    unfold arrStep
    simp only
    split
    · exact hm
    · split
      · exact hm
      · split
        · split <;> exact writeBytes_areBytes hm ho
        · exact hm
  | iadd dst new =>
    unfold arrStep
    simp only
    split
    · exact hm
    · split
      · exact writeBytes_areBytes hm ho
      · exact hm
  | idiv dst new =>
    unfold arrStep
    simp only
    split
    · exact hm
    · split
      · exact writeBytes_areBytes hm ho
      · exact hm

/-- The mirror of C37 is what `set_data`, as documented, makes of what is sent. -/
theorem arrStep_mirror (s : ArrState) (op : ArrOp) :
    (arrStep s op).1.mirror = match sentBy s op with
      | some (off, bytes) => mirrorSet s.mirror off bytes
      | none => s.mirror := by
  cases op with
  | clear => rfl
  | view src key =>
    unfold arrStep sentBy
    simp only
    split
    · rfl
    · split
      · rfl
      · split <;> rfl
  | write dst key new =>
    unfold arrStep sentBy
    simp only
    cases s.layout dst with
    | none => rfl
    | some L =>
      simp only
      cases L.sub key with
      | error e => rfl
      | ok T =>
        simp only
        split
        · cases s.tracker
          · rfl
          · rfl
        · rfl
  | iadd dst new =>
    unfold arrStep sentBy
    simp only
    split
    · rfl
    · split <;> rfl
  | idiv dst new =>
    unfold arrStep sentBy
    simp only
    split
    · rfl
    · split <;> rfl

theorem sentBy_areBytes {s : ArrState} {op : ArrOp} (hm : AreBytes s.mem)
    (ho : op.Bytes) {off : Int} {bytes : List Nat} (h : sentBy s op = some (off, bytes)) :
    AreBytes bytes := by
  cases op with
  | write dst key new =>
    unfold sentBy at h
    simp only at h
    split at h
    · cases h
    · split at h
      · cases h
      · split at h
        · split at h
          · simp only [Option.some.injEq, Prod.mk.injEq] at h
            rw [← h.2]
            exact pySlice_areBytes _ _ (writeBytes_areBytes hm ho)
          · cases h
        · cases h
  | clear => cases h
  | view => cases h
  | iadd => cases h
  | idiv => cases h

theorem lastState_areBytes : ∀ {ops : List FOp} {s : ArrState}, AreBytes s.mem → StoresBytes ops →
    AreBytes (lastState s ops).mem := by
  intro ops
  induction ops with
  | nil => intro s hm _; exact hm
  | cons op ops ih =>
    intro s hm hb
    have hb' : StoresBytes ops := fun o ho => hb o (List.mem_cons_of_mem _ ho)
    cases op with
    | array op => exact ih (arrStep_areBytes hm (hb op List.mem_cons_self)) hb'
    | draw => exact ih hm hb'

/-- How often the session draws. -/
theorem liveFrames_length (s : ArrState) (ops : List FOp) :
    (liveFrames s ops).length = ops.countP (· = .draw) := by
  induction ops generalizing s with
  | nil => rfl
  | cons op ops ih =>
    cases op with
    | array op => simp [liveFrames, ih]
    | draw => simp [liveFrames, ih]

theorem replay_backend_rest (cur : List Nat) (s : ArrState) (ops : List FOp) :
    replayFrames backendSet cur (savedRest s ops) =
      some (List.replicate (liveFrames s ops).length cur) := by
  induction ops generalizing s with
  | nil => rfl
  | cons op ops ih =>
    cases op with
    | array op =>
      simp only [savedRest, liveFrames]
      cases sentBy s op with
      | none => exact ih _
      | some p => exact ih _
    | draw => simp [savedRest, liveFrames, replayFrames, ih, List.replicate_succ]

theorem documentedSet_encode {cur b : List Nat} {off : Int} (hb : AreBytes b) :
    documentedSet cur off (b64encode b) = some (mirrorSet cur off b) := by
  simp only [documentedSet, base64_round_trip b hb, Option.map_some]
  rfl

theorem replay_documented_rest : ∀ (ops : List FOp) (s : ArrState), Follows s →
    Along Tells s (arrOps ops) → AreBytes s.mem → StoresBytes ops →
    replayFrames documentedSet s.mem (savedRest s ops) = some (liveFrames s ops) := by
  intro ops
  induction ops with
  | nil => intro s _ _ _ _; rfl
  | cons op ops ih =>
    intro s hf ht hm hb
    have hb' : StoresBytes ops := fun o ho => hb o (List.mem_cons_of_mem _ ho)
    cases op with
    | draw =>
      have := ih s hf ht hm hb'
      simp [savedRest, liveFrames, replayFrames, this]
    | array op =>
      have ho := hb op List.mem_cons_self
      have hf' := follows_step hf ht.1
      have hi := ih _ hf' ht.2 (arrStep_areBytes hm ho) hb'
      have hmir := arrStep_mirror s op
      rw [hf'.2.2.1, hf.2.2.1] at hmir
      simp only [savedRest, liveFrames]
      cases hs : sentBy s op with
      | none =>
        rw [hs] at hmir
        dsimp only at hmir ⊢
        rw [← hi, hmir]
        rfl
      | some p =>
        obtain ⟨off, bytes⟩ := p
        rw [hs] at hmir
        dsimp only at hmir ⊢
        simp only [List.singleton_append, replayFrames,
          documentedSet_encode (sentBy_areBytes hm ho hs)]
        rw [← hmir]
        exact hi

end Verif
