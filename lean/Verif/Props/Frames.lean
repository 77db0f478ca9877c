import Verif.Lemmas.Frames
/-! # C70: buffers hold what they are given, and saved sessions show every frame -/

namespace Verif

/-! ## Buffers and lists -/

/-- C70 (part). The items read from a buffer, put together, are its data. -/
theorem buffer_contents (garbage : Nat → List Nat) (b : Buf) (d : List Nat) (items : List (List Nat))
    (hd : b.data = some d) (h : b.array garbage = .ok items) :
    items.flatten = d ∧ ∀ i ∈ items, i.length = b.item := by
  unfold Buf.array at h
  rw [hd] at h
  dsimp only at h
  split at h
  · cases h
  · rename_i hc
    simp only [not_or, ne_eq, not_not] at hc
    simp only [Except.ok.injEq] at h
    subst h
    have hpos : 0 < b.item := Nat.pos_of_ne_zero hc.1
    have hlen : d.length = d.length / b.item * b.item := by
      have := Nat.div_add_mod d.length b.item
      rw [hc.2, Nat.mul_comm] at this
      omega
    constructor
    · generalize hq : d.length / b.item = q at hlen
      clear hq hd hc
      have key : ∀ (q : Nat) (d : List Nat), q * b.item ≤ d.length →
          ((List.range q).map (fun i => (d.drop (i * b.item)).take b.item)).flatten =
            d.take (q * b.item) := by
        intro q
        induction q with
        | zero => intro d _; simp
        | succ q ih =>
          intro d hd
          have hq : q * b.item ≤ d.length := by
            exact Nat.le_trans (Nat.mul_le_mul_right _ (Nat.le_succ q)) hd
          rw [List.range_succ, List.map_append, List.flatten_append, ih d hq]
          simp only [List.map_cons, List.map_nil, List.flatten_cons, List.flatten_nil,
            List.append_nil, Nat.succ_mul]
          exact (List.take_add ..).symm
      rw [key q d (by omega), ← hlen, List.take_length]
    · intro i hi
      simp only [List.mem_map, List.mem_range] at hi
      obtain ⟨k, hk, rfl⟩ := hi
      rw [List.length_take, List.length_drop]
      have : (k + 1) * b.item ≤ d.length / b.item * b.item := Nat.mul_le_mul_right _ hk
      rw [Nat.succ_mul] at this
      omega

/-- The number of items read from the buffer of an array is the number of its numbers; the buffer of
an array with one axis has as many items as it says. -/
theorem buffer_len_partial (garbage : Nat → List Nat) (item : Nat) (hi : 0 < item) (n : Nat)
    (rest mem : List Nat) (hm : mem.length = (n :: rest).prod * item) (b : Buf)
    (hb : trackerBuf item mem (n :: rest) = .ok b) :
    ∃ items, b.array garbage = .ok items ∧ items.length = n * rest.prod ∧ items.flatten = mem ∧
      (rest.prod = 1 → items.length = b.len) := by
  simp only [trackerBuf, Buf.setData, Except.ok.injEq] at hb
  subst hb
  have hmod : mem.length % item = 0 := by rw [hm]; exact Nat.mul_mod_left _ _
  have hdiv : mem.length / item = n * rest.prod := by
    rw [hm, Nat.mul_div_cancel _ hi, List.prod_cons]
  have har : Buf.array garbage ⟨n, item, some mem⟩ = .ok
      ((List.range (mem.length / item)).map (fun i => (mem.drop (i * item)).take item)) := by
    simp only [Buf.array, hmod, ne_eq, not_true_eq_false, or_false]
    rw [if_neg (by omega)]
  refine ⟨_, har, by simp [hdiv], (buffer_contents garbage _ mem _ rfl har).1, ?_⟩
  intro h1
  simp [hdiv, h1, Buf.len]

example : trackerBuf 2 [1, 0, 2, 0, 3, 0] [3] = .ok ⟨3, 2, some [1, 0, 2, 0, 3, 0]⟩ ∧
    (Buf.array (fun _ => []) ⟨3, 2, some [1, 0, 2, 0, 3, 0]⟩).toOption =
      some [[1, 0], [2, 0], [3, 0]] := by decide

/-- C70 fails for arrays with more axes, such as positions: the buffer of `n` points says it has `n`
items and holds a number of items that is different. -/
theorem buffer_len_fails (garbage : Nat → List Nat) (item : Nat) (hi : 0 < item) (n : Nat)
    (hn : 0 < n) (rest mem : List Nat) (hr : rest.prod ≠ 1)
    (hm : mem.length = (n :: rest).prod * item) (b : Buf)
    (hb : trackerBuf item mem (n :: rest) = .ok b) :
    ∃ items, b.array garbage = .ok items ∧ items.length ≠ b.len := by
  obtain ⟨items, h1, h2, _, _⟩ := buffer_len_partial garbage item hi n rest mem hm b hb
  refine ⟨items, h1, ?_⟩
  simp only [trackerBuf, Buf.setData, Except.ok.injEq] at hb
  subst hb
  rw [h2]
  intro h
  simp only [Buf.len] at h
  exact hr (Nat.eq_of_mul_eq_mul_left hn (by rw [h, Nat.mul_one]))

/-- C70 fails: nothing compares the number of items a buffer is given with its data. -/
theorem buffer_count_fails (garbage : Nat → List Nat) (count : Nat) (hc : count ≠ 1) :
    ∃ items, (Buf.mk count 1 (some [7])).array garbage = .ok items ∧
      items.length ≠ (Buf.mk count 1 (some [7])).len := by
  exact ⟨[[7]], by simp [Buf.array], fun h => hc h.symm⟩

/-- C70 fails: new data for a buffer are lost. -/
theorem set_data_fails : ∃ (b : Buf) (new items : List (List Nat)),
    (b.setData 0 new.flatten).array (fun _ => []) = .ok items ∧ items ≠ new ∧
    b.len = new.length ∧ new.flatten.length = b.len * b.item :=
  ⟨⟨2, 1, some [0, 0]⟩, [[1], [2]], [[0], [0]], rfl, by decide, rfl, rfl⟩

/-- C70 (part). A list given the sizes of its parts has as many parts. -/
theorem list_len_partial (data sizes : Buf) : listLen data (.buffer sizes) = .ok sizes.count := rfl

/-- C70 fails: a list of equal parts has no length. -/
theorem list_len_fails (data : Buf) (n : Int) : listLen data (.int n) = .error .nameError := rfl

/-! ## Frames -/

/-- Replayed, every render shows the array as it was when the file was saved. -/
theorem replay_frames_last {s : ArrState} {count : Nat} {ops : List FOp} {cur : List Nat}
    (hm : AreBytes s.mem) (hb : StoresBytes ops) :
    replayFrames backendSet cur (savedFile s count ops) =
      some (List.replicate (liveFrames s ops).length (lastState s ops).mem) := by
  simp only [savedFile, replayFrames, base64_round_trip _ (lastState_areBytes hm hb), backendSet]
  exact replay_backend_rest _ s ops

/-- C70 (part). A replay shows the frames of the session exactly when none of them differs from the
array as it was saved: for instance if the array was not changed after the first render. -/
theorem replay_frames_partial {s : ArrState} {count : Nat} {ops : List FOp} {cur : List Nat}
    (hm : AreBytes s.mem) (hb : StoresBytes ops) :
    replayFrames backendSet cur (savedFile s count ops) = some (liveFrames s ops) ↔
      ∀ f ∈ liveFrames s ops, f = (lastState s ops).mem := by
  rw [replay_frames_last hm hb, Option.some.injEq, eq_comm, List.eq_replicate_iff]
  simp

/-- The array is changed, then drawn twice. -/
example : let s := arrInit 1 [2] true [0, 0]
    let ops : List FOp := [.array (.write .owner [.at 0] [5]), .draw, .draw]
    AreBytes s.mem ∧ StoresBytes ops ∧ liveFrames s ops = [[5, 0], [5, 0]] ∧
    ∀ f ∈ liveFrames s ops, f = (lastState s ops).mem := by
  refine ⟨by decide, ?_, by decide +kernel, by decide +kernel⟩
  intro op hop
  simp only [List.mem_cons, List.not_mem_nil, or_false, reduceCtorEq, FOp.array.injEq] at hop
  subst hop
  exact (by decide : AreBytes [5])

/-- C70 fails: an animation is replayed with its last frame throughout. -/
theorem replay_frames_fails :
    let s := arrInit 1 [2] true [0, 0]
    let ops : List FOp := [.draw, .array (.write .owner [.at 0] [5]), .draw]
    liveFrames s ops = [[0, 0], [5, 0]] ∧
    replayFrames backendSet [] (savedFile s 2 ops) = some [[5, 0], [5, 0]] := by decide +kernel

/-- C70 (part). The file has what it takes: if `set_data` did what it is documented to do, a replay
would show every frame as it was drawn, for all histories in which the array tells what it changes
(C37). -/
theorem documented_replay_partial {item : Nat} {shape mem : List Nat} {count : Nat} {ops : List FOp}
    {cur : List Nat} (hlen : mem.length = shape.prod * item) (hm : AreBytes mem)
    (hb : StoresBytes ops) (ht : Along Tells (arrInit item shape true mem) (arrOps ops)) :
    replayFrames documentedSet cur (savedFile (arrInit item shape true mem) count ops) =
      some (liveFrames (arrInit item shape true mem) ops) := by
  have h0 : Follows (arrInit item shape true mem) := by
    refine ⟨rfl, hlen, rfl, ?_, by intro v hv; simp [arrInit] at hv⟩
    intro a b he
    simp only [arrInit, Option.some.injEq, Prod.mk.injEq] at he
    omega
  have hl : (lastState (arrInit item shape true mem) ops).mem.length = mem.length := by
    have key : ∀ (ops : List FOp) (s : ArrState), Follows s → Along Tells s (arrOps ops) →
        (lastState s ops).mem.length = s.mem.length := by
      intro ops
      induction ops with
      | nil => intro s _ _; rfl
      | cons op ops ih =>
        intro s hf ht
        cases op with
        | draw => exact ih s hf ht
        | array op =>
          have hf' := follows_step hf ht.1
          refine (ih _ hf' ht.2).trans ?_
          rw [hf'.2.1, hf.2.1]
          have : (arrStep s op).1.shape = s.shape ∧ (arrStep s op).1.item = s.item := by
            cases op <;> unfold arrStep <;> simp only <;> repeat' split
            all_goals first | exact ⟨rfl, rfl⟩ | trivial | simp
          rw [this.1, this.2]
    exact key ops _ h0 ht
  have hfirst : mirrorSet (lastState (arrInit item shape true mem) ops).mem 0 mem = mem := by
    simp [mirrorSet, hl]
  simp only [savedFile, replayFrames, base64_round_trip _ (lastState_areBytes (s := arrInit item
    shape true mem) hm hb), documentedSet_encode (show AreBytes (arrInit item shape true mem).mem
    from hm)]
  rw [show (arrInit item shape true mem).mem = mem from rfl, hfirst]
  exact replay_documented_rest ops _ h0 ht hm hb

/-- The session of `replay_frames_fails`. -/
example : let s := arrInit 1 [2] true [0, 0]
    let ops : List FOp := [.draw, .array (.write .owner [.at 0] [5]), .draw]
    Along Tells s (arrOps ops) ∧
    replayFrames documentedSet [] (savedFile s 2 ops) = some [[0, 0], [5, 0]] := by
  refine ⟨⟨?_, trivial⟩, by decide +kernel⟩
  simp [Tells, Forward]

end Verif
