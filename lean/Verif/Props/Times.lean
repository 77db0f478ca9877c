import Verif.Lemmas.Times
/-
C107: commands tell when their calls were made.
-/

namespace Verif

/-- **C107.** After any history of calls, saves and loads, and if the clock is never put back, the commands of
every queue are in the order of their numbers and of their times. -/
theorem times_in_order {fl : ℚ → ℚ} (hfl : RoundsTo53 fl) (hm : Monotone fl) {clock : Nat → Nat}
    (hc : Monotone clock) (ops : List StampOp) (q : Nat) :
    InOrder ((stampRun fl clock stampInit ops).queues q) := by
  have h := inv_stampRun fl clock ops
  refine (h.cids q).imp_of_mem ?_
  intro a b ha hb hab
  refine ⟨hab, ?_⟩
  rw [h.stamps q a ha, h.stamps q b hb]
  exact stamp_mono hfl hm (hc (by omega))

/-- **C107.** The listing of a command shows, to the microsecond, what the clock showed when the command was
made, after any history and although the time is kept as a rounded number of seconds, until 2106. -/
theorem listed_to_microsecond {fl : ℚ → ℚ} (hfl : RoundsTo53 fl) {clock : Nat → Nat} (ops : List StampOp)
    (q : Nat) {s : Stamped} (hs : s ∈ (stampRun fl clock stampInit ops).queues q)
    (h : Before2106 (clock (s.cid - 1))) : listedTime fl s.stamp = clock (s.cid - 1) := by
  rw [(inv_stampRun fl clock ops).stamps q s hs]
  exact listed_stamp hfl h

/-- **C107.** A recorded call adds one command to its queue and none to others; it is listed with the time of
the call, and is so still after everything that does not empty the queue or load into it. -/
theorem call_listed {fl : ℚ → ℚ} (hfl : RoundsTo53 fl) {clock : Nat → Nat} (ops later : List StampOp) (q c : Nat)
    (hl : ∀ op ∈ later, ¬ op.Clears q) (h : Before2106 (clock (stampRun fl clock stampInit ops).made)) :
    let w := stampRun fl clock stampInit ops
    let w' := stampRun fl clock stampInit (ops ++ [.call q c])
    let w'' := stampRun fl clock stampInit (ops ++ [.call q c] ++ later)
    (∀ r, r ≠ q → w'.queues r = w.queues r) ∧
    ∃ s rest, w'.queues q = w.queues q ++ [s] ∧ w''.queues q = w.queues q ++ [s] ++ rest ∧ s.call = c ∧
      listedTime fl s.stamp = clock w.made := by
  intro w w' w''
  have e : w' = (stampStep fl clock w (.call q c)).1 := by
    simp only [w', w, stampRun, List.foldl_append, List.foldl_cons, List.foldl_nil]
  have e' : w'' = stampRun fl clock w' later := by
    simp only [w'', w', stampRun, List.foldl_append]
  have hq : w'.queues q = w.queues q ++ [⟨w.made + 1, stampOf fl (clock w.made), c⟩] := by
    rw [e]
    simp [stampStep, newStamped, setAt]
  refine ⟨?_, ?_⟩
  · intro r hr
    rw [e]
    simp [stampStep, newStamped, setAt, hr]
  · obtain ⟨rest, hrest⟩ := keep_queue (fl := fl) (clock := clock) later hl w'
    refine ⟨_, rest, hq, ?_, rfl, listed_stamp hfl h⟩
    rw [e', ← hrest, hq]

/-- **C107.** A saved file holds the time of every call of the queue; but loading it makes new commands. They
repeat the same calls in the same order, numbered on from the last command made, and each is listed with the time
at which it was loaded. -/
theorem loaded_times_partial {fl : ℚ → ℚ} (hfl : RoundsTo53 fl) {clock : Nat → Nat} (ops later : List StampOp)
    (q r f : Nat) (hl : ∀ op ∈ later, ¬ op.Writes f) :
    let w := stampRun fl clock stampInit ops
    let w1 := stampRun fl clock stampInit (ops ++ [.save q f] ++ later)
    let w2 := (stampStep fl clock w1 (.load r f)).1
    (w1.files f = some ((w.queues q).map (fun s => ⟨s.cid, s.stamp, s.call, true⟩))) ∧
    (stampStep fl clock w1 (.load r f)).2 = true ∧
    (w2.queues r).map (·.call) = (w.queues q).map (·.call) ∧
    ∀ (i : Nat) s, (w2.queues r)[i]? = some s →
      s.cid = w1.made + i + 1 ∧ (Before2106 (clock (w1.made + i)) → listedTime fl s.stamp = clock (w1.made + i)) := by
  intro w w1 w2
  have hf : w1.files f = some ((w.queues q).map (fun s => ⟨s.cid, s.stamp, s.call, true⟩)) := by
    have e : w1 = stampRun fl clock (stampStep fl clock w (.save q f)).1 later := by
      simp only [w1, w, stampRun, List.foldl_append, List.foldl_cons, List.foldl_nil]
    rw [e, keep_file later hl]
    simp [stampStep, setAt]
  have hload : stampStep fl clock w1 (.load r f) = stampLoad fl clock { w1 with queues := setAt w1.queues r [] } r
      ((w.queues q).map (fun s => ⟨s.cid, s.stamp, s.call, true⟩)) := by
    simp only [stampStep, hf]
  obtain ⟨h1, h2⟩ := stampLoad_all (fl := fl) (clock := clock) r
    ((w.queues q).map (fun s => (⟨s.cid, s.stamp, s.call, true⟩ : StampEntry))) (by simp)
    { w1 with queues := setAt w1.queues r [] }
  rw [← hload] at h1 h2
  have h2' : w2.queues r = _ := h2
  simp only [setAt, if_true, List.nil_append] at h2'
  refine ⟨hf, h1, ?_, ?_⟩
  · rw [h2', List.map_map]
    apply List.ext_getElem?
    intro i
    simp [Function.comp_def]
  · intro i s hs
    rw [h2', List.getElem?_map, List.getElem?_zipIdx] at hs
    cases hq : ((w.queues q).map (fun s => (⟨s.cid, s.stamp, s.call, true⟩ : StampEntry)))[i]? with
    | none => simp [hq] at hs
    | some e =>
      simp only [hq, Option.map_some, Option.some.injEq, Nat.zero_add] at hs
      subst hs
      exact ⟨rfl, fun hb => listed_stamp hfl hb⟩

/-- **C107 is false of sessions that are loaded.** A call made at 1 s, saved, and loaded at 2 s is listed with 2 s
for its time, and its command has another number. -/
theorem loaded_times_fails : ∃ (clock : Nat → Nat) (ops : List StampOp) (s t : Stamped),
    (stampRun id clock stampInit [.call 0 7]).queues 0 = [s] ∧
    (stampRun id clock stampInit ([.call 0 7] ++ ops)).queues 0 = [t] ∧
    s.call = t.call ∧ listedTime id s.stamp = 1000000 ∧ listedTime id t.stamp = 2000000 ∧ s.cid ≠ t.cid := by
  refine ⟨fun n => if n = 0 then 1000000 else 2000000, [.save 0 0, .load 0 0], ⟨1, 1, 7⟩, ⟨2, 2, 7⟩, ?_, ?_, rfl,
    ?_, ?_, by decide⟩
  · simp [stampRun, stampStep, newStamped, setAt, stampInit, stampOf]
  · simp [stampRun, stampStep, newStamped, setAt, stampInit, stampOf, stampLoad]
  · norm_num [listedTime, wholePart, nearestInt]
  · norm_num [listedTime, wholePart, nearestInt]

/-- A session on 16 November 2026: two calls, a save, a load, and another call. -/
example : InOrder ((stampRun (chop 53) (fun n => 1794859200000000 + 250001 * n) stampInit
      [.call 0 7, .call 0 8, .save 0 0, .load 0 0, .call 0 9]).queues 0) ∧
    listedTime (chop 53) (stampOf (chop 53) 1794859200250001) = 1794859200250001 ∧
    ((stampRun (chop 53) (fun n => 1794859200000000 + 250001 * n) stampInit
      [.call 0 7, .call 0 8, .save 0 0, .load 0 0, .call 0 9]).queues 0).map (·.cid) = [3, 4, 5] := by
  refine ⟨times_in_order chop_to53 (chop_mono 53) (fun a b h => by show _ + _ ≤ _ + _; omega) _ 0,
    by exact_mod_cast listed_stamp chop_to53 (now := 1794859200250001) (by unfold Before2106; norm_num), ?_⟩
  simp [stampRun, stampStep, newStamped, setAt, stampInit, stampLoad]

/-- The first call, on 16 November 2026, is listed with its time after another call and a save. -/
example : ∃ s rest, (stampRun (chop 53) (fun n => 1794859200000000 + 250001 * n) stampInit
      [.call 0 7, .call 0 8, .save 0 0]).queues 0 = s :: rest ∧ s.call = 7 ∧
    listedTime (chop 53) s.stamp = 1794859200000000 := by
  obtain ⟨-, s, rest, -, h, hc, ht⟩ := call_listed chop_to53 (clock := fun n => 1794859200000000 + 250001 * n) []
    [.call 0 8, .save 0 0] 0 7 (by simp [StampOp.Clears]) (by simp [stampRun, stampInit, Before2106])
  exact ⟨s, rest, h, hc, ht⟩

/-- The second call is listed with the time of its load, in another queue. -/
example : ∀ s, ((stampRun (chop 53) (fun n => 1794859200000000 + 250001 * n) stampInit
      [.call 0 7, .call 0 8, .save 0 0, .load 1 0]).queues 1)[1]? = some s →
    s.cid = 4 ∧ listedTime (chop 53) s.stamp = 1794859200750003 := by
  intro s hs
  obtain ⟨-, -, -, h⟩ := loaded_times_partial chop_to53 (clock := fun n => 1794859200000000 + 250001 * n)
    [.call 0 7, .call 0 8] [] 0 1 0 (by simp)
  obtain ⟨h1, h2⟩ := h 1 s hs
  have e : (stampRun (chop 53) (fun n => 1794859200000000 + 250001 * n) stampInit
      ([.call 0 7, .call 0 8] ++ [.save 0 0] ++ [])).made = 2 := by
    simp [stampRun, stampStep, newStamped, stampInit]
  rw [e] at h1 h2
  exact ⟨h1, h2 (by unfold Before2106; norm_num)⟩

end Verif
