import Verif.Lemmas.Threads
import Mathlib.Data.List.Induction
/-
C105. Recording from several threads.
-/

namespace Verif

/-- Threads that create and use objects while they are recorded, whatever the schedule: every object that was
created is registered, under an identifier of its own, and the command of a constructor bears the identifier
of the object it created. (`objects` is a dictionary from identifiers to calls, thus two calls have two
identifiers. Threads that run queues are left out, because commands that are executed replace objects.) -/
theorem threads_ids (scripts : Nat → List TCall) (queue : Bool) (sched : List Nat)
    (_ : ∀ t, NoRun (scripts t)) :
    let s := trun (tinit scripts queue) sched;
    (∀ t k ok, k < (s.threads t).next → (scripts t)[k]? = some (.create ok) →
      ∃ o, dget s.objects o = some (t, k)) ∧
    ∀ q, ∀ c ∈ s.commands q, c.inner = false → ∀ ok, (scripts c.thread)[c.call]? = some (.create ok) →
      dget s.objects c.oid = some (c.thread, c.call) := by
  intro s
  have h : IdsInv s := trun_inv (P := IdsInv) (fun _ _ => ids_step) (ids_init scripts queue) sched
  have hs : ∀ t, (s.threads t).script = scripts t := trun_script _ sched
  refine ⟨fun t k ok hk hc => ?_, fun q c hc hi ok hok => ?_⟩
  · exact (h.thr t).made k ok hk (by rw [hs]; exact hc)
  · exact h.cmd c (commands_all hc) hi ok (by rw [hs]; exact hok)

/-- No two commands of any queues have the same number; no call has two commands; and only constructors and
methods that return have any, that of a method with the identifier of its object: for every schedule, also
when threads run queues. -/
theorem threads_once (scripts : Nat → List TCall) (queue : Bool) (sched : List Nat) :
    let s := trun (tinit scripts queue) sched;
    (s.all.map (·.cid)).Nodup ∧
    ((s.all.filter fun c => !c.inner).map fun c => (c.thread, c.call)).Nodup ∧
    ∀ c ∈ s.all, c.inner = false → c.call < (s.threads c.thread).next ∧
      ((scripts c.thread)[c.call]? = some (.create true) ∨
        (scripts c.thread)[c.call]? = some (.use c.oid true)) := by
  intro s
  have hc : TCidInv s := trun_inv (P := TCidInv) (fun _ _ => cid_step) (cid_init scripts queue) sched
  have ho : OnceInv s := trun_inv (P := OnceInv) (fun _ _ => once_step) (once_init scripts queue) sched
  have hk : OkInv s := trun_inv (P := OkInv) (fun _ _ => ok_step) (ok_init scripts queue) sched
  have hs : ∀ t, (s.threads t).script = scripts t := trun_script _ sched
  refine ⟨hc.nodup, ho.nodup, fun c hm hi => ⟨ho.lt c hm hi, ?_⟩⟩
  have := hk.cmds c hm hi
  rwa [hs] at this

/-- In a queue, the command of a call that has returned is before those of all calls that have not returned
then, of whichever threads, whenever they are recorded: for every schedule, also when threads run queues. -/
theorem threads_order (scripts : Nat → List TCall) (queue : Bool) (sched later : List Nat) (q : Nat) :
    let s := trun (tinit scripts queue) sched;
    let s' := trun (tinit scripts queue) (sched ++ later);
    ∀ a ∈ s'.commands q, ∀ b ∈ s'.commands q, a.inner = false → b.inner = false →
    a.call < (s.threads a.thread).next → (s.threads b.thread).next ≤ b.call →
    ∃ l l', s'.commands q = l ++ l' ∧ a ∈ l ∧ a ∉ l' ∧ b ∈ l' ∧ b ∉ l := by
  intro s s' a ha b hb hai hbi hal hbl
  have e : s' = trun s later := by simp [s', s, trun, List.foldl_append]
  have ho : OnceInv s := trun_inv (P := OnceInv) (fun _ _ => once_step) (once_init scripts queue) sched
  obtain ⟨l, hl, hn⟩ := trun_grows s later q
  rw [← e] at hl
  have hal' : a ∉ l := fun hm => absurd (hn a hm hai) (Nat.not_le.mpr hal)
  have hbl' : b ∉ s.commands q := fun hm => absurd (ho.lt b (commands_all hm) hbi) (Nat.not_lt.mpr hbl)
  rw [hl] at ha hb
  exact ⟨_, l, hl, (List.mem_append.mp ha).resolve_right hal', hal', (List.mem_append.mp hb).resolve_left hbl', hbl'⟩

/-- With one active queue and no thread that runs it: the commands that tell of a thread tell of exactly the
constructors and methods that have returned in it, in the order of its calls; there is no other queue, and
nothing else recorded. What is missing is a queue that is created by the threads, and threads that run it
(`threads_lost_fails`, `threads_run_fails`). -/
theorem threads_complete_partial (scripts : Nat → List TCall) (sched : List Nat)
    (h : ∀ t, NoRun (scripts t)) :
    let s := trun (tinit scripts true) sched;
    s.active = some 0 ∧ s.queues.length = 1 ∧ s.readonly 0 = false ∧ (∀ c ∈ s.commands 0, c.inner = false) ∧
    ∀ t, toldOf t (s.commands 0) = (s.threads t).returned := by
  intro s
  obtain ⟨cs, hq, ha, hi, ht⟩ : TRecInv s := trun_inv (P := TRecInv) (fun _ _ => rec_step) (rec_init h) sched
  have hc : s.commands 0 = cs := by simp [TWorld.commands, hq]
  exact ⟨ha, by rw [hq]; rfl, by simp [TWorld.readonly, hq], by rw [hc]; exact hi, fun t => by rw [hc]; exact (ht t).told⟩

/-- Two threads create an object each, and one uses its object, the first time with arguments that raise. -/
def twoThreads : Nat → List TCall
  | 0 => [.create true, .use 1 false, .use 1 true]
  | 1 => [.create true]
  | _ => []

example : (∀ t, NoRun (twoThreads t)) ∧
    toldOf 0 ((trun (tinit twoThreads true)
      ([0, 1, 0, 1, 1, 0, 1, 0, 0, 1, 0, 1, 1, 1] ++ List.replicate 12 0)).commands 0) = [0, 2] ∧
    (trun (tinit twoThreads true)
      ([0, 1, 0, 1, 1, 0, 1, 0, 0, 1, 0, 1, 1, 1] ++ List.replicate 12 0)).commands 0 =
      [⟨2, 2, 1, 0, false⟩, ⟨1, 1, 0, 0, false⟩, ⟨3, 1, 0, 2, false⟩] := by
  refine ⟨?_, by decide +kernel, by decide +kernel⟩
  intro t q
  match t with
  | 0 => simp [twoThreads]
  | 1 => simp [twoThreads]
  | _ + 2 => simp [twoThreads]

/-- The numbers of the commands of a queue need not increase along the queue: a thread takes a number before
it appends its command. -/
theorem threads_numbers_fails : ∃ (scripts : Nat → List TCall) (sched : List Nat), (∀ t, NoRun (scripts t)) ∧
    ¬ (((trun (tinit scripts true) sched).commands 0).map (·.cid)).Pairwise (· < ·) := by
  refine ⟨twoThreads, [0, 1, 0, 1, 1, 0, 1, 0, 0, 1, 0, 1, 1, 1] ++ List.replicate 12 0, ?_, by decide +kernel⟩
  intro t q
  match t with
  | 0 => simp [twoThreads]
  | 1 => simp [twoThreads]
  | _ + 2 => simp [twoThreads]

/-- When no queue is active at first, both of two threads may create one: all calls have returned, and the
constructor of the first thread is not in the queue that is active from then on. -/
theorem threads_lost_fails : ∃ (scripts : Nat → List TCall) (sched : List Nat), (∀ t, NoRun (scripts t)) ∧
    let s := trun (tinit scripts false) sched;
    (∀ t, (s.threads t).script.length = (s.threads t).next) ∧ (s.threads 0).returned = [0] ∧
    s.active = some 1 ∧ toldOf 0 (s.commands 1) = [] := by
  refine ⟨fun t => if t < 2 then [.create true] else [],
    [0, 0, 0, 1, 1, 1] ++ List.replicate 8 0 ++ List.replicate 8 1, ?_, ?_, ?_⟩
  · intro t q; dsimp only; split <;> simp
  · intro t
    by_cases h0 : t = 0
    · subst h0; decide +kernel
    · by_cases h1 : t = 1
      · subst h1; decide +kernel
      · rw [trun_other _ _ (by simp [h0, h1])]
        have : ¬ t < 2 := by omega
        simp [tinit, this]
  · decide +kernel

/-- What is lost this way is still in memory: without a thread that runs a queue, and whether a queue is active at
first or not, each constructor or method that has returned is recorded exactly once, though in a queue that may no longer
be the active one, and no queue is read-only. -/
theorem threads_recorded_partial (scripts : Nat → List TCall) (queue : Bool) (sched : List Nat)
    (h : ∀ t, NoRun (scripts t)) :
    let s := trun (tinit scripts queue) sched;
    (∀ q, s.readonly q = false) ∧
    ∀ t, ∀ k ∈ (s.threads t).returned,
      (s.all.filter fun c => !c.inner && c.thread == t && c.call == k).length = 1 := by
  intro s
  have hs : SomeInv s := trun_inv (P := SomeInv) (fun _ _ => some_step) (some_init h queue) sched
  have ho : OnceInv s := trun_inv (P := OnceInv) (fun _ _ => once_step) (once_init scripts queue) sched
  refine ⟨hs.flags, fun t k hk => ?_⟩
  obtain ⟨hk1, hk2⟩ := List.mem_filter.mp hk
  obtain ⟨c, hc, h1, h2, h3⟩ := (hs.thr t).told k (List.mem_range.mp hk1) hk2
  exact one_of_nodup ho.nodup hc h3 h1 h2

/-- The schedule of `threads_lost_fails`, with one queue for each of the two threads. -/
example : (∀ t, NoRun ((fun t => if t < 2 then [.create true] else [] : Nat → List TCall) t)) ∧
    ((trun (tinit (fun t => if t < 2 then [.create true] else []) false)
      ([0, 0, 0, 1, 1, 1] ++ List.replicate 8 0 ++ List.replicate 8 1)).queues.map fun q => q.commands) =
      [[⟨1, 1, 0, 0, false⟩], [⟨2, 2, 1, 0, false⟩]] := by
  refine ⟨?_, by decide +kernel⟩
  intro t q; dsimp only; split <;> simp

/-- Two threads that run the same queue may leave it read-only for good: both have returned, and what is
created then is not recorded. -/
theorem threads_run_fails : ∃ (scripts : Nat → List TCall) (sched : List Nat),
    let s := trun (tinit scripts true) sched;
    (s.threads 0).outside ∧ (s.threads 1).next = (scripts 1).length ∧ s.readonly 0 = true ∧
    (s.threads 0).returned = [0, 2] ∧ toldOf 0 (s.commands 0) = [0] := by
  refine ⟨fun t => if t = 0 then [.create true, .run 0, .create true] else if t = 1 then [.run 0] else [],
    List.replicate 8 0 ++ [0, 0, 1, 0, 1] ++ List.replicate 6 0 ++ List.replicate 7 1 ++ List.replicate 5 0, ?_⟩
  dsimp only
  refine ⟨⟨by decide +kernel, ?_, ?_⟩, by decide +kernel, by decide +kernel, by decide +kernel, by decide +kernel⟩
  · have h : ((trun (tinit (fun t => if t = 0 then [.create true, .run 0, .create true]
        else if t = 1 then [.run 0] else []) true) (List.replicate 8 0 ++ [0, 0, 1, 0, 1] ++
        List.replicate 6 0 ++ List.replicate 7 1 ++ List.replicate 5 0)).threads 0).pc = .start := by decide +kernel
    rw [h]; simp
  · have h : ((trun (tinit (fun t => if t = 0 then [.create true, .run 0, .create true]
        else if t = 1 then [.run 0] else []) true) (List.replicate 8 0 ++ [0, 0, 1, 0, 1] ++
        List.replicate 6 0 ++ List.replicate 7 1 ++ List.replicate 5 0)).threads 0).pc = .start := by decide +kernel
    rw [h]; simp

/-- While a thread runs a queue, what another thread creates is not recorded, even if the first is the only
one that runs queues. -/
theorem threads_meanwhile_fails : ∃ (scripts : Nat → List TCall) (sched : List Nat),
    (∀ t, t ≠ 0 → NoRun (scripts t)) ∧ let s := trun (tinit scripts true) sched;
    s.readonly 0 = false ∧ (s.threads 1).returned = [0] ∧ toldOf 1 (s.commands 0) = [] := by
  refine ⟨fun t => if t = 0 then [.create true, .run 0] else if t = 1 then [.create true] else [],
    List.replicate 11 0 ++ List.replicate 5 1 ++ List.replicate 6 0, ?_, by decide +kernel⟩
  intro t ht q
  dsimp only
  rw [if_neg ht]
  split <;> simp

/-- Two threads that run the same queue: when the first has returned, the second may be appending the
commands it executes to the queue it executes, and never returns, whatever the schedule. -/
theorem threads_endless_fails : ∃ (scripts : Nat → List TCall) (sched : List Nat), scripts 1 = [.run 0] ∧
    ∀ later, ((trun (tinit scripts true) (sched ++ later)).threads 1).next = 0 := by
  let scripts : Nat → List TCall := fun t =>
    if t = 0 then [.create true, .run 0] else if t = 1 then [.run 0] else []
  let sched := List.replicate 10 0 ++ [1, 1, 0, 1] ++ List.replicate 6 0
  refine ⟨scripts, sched, rfl, fun later => ?_⟩
  have e : trun (tinit scripts true) (sched ++ later) = trun (trun (tinit scripts true) sched) later := by
    simp [trun, List.foldl_append]
  rw [e]
  let P : TWorld → Prop := fun s => Endless 1 0 s ∧
    ∀ u, u ≠ 1 → (s.threads u).pc = .start ∧ (s.threads u).script[(s.threads u).next]? = none
  have hP : P (trun (trun (tinit scripts true) sched) later) := by
    refine trun_inv (P := P) ?_ ?_ later
    · intro s t ⟨h1, h2⟩
      by_cases ht : t = 1
      · subst ht
        exact ⟨endless_step h1, fun u hu => by rw [tstep_other s hu]; exact h2 u hu⟩
      · obtain ⟨hp, hs⟩ := h2 t ht
        have : tstep s t = s := by unfold tstep; simp only [hp, hs]
        rw [this]
        exact ⟨h1, h2⟩
    · refine ⟨⟨[⟨1, 1, 0, 0, false⟩], ⟨0, false, 0⟩, by decide +kernel, by decide +kernel, by decide +kernel, rfl,
        by decide, by decide +kernel, .inl (by decide +kernel)⟩, ?_⟩
      intro u hu
      by_cases h0 : u = 0
      · subst h0; exact ⟨by decide +kernel, by decide +kernel⟩
      · have h : (trun (tinit scripts true) sched).threads u = (tinit scripts true).threads u :=
          trun_other _ _ (by simp [sched, h0, hu])
        rw [h]
        simp [tinit, scripts, h0, hu]
  obtain ⟨⟨_, _, -, -, -, -, -, hn, -⟩, -⟩ := hP
  exact hn

/-- When one thread only runs queues, no queue is read-only whenever that thread is outside `run`, for every
schedule. What is missing is several threads that run queues (`threads_run_fails`). -/
theorem threads_writable_partial (scripts : Nat → List TCall) (queue : Bool) (sched : List Nat) (r : Nat)
    (h : ∀ t, t ≠ r → NoRun (scripts t)) :
    let s := trun (tinit scripts queue) sched;
    (s.threads r).outside → ∀ q, s.readonly q = false := by
  intro s ho q
  have hf : FlagInv r s := trun_inv (P := FlagInv r) (fun _ _ => flag_step) (flag_init h queue) sched
  exact hf.quiet ho.1 q

example : (trun (tinit (fun t => if t = 0 then [.create true, .run 0] else if t = 1 then [.create true] else [])
      true) (List.replicate 11 0 ++ List.replicate 5 1)).readonly 0 = true ∧
    (trun (tinit (fun t => if t = 0 then [.create true, .run 0] else if t = 1 then [.create true] else [])
      true) (List.replicate 11 0 ++ List.replicate 5 1 ++ List.replicate 6 0)).readonly 0 = false := by
  decide +kernel

/-- When one thread only runs queues, and a queue is active from the start: a constructor or method of
whichever thread that returns is recorded, if the thread that runs queues was outside `run` from before the
call until it returned. What is missing is calls during `run` (`threads_meanwhile_fails`). -/
theorem threads_between_partial (scripts : Nat → List TCall) (sched later : List Nat) (r t k : Nat)
    (h : ∀ u, u ≠ r → NoRun (scripts u)) (hk : ((scripts t)[k]?).any TCall.recorded = true)
    (hout : ∀ l, l <+: later → ((trun (tinit scripts true) (sched ++ l)).threads r).outside)
    (hbefore : ((trun (tinit scripts true) sched).threads t).pc = .start ∧
      ((trun (tinit scripts true) sched).threads t).next = k)
    (hafter : k < ((trun (tinit scripts true) (sched ++ later)).threads t).next) :
    ∃ c ∈ (trun (tinit scripts true) (sched ++ later)).commands 0,
      c.thread = t ∧ c.call = k ∧ c.inner = false := by
  have key : ∀ l, l <+: later → Pending t k (trun (tinit scripts true) (sched ++ l)) ∨
      Told t k (trun (tinit scripts true) (sched ++ l)) := by
    intro l
    induction l using List.reverseRecOn with
    | nil =>
      intro _
      left
      rw [List.append_nil]
      have hids : IdsInv (trun (tinit scripts true) sched) :=
        trun_inv (P := IdsInv) (fun _ _ => ids_step) (ids_init scripts true) sched
      have hs := trun_script (tinit scripts true) sched t
      refine ⟨?_, hbefore.2, by rw [hs]; exact hk, .inl hbefore.1⟩
      cases hf : ((trun (tinit scripts true) sched).threads t).frame with
      | none => rfl
      | some f =>
        obtain ⟨q, hq⟩ := (hids.thr t).run (.inl (by simp [hf]))
        rw [hbefore.2, hs] at hq
        change (scripts t)[k]? = _ at hq
        rw [hq] at hk
        simp [TCall.recorded] at hk
    | append_singleton l u ih =>
      intro hl
      have hl' : l <+: later := (List.prefix_append l [u]).trans hl
      have e : trun (tinit scripts true) (sched ++ (l ++ [u])) =
          tstep (trun (tinit scripts true) (sched ++ l)) u := by
        simp [trun, List.foldl_append]
      rw [e]
      rcases ih hl' with hp | ht
      · exact pending_step (trun_inv (P := IdsInv) (fun _ _ => ids_step) (ids_init scripts true) _)
          (trun_inv (P := ActInv) (fun _ _ => act_step) (act_init scripts) _)
          (threads_writable_partial scripts true _ r h (hout l hl') 0) hp u
      · exact .inr (told_step ht)
  rcases key later (List.prefix_refl _) with hp | ht
  · rw [hp.2.1] at hafter
    exact absurd hafter (Nat.lt_irrefl _)
  · exact ht

example :
    let scripts : Nat → List TCall := fun t =>
      if t = 0 then [.create true, .run 0] else if t = 1 then [.create true] else [];
    let sched := List.replicate 17 0;
    ((trun (tinit scripts true) sched).threads 0).next = 2 ∧
    ((trun (tinit scripts true) sched).threads 1).pc = .start ∧
    ((trun (tinit scripts true) (sched ++ List.replicate 8 1)).threads 1).next = 1 ∧
    toldOf 1 ((trun (tinit scripts true) (sched ++ List.replicate 8 1)).commands 0) = [0] := by
  decide +kernel

end Verif
