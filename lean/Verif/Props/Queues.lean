import Verif.Spec.Session
import Verif.Lemmas.Queues
/-! # C05, C06, C07: command ids, queue names, replay of a queue -/

namespace Verif

/-! ## C05 -/

/-- C05. After any history, command ids strictly increase along every queue. -/
theorem command_ids_increase (P : Prog) (ops : List Op) (q : Nat) :
    (commandsOf (runOps P World.fresh ops) q).Pairwise (fun a b => a.cid < b.cid) :=
  (cidInv_closed.runOps (w := World.fresh)
    ⟨by intro q c hc; simp [commandsOf, World.fresh] at hc,
     by intro q; simp [commandsOf, World.fresh],
     by intro q q' c c' _ hc; simp [commandsOf, World.fresh] at hc⟩).sorted q

/-- C05. After any history, two commands of the session (in the same queue at different
places, or in different queues) have different ids. -/
theorem command_ids_unique (P : Prog) (ops : List Op) (q q' i j : Nat) (c c' : Cmd)
    (hc : (commandsOf (runOps P World.fresh ops) q)[i]? = some c)
    (hc' : (commandsOf (runOps P World.fresh ops) q')[j]? = some c')
    (hid : c.cid = c'.cid) : q = q' ∧ i = j := by
  have hinv : CidInv (runOps P World.fresh ops) := cidInv_closed.runOps (w := World.fresh)
    ⟨by intro q c hc; simp [commandsOf, World.fresh] at hc,
     by intro q; simp [commandsOf, World.fresh],
     by intro q q' c c' _ hc; simp [commandsOf, World.fresh] at hc⟩
  by_cases hq : q = q'
  · subst hq
    refine ⟨rfl, ?_⟩
    have hs := List.pairwise_iff_getElem.1 (hinv.sorted q)
    obtain ⟨hi, rfl⟩ := List.getElem?_eq_some_iff.1 hc
    obtain ⟨hj, rfl⟩ := List.getElem?_eq_some_iff.1 hc'
    rcases Nat.lt_trichotomy i j with h | h | h
    · have := hs i j hi hj h; omega
    · exact h
    · have := hs j i hj hi h; omega
  · exact absurd hid (hinv.disj _ _ _ _ hq (List.mem_of_getElem? hc) (List.mem_of_getElem? hc'))

/-- Two queues filled in turn. -/
example :
    let w := runOps demo World.fresh
      [.queue (some "a"), .create "Foo" [.int 1] [] false, .queue (some "b"),
       .create "Foo" [.int 2] [] false, .call 0 "set_value" [.int 3] [] false]
    (commandsOf w 0).map Cmd.cid = [1] ∧ (commandsOf w 1).map Cmd.cid = [2, 3] := by decide

/-! ## C06 -/

/-- The full claim of C06 on queue identity: a queue that presents itself under a name is
the one returned for that name. -/
def NameDenotesQueue (P : Prog) : Prop :=
  ∀ ops q u, (runOps P World.fresh ops).queues[q]? = some u →
    (getQueue (runOps P World.fresh ops) (some u.name)).2 = q

/-- C06 fails: the queue created on demand by `queue("active")` calls itself "default", but
`queue("default")` creates another queue, which takes over as the active one. -/
theorem name_denotes_queue_fails : ¬ NameDenotesQueue demo := by
  intro h
  have := h [.queue (some "active")] 0 ⟨"default", false, []⟩ (by decide)
  exact absurd this (by decide)

/-- C06 (part). Asking for a queue by name, doing anything, and asking again for the same
name returns the same queue. Missing: the queue made by `queue("active")`, see
`name_denotes_queue_fails`. -/
theorem queue_name_stable_partial (P : Prog) (w : World) (n : String) (hn : n ≠ "active")
    (ops : List Op) :
    (getQueue (runOps P (getQueue w (some n)).1 ops) (some n)).2 = (getQueue w (some n)).2 := by
  have h0 : dget (getQueue w (some n)).1.instances n = some (getQueue w (some n)).2 := by
    simp only [getQueue, hn, if_false]
    split
    · assumption
    · simp
  have h1 := (named_closed n _).runOps (P := P) (ops := ops) h0
  rw [getQueue, if_neg hn]
  simp only [h1]

example : "scene" ≠ "active" ∧
    (getQueue (runOps demo (getQueue World.fresh (some "scene")).1
      [.queue none, .queue (some "b"), .empty 0, .create "Foo" [.int 1] [] false])
      (some "scene")).2 = 0 := by decide

/-- C06. After any history, a queue requested by name carries that name, so different
names give different queues. -/
theorem queue_has_its_name (P : Prog) (ops : List Op) (n : String) (hn : n ≠ "active") :
    ∃ u, (getQueue (runOps P World.fresh ops) (some n)).1.queues[
      (getQueue (runOps P World.fresh ops) (some n)).2]? = some u ∧ u.name = n := by
  have hinv : NamesInv (runOps P World.fresh ops) := namesInv_closed.runOps (w := World.fresh)
    ⟨by intro n q h; simp [World.fresh] at h, by intro q h; simp [World.fresh] at h⟩
  have h0 : dget (getQueue (runOps P World.fresh ops) (some n)).1.instances n
      = some (getQueue (runOps P World.fresh ops) (some n)).2 := by
    simp only [getQueue, hn, if_false]
    split
    · assumption
    · simp
  exact (hinv.getQueue (some n)).valid n _ h0

example : ((getQueue (runOps demo World.fresh [.queue (some "a")]) (some "b")).1.queues.map
    Queue.name) = ["a", "b"] := by decide

/-- C06. A queue that did not exist becomes the active one, is new and empty; all the
others are untouched. -/
theorem new_queue_becomes_active (w : World) (n : String) (hn : n ≠ "active")
    (h : dget w.instances n = none) :
    (getQueue w (some n)).1.active = some (getQueue w (some n)).2 ∧
    (getQueue w (some n)).2 = w.queues.length ∧
    (getQueue w (some n)).1.queues =
      w.queues ++ [{ name := n, readonly := false, commands := [] }] := by
  simp [getQueue, hn, h, newQueue]

example : dget (runOps demo World.fresh [.queue (some "a")]).instances "b" = none := by decide

/-- C06. Asking for an existing queue changes nothing, in particular not the active one. -/
theorem known_queue_changes_nothing (w : World) (n : String) (hn : n ≠ "active") (q : Nat)
    (h : dget w.instances n = some q) : getQueue w (some n) = (w, q) := by
  simp [getQueue, hn, h]

example : (getQueue (runOps demo World.fresh [.queue (some "a"), .queue (some "b")])
    (some "a")).1.active = some 1 := by decide

/-- C06. `"active"` and `None` give the active queue and change nothing when there is one. -/
theorem active_returns_active (w : World) (q : Nat) (h : w.active = some q) :
    getQueue w (some "active") = (w, q) ∧ getQueue w none = (w, q) := by
  simp [getQueue, getQueue.activeOrNew, h]

example : (runOps demo World.fresh [.queue (some "a")]).active = some 0 := by decide

/-! ## C07 -/

/-- The full claim of C07: running the active queue leaves all queues as they were. -/
def RunKeepsQueues (P : Prog) : Prop :=
  ∀ ops q, (runOps P World.fresh ops).active = some q →
    (runQueue P (runOps P World.fresh ops) q).1.queues = (runOps P World.fresh ops).queues

/-- C07 fails: a command that raises (here the replay of a dotted creation command) leaves
the queue read-only, and later calls are silently not recorded. -/
theorem run_keeps_queues_fails : ¬ RunKeepsQueues demo := by
  intro h
  have := h [.create "Canvas" [.int 1, .int 2] [] false] 0 (by decide)
  exact absurd this (by decide)

/-- C07 (part). If no command raises, running the active queue leaves every queue exactly
as it was, read-only flags included. Missing: the case of an exception, where only the
flag of the queue is wrong (`run_raising_active_queue`). -/
theorem run_active_queue_partial (P : Prog) (w w' : World) (q : Nat) (ha : w.active = some q)
    (h : runQueue P w q = (w', .ok ())) : w'.queues = w.queues ∧ w'.active = w.active := by
  unfold runQueue at h
  split at h
  · simp at h
  · rename_i u hu
    have hclosed := runActive_closed q (w.queues.modify q (fun u => { u with readonly := true }))
      { u with readonly := true } (by simp [hu]) rfl
    have hr := hclosed.runCmds (P := P) (cs := u.commands)
      (w := setQueue w q (fun u => { u with readonly := true })) ⟨ha, rfl⟩
    split at h
    · simp at h
    · rename_i w1 heq
      rw [heq] at hr
      dsimp only at hr
      simp only [Prod.mk.injEq, and_true] at h
      subst h
      refine ⟨?_, by simp only [setQueue]; rw [hr.1, ha]⟩
      simp only [setQueue, hr.2]
      apply List.ext_getElem?
      intro i
      simp only [List.getElem?_modify]
      by_cases hi : q = i
      · subst hi; simp [hu]
      · simp [hi]

example :
    let w := runOps demo World.fresh
      [.create "Foo" [.int 1] [] false, .call 0 "set_value" [.int 3] [] false]
    w.active = some 0 ∧ (runQueue demo w 0).2 = .ok () ∧
      (runQueue demo w 0).1.heap.length = 2 := by decide

/-- C07. If a command raises, the commands of every queue are still unchanged, but the
queue that was run stays read-only. -/
theorem run_raising_active_queue (P : Prog) (w w' : World) (q : Nat) (e : Err) (u : Queue)
    (ha : w.active = some q) (hu : w.queues[q]? = some u)
    (h : runQueue P w q = (w', .error e)) :
    w'.queues = w.queues.set q { u with readonly := true } := by
  unfold runQueue at h
  simp only [hu] at h
  have hclosed := runActive_closed q (w.queues.modify q (fun u => { u with readonly := true }))
    { u with readonly := true } (by simp [hu]) rfl
  have hr := hclosed.runCmds (P := P) (cs := u.commands)
    (w := setQueue w q (fun u => { u with readonly := true })) ⟨ha, rfl⟩
  split at h
  · rename_i w1 e1 heq
    rw [heq] at hr
    dsimp only at hr
    simp only [Prod.mk.injEq] at h
    obtain ⟨rfl, _⟩ := h
    rw [hr.2]
    apply List.ext_getElem?
    intro i
    simp only [List.getElem?_modify, List.getElem?_set]
    have hq := (List.getElem?_eq_some_iff.1 hu).1
    by_cases hi : q = i
    · subst hi; rw [hu, if_pos rfl, if_pos hq]; simp
    · simp [hi]
  · simp at h

example :
    let w := runOps demo World.fresh [.create "Canvas" [.int 1, .int 2] [] false]
    w.active = some 0 ∧ (runQueue demo w 0).2 = .error .typeError := by decide

/-- C07. Running any queue, active or not, raising or not, never changes its own commands
nor those of an inactive queue; the active queue, when it is another one, only grows. -/
theorem run_other_queue (P : Prog) (w : World) (q a : Nat) (ha : w.active = some a)
    (hq : q < w.queues.length) :
    (∀ q', q' = q ∨ q' ≠ a → commandsOf (runQueue P w q).1 q' = commandsOf w q') ∧
    ∃ l, commandsOf (runQueue P w q).1 a = commandsOf w a ++ l := by
  have hu : w.queues[q]? = some w.queues[q] := List.getElem?_eq_getElem hq
  have hr := (runInv_closed w q a).runCmds (P := P) (cs := w.queues[q].commands)
    (w := setQueue w q (fun u => { u with readonly := true }))
    ⟨ha, ⟨{ w.queues[q] with readonly := true }, by simp [setQueue, hu], rfl⟩,
      by intro q' _; simp, by intro q'; exact ⟨[], by simp⟩⟩
  unfold runQueue
  simp only [hu]
  split
  · rename_i heq
    rw [heq] at hr
    exact ⟨fun q' h => hr.same q' (h.symm), hr.pre a⟩
  · rename_i heq
    rw [heq] at hr
    refine ⟨fun q' h => ?_, ?_⟩
    · rw [commandsOf_setReadonly]; exact hr.same q' h.symm
    · rw [commandsOf_setReadonly]; exact hr.pre a

/-- Running queue 0 while queue 1 is active copies the replayed calls into queue 1. -/
example :
    let w := runOps demo World.fresh [.create "Foo" [.int 1] [] false, .queue (some "b")]
    w.active = some 1 ∧ (commandsOf (runQueue demo w 0).1 1).length = 1 ∧
      (commandsOf w 1).length = 0 := by decide

end Verif
