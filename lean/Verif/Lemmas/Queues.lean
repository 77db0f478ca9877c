import Verif.Spec.Session
import Verif.Lemmas.Session
/-! What the primitives of the session do to the queues. -/

namespace Verif

theorem commandsOf_of_getElem {w : World} {q : Nat} {u : Queue} (h : w.queues[q]? = some u) :
    commandsOf w q = u.commands := by simp [commandsOf, h]

theorem commandsOf_setQueue (w : World) (q q' : Nat) (f : Queue → Queue) :
    commandsOf (setQueue w q f) q' =
      if q = q' then (match w.queues[q']? with | some u => (f u).commands | none => [])
      else commandsOf w q' := by
  unfold commandsOf setQueue
  simp only [List.getElem?_modify]
  by_cases h : q = q'
  · subst h
    cases w.queues[q]? <;> simp
  · simp [h]

@[simp] theorem commandsOf_setReadonly (w : World) (q q' : Nat) (b : Bool) :
    commandsOf (setQueue w q (fun u => { u with readonly := b })) q' = commandsOf w q' := by
  rw [commandsOf_setQueue]
  split
  · unfold commandsOf
    cases w.queues[q']? <;> rfl
  · rfl

theorem commandsOf_emptyQueue (w : World) (q q' : Nat) :
    commandsOf (emptyQueue w q) q' = if q = q' then [] else commandsOf w q' := by
  unfold emptyQueue
  rw [commandsOf_setQueue]
  split
  · cases w.queues[q']? <;> rfl
  · rfl

theorem commandsOf_newQueue (w : World) (n : String) (q' : Nat) :
    commandsOf (newQueue w n).1 q' = commandsOf w q' := by
  unfold commandsOf newQueue
  dsimp only
  by_cases h : q' < w.queues.length
  · rw [List.getElem?_append_left h]
  · rw [List.getElem?_append_right (by omega), List.getElem?_eq_none (l := w.queues) (by omega)]
    by_cases h0 : q' - w.queues.length = 0
    · rw [h0]; simp
    · rw [List.getElem?_eq_none (by simp; omega)]

theorem commandsOf_getQueue (w : World) (n : Option String) (q' : Nat) :
    commandsOf (getQueue w n).1 q' = commandsOf w q' := by
  unfold getQueue getQueue.activeOrNew
  split
  · split
    · rfl
    · exact commandsOf_newQueue w _ q'
  · split
    · split
      · rfl
      · exact commandsOf_newQueue w _ q'
    · split
      · rfl
      · exact commandsOf_newQueue w _ q'

theorem commandsOf_pushCmd {w : World} {q : Nat} {u : Queue} (cls meth : String)
    (ps : Dict String Val) (hu : w.queues[q]? = some u) (hr : u.readonly = false) (q' : Nat) :
    commandsOf (pushCmd w q cls meth ps) q' =
      if q = q' then commandsOf w q' ++
        [{ cid := w.cidCounter + 1, cls := cls, meth := meth, params := stripObjs w ps }]
      else commandsOf w q' := by
  unfold pushCmd
  dsimp only
  rw [commandsOf_setQueue]
  split
  · rename_i h
    subst h
    simp only [commandsOf, hu, Queue.push, hr]
    rfl
  · rfl

@[simp] theorem commandsOf_logCall (w : World) (r m b) (q' : Nat) :
    commandsOf (logCall w r m b) q' = commandsOf w q' := by
  unfold logCall; split <;> rfl

@[simp] theorem commandsOf_newObject (w : World) (c) (q' : Nat) :
    commandsOf (newObject w c).1 q' = commandsOf w q' := rfl

@[simp] theorem commandsOf_setId (w : World) (r i) (q' : Nat) :
    commandsOf (setId w r i) q' = commandsOf w q' := by
  unfold setId; split <;> rfl

@[simp] theorem setId_cidCounter (w : World) (r i) :
    (setId w r i).cidCounter = w.cidCounter := by unfold setId; split <;> rfl
@[simp] theorem logCall_cidCounter (w : World) (r m b) :
    (logCall w r m b).cidCounter = w.cidCounter := by unfold logCall; split <;> rfl
@[simp] theorem setId_queues (w : World) (r i) :
    (setId w r i).queues = w.queues := by unfold setId; split <;> rfl
@[simp] theorem logCall_queues (w : World) (r m b) :
    (logCall w r m b).queues = w.queues := by unfold logCall; split <;> rfl
@[simp] theorem setId_active (w : World) (r i) :
    (setId w r i).active = w.active := by unfold setId; split <;> rfl
@[simp] theorem logCall_active (w : World) (r m b) :
    (logCall w r m b).active = w.active := by unfold logCall; split <;> rfl
@[simp] theorem setId_instances (w : World) (r i) :
    (setId w r i).instances = w.instances := by unfold setId; split <;> rfl
@[simp] theorem logCall_instances (w : World) (r m b) :
    (logCall w r m b).instances = w.instances := by unfold logCall; split <;> rfl
@[simp] theorem getQueue_cidCounter (w : World) (n) :
    (getQueue w n).1.cidCounter = w.cidCounter := by
  unfold getQueue getQueue.activeOrNew newQueue
  split
  · split <;> rfl
  · split
    · split <;> rfl
    · split <;> rfl

/-! ### Command ids -/

/-- Ids are bounded by the counter, increasing in each queue, disjoint across queues. -/
structure CidInv (w : World) : Prop where
  bound : ∀ q c, c ∈ commandsOf w q → c.cid ≤ w.cidCounter
  sorted : ∀ q, (commandsOf w q).Pairwise (fun a b => a.cid < b.cid)
  disj : ∀ q q' c c', q ≠ q' → c ∈ commandsOf w q → c' ∈ commandsOf w q' → c.cid ≠ c'.cid

theorem CidInv.congr {w w' : World} (h : CidInv w) (hc : ∀ q, commandsOf w' q = commandsOf w q)
    (hn : w'.cidCounter = w.cidCounter) : CidInv w' where
  bound := by intro q c; rw [hc, hn]; exact h.bound q c
  sorted := by intro q; rw [hc]; exact h.sorted q
  disj := by intro q q' c c'; rw [hc, hc]; exact h.disj q q' c c'

theorem cidInv_closed : StepClosed CidInv where
  newObj := fun w cls h => h.congr (fun q => by simp) rfl
  log := fun w r m b h => h.congr (fun q => by simp) (by simp)
  getq := fun w h => h.congr (fun q => commandsOf_getQueue w none q) (by simp)
  push := by
    intro w q u cls meth ps h _ hu hr
    have hp := commandsOf_pushCmd cls meth ps hu hr
    have hcc : (pushCmd w q cls meth ps).cidCounter = w.cidCounter + 1 := rfl
    refine ⟨?_, ?_, ?_⟩
    · intro q' c hc
      rw [hp] at hc
      rw [hcc]
      split at hc
      · rcases List.mem_append.1 hc with hc | hc
        · have := h.bound _ _ hc; omega
        · simp only [List.mem_singleton] at hc; subst hc; exact Nat.le_refl _
      · have := h.bound _ _ hc; omega
    · intro q'
      rw [hp]
      split
      · rw [List.pairwise_append]
        refine ⟨h.sorted _, by simp, ?_⟩
        intro a ha b hb
        simp only [List.mem_singleton] at hb
        subst hb
        have := h.bound _ _ ha
        show a.cid < w.cidCounter + 1
        omega
      · exact h.sorted _
    · intro q1 q2 c c' hne hc hc'
      rw [hp] at hc hc'
      have hlt : ∀ q c, c ∈ commandsOf w q → c.cid < w.cidCounter + 1 := by
        intro q c hc
        have := h.bound _ _ hc
        omega
      split at hc
      · split at hc'
        · omega
        · rcases List.mem_append.1 hc with hc | hc
          · exact h.disj _ _ _ _ hne hc hc'
          · simp only [List.mem_singleton] at hc
            subst hc
            have := hlt _ _ hc'
            show w.cidCounter + 1 ≠ c'.cid
            omega
      · split at hc'
        · rcases List.mem_append.1 hc' with hc' | hc'
          · exact h.disj _ _ _ _ hne hc hc'
          · simp only [List.mem_singleton] at hc'
            subst hc'
            have := hlt _ _ hc
            show c.cid ≠ w.cidCounter + 1
            omega
        · exact h.disj _ _ _ _ hne hc hc'
  replay := fun w r oid h _ => h.congr (fun q => by
    show commandsOf (setId w r oid) q = _
    simp) (by simp)
  queue := fun w n h => h.congr (fun q => commandsOf_getQueue w n q) (by simp)
  empty := by
    intro w q h
    have he := commandsOf_emptyQueue w q
    refine ⟨?_, ?_, ?_⟩
    · intro q' c hc
      rw [he] at hc
      split at hc
      · simp at hc
      · exact h.bound _ _ hc
    · intro q'
      rw [he]
      split
      · simp
      · exact h.sorted _
    · intro q1 q2 c c' hne hc hc'
      rw [he] at hc hc'
      split at hc
      · simp at hc
      · split at hc'
        · simp at hc'
        · exact h.disj _ _ _ _ hne hc hc'
  readonly := fun w q b h => h.congr (fun q => by simp) rfl
  record := fun w b h => h.congr (fun _ => rfl) rfl
  objRecord := fun w b h => h.congr (fun _ => rfl) rfl
  setId := fun w r id h => h.congr (fun q => by simp) (by simp)
  reset := fun w h => h.congr (fun _ => rfl) rfl
  conv := fun w cs h => h.congr (fun _ => rfl) rfl

/-! ### Queue names -/

/-- A name that is known stays known as the same queue. -/
theorem named_closed (n : String) (q : Nat) :
    StepClosed (fun w => dget w.instances n = some q) where
  newObj := fun w cls h => h
  log := fun w r m b h => by simpa using h
  getq := by
    intro w h
    unfold getQueue getQueue.activeOrNew
    cases w.active <;> exact h
  push := fun w q u cls meth ps h _ _ _ => h
  replay := fun w r oid h _ => by simpa using h
  queue := by
    intro w m h
    unfold getQueue getQueue.activeOrNew newQueue
    split
    · split <;> exact h
    · split
      · split <;> exact h
      · split
        · exact h
        · rename_i k _ _ hk
          rw [dget_dset_ne]
          · exact h
          · rintro rfl
            rw [h] at hk
            cases hk
  empty := fun w q h => h
  readonly := fun w q b h => h
  record := fun w b h => h
  objRecord := fun w b h => h
  setId := fun w r id h => by simpa using h
  reset := fun w h => h
  conv := fun w cs h => h

/-- Named queues exist, are pairwise distinct and carry their names; the active queue exists. -/
structure NamesInv (w : World) : Prop where
  valid : ∀ n q, dget w.instances n = some q → ∃ u, w.queues[q]? = some u ∧ u.name = n
  active : ∀ q, w.active = some q → q < w.queues.length

theorem NamesInv.setQueue {w : World} (h : NamesInv w) (q : Nat) (f : Queue → Queue)
    (hf : ∀ u, (f u).name = u.name) : NamesInv (setQueue w q f) where
  valid := by
    intro n q' hq'
    obtain ⟨u, hu, hn⟩ := h.valid n q' hq'
    simp only [Verif.setQueue, List.getElem?_modify, hu]
    by_cases hqq : q = q'
    · exact ⟨f u, by simp [hqq], by rw [hf, hn]⟩
    · exact ⟨u, by simp [hqq], hn⟩
  active := by
    intro q' hq'
    simpa [Verif.setQueue] using h.active q' hq'

theorem NamesInv.newQueue {w : World} (h : NamesInv w) (n : String) :
    NamesInv (newQueue w n).1 where
  valid := by
    intro m q hq
    obtain ⟨u, hu, hn⟩ := h.valid m q hq
    exact ⟨u, by
      simp only [Verif.newQueue]
      rw [List.getElem?_append_left (List.getElem?_eq_some_iff.1 hu).1]
      exact hu, hn⟩
  active := by
    intro q hq
    simp only [Verif.newQueue, Option.some.injEq] at hq ⊢
    simp; omega

theorem NamesInv.getQueue {w : World} (h : NamesInv w) (n : Option String) :
    NamesInv (getQueue w n).1 := by
  unfold Verif.getQueue Verif.getQueue.activeOrNew
  split
  · split
    · exact h
    · exact h.newQueue _
  · split
    · split
      · exact h
      · exact h.newQueue _
    · split
      · exact h
      · rename_i k _ _ hk
        have hn := h.newQueue k
        refine ⟨?_, hn.active⟩
        intro m q hq
        dsimp only at hq
        rw [dget_dset] at hq
        split at hq
        · rename_i hmk
          cases hq
          exact ⟨{ name := k, readonly := false, commands := [] }, by simp [Verif.newQueue], hmk⟩
        · exact hn.valid m q hq

theorem namesInv_closed : StepClosed NamesInv where
  newObj := fun w cls h => ⟨h.valid, h.active⟩
  log := fun w r m b h => ⟨by simpa using h.valid, by simpa using h.active⟩
  getq := fun w h => h.getQueue none
  push := fun w q u cls meth ps h _ _ _ => by
    have := (NamesInv.setQueue (w := { w with cidCounter := w.cidCounter + 1 })
      ⟨h.valid, h.active⟩ q (fun u => (u.push
        { cid := w.cidCounter + 1, cls := cls, meth := meth, params := stripObjs w ps }).1)
      (by intro u; unfold Queue.push; split <;> rfl))
    exact this
  replay := fun w r oid h _ => ⟨by simpa using h.valid, by simpa using h.active⟩
  queue := fun w n h => h.getQueue n
  empty := fun w q h => h.setQueue q _ (fun _ => rfl)
  readonly := fun w q b h => h.setQueue q _ (fun _ => rfl)
  record := fun w b h => ⟨h.valid, h.active⟩
  objRecord := fun w b h => ⟨h.valid, h.active⟩
  setId := fun w r id h => ⟨by simpa using h.valid, by simpa using h.active⟩
  reset := fun w h => ⟨h.valid, h.active⟩
  conv := fun w cs h => ⟨h.valid, h.active⟩

/-! ### Replay -/

/-- While queue `q` runs with the active queue `a`. -/
structure RunInv (w : World) (q a : Nat) (w' : World) : Prop where
  active : w'.active = some a
  readonly : ∃ u, w'.queues[q]? = some u ∧ u.readonly = true
  same : ∀ q', q' ≠ a ∨ q' = q → commandsOf w' q' = commandsOf w q'
  pre : ∀ q', ∃ l, commandsOf w' q' = commandsOf w q' ++ l

theorem getQueue_none_of_active {w : World} {a : Nat} (h : w.active = some a) :
    getQueue w none = (w, a) := by
  simp [getQueue, getQueue.activeOrNew, h]

theorem runInv_closed (w : World) (q a : Nat) : ExecClosed (RunInv w q a) where
  newObj := fun w' cls h => ⟨h.active, h.readonly, h.same, h.pre⟩
  log := fun w' r m b h =>
    ⟨by simpa using h.active, by simpa using h.readonly, by simpa using h.same,
      by simpa using h.pre⟩
  getq := by
    intro w' h
    rw [getQueue_none_of_active h.active]
    exact h
  push := by
    intro w' q' u cls meth ps h hact hu hr
    have hq' : q' = a := by
      have := h.active
      rw [hact] at this
      exact Option.some.inj this
    subst hq'
    have hne : q' ≠ q := by
      rintro rfl
      obtain ⟨u', hu', hr'⟩ := h.readonly
      rw [hu] at hu'
      cases hu'
      rw [hr] at hr'
      cases hr'
    have hp := commandsOf_pushCmd cls meth ps hu hr
    refine ⟨h.active, ?_, ?_, ?_⟩
    · obtain ⟨v, hv, hvr⟩ := h.readonly
      refine ⟨v, ?_, hvr⟩
      simp only [pushCmd, setQueue, List.getElem?_modify, hv]
      simp [hne]
    · intro q2 hq2
      rw [hp, if_neg (by rintro rfl; rcases hq2 with h | h <;> simp_all)]
      exact h.same q2 hq2
    · intro q2
      obtain ⟨l, hl⟩ := h.pre q2
      rw [hp, hl]
      split
      · exact ⟨_, by rw [List.append_assoc]⟩
      · exact ⟨l, rfl⟩
  replay := fun w' r oid h _ =>
    ⟨by simpa using h.active, by simpa using h.readonly,
      fun q' hq' => by
        show commandsOf (setId w' r oid) q' = _
        simpa using h.same q' hq',
      fun q' => by
        show ∃ l, commandsOf (setId w' r oid) q' = _
        simpa using h.pre q'⟩

/-- While the active queue runs, no queue changes at all. -/
theorem runActive_closed (q : Nat) (qs : List Queue) (u : Queue) (hu : qs[q]? = some u)
    (hr : u.readonly = true) : ExecClosed (fun w' => w'.active = some q ∧ w'.queues = qs) where
  newObj := fun w' cls h => h
  log := fun w' r m b h => by simpa using h
  getq := by
    intro w' h
    rw [getQueue_none_of_active h.1]
    exact h
  push := by
    intro w' q' u' cls meth ps h hact hu' hr'
    have hq' : q' = q := by
      have := h.1
      rw [hact] at this
      exact Option.some.inj this
    subst hq'
    rw [h.2, hu] at hu'
    cases hu'
    rw [hr] at hr'
    cases hr'
  replay := fun w' r oid h _ => by simpa using h

end Verif
