import Verif.Model.Session
import Verif.Lemmas.Py
/-! Preservation lemmas for the session machine. -/

namespace Verif

/-- A predicate on sessions kept by every primitive effect of a recorded call. -/
structure CallClosed (I : World → Prop) : Prop where
  newObj : ∀ w cls, I w → I (newObject w cls).1
  log : ∀ w r m b, I w → I (logCall w r m b)
  getq : ∀ w, I w → I (getQueue w none).1
  push : ∀ w q u cls meth ps, I w → w.active = some q → w.queues[q]? = some u →
    u.readonly = false → I (pushCmd w q cls meth ps)

/-- A predicate on sessions kept by every primitive effect of recording and replay. -/
structure ExecClosed (I : World → Prop) : Prop extends CallClosed I where
  replay : ∀ w r oid, I w → r < w.heap.length →
    I { setId w r oid with objects := dset (setId w r oid).objects oid r }

theorem getQueue_none_active (w : World) :
    (getQueue w none).1.active = some (getQueue w none).2 := by
  unfold getQueue getQueue.activeOrNew
  cases h : w.active <;> simp [h, newQueue]

@[simp] theorem getQueue_none_heap (w : World) : (getQueue w none).1.heap = w.heap := by
  unfold getQueue getQueue.activeOrNew
  cases h : w.active <;> simp [newQueue]

@[simp] theorem pushCmd_heap (w : World) (q cls meth ps) :
    (pushCmd w q cls meth ps).heap = w.heap := rfl

theorem recordCall_heap (P w r f sg args kwargs nc) :
    (recordCall P w r f sg args kwargs nc).1.heap = w.heap := by
  unfold recordCall
  split
  · rfl
  · dsimp only
    split
    · simp
    · split
      · simp
      · split
        · simp
        · split <;> simp

@[simp] theorem logCall_length (w : World) (r m b) :
    (logCall w r m b).heap.length = w.heap.length := by
  unfold logCall; split <;> simp

@[simp] theorem newObject_length (w : World) (cls) :
    (newObject w cls).1.heap.length = w.heap.length + 1 := by
  simp [newObject]

@[simp] theorem newObject_ref (w : World) (cls) : (newObject w cls).2 = w.heap.length := rfl

theorem construct_lt {P w cls args kwargs nc w' r}
    (h : construct P w cls args kwargs nc = (w', .ok r)) : r < w'.heap.length := by
  unfold construct at h
  split at h
  · simp at h
  · split at h
    · simp at h
    · dsimp only at h
      split at h
      · simp at h
      · split at h
        · simp at h
        · split at h
          · simp at h
          · rename_i w2 heq
            simp only [Prod.mk.injEq, Except.ok.injEq] at h
            obtain ⟨rfl, rfl⟩ := h
            have := recordCall_heap P (logCall (newObject w cls).1 (newObject w cls).2
              "__init__" ‹_›) (newObject w cls).2 "__init__" ‹Sig› args kwargs nc
            rw [heq] at this
            simp only at this
            rw [this]
            simp

section closed
variable {I : World → Prop} (H : CallClosed I)
include H

theorem CallClosed.recordCall {P w r f sg args kwargs nc} (h : I w) :
    I (recordCall P w r f sg args kwargs nc).1 := by
  unfold Verif.recordCall
  split
  · exact h
  · dsimp only
    have hq := H.getq w h
    split
    · exact hq
    · split
      · exact hq
      · split
        · exact hq
        · split
          · rename_i hu hc
            simp only [Bool.and_eq_true, Bool.not_eq_true'] at hc
            exact H.push _ _ _ _ _ _ hq (getQueue_none_active w) hu hc.2
          · exact hq

theorem CallClosed.callMethod {P w r f args kwargs nc} (h : I w) :
    I (callMethod P w r f args kwargs nc).1 := by
  unfold Verif.callMethod
  split
  · exact h
  · split
    · exact h
    · split
      · exact h
      · split
        · exact h
        · exact H.recordCall (H.log _ _ _ _ h)

theorem CallClosed.construct {P w cls args kwargs nc} (h : I w) :
    I (construct P w cls args kwargs nc).1 := by
  unfold Verif.construct
  split
  · exact h
  · split
    · exact h
    · dsimp only
      have hn := H.newObj w cls h
      split
      · exact hn
      · split
        · exact hn
        · rename_i sg _ _ bound _ _ _ _ _ _
          have hr := H.recordCall (P := P) (r := (newObject w cls).2) (f := "__init__") (sg := sg)
            (args := args) (kwargs := kwargs) (nc := nc)
            (H.log _ (newObject w cls).2 "__init__" bound hn)
          split
          · rename_i heq; rw [heq] at hr; exact hr
          · rename_i heq; rw [heq] at hr; exact hr

theorem CallClosed.callConv {P w f v} (h : I w) : I (callConv P w f v).1 := by
  unfold Verif.callConv
  split
  · exact h
  · rename_i cls kw _
    have hc := H.construct (P := P) (cls := cls) (args := []) (kwargs := kw v) (nc := false) h
    split <;> (rename_i heq; rw [heq] at hc; exact hc)
  · split <;> exact h

theorem CallClosed.resolveParams {P} : ∀ {ps w acc}, I w →
    I (resolveParams P w ps acc).1 := by
  intro ps
  induction ps with
  | nil => intro w acc h; exact h
  | cons p ps ih =>
    intro w acc h
    obtain ⟨k, v⟩ := p
    unfold Verif.resolveParams
    split
    · split
      · split
        · exact ih h
        · exact h
      · split
        · exact ih h
        · exact h
      · exact h
    · split
      · split
        · exact ih h
        · exact h
      · rename_i f v
        have hc := H.callConv (P := P) (f := f) (v := v) h
        split
        · rename_i heq; rw [heq] at hc; exact ih hc
        · rename_i heq; rw [heq] at hc; exact hc
      · exact ih h

end closed

section exec
variable {I : World → Prop} (H : ExecClosed I)
include H

theorem ExecClosed.execute {P w c} (h : I w) : I (execute P w c).1 := by
  unfold Verif.execute
  split
  · exact h
  · split
    · exact h
    · have hr := H.toCallClosed.resolveParams (P := P) (ps := ddel c.params "id") (acc := []) h
      split
      · rename_i heq; rw [heq] at hr; exact hr
      · rename_i oid _ _ w1 ps heq
        rw [heq] at hr
        simp only at hr
        split
        · split <;> exact hr
        · split
          · split
            · exact hr
            · rename_i cls _
              have hc := H.toCallClosed.construct (P := P) (cls := cls) (args := []) (kwargs := ps)
                (nc := false) hr
              split
              · rename_i heq; rw [heq] at hc; exact hc
              · rename_i heq
                rw [heq] at hc
                exact H.replay _ _ _ hc (construct_lt heq)
          · split
            · exact hr
            · exact H.toCallClosed.callMethod hr

theorem ExecClosed.runCmds {P} : ∀ {cs w}, I w → I (runCmds P w cs).1 := by
  intro cs
  induction cs with
  | nil => intro w h; exact h
  | cons c cs ih =>
    intro w h
    unfold Verif.runCmds
    have he := H.execute (P := P) (c := c) h
    split
    · rename_i heq; rw [heq] at he; exact he
    · rename_i heq; rw [heq] at he; exact ih he

theorem ExecClosed.runQueue {P w q}
    (hro : ∀ w q b, I w → I (setQueue w q (fun u => { u with readonly := b }))) (h : I w) :
    I (runQueue P w q).1 := by
  unfold Verif.runQueue
  split
  · exact h
  · rename_i u _
    have hr := H.runCmds (P := P) (cs := u.commands) (hro w q true h)
    split
    · rename_i heq; rw [heq] at hr; exact hr
    · rename_i heq; rw [heq] at hr; exact hro _ _ _ hr

end exec

/-- A predicate kept by every operation of a history. -/
structure StepClosed (I : World → Prop) : Prop extends ExecClosed I where
  queue : ∀ w n, I w → I (getQueue w n).1
  empty : ∀ w q, I w → I (emptyQueue w q)
  readonly : ∀ w q b, I w → I (setQueue w q (fun u => { u with readonly := b }))
  record : ∀ (w : World) b, I w → I { w with recording := b }
  objRecord : ∀ (w : World) b, I w → I { w with objRecord := b }
  setId : ∀ w r id, I w → I (setId w r id)
  reset : ∀ w : World, I w → I { w with objects := [] }
  conv : ∀ (w : World) cs, I w → I { w with converters := cs }

theorem StepClosed.step {I : World → Prop} (H : StepClosed I) {P w op} (h : I w) :
    I (step P w op).1 := by
  cases op with
  | create cls args kwargs nc =>
    unfold Verif.step
    have hc := H.toCallClosed.construct (P := P) (cls := cls) (args := args) (kwargs := kwargs)
      (nc := nc) h
    dsimp only
    split <;> (rename_i heq; rw [heq] at hc; exact hc)
  | call r func args kwargs nc => exact H.toCallClosed.callMethod h
  | queue name => exact H.queue _ _ h
  | empty q => exact H.empty _ _ h
  | setReadonly q b => exact H.readonly _ _ _ h
  | record b => exact H.record _ _ h
  | objRecord b => exact H.objRecord _ _ h
  | setId r id => exact H.setId _ _ _ h
  | resetObjects => exact H.reset _ h
  | run q => exact H.toExecClosed.runQueue H.readonly h
  | register src dst f =>
    unfold Verif.step
    dsimp only
    split
    · exact h
    · exact H.conv _ _ h

theorem StepClosed.runOps {I : World → Prop} (H : StepClosed I) {P ops} :
    ∀ {w}, I w → I (runOps P w ops) := by
  induction ops with
  | nil => intro w h; exact h
  | cons op ops ih => intro w h; exact ih (H.step h)

end Verif
