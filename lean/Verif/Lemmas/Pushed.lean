import Verif.Lemmas.Session
/-! Preservation of predicates that look at what is pushed. -/

namespace Verif

/-- A predicate kept by every primitive effect of a recorded call; commands are pushed only
for calls that a program makes. -/
structure PushClosed (P : Prog) (I : World → Prop) : Prop where
  newObj : ∀ w cls, I w → I (newObject w cls).1
  log : ∀ w r m b, I w → I (logCall w r m b)
  getq : ∀ w, I w → I (getQueue w none).1
  push : ∀ w q u (r : Nat) (o : Obj) f sg args kwargs b ps, I w → w.active = some q → w.queues[q]? = some u →
    u.readonly = false → w.heap[r]? = some o → P.sig o.cls f = some sg →
    bindArgs sg args kwargs = .ok b →
    checkParams P w sg.annots (collect sg o.id args kwargs) = .ok ps →
    I (pushCmd w q o.cls ((P.override o.cls f).getD f) ps)

/-- The same with the effects of a replay and of the other operations. -/
structure PushStepClosed (P : Prog) (I : World → Prop) : Prop extends PushClosed P I where
  replay : ∀ w r oid, I w → r < w.heap.length →
    I { setId w r oid with objects := dset (setId w r oid).objects oid r }
  queue : ∀ w n, I w → I (getQueue w n).1
  empty : ∀ w q, I w → I (emptyQueue w q)
  readonly : ∀ w q b, I w → I (setQueue w q (fun u => { u with readonly := b }))
  record : ∀ (w : World) b, I w → I { w with recording := b }
  objRecord : ∀ (w : World) b, I w → I { w with objRecord := b }
  setId : ∀ w r id, I w → I (setId w r id)
  reset : ∀ w : World, I w → I { w with objects := [] }
  conv : ∀ (w : World) cs, I w → I { w with converters := cs }

section closed
variable {P : Prog} {I : World → Prop} (H : PushClosed P I)
include H

theorem PushClosed.recordCall {w r f sg args kwargs nc b} (h : I w)
    (hs : ∀ o, w.heap[r]? = some o → P.sig o.cls f = some sg)
    (hb : bindArgs sg args kwargs = .ok b) :
    I (recordCall P w r f sg args kwargs nc).1 := by
  unfold Verif.recordCall
  split
  · exact h
  · dsimp only
    have hq := H.getq w h
    split
    · exact hq
    · rename_i o ho
      split
      · exact hq
      · rename_i ps hps
        split
        · exact hq
        · split
          · rename_i hu hc
            simp only [Bool.and_eq_true, Bool.not_eq_true'] at hc
            refine H.push _ _ _ _ _ _ _ _ _ _ _ hq (getQueue_none_active w) hu hc.2 ho ?_ hb hps
            exact hs o (by rw [getQueue_none_heap] at ho; exact ho)
          · exact hq

omit H in
theorem logCall_cls {w : World} {r : Nat} {f b} {o o' : Obj} (h : w.heap[r]? = some o)
    (h' : (logCall w r f b).heap[r]? = some o') : o'.cls = o.cls := by
  unfold logCall at h'
  rw [h] at h'
  have hlt := (List.getElem?_eq_some_iff.1 h).1
  dsimp only at h'
  rw [List.getElem?_set_self hlt] at h'
  cases h'
  rfl

theorem PushClosed.callMethod {w r f args kwargs nc} (h : I w) :
    I (callMethod P w r f args kwargs nc).1 := by
  unfold Verif.callMethod
  split
  · exact h
  · rename_i o ho
    split
    · exact h
    · rename_i sg hs
      split
      · exact h
      · rename_i b hb
        split
        · exact h
        · refine H.recordCall (H.log _ _ _ _ h) ?_ hb
          intro o' ho'
          rw [logCall_cls ho ho']
          exact hs

theorem PushClosed.construct {w cls args kwargs nc} (h : I w) :
    I (construct P w cls args kwargs nc).1 := by
  unfold Verif.construct
  split
  · exact h
  · rename_i sg hs
    split
    · exact h
    · rename_i b hb
      dsimp only
      have hn := H.newObj w cls h
      split
      · exact hn
      · rename_i o ho
        split
        · exact hn
        · have hcls : o.cls = cls := by
            simp [newObject] at ho
            rw [← ho]
          have hr := H.recordCall (r := (newObject w cls).2) (f := "__init__") (sg := sg)
            (args := args) (kwargs := kwargs) (nc := nc)
            (H.log _ (newObject w cls).2 "__init__" b hn) (by
              intro o' ho'
              rw [logCall_cls ho ho', hcls]
              exact hs) hb
          split
          · rename_i heq; rw [heq] at hr; exact hr
          · rename_i heq; rw [heq] at hr; exact hr

theorem PushClosed.callConv {w f v} (h : I w) : I (callConv P w f v).1 := by
  unfold Verif.callConv
  split
  · exact h
  · rename_i cls kw _
    have hc := H.construct (cls := cls) (args := []) (kwargs := kw v) (nc := false) h
    split <;> (rename_i heq; rw [heq] at hc; exact hc)
  · split <;> exact h

theorem PushClosed.resolveParams : ∀ {ps w acc}, I w → I (resolveParams P w ps acc).1 := by
  intro ps
  induction ps with
  | nil => intro w acc h; exact h
  | cons p ps ih =>
    intro w acc h
    obtain ⟨k, v⟩ := p
    unfold Verif.resolveParams
    split
    · split
      · split
        · exact ih h
        · exact h
      · split
        · exact ih h
        · exact h
      · exact h
    · split
      · split
        · exact ih h
        · exact h
      · rename_i f v
        have hc := H.callConv (f := f) (v := v) h
        split
        · rename_i heq; rw [heq] at hc; exact ih hc
        · rename_i heq; rw [heq] at hc; exact hc
      · exact ih h

end closed

section step
variable {P : Prog} {I : World → Prop} (H : PushStepClosed P I)
include H

theorem PushStepClosed.execute {w c} (h : I w) : I (execute P w c).1 := by
  unfold Verif.execute
  split
  · exact h
  · split
    · exact h
    · have hr := H.toPushClosed.resolveParams (ps := ddel c.params "id") (acc := []) h
      split
      · rename_i heq; rw [heq] at hr; exact hr
      · rename_i oid _ _ w1 ps heq
        rw [heq] at hr
        simp only at hr
        split
        · split <;> exact hr
        · split
          · split
            · exact hr
            · rename_i cls _
              have hc := H.toPushClosed.construct (cls := cls) (args := []) (kwargs := ps)
                (nc := false) hr
              split
              · rename_i heq; rw [heq] at hc; exact hc
              · rename_i heq
                rw [heq] at hc
                exact H.replay _ _ _ hc (construct_lt heq)
          · split
            · exact hr
            · exact H.toPushClosed.callMethod hr

theorem PushStepClosed.runCmds : ∀ {cs w}, I w → I (runCmds P w cs).1 := by
  intro cs
  induction cs with
  | nil => intro w h; exact h
  | cons c cs ih =>
    intro w h
    unfold Verif.runCmds
    have he := H.execute (c := c) h
    split
    · rename_i heq; rw [heq] at he; exact he
    · rename_i heq; rw [heq] at he; exact ih he

theorem PushStepClosed.runQueue {w q} (h : I w) : I (runQueue P w q).1 := by
  unfold Verif.runQueue
  split
  · exact h
  · rename_i u _
    have hr := H.runCmds (cs := u.commands) (H.readonly w q true h)
    split
    · rename_i heq; rw [heq] at hr; exact hr
    · rename_i heq; rw [heq] at hr; exact H.readonly _ _ _ hr

theorem PushStepClosed.step {w op} (h : I w) : I (step P w op).1 := by
  cases op with
  | create cls args kwargs nc =>
    unfold Verif.step
    have hc := H.toPushClosed.construct (cls := cls) (args := args) (kwargs := kwargs)
      (nc := nc) h
    dsimp only
    split <;> (rename_i heq; rw [heq] at hc; exact hc)
  | call r func args kwargs nc => exact H.toPushClosed.callMethod h
  | queue name => exact H.queue _ _ h
  | empty q => exact H.empty _ _ h
  | setReadonly q b => exact H.readonly _ _ _ h
  | record b => exact H.record _ _ h
  | objRecord b => exact H.objRecord _ _ h
  | setId r id => exact H.setId _ _ _ h
  | resetObjects => exact H.reset _ h
  | run q => exact H.runQueue h
  | register src dst f =>
    unfold Verif.step
    dsimp only
    split
    · exact h
    · exact H.conv _ _ h

theorem PushStepClosed.runOps {ops} : ∀ {w}, I w → I (runOps P w ops) := by
  induction ops with
  | nil => intro w h; exact h
  | cons op ops ih => intro w h; exact ih (H.step h)

end step

end Verif
