import Verif.Spec.Scene
import Verif.Lemmas.Execute
/-! The effect of replaying creation commands on the registry. -/

namespace Verif

theorem resolveParams_noconv (P : Prog) (w : World) : ∀ (ps acc : Dict String Val),
    (∀ p ∈ ps, ∀ f v, p.2 ≠ Val.conv f v) → (resolveParams P w ps acc).1 = w := by
  intro ps
  induction ps with
  | nil => intro acc _; rfl
  | cons p ps ih =>
    obtain ⟨k, v⟩ := p
    intro acc h
    have ih' := fun acc => ih acc (fun p hp => h p (List.mem_cons_of_mem _ hp))
    have hv := h (k, v) (by simp)
    unfold resolveParams
    split
    · split
      · split
        · exact ih' _
        · rfl
      · split
        · exact ih' _
        · rfl
      · rfl
    · split
      · split
        · exact ih' _
        · rfl
      · rename_i f x; exact absurd rfl (hv f x)
      · exact ih' _

/-- A creation that succeeds. -/
theorem construct_ok {P : Prog} {w w1 : World} {cls args kwargs nc r}
    (h : construct P w cls args kwargs nc = (w1, .ok r)) :
    r = w.heap.length ∧ (∃ o, w1.heap = w.heap ++ [o] ∧ o.id = 1 + (w.oidCounter : Int)) ∧
    w1.oidCounter = w.oidCounter + 1 ∧ w1.objRecord = w.objRecord ∧
    w1.objects = (if w.objRecord then dset w.objects (1 + (w.oidCounter : Int)) w.heap.length
      else w.objects) := by
  unfold construct at h
  split at h
  · simp at h
  · rename_i sg hs
    split at h
    · simp at h
    · rename_i bound hb
      dsimp only at h
      have ho : (newObject w cls).1.heap[w.heap.length]? =
          some (Obj.mk (1 + (w.oidCounter : Int)) cls [] (1 + (w.oidCounter : Int))) := by
        simp [newObject]
      simp only [newObject_ref, ho] at h
      split at h
      · simp at h
      · have hlog : logCall (newObject w cls).1 w.heap.length "__init__" bound =
            { (newObject w cls).1 with heap := w.heap ++ [Obj.mk (1 + (w.oidCounter : Int)) cls
              [("__init__", bound)] (1 + (w.oidCounter : Int))] } := by
          simp only [logCall, ho]
          simp [newObject]
        have hcore := recordCall_sameCore P
          (logCall (newObject w cls).1 w.heap.length "__init__" bound) w.heap.length "__init__"
          sg args kwargs nc
        generalize recordCall P (logCall (newObject w cls).1 w.heap.length "__init__" bound)
          w.heap.length "__init__" sg args kwargs nc = rc at h hcore
        obtain ⟨W, res⟩ := rc
        cases res with
        | error e => simp at h
        | ok u =>
          simp only [Prod.mk.injEq, Except.ok.injEq] at h
          obtain ⟨rfl, rfl⟩ := h
          rw [hlog] at hcore
          exact ⟨rfl, ⟨_, hcore.heap, rfl⟩, hcore.oidCounter, hcore.objRecord, hcore.objects⟩

/-- A replayed creation that succeeds. -/
theorem execute_init {P : Prog} {w w' : World} {c : Cmd} (h : execute P w c = (w', .ok ()))
    (hinit : c.meth = "__init__") (hnc : NoConv c) (hrec : w.objRecord = true) :
    ∃ oid, cmdId c = some oid ∧ w'.oidCounter = w.oidCounter + 1 ∧ w'.objRecord = true ∧
      ∀ k, dget w'.objects k =
        if k = oid then some w.heap.length
        else if k = 1 + (w.oidCounter : Int) then none
        else dget w.objects k := by
  unfold execute at h
  split at h
  · simp at h
  · rename_i idv hid
    split at h
    · simp at h
    · rename_i oid hoid
      refine ⟨oid, by simp [cmdId, hid, hoid], ?_⟩
      have hres := resolveParams_noconv P w (ddel c.params "id") [] (by
        intro p hp f v
        exact hnc p (List.mem_filter.1 hp).1 f v)
      split at h
      · simp at h
      · rename_i w1 ps heq
        rw [heq] at hres
        dsimp only at hres
        subst hres
        rw [hinit, if_neg (by decide), if_pos rfl] at h
        split at h
        · simp at h
        · rename_i cls hcls
          split at h
          · simp at h
          · rename_i w2 r hcons
            obtain ⟨rfl, ⟨o, hheap, ho⟩, hcnt, hor, hobj⟩ := construct_ok hcons
            rw [if_pos hrec] at hobj
            simp only [Prod.mk.injEq, and_true] at h
            subst h
            have hset : setId w2 w1.heap.length oid = { w2 with
                objects := if dhas w2.objects (1 + (w1.oidCounter : Int)) then
                  dset (ddel w2.objects (1 + (w1.oidCounter : Int))) oid w1.heap.length
                  else w2.objects
                heap := w1.heap ++ [{ o with id := oid }] } := by
              simp [setId, hheap, ho]
            have hhas : dhas w2.objects (1 + (w1.oidCounter : Int)) = true := by
              rw [hobj, dhas_iff]; exact ⟨_, dget_dset_self _ _ _⟩
            rw [hset]
            refine ⟨hcnt, hor.trans hrec, ?_⟩
            intro k
            dsimp only
            rw [if_pos hhas]
            simp only [hobj, dget_dset, dget_ddel]
            by_cases hk : oid = k
            · simp [hk]
            · simp only [hk, Ne.symm hk, if_false]
              by_cases hk2 : 1 + (w1.oidCounter : Int) = k
              · simp [hk2]
              · simp [hk2, Ne.symm hk2]

/-- What happens to one registered id while creations are replayed. -/
theorem runCmds_keeps {P : Prog} (k : Int) : ∀ {cs : List Cmd} {w w' : World},
    runCmds P w cs = (w', .ok ()) → (∀ c ∈ cs, c.meth = "__init__") → (∀ c ∈ cs, NoConv c) →
    w.objRecord = true → (∀ c ∈ cs, cmdId c ≠ some k) → (dget w.objects k).isSome = true →
    ((dget w'.objects k).isSome = true ↔
      ∀ j : Nat, j < cs.length → 1 + (w.oidCounter : Int) + j ≠ k) := by
  intro cs
  induction cs with
  | nil =>
    intro w w' h _ _ _ _ hk
    simp only [runCmds, Prod.mk.injEq, and_true] at h
    subst h
    simp [hk]
  | cons c cs ih =>
    intro w w' h hinit hnc hrec hne hk
    unfold runCmds at h
    split at h
    · simp at h
    · rename_i w1 he
      obtain ⟨oid, h1, h2, h3, h4⟩ := execute_init he (hinit c (by simp)) (hnc c (by simp)) hrec
      have hoid : k ≠ oid := by
        intro hh; exact hne c (by simp) (hh ▸ h1)
      by_cases hcol : k = 1 + (w.oidCounter : Int)
      · -- the id is lost now, and never comes back
        have hlost : ∀ {cs : List Cmd} {w w' : World}, runCmds P w cs = (w', .ok ()) →
            (∀ c ∈ cs, c.meth = "__init__") → (∀ c ∈ cs, NoConv c) → w.objRecord = true →
            (∀ c ∈ cs, cmdId c ≠ some k) → dget w.objects k = none →
            dget w'.objects k = none := by
          intro cs
          induction cs with
          | nil =>
            intro w w' h _ _ _ _ hk
            simp only [runCmds, Prod.mk.injEq, and_true] at h
            exact h ▸ hk
          | cons c cs ih2 =>
            intro w w' h hinit hnc hrec hne hk
            unfold runCmds at h
            split at h
            · simp at h
            · rename_i w1 he
              obtain ⟨oid, h1, h2, h3, h4⟩ :=
                execute_init he (hinit c (by simp)) (hnc c (by simp)) hrec
              apply ih2 h (fun c hc => hinit c (List.mem_cons_of_mem _ hc))
                (fun c hc => hnc c (List.mem_cons_of_mem _ hc)) h3
                (fun c hc => hne c (List.mem_cons_of_mem _ hc))
              rw [h4, if_neg (by intro hh; exact hne c (by simp) (hh ▸ h1))]
              split
              · rfl
              · exact hk
        have : dget w'.objects k = none := by
          apply hlost h (fun c hc => hinit c (List.mem_cons_of_mem _ hc))
            (fun c hc => hnc c (List.mem_cons_of_mem _ hc)) h3
            (fun c hc => hne c (List.mem_cons_of_mem _ hc))
          rw [h4, if_neg hoid, if_pos hcol]
        rw [this]
        simp only [Option.isSome_none, Bool.false_eq_true, false_iff]
        intro hall
        have := hall 0 (by simp)
        simp [← hcol] at this
      · have hk1 : (dget w1.objects k).isSome = true := by
          rw [h4, if_neg hoid, if_neg hcol]; exact hk
        rw [ih h (fun c hc => hinit c (List.mem_cons_of_mem _ hc))
          (fun c hc => hnc c (List.mem_cons_of_mem _ hc)) h3
          (fun c hc => hne c (List.mem_cons_of_mem _ hc)) hk1, h2]
        constructor
        · intro hall j hj
          cases j with
          | zero => simpa using Ne.symm hcol
          | succ j =>
            have := hall j (by simpa using hj)
            push_cast at this ⊢
            omega
        · intro hall j hj
          have := hall (j + 1) (by simpa using hj)
          push_cast at this ⊢
          omega

theorem runCmds_append (P : Prog) (cs cs' : List Cmd) (w : World) :
    runCmds P w (cs ++ cs') =
      match runCmds P w cs with
      | (w1, .ok ()) => runCmds P w1 cs'
      | (w1, .error e) => (w1, .error e) := by
  induction cs generalizing w with
  | nil => rfl
  | cons c cs ih =>
    simp only [List.cons_append, runCmds]
    cases h : execute P w c with
    | mk w1 res => cases res with
      | error e => rfl
      | ok u => exact ih w1

theorem runCmds_counter {P : Prog} : ∀ {cs : List Cmd} {w w' : World},
    runCmds P w cs = (w', .ok ()) → (∀ c ∈ cs, c.meth = "__init__") → (∀ c ∈ cs, NoConv c) →
    w.objRecord = true → w'.objRecord = true ∧ w'.oidCounter = w.oidCounter + cs.length := by
  intro cs
  induction cs with
  | nil =>
    intro w w' h _ _ hrec
    simp only [runCmds, Prod.mk.injEq, and_true] at h
    subst h; exact ⟨hrec, rfl⟩
  | cons c cs ih =>
    intro w w' h hinit hnc hrec
    unfold runCmds at h
    split at h
    · simp at h
    · rename_i w1 he
      obtain ⟨oid, h1, h2, h3, h4⟩ := execute_init he (hinit c (by simp)) (hnc c (by simp)) hrec
      obtain ⟨h5, h6⟩ := ih h (fun c hc => hinit c (List.mem_cons_of_mem _ hc))
        (fun c hc => hnc c (List.mem_cons_of_mem _ hc)) h3
      exact ⟨h5, by rw [h6, h2]; simp; omega⟩

end Verif
