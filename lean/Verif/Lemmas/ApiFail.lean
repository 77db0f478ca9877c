import Verif.Lemmas.Accepted
import Verif.Lemmas.Transfer
/-! Commands that never run, and the files that hold them. -/

namespace Verif

/-- A queue with a command that always raises never runs to its end. -/
theorem runCmds_fails {P : Prog} {I : World → Prop} (hI : ExecClosed I) {c : Cmd}
    (hc : ∀ w, I w → (execute P w c).2 ≠ .ok ()) : ∀ {cmds : List Cmd} {w : World}, I w →
    c ∈ cmds → (runCmds P w cmds).2 ≠ .ok () := by
  intro cmds
  induction cmds with
  | nil => intro w _ h; cases h
  | cons d cmds ih =>
    intro w hw hmem
    have hx := hI.execute (P := P) (c := d) hw
    unfold runCmds
    cases he : execute P w d with
    | mk w' res =>
      cases res with
      | error e => intro h; cases h
      | ok u =>
        rw [he] at hx
        dsimp only
        rcases List.mem_cons.1 hmem with rfl | h
        · exact absurd (by rw [he]) (hc w hw)
        · exact ih hx h

theorem runQueue_fails {P : Prog} {I : World → Prop} (hI : ExecClosed I)
    (hset : ∀ w q f, I w → I (setQueue w q f)) {c : Cmd}
    (hc : ∀ w, I w → (execute P w c).2 ≠ .ok ()) {w : World} {q : Nat} (hw : I w)
    (hmem : c ∈ commandsOf w q) : (runQueue P w q).2 ≠ .ok () := by
  unfold runQueue
  cases hq : w.queues[q]? with
  | none => intro h; cases h
  | some u =>
    have hmem : c ∈ u.commands := by simpa [commandsOf, hq] using hmem
    have := runCmds_fails hI hc (hset w q (fun u => { u with readonly := true }) hw) hmem
    dsimp only
    generalize runCmds P (setQueue w q (fun u => { u with readonly := true })) u.commands = res at *
    obtain ⟨w', res⟩ := res
    cases res with
    | error e => intro h; cases h
    | ok _ => exact absurd rfl this

theorem true_closed : ExecClosed (fun _ => True) :=
  ⟨⟨fun _ _ _ => trivial, fun _ _ _ _ _ => trivial, fun _ _ => trivial,
    fun _ _ _ _ _ _ _ _ _ _ => trivial⟩, fun _ _ _ _ _ => trivial⟩

/-- The recording switch and the converters during a replay. -/
theorem settings_closed (cs : Dict (String × String) Nat) :
    ExecClosed (fun w => w.recording = true ∧ w.converters = cs) where
  newObj := fun _ _ h => h
  log := by
    intro w r m b h
    unfold logCall
    split <;> exact h
  getq := by
    intro w h
    unfold getQueue getQueue.activeOrNew
    cases w.active <;> exact h
  push := fun _ _ _ _ _ _ h _ _ _ => h
  replay := by
    intro w r oid h _
    unfold setId
    split <;> exact h

theorem execute_unresolved {P : Prog} {w : World} {c : Cmd} (hm : c.meth = "__init__")
    (hr : P.resolve c.cls = none) : (execute P w c).2 ≠ .ok () := by
  intro h
  unfold execute at h
  split at h
  · cases h
  · split at h
    · cases h
    · split at h
      · cases h
      · split at h
        · split at h <;> cases h
        · rw [hr] at h
          cases h

/-- Loading that succeeds: what the queue holds. -/
theorem loadLoop_ok_good {q : Nat} : ∀ {js : List JCmd} {w w' : World},
    loadLoop w q js = (w', .ok ()) → ∀ j ∈ js, j.Good := by
  intro js
  induction js with
  | nil => intro w w' _ j hj; cases hj
  | cons c js ih =>
    intro w w' h
    unfold loadLoop at h
    cases hm : c.method with
    | none => rw [hm] at h; cases h
    | some m =>
      rw [hm] at h
      dsimp only at h
      cases hp : c.params with
      | none => rw [hp] at h; cases h
      | some ps =>
        rw [hp] at h
        dsimp only at h
        split at h
        · rename_i hid
          intro j hj
          rcases List.mem_cons.1 hj with rfl | hj
          · exact ⟨m, ps, hm, hp, hid⟩
          · exact ih h j hj
        · cases h

theorem gspLoad_ok_commands {w w3 : World} {name format f} (hwr : w.Writable)
    (h : gspLoad w name format f = (w3, .ok ())) :
    ∃ js n, f = .doc js ∧ w3.active = some (activeIx w) ∧ w3.recording = w.recording ∧
      w3.converters = w.converters ∧
      commandsOf w3 (activeIx w) = js.mapIdx (fun i j => loadedCmd (n + i) j) := by
  have hdef : gspLoad w name format f = if formatOf format name = "json" then
      loadQueue (gspLoadStart w) f none else (gspLoadStart w, .error .valueError) := rfl
  rw [hdef] at h
  split at h
  · cases f with
    | doc js =>
      obtain ⟨hls, _⟩ := gspLoad_prefix w
      obtain ⟨u3, hu3, hr3⟩ := gspLoadStart_queue hwr
      have hqe : (emptyQueue (gspLoadStart w) (activeIx w)).queues[activeIx w]? =
          some (Queue.mk u3.name u3.readonly []) := by
        simp [emptyQueue, setQueue, hu3]
      unfold loadQueue at h
      dsimp only at h
      rw [pickQueue_designates (q := activeIx w) (Or.inr ⟨hls.active, Or.inl rfl⟩)] at h
      dsimp only at h
      obtain ⟨w4, a1, a2, _, _, a5⟩ := loadLoop_good (loadLoop_ok_good h) hqe hr3
      rw [h] at a1
      cases a1
      refine ⟨js, (emptyQueue (gspLoadStart w) (activeIx w)).cidCounter + 1, rfl, a5.active.trans hls.active, a5.recording.trans hls.recording,
        a5.converters.trans hls.converters, ?_⟩
      simp only [commandsOf, a2, List.nil_append]
    | _ => cases h
  · cases h

/-- What remains of a name with the suffix `(id)`. -/
theorem dropId_suffix {k : String} (h : endsWithId k = true) : k = dropId k ++ "(id)" := by
  unfold endsWithId at h
  rw [List.isSuffixOf_iff_suffix] at h
  obtain ⟨t, ht⟩ := h
  have hk : k = String.ofList t ++ "(id)" := by
    rw [← String.ofList_toList (s := k), ← ht, String.ofList_append]
  rw [hk, dropId_append]

/-- A value that is given under its own name only, and is neither a delayed conversion nor
an identifier, is what the call gets. -/
theorem resolveParams_keeps {P : Prog} {k : String} {v : Val} (hke : endsWithId k = false)
    (hv : (∀ n, v ≠ .oid n) ∧ ∀ f x, v ≠ .conv f x) :
    ∀ {ps : Dict String Val} {w w' : World} {acc out : Dict String Val},
    resolveParams P w ps acc = (w', .ok out) → (∀ p ∈ ps, target p.1 = k → p = (k, v)) →
    (dget acc k = some v ∨ (k, v) ∈ ps) → dget out k = some v := by
  intro ps
  induction ps with
  | nil =>
    intro w w' acc out h _ hacc
    unfold resolveParams at h
    cases h
    exact hacc.resolve_right (by simp)
  | cons p ps ih =>
    obtain ⟨k', v'⟩ := p
    intro w w' acc out h hps hacc
    have hps' : ∀ p ∈ ps, target p.1 = k → p = (k, v) :=
      fun p hp => hps p (List.mem_cons_of_mem _ hp)
    have hhd := hps (k', v') (by simp)
    have hrest : (k', v') ≠ (k, v) → dget acc k = some v ∨ (k, v) ∈ ps := by
      intro hne
      rcases hacc with h | h
      · exact Or.inl h
      · exact Or.inr ((List.mem_cons.1 h).resolve_left (fun h => hne h.symm))
    unfold resolveParams at h
    split at h
    · rename_i hend
      have hne : (k', v') ≠ (k, v) := by
        intro he
        cases he
        rw [hke] at hend
        cases hend
      have hdk : dropId k' ≠ k := by
        intro he
        exact hne (hhd (by simp [target, hend, he]))
      have hstep : ∀ x, dget (dset acc (dropId k') x) k = dget acc k := fun x =>
        dget_dset_ne _ _ hdk
      split at h
      · split at h
        · exact ih h hps' ((hrest hne).imp_left (fun h => (hstep _).trans h))
        · cases h
      · split at h
        · exact ih h hps' ((hrest hne).imp_left (fun h => (hstep _).trans h))
        · cases h
      · cases h
    · rename_i hend
      have hstep : ∀ x, (k' = k → x = v) → dget acc k = some v ∨ (k, v) ∈ ps ∨ k' = k →
          dget (dset acc k' x) k = some v ∨ (k, v) ∈ ps := by
        intro x hx hh
        by_cases hkk : k' = k
        · left; rw [hkk, dget_dset_self, hx hkk]
        · rw [dget_dset_ne _ _ hkk]
          rcases hh with h | h | h
          · exact Or.inl h
          · exact Or.inr h
          · exact absurd h hkk
      have htk : target k' = k' := by simp [target, hend]
      have hvv : k' = k → v' = v := by
        intro he
        have := hhd (by rw [htk]; exact he)
        exact (Prod.mk.inj this).2
      have hacc' : dget acc k = some v ∨ (k, v) ∈ ps ∨ k' = k := by
        by_cases hkk : k' = k
        · exact Or.inr (Or.inr hkk)
        · rcases hrest (fun he => hkk (Prod.mk.inj he).1) with h | h
          · exact Or.inl h
          · exact Or.inr (Or.inl h)
      split at h
      · rename_i n
        split at h
        · refine ih h hps' ?_
          exact hrest (fun he => hv.1 n (Prod.mk.inj he).2.symm)
        · cases h
      · rename_i f x
        split at h
        · refine ih h hps' (hstep _ ?_ hacc')
          intro he
          exact absurd (hvv he).symm (hv.2 f x)
        · cases h
      · exact ih h hps' (hstep _ hvv hacc')

/-- A reference that alone is given for a parameter arrives as an object. -/
theorem resolveParams_object {P : Prog} {k : String} :
    ∀ {ps : Dict String Val} {w w' : World} {acc out : Dict String Val},
    resolveParams P w ps acc = (w', .ok out) →
    (∀ p ∈ ps, target p.1 = k → endsWithId p.1 = true) →
    ((∃ r, dget acc k = some (.obj r)) ∨ ∃ p ∈ ps, target p.1 = k) →
    ∃ r, dget out k = some (.obj r) := by
  intro ps
  induction ps with
  | nil =>
    intro w w' acc out h _ hacc
    unfold resolveParams at h
    cases h
    exact hacc.resolve_right (by simp)
  | cons p ps ih =>
    obtain ⟨k', v'⟩ := p
    intro w w' acc out h hps hacc
    have hps' : ∀ p ∈ ps, target p.1 = k → endsWithId p.1 = true :=
      fun p hp => hps p (List.mem_cons_of_mem _ hp)
    have hhd := hps (k', v') (by simp)
    have hrest : target k' ≠ k → (∃ r, dget acc k = some (.obj r)) ∨ ∃ p ∈ ps, target p.1 = k := by
      intro hne
      rcases hacc with h | ⟨p, hp, ht⟩
      · exact Or.inl h
      · rcases List.mem_cons.1 hp with rfl | hp
        · exact absurd ht hne
        · exact Or.inr ⟨p, hp, ht⟩
    unfold resolveParams at h
    split at h
    · rename_i hend
      have hstep : ∀ r : Nat, (∃ s, dget (dset acc (dropId k') (.obj r)) k = some (.obj s)) ∨
          ∃ p ∈ ps, target p.1 = k := by
        intro r
        by_cases he : dropId k' = k
        · left; rw [he, dget_dset_self]; exact ⟨r, rfl⟩
        · rw [dget_dset_ne _ _ he]
          exact hrest (by simpa [target, hend] using he)
      split at h
      · split at h
        · exact ih h hps' (hstep _)
        · cases h
      · split at h
        · exact ih h hps' (hstep _)
        · cases h
      · cases h
    · rename_i hend
      have hne : k' ≠ k := by
        intro he
        exact hend (hhd (by unfold target; rw [if_neg hend]; exact he))
      have hstep : ∀ x, (∃ s, dget (dset acc k' x) k = some (.obj s)) ∨
          ∃ p ∈ ps, target p.1 = k := by
        intro x
        rw [dget_dset_ne _ _ hne]
        exact hrest (by simpa [target, hend] using hne)
      split at h
      · split at h
        · exact ih h hps' (hrest (by simpa [target, hend] using hne))
        · cases h
      · split at h
        · exact ih h hps' (hstep _)
        · cases h
      · exact ih h hps' (hstep _)

/-- A creation whose values make the body raise. -/
theorem execute_body {P : Prog} {w : World} {c : Cmd} {cls : String} (hm : c.meth = "__init__")
    (hr : P.resolve c.cls = some cls)
    (h : ∀ w' w'' ps, resolveParams P w (ddel c.params "id") [] = (w', .ok ps) →
      ∃ e, (construct P w'' cls [] ps false).2 = .error e) :
    (execute P w c).2 ≠ .ok () := by
  intro hx
  unfold execute at hx
  split at hx
  · cases hx
  · split at hx
    · cases hx
    · split at hx
      · cases hx
      · rename_i w' ps hres
        split at hx
        · split at hx <;> cases hx
        · rw [hr] at hx
          dsimp only at hx
          obtain ⟨e, he⟩ := h w' w' ps hres
          cases hcc : construct P w' cls [] ps false with
          | mk w2 res =>
            rw [hcc] at he hx
            dsimp only at he
            subst he
            cases hx

theorem resolveParams_nodup {P : Prog} : ∀ {ps : Dict String Val} {w w' : World}
    {acc out : Dict String Val}, resolveParams P w ps acc = (w', .ok out) →
    (dkeys acc).Nodup → (dkeys out).Nodup := by
  intro ps
  induction ps with
  | nil =>
    intro w w' acc out h hacc
    unfold resolveParams at h
    cases h
    exact hacc
  | cons p ps ih =>
    intro w w' acc out h hacc
    unfold resolveParams at h
    repeat' split at h
    all_goals first
      | cases h
      | exact ih h (nodup_dkeys_dset _ _ _ hacc)
      | exact ih h hacc

/-- A creation one of whose values the type check refuses. -/
theorem execute_refused {P : Prog} (hP : P.SigsWF) {w : World} {c : Cmd} {cls k : String} {v : Val}
    {sg : Sig} {anns : List String} (hon : w.recording = true) (hm : c.meth = "__init__")
    (hr : P.resolve c.cls = some cls) (hs : P.sig cls "__init__" = some sg)
    (hke : endsWithId k = false) (hki : k ≠ "id")
    (hv : (∀ n, v ≠ .oid n) ∧ ∀ f x, v ≠ .conv f x) (hvo : v.isObj = false)
    (hmem : (k, v) ∈ c.params) (honly : ∀ p ∈ c.params, target p.1 = k → p = (k, v))
    (ha : dget sg.annots k = some anns) (href : recordedAs P w.converters anns v = none) :
    (execute P w c).2 ≠ .ok () := by
  intro h
  unfold execute at h
  split at h
  · cases h
  · split at h
    · cases h
    · split at h
      · cases h
      · rename_i w' ps hres
        have hkeep : dget ps k = some v := by
          refine resolveParams_keeps hke hv hres ?_ (Or.inr ?_)
          · intro p hp
            exact honly p (List.mem_filter.1 hp).1
          · exact List.mem_filter.2 ⟨hmem, by simpa using hki⟩
        have hnd : (dkeys ps).Nodup := resolveParams_nodup hres (by simp [dkeys])
        have hset := (settings_closed w.converters).toCallClosed.resolveParams (P := P)
          (ps := ddel c.params "id") (acc := []) (w := w) ⟨hon, rfl⟩
        rw [hres] at hset
        obtain ⟨hon', hcs'⟩ := hset
        dsimp only at hon' hcs'
        split at h
        · split at h <;> cases h
        · rw [hr] at h
          dsimp only at h
          have hc : (step P w' (.create cls [] ps false)).2 = .ok () := by
            simp only [step]
            cases hcc : construct P w' cls [] ps false with
            | mk w2 res => rw [hcc] at h; cases res with
              | ok _ => rfl
              | error e => cases h
          obtain ⟨sg', b, hs', hb, _, hrec⟩ := create_ok_inv hP hnd hon' hc
          rw [hs] at hs'
          cases hs'
          have hkp : k ∈ sg.params := by
            rcases (hP _ _ _ hs).1.annots k ((mem_dkeys _ _).2 ⟨anns, ha⟩) with h | h
            · exact h
            · have := (bindArgs_ok hb).known k ((mem_dkeys _ _).2 ⟨v, hkeep⟩)
              simpa using this
          have hB := bindArgs_ok hb
          obtain ⟨v', hv'⟩ := (mem_dkeys _ _).1 (show k ∈ dkeys b by rw [hB.keys]; exact hkp)
          have hseen := hB.vals _ (dget_mem hv')
          simp only [seenArg, givenArg, List.zip_nil_right, dget, Option.none_or, hkeep,
            Option.some_or, Option.some.injEq] at hseen
          subst hseen
          obtain ⟨u, hu⟩ := hrec k v hv'
          rw [hcs'] at hu
          have hkept : keptArg sg k v = v := by simp [keptArg, hvo]
          simp only [recordedArg, hkept, hvo, ha, href] at hu
          cases hu

end Verif
