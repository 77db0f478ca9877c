import Verif.Lemmas.Written
/-! What the success of a call says about its arguments. -/

namespace Verif

theorem recordCall_ok_recordable {P : Prog} {w : World} {r f sg args kwargs nc o b}
    (hwf : sg.WF) (hd : ∀ p ∈ sg.defaults, p.2.isObj = false) (hkw : (dkeys kwargs).Nodup)
    (hb : bindArgs sg args kwargs = .ok b) (hrec : w.recording = true)
    (ho : w.heap[r]? = some o) (h : (recordCall P w r f sg args kwargs nc).2 = .ok ()) :
    Recordable P w.converters sg b := by
  have hB := bindArgs_ok hb
  have hc : ∃ ps, checkParams P w sg.annots (collect sg o.id args kwargs) = .ok ps := by
    cases hc : checkParams P w sg.annots (collect sg o.id args kwargs) with
    | ok ps => exact ⟨ps, rfl⟩
    | error e => rw [recordCall_rejected hrec ho hc] at h; cases h
  rw [check_collect_iff hwf o.id hkw hB.known] at hc
  intro k v hv
  apply recordedArg_of_kept
  have hkp : k ∈ sg.params := by rw [← hB.keys]; exact (mem_dkeys _ _).2 ⟨v, hv⟩
  have hs := hB.vals _ (dget_mem hv)
  by_cases hko : (keptArg sg k v).isObj = true
  · exact Or.inl hko
  right
  intro _ anns ha
  have hko : (keptArg sg k v).isObj = false := by simpa using hko
  rw [← passes_iff P w hko]
  refine hc k hkp _ anns ?_ ha
  dsimp only [seenArg] at hs
  have hdf : ∀ d, dget sg.defaults k = some d → d.isObj = false := fun d h => hd _ (dget_mem h)
  unfold checkedArg
  unfold keptArg at hko ⊢
  cases hg : givenArg sg args kwargs k with
  | none =>
    rw [hg] at hs
    simp only [Option.none_or] at hs
    have := hdf v hs
    simp [hs, this, Option.filter]
  | some v' =>
    rw [hg] at hs
    simp only [Option.some_or, Option.some.injEq] at hs
    subst hs
    dsimp only
    cases hvo : v'.isObj with
    | false => simp
    | true =>
      rw [hvo] at hko
      simp only [if_true] at hko ⊢
      cases hdk : dget sg.defaults k with
      | none => rw [hdk] at hko; simp [hvo] at hko
      | some d => have := hdf d hdk; simp [this, Option.filter]

theorem create_ok_inv {P : Prog} {w : World} {cls args kwargs nc} (hP : P.SigsWF)
    (hkw : (dkeys kwargs).Nodup) (hrec : w.recording = true)
    (h : (step P w (.create cls args kwargs nc)).2 = .ok ()) :
    ∃ sg b, P.sig cls "__init__" = some sg ∧ bindArgs sg args kwargs = .ok b ∧
      P.raises (Obj.mk (1 + (w.oidCounter : Int)) cls [] (1 + (w.oidCounter : Int)))
        "__init__" b = none ∧ Recordable P w.converters sg b := by
  simp only [step] at h
  unfold construct at h
  cases hs : P.sig cls "__init__" with
  | none => rw [hs] at h; cases h
  | some sg =>
    rw [hs] at h
    dsimp only at h
    cases hb : bindArgs sg args kwargs with
    | error e => rw [hb] at h; cases h
    | ok b =>
      rw [hb] at h
      dsimp only at h
      have ho : (newObject w cls).1.heap[w.heap.length]? =
          some (Obj.mk (1 + (w.oidCounter : Int)) cls [] (1 + (w.oidCounter : Int))) := by
        simp [newObject]
      simp only [newObject_ref, ho] at h
      cases hr : P.raises (Obj.mk (1 + (w.oidCounter : Int)) cls [] (1 + (w.oidCounter : Int)))
        "__init__" b with
      | some e => rw [hr] at h; cases h
      | none =>
        rw [hr] at h
        dsimp only at h
        refine ⟨sg, b, rfl, hb, hr, ?_⟩
        have hlog := logCall_eq ho "__init__" b
        have hlt := (List.getElem?_eq_some_iff.1 ho).1
        have := recordCall_ok_recordable (P := P)
          (w := logCall (newObject w cls).1 w.heap.length "__init__" b) (r := w.heap.length)
          (f := "__init__") (nc := nc) (hP _ _ _ hs).1 (hP _ _ _ hs).2 hkw hb
          (by rw [hlog]; exact hrec) (by rw [hlog]; simp [hlt]; rfl) (by
            cases hc : recordCall P (logCall (newObject w cls).1 w.heap.length "__init__" b)
              w.heap.length "__init__" sg args kwargs nc with
            | mk w2 res => rw [hc] at h; cases res with
              | ok _ => rfl
              | error e => cases h)
        rw [hlog] at this
        exact this

theorem call_ok_inv {P : Prog} {w : World} {r f args kwargs nc} (hP : P.SigsWF)
    (hkw : (dkeys kwargs).Nodup) (hrec : w.recording = true)
    (h : (step P w (.call r f args kwargs nc)).2 = .ok ()) :
    ∃ o sg b, w.heap[r]? = some o ∧ P.sig o.cls f = some sg ∧ bindArgs sg args kwargs = .ok b ∧
      P.raises o f b = none ∧ Recordable P w.converters sg b := by
  simp only [step] at h
  unfold callMethod at h
  cases ho : w.heap[r]? with
  | none => rw [ho] at h; cases h
  | some o =>
    rw [ho] at h
    dsimp only at h
    cases hs : P.sig o.cls f with
    | none => rw [hs] at h; cases h
    | some sg =>
      rw [hs] at h
      dsimp only at h
      cases hb : bindArgs sg args kwargs with
      | error e => rw [hb] at h; cases h
      | ok b =>
        rw [hb] at h
        dsimp only at h
        cases hr : P.raises o f b with
        | some e => rw [hr] at h; cases h
        | none =>
          rw [hr] at h
          dsimp only at h
          refine ⟨o, sg, b, rfl, hs, hb, hr, ?_⟩
          have hlog := logCall_eq ho f b
          have hlt := (List.getElem?_eq_some_iff.1 ho).1
          have := recordCall_ok_recordable (P := P) (w := logCall w r f b) (r := r)
            (f := f) (nc := nc) (hP _ _ _ hs).1 (hP _ _ _ hs).2 hkw hb
            (by rw [hlog]; exact hrec) (by rw [hlog]; simp [hlt]; rfl) h
          rw [hlog] at this
          exact this

end Verif
