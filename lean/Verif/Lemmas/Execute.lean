import Verif.Lemmas.Replay
/-! Executing a recorded command. -/

namespace Verif

theorem dget_map_snd (t : Val → Val) (ps : Dict String Val) (k : String) :
    dget (ps.map (fun p => (p.1, t p.2))) k = (dget ps k).map t := by
  induction ps with
  | nil => rfl
  | cons p ps ih =>
    obtain ⟨a, b⟩ := p
    simp only [List.map_cons, dget]
    split
    · rfl
    · exact ih

/-- The part of the world that recording does not touch. -/
structure SameCore (w w' : World) : Prop where
  heap : w'.heap = w.heap
  objects : w'.objects = w.objects
  oidCounter : w'.oidCounter = w.oidCounter
  objRecord : w'.objRecord = w.objRecord
  recording : w'.recording = w.recording
  converters : w'.converters = w.converters

theorem SameCore.refl (w : World) : SameCore w w := ⟨rfl, rfl, rfl, rfl, rfl, rfl⟩

theorem SameCore.trans {a b c : World} (h : SameCore a b) (h' : SameCore b c) : SameCore a c :=
  ⟨h'.heap.trans h.heap, h'.objects.trans h.objects, h'.oidCounter.trans h.oidCounter,
   h'.objRecord.trans h.objRecord, h'.recording.trans h.recording,
   h'.converters.trans h.converters⟩

theorem getQueue_none_sameCore (w : World) : SameCore w (getQueue w none).1 := by
  unfold getQueue getQueue.activeOrNew
  cases h : w.active <;> constructor <;> simp [newQueue]

theorem recordCall_sameCore (P : Prog) (w : World) (r f sg args kwargs nc) :
    SameCore w (recordCall P w r f sg args kwargs nc).1 := by
  unfold recordCall
  split
  · exact SameCore.refl w
  · dsimp only
    have h := getQueue_none_sameCore w
    split
    · exact h
    · split
      · exact h
      · split
        · exact h
        · split
          · exact h.trans ⟨rfl, rfl, rfl, rfl, rfl, rfl⟩
          · exact h

theorem recordCall_ok_of_check {P : Prog} {w : World} {r f sg args kwargs nc o ps}
    (ho : w.heap[r]? = some o)
    (hc : checkParams P w sg.annots (collect sg o.id args kwargs) = .ok ps) :
    (recordCall P w r f sg args kwargs nc).2 = .ok () := by
  unfold recordCall
  split
  · rfl
  · dsimp only
    rw [getQueue_none_heap, ho]
    dsimp only
    rw [checkParams_congr (getQueue_none_heap w) (getQueue_none_conv w), hc]
    dsimp only
    split
    · rfl
    · split <;> rfl

theorem typeName_nonobj (w w' : World) {v : Val} (h : v.isObj = false) :
    typeName w v = typeName w' v := by
  cases v <;> simp [Val.isObj] at h <;> rfl

theorem takenAsIs_congr {P : Prog} {w w' : World} {v : Val} {anns} (h : v.isObj = false)
    (hc : w'.converters = w.converters) (ht : TakenAsIs P w v anns) : TakenAsIs P w' v anns := by
  unfold TakenAsIs at *
  rw [typeName_nonobj w' w h, hc]
  exact ht

theorem PlainArgs.congr {P : Prog} {w w' : World} {sg args kwargs}
    (h : PlainArgs P w sg args kwargs) (hc : w'.converters = w.converters) :
    PlainArgs P w' sg args kwargs :=
  ⟨h.optional, fun k v hs hv => ⟨(h.plain k v hs hv).1, (h.plain k v hs hv).2.1,
    fun anns ha => takenAsIs_congr hv hc ((h.plain k v hs hv).2.2 anns ha)⟩⟩

theorem PlainArgs.check {P : Prog} {w : World} {sg args kwargs bound}
    (h : PlainArgs P w sg args kwargs) (hwf : sg.WF) (hkw : (dkeys kwargs).Nodup)
    (hb : bindArgs sg args kwargs = .ok bound) (selfId : Int) :
    checkParams P w sg.annots (collect sg selfId args kwargs) =
      .ok (collect sg selfId args kwargs) := by
  have hB := bindArgs_ok hb
  have hkp' : ∀ k ∈ dkeys kwargs, k ∈ sg.params :=
    fun k h => List.mem_of_mem_drop (hB.known k h)
  apply checkParams_asIs
  intro p hp anns ha
  have hpk : p.1 ∈ dkeys (collect sg selfId args kwargs) := List.mem_map_of_mem (f := Prod.fst) hp
  have hann := hwf.annots p.1 ((mem_dkeys _ _).2 ⟨_, ha⟩)
  have hpar : p.1 ∈ sg.params := by
    rcases hann with h1 | h1
    · exact h1
    · rcases collect_keys hwf selfId hkp' p.1 hpk with h2 | h2
      · rw [h1] at h2; exact absurd h2 (by decide)
      · rw [h1] at h2 ⊢
        rwa [show target "return" = "return" by decide] at h2
  have hg : dget (collect sg selfId args kwargs) p.1 = some p.2 :=
    dget_of_mem_nodup (nodup_collect selfId) hp
  rw [← dget_proj p.1 _ p.1 (target_self (hwf.ident _ hpar)),
    proj_collect_single hwf selfId hkw hB.known h.optional hpar] at hg
  cases hs : seenArg sg args kwargs p.1 with
  | none => rw [hs] at hg; simp [dget] at hg
  | some v =>
    rw [hs] at hg
    dsimp only at hg
    cases hv : v.isObj with
    | true =>
      rw [keyFor_obj hv] at hg
      simp [dget, suffix_ne] at hg
    | false =>
      rw [keyFor_nonobj hv] at hg
      simp only [dget, if_true, Option.some.injEq] at hg
      subst hg
      exact (h.plain p.1 p.2 hs hv).2.2 anns ha

theorem relink_isObj (w w2 : World) (v : Val) : (relink w w2 v).isObj = v.isObj := by
  cases v <;> try rfl
  rename_i x
  simp only [relink]
  cases w.heap[x]? with
  | none => rfl
  | some o => dsimp only; cases dget w2.objects o.id <;> rfl

theorem relink_nonobj (w w2 : World) {v : Val} (h : v.isObj = false) : relink w w2 v = v := by
  cases v <;> simp [Val.isObj] at h <;> rfl

/-- The type check at replay accepts what the type check accepted. -/
theorem replay_check {P : Prog} {w w2 : World} {sg args kwargs bound ps2} (hwf : sg.WF)
    (hb : bindArgs sg args kwargs = .ok bound)
    (hp : PlainArgs P w2 sg args kwargs)
    (hnd : (dkeys ps2).Nodup) (hk : ∀ k ∈ dkeys ps2, k ∈ sg.params)
    (hget : ∀ k ∈ sg.params, dget ps2 k = (seenArg sg args kwargs k).map (relink w w2))
    (selfId : Int) :
    ∃ ps, checkParams P w2 sg.annots (collect sg selfId [] ps2) = .ok ps := by
  have hB := bindArgs_ok hb
  rw [check_collect_iff hwf selfId hnd (by simpa using hk)]
  intro k hkp v anns hc ha
  have hgiven : givenArg sg [] ps2 k = (seenArg sg args kwargs k).map (relink w w2) := by
    simp [givenArg, hget k hkp]
  have hseen : ∃ x, seenArg sg args kwargs k = some x := by
    rw [← hB.keys] at hkp
    obtain ⟨x, hx⟩ := (mem_dkeys _ _).1 hkp
    exact ⟨x, hB.vals (k, x) (dget_mem hx)⟩
  obtain ⟨x, hx⟩ := hseen
  unfold checkedArg at hc
  rw [hgiven, hx] at hc
  simp only [Option.map_some, relink_isObj] at hc
  have acc : ∀ {y}, TakenAsIs P w2 y anns → Acceptable P w2 y anns := by
    intro y hy
    rcases hy.1 with h | h
    · exact Or.inl h
    · exact Or.inr (Or.inl h)
  cases hxo : x.isObj with
  | false =>
    rw [hxo] at hc
    simp only [Bool.false_eq_true, if_false, Option.some.injEq, relink_nonobj w w2 hxo] at hc
    subst hc
    exact acc ((hp.plain k x hx hxo).2.2 anns ha)
  | true =>
    rw [hxo] at hc
    simp only [if_true] at hc
    have hd := (Option.filter_eq_some_iff.1 hc)
    -- the default was not used, so it belongs to a parameter given an object
    unfold seenArg at hx
    cases hg : givenArg sg args kwargs k with
    | some y =>
      rw [hg] at hx
      simp only [Option.some_or, Option.some.injEq] at hx
      subst hx
      rw [hp.optional k y hg hxo] at hd
      simp at hd
    | none =>
      rw [hg] at hx
      simp only [Option.none_or] at hx
      rw [hx] at hd
      simp [Option.some.inj hd.1 ▸ hxo] at hd

/-- A replayed method call. -/
theorem execute_call {P : Prog} {w w2 : World} {t : Val → Val} {sg : Sig} (hwf : sg.WF)
    {args kwargs bound} {selfId : Int} (hkw : (dkeys kwargs).Nodup)
    (hb : bindArgs sg args kwargs = .ok bound) (hp : PlainArgs P w2 sg args kwargs)
    (ht : Transports w w2 t sg args kwargs) (hid : idOf (t (.oid selfId)) = some selfId)
    {c : Cmd} (hcp : c.params = (collect sg selfId args kwargs).map (fun p => (p.1, t p.2)))
    (hdot : hasChar '.' c.meth = false) (hinit : c.meth ≠ "__init__")
    {r2 : Nat} {o2 : Obj} (hr2 : dget w2.objects selfId = some r2)
    (ho2 : w2.heap[r2]? = some o2) (hsig : P.sig o2.cls c.meth = some sg)
    (hraise : P.raises o2 c.meth (bound.map (fun p => (p.1, relink w w2 p.2))) = none) :
    ∃ w2', execute P w2 c = (w2', .ok ()) ∧
      SameCore (logCall w2 r2 c.meth (bound.map (fun p => (p.1, relink w w2 p.2)))) w2' := by
  have hB := bindArgs_ok hb
  obtain ⟨ps2, h1, h2, h3, h4, h5⟩ := resolve_recorded (P := P) hwf selfId hkw hb hp.optional ht
  have hgid : dget c.params "id" = some (t (.oid selfId)) := by
    rw [hcp, dget_map_snd, dget_collect_id hwf selfId
      (fun k h => List.mem_of_mem_drop (hB.known k h))]
    rfl
  have hlt := (List.getElem?_eq_some_iff.1 ho2).1
  generalize hbd : bound.map (fun p => (p.1, relink w w2 p.2)) = b2 at h2 hraise ⊢
  have hw1 : logCall w2 r2 c.meth b2 =
      { w2 with heap := w2.heap.set r2 { o2 with log := o2.log ++ [(c.meth, b2)] } } := by
    simp only [logCall, ho2]
  have ho1 : (logCall w2 r2 c.meth b2).heap[r2]? =
      some { o2 with log := o2.log ++ [(c.meth, b2)] } := by
    rw [hw1]; simp [hlt]
  have hp1 : PlainArgs P (logCall w2 r2 c.meth b2) sg args kwargs := hp.congr (by rw [hw1])
  have hget1 : ∀ k ∈ sg.params, dget ps2 k =
      (seenArg sg args kwargs k).map (relink w (logCall w2 r2 c.meth b2)) := by
    intro k hk
    rw [h5 k hk, hw1]
    rfl
  obtain ⟨ps, hchk⟩ := replay_check (w := w) hwf hb hp1 h3 h4 hget1 o2.id
  have hres := recordCall_ok_of_check (f := c.meth) (nc := false) ho1 hchk
  refine ⟨(recordCall P (logCall w2 r2 c.meth b2) r2 c.meth sg [] ps2 false).1, ?_,
    recordCall_sameCore ..⟩
  have hcall : callMethod P w2 r2 c.meth [] ps2 false =
      recordCall P (logCall w2 r2 c.meth b2) r2 c.meth sg [] ps2 false := by
    simp only [callMethod, ho2, hsig, h2, hraise]
  rw [← hcp] at h1
  simp only [execute, hgid, hid, h1, hdot, hinit, hr2, hcall, if_false, Bool.false_eq_true]
  exact Prod.ext rfl hres

/-- A replayed creation. -/
theorem execute_create {P : Prog} {w w2 : World} {t : Val → Val} {sg : Sig} (hwf : sg.WF)
    {args kwargs bound} {selfId : Int} (hkw : (dkeys kwargs).Nodup)
    (hb : bindArgs sg args kwargs = .ok bound) (hp : PlainArgs P w2 sg args kwargs)
    (ht : Transports w w2 t sg args kwargs) (hid : idOf (t (.oid selfId)) = some selfId)
    {c : Cmd} (hcp : c.params = (collect sg selfId args kwargs).map (fun p => (p.1, t p.2)))
    (hinit : c.meth = "__init__") {cls : String} (hcls : P.resolve c.cls = some cls)
    (hsig : P.sig cls "__init__" = some sg)
    (hraise : P.raises
        (Obj.mk (1 + (w2.oidCounter : Int)) cls [] (1 + (w2.oidCounter : Int))) "__init__"
      (bound.map (fun p => (p.1, relink w w2 p.2))) = none) :
    ∃ w2', execute P w2 c = (w2', .ok ()) ∧
      w2'.heap = w2.heap ++ [Obj.mk selfId cls
        [("__init__", bound.map (fun p => (p.1, relink w w2 p.2)))]
        (1 + (w2.oidCounter : Int))] ∧
      w2'.oidCounter = w2.oidCounter + 1 ∧ w2'.objRecord = w2.objRecord ∧
      w2'.converters = w2.converters ∧
      (w2.objRecord = true → ∀ k, dget w2'.objects k =
        if k = selfId then some w2.heap.length
        else if k = 1 + (w2.oidCounter : Int) then none
        else dget w2.objects k) := by
  have hB := bindArgs_ok hb
  obtain ⟨ps2, h1, h2, h3, h4, h5⟩ := resolve_recorded (P := P) hwf selfId hkw hb hp.optional ht
  have hgid : dget c.params "id" = some (t (.oid selfId)) := by
    rw [hcp, dget_map_snd, dget_collect_id hwf selfId
      (fun k h => List.mem_of_mem_drop (hB.known k h))]
    rfl
  generalize hbd : bound.map (fun p => (p.1, relink w w2 p.2)) = b2 at h2 hraise ⊢
  have ho : (newObject w2 cls).1.heap[w2.heap.length]? =
      some (Obj.mk (1 + (w2.oidCounter : Int)) cls [] (1 + (w2.oidCounter : Int))) := by
    simp [newObject]
  have hlog : logCall (newObject w2 cls).1 w2.heap.length "__init__" b2 =
      { (newObject w2 cls).1 with heap := w2.heap ++ [Obj.mk (1 + (w2.oidCounter : Int)) cls
        [("__init__", b2)] (1 + (w2.oidCounter : Int))] } := by
    simp only [logCall, ho]
    simp [newObject]
  generalize hW : logCall (newObject w2 cls).1 w2.heap.length "__init__" b2 = W at hlog
  have hWo : W.heap[w2.heap.length]? = some (Obj.mk (1 + (w2.oidCounter : Int)) cls
        [("__init__", b2)] (1 + (w2.oidCounter : Int))) := by rw [hlog]; simp
  have hp1 : PlainArgs P W sg args kwargs := hp.congr (by rw [hlog]; rfl)
  have hcheck : ∃ ps, checkParams P W sg.annots
      (collect sg (1 + (w2.oidCounter : Int)) [] ps2) = .ok ps := by
    obtain ⟨ps, h⟩ := replay_check (w := w) (w2 := w2) (P := P) hwf hb hp h3 h4 h5
      (1 + (w2.oidCounter : Int))
    rw [check_collect_iff hwf _ h3 (by simpa using h4)]
    have h' := (check_collect_iff hwf _ h3 (by simpa using h4)).1 ⟨ps, h⟩
    intro k hk v anns hc ha
    have hx := h' k hk v anns hc ha
    have hno : v.isObj = false := by
      unfold checkedArg at hc
      split at hc
      · split at hc
        · simpa using (Option.filter_eq_some_iff.1 hc).2
        · rename_i hv; cases hc; simpa using hv
      · simpa using (Option.filter_eq_some_iff.1 hc).2
    have hconv : W.converters = w2.converters := by rw [hlog]; rfl
    unfold Acceptable at hx ⊢
    rw [typeName_nonobj W w2 hno, hconv]
    exact hx
  obtain ⟨ps, hchk⟩ := hcheck
  have hres := recordCall_ok_of_check (P := P) (r := w2.heap.length) (f := "__init__")
    (nc := false) hWo hchk
  have hcore := recordCall_sameCore P W w2.heap.length "__init__" sg [] ps2 false
  generalize hrc : recordCall P W w2.heap.length "__init__" sg [] ps2 false = rc at hres hcore
  obtain ⟨W2, res⟩ := rc
  dsimp only at hres hcore
  subst hres
  have hcons : construct P w2 cls [] ps2 false = (W2, .ok w2.heap.length) := by
    simp only [construct, hsig, h2, newObject_ref, ho, hraise, hW, hrc]
  have hWh : W2.heap = w2.heap ++ [Obj.mk (1 + (w2.oidCounter : Int)) cls
        [("__init__", b2)] (1 + (w2.oidCounter : Int))] := by rw [hcore.heap, hlog]
  have hset : setId W2 w2.heap.length selfId = { W2 with
      objects := if dhas W2.objects (1 + (w2.oidCounter : Int)) then
        dset (ddel W2.objects (1 + (w2.oidCounter : Int))) selfId w2.heap.length else W2.objects
      heap := w2.heap ++ [Obj.mk selfId cls [("__init__", b2)] (1 + (w2.oidCounter : Int))] } := by
    simp [setId, hWh]
  refine ⟨{ setId W2 w2.heap.length selfId with
    objects := dset (setId W2 w2.heap.length selfId).objects selfId w2.heap.length }, ?_, ?_⟩
  · rw [← hcp] at h1
    simp only [execute, hgid, hid, h1, hinit, hcls, hcons]
    rw [if_neg (by decide)]
    rfl
  · rw [hset]
    refine ⟨rfl, ?_, ?_, ?_, ?_⟩
    · show W2.oidCounter = _
      rw [hcore.oidCounter, hlog]; rfl
    · show W2.objRecord = _
      rw [hcore.objRecord, hlog]; rfl
    · show W2.converters = _
      rw [hcore.converters, hlog]; rfl
    · intro hobj k
      have hob : W2.objects = dset w2.objects (1 + (w2.oidCounter : Int)) w2.heap.length := by
        rw [hcore.objects, hlog]
        show (if w2.objRecord then _ else _) = _
        rw [if_pos hobj]
      have hhas : dhas W2.objects (1 + (w2.oidCounter : Int)) = true := by
        rw [hob, dhas_iff]; exact ⟨_, dget_dset_self _ _ _⟩
      dsimp only
      rw [if_pos hhas]
      simp only [hob, dget_dset, dget_ddel]
      by_cases hk : selfId = k
      · simp [hk]
      · simp only [hk, Ne.symm hk, if_false]
        by_cases hk2 : 1 + (w2.oidCounter : Int) = k
        · simp [hk2]
        · simp [hk2, Ne.symm hk2]

end Verif
