import Verif.Lemmas.Collect
/-! The type check of the decorator and the effect of recording a call. -/

namespace Verif

/-! ### Type check -/

theorem searchConv_true (P : Prog) (cs bases ann v) (st : Bool × Val) :
    (searchConv P cs bases ann v st).1 = true ↔
      st.1 = true ∨ ∃ b ∈ bases, ∃ f, getConverterType P cs b ann = some f := by
  unfold searchConv
  induction bases generalizing st with
  | nil => simp
  | cons b bases ih =>
    rw [List.foldl_cons, ih]
    cases h : getConverterType P cs b ann with
    | none => simp [h]
    | some f => simp [h]

theorem searchConv_none (P : Prog) (cs bases ann v) (st : Bool × Val)
    (h : ∀ b ∈ bases, getConverterType P cs b ann = none) :
    searchConv P cs bases ann v st = st := by
  unfold searchConv
  induction bases generalizing st with
  | nil => rfl
  | cons b bases ih =>
    rw [List.foldl_cons, h b (by simp)]
    exact ih st (fun b' hb' => h b' (List.mem_cons_of_mem _ hb'))

theorem checkLoop_true (P : Prog) (cs pt bases v anns) (st : Bool × Val) :
    (checkLoop P cs pt bases v anns st).1 = true ↔
      st.1 = true ∨ (∃ ann ∈ anns, matchesType P pt ann = true) ∨
      (anns ≠ [] ∧ pt = "NoneType") ∨
      (∃ ann ∈ anns, ∃ b ∈ bases, ∃ f, getConverterType P cs b ann = some f) := by
  induction anns generalizing st with
  | nil => simp [checkLoop]
  | cons ann anns ih =>
    unfold checkLoop
    split
    · rename_i h; simp [h]
    · rename_i h
      split
      · rename_i h'; simp [h']
      · rename_i h'
        rw [ih, searchConv_true]
        simp only [List.mem_cons, exists_eq_or_imp, h, h', false_or, and_false,
          Bool.false_eq_true]
        constructor
        · rintro ((h1 | h1) | h1 | h1) <;> simp_all
        · rintro (h1 | h1 | h1 | h1) <;> simp_all

theorem checkLoop_asIs (P : Prog) (cs pt bases v anns) (st : Bool × Val)
    (hm : (∃ ann ∈ anns, matchesType P pt ann = true) ∨ (anns ≠ [] ∧ pt = "NoneType"))
    (hc : ∀ ann ∈ anns, ∀ b ∈ bases, getConverterType P cs b ann = none) :
    checkLoop P cs pt bases v anns st = (true, st.2) := by
  induction anns generalizing st with
  | nil => simp at hm
  | cons ann anns ih =>
    unfold checkLoop
    split
    · rfl
    · rename_i h
      split
      · rfl
      · rename_i h'
        rw [searchConv_none _ _ _ _ _ _ (hc ann (by simp))]
        apply ih
        · rcases hm with ⟨a, ha, hma⟩ | ⟨_, h1⟩
          · rcases List.mem_cons.1 ha with rfl | ha
            · exact absurd hma h
            · exact Or.inl ⟨a, ha, hma⟩
          · exact absurd h1 h'
        · exact fun a ha => hc a (List.mem_cons_of_mem _ ha)

theorem checkParam_ok_iff (P : Prog) (w : World) (annots key v) :
    (∃ v', checkParam P w annots key v = .ok v') ↔
      ∀ anns, dget annots key = some anns → Acceptable P w v anns := by
  unfold checkParam
  cases h : dget annots key with
  | none => simp
  | some anns =>
    simp only [Option.some.injEq, forall_eq']
    have := checkLoop_true P w.converters (paramType P (typeName w v)) (P.mro (typeName w v)) v
      anns (false, v)
    simp only [Bool.false_eq_true, false_or] at this
    unfold Acceptable
    rw [← this]
    rcases hl : checkLoop P w.converters (paramType P (typeName w v)) (P.mro (typeName w v)) v
      anns (false, v) with ⟨b, v'⟩
    cases b <;> simp

theorem checkParam_error {P : Prog} {w : World} {annots key v e}
    (h : checkParam P w annots key v = .error e) : e = .valueError := by
  unfold checkParam at h
  split at h
  · simp at h
  · dsimp only at h
    split at h
    · simp at h
    · cases h; rfl

theorem checkParam_asIs {P : Prog} {w : World} {annots key v}
    (h : ∀ anns, dget annots key = some anns → TakenAsIs P w v anns) :
    checkParam P w annots key v = .ok v := by
  unfold checkParam
  split
  · rfl
  · rename_i anns ha
    obtain ⟨h1, h2⟩ := h anns ha
    simp only [checkLoop_asIs P w.converters _ _ v anns (false, v) h1 h2]

theorem checkParams_ok_iff (P : Prog) (w : World) (annots) (ps : Dict String Val) :
    (∃ ps', checkParams P w annots ps = .ok ps') ↔
      ∀ p ∈ ps, ∀ anns, dget annots p.1 = some anns → Acceptable P w p.2 anns := by
  induction ps with
  | nil => simp [checkParams]
  | cons p ps ih =>
    obtain ⟨k, v⟩ := p
    rw [List.forall_mem_cons, ← ih]
    dsimp only
    rw [← checkParam_ok_iff]
    cases h : checkParam P w annots k v with
    | error e => simp [checkParams, h]
    | ok v' =>
      cases h2 : checkParams P w annots ps with
      | error e => simp [checkParams, h, h2]
      | ok ps' => simp [checkParams, h, h2]

theorem checkParams_error {P : Prog} {w : World} {annots} {ps : Dict String Val} {e}
    (h : checkParams P w annots ps = .error e) : e = .valueError := by
  induction ps with
  | nil => simp [checkParams] at h
  | cons p ps ih =>
    obtain ⟨k, v⟩ := p
    unfold checkParams at h
    split at h
    · rename_i h1; cases h; exact checkParam_error h1
    · split at h
      · rename_i h1; cases h; exact ih h1
      · simp at h

theorem checkParams_keys {P : Prog} {w : World} {annots} {ps ps' : Dict String Val}
    (h : checkParams P w annots ps = .ok ps') : dkeys ps' = dkeys ps := by
  induction ps generalizing ps' with
  | nil => simp [checkParams] at h; subst h; rfl
  | cons p ps ih =>
    obtain ⟨k, v⟩ := p
    unfold checkParams at h
    split at h
    · simp at h
    · split at h
      · simp at h
      · rename_i h1
        cases h
        have := ih h1
        simp only [dkeys] at this
        simp [dkeys, this]

theorem checkParams_dget {P : Prog} {w : World} {annots} {ps ps' : Dict String Val}
    (h : checkParams P w annots ps = .ok ps') (k : String) (v : Val) (hk : dget ps k = some v) :
    ∃ v', checkParam P w annots k v = .ok v' ∧ dget ps' k = some v' := by
  induction ps generalizing ps' with
  | nil => simp at hk
  | cons p ps ih =>
    obtain ⟨n, x⟩ := p
    unfold checkParams at h
    split at h
    · simp at h
    · rename_i x' hx
      split at h
      · simp at h
      · rename_i h1
        cases h
        by_cases hnk : n = k
        · subst hnk
          simp only [dget, if_true, Option.some.injEq] at hk ⊢
          subst hk
          exact ⟨x', hx, rfl⟩
        · simp only [dget, if_neg hnk] at hk ⊢
          exact ih h1 hk

theorem checkParams_asIs {P : Prog} {w : World} {annots} {ps : Dict String Val}
    (h : ∀ p ∈ ps, ∀ anns, dget annots p.1 = some anns → TakenAsIs P w p.2 anns) :
    checkParams P w annots ps = .ok ps := by
  induction ps with
  | nil => rfl
  | cons p ps ih =>
    obtain ⟨k, v⟩ := p
    unfold checkParams
    rw [checkParam_asIs (h (k, v) (by simp))]
    simp only [ih (fun p hp => h p (List.mem_cons_of_mem _ hp))]

theorem typeName_congr {w w' : World} (h : w'.heap = w.heap) (v : Val) :
    typeName w' v = typeName w v := by
  cases v <;> simp [typeName, h]

theorem checkParam_congr {P : Prog} {w w' : World} (h : w'.heap = w.heap)
    (hc : w'.converters = w.converters) (annots k v) :
    checkParam P w' annots k v = checkParam P w annots k v := by
  simp only [checkParam, typeName_congr h, hc]

theorem checkParams_congr {P : Prog} {w w' : World} (h : w'.heap = w.heap)
    (hc : w'.converters = w.converters) (annots ps) :
    checkParams P w' annots ps = checkParams P w annots ps := by
  induction ps with
  | nil => rfl
  | cons p ps ih => obtain ⟨k, v⟩ := p; simp only [checkParams, checkParam_congr h hc, ih]

theorem stripObjs_congr {w w' : World} (h : w'.heap = w.heap) (ps) :
    stripObjs w' ps = stripObjs w ps := by simp only [stripObjs, h]

/-! ### What the dictionary of parameters contains -/

theorem dget_collectPos_id (selfId : Int) (ks : List String) (args : List Val)
    (hid : ∀ k ∈ ks, endsWithId k = false) (hno : "id" ∉ ks) :
    dget (collectPos selfId ks args) "id" = some (.oid selfId) := by
  unfold collectPos
  have : ∀ (L : List (String × Val)) d, (∀ p ∈ L, endsWithId p.1 = false ∧ p.1 ≠ "id") →
      dget d "id" = some (Val.oid selfId) →
      dget (L.foldl (fun d p => dset d (keyFor p.1 p.2) p.2) d) "id" = some (.oid selfId) := by
    intro L
    induction L with
    | nil => intro d _ h; exact h
    | cons p L ih =>
      intro d hL h
      rw [List.foldl_cons]
      apply ih _ (fun p hp => hL p (List.mem_cons_of_mem _ hp))
      rw [dget_dset_ne]
      · exact h
      · unfold keyFor
        split
        · exact not_endsWithId_ne (by decide)
        · exact (hL p (by simp)).2
  apply this _ _ _ (by simp [dget])
  intro p hp
  have := (List.of_mem_zip (a := p.1) (b := p.2) hp).1
  exact ⟨hid _ this, by rintro h; rw [h] at this; exact hno this⟩

theorem dget_collectMissing_id (selfId : Int) (d L : Dict String Val)
    (h : dget d "id" = some (Val.oid selfId)) (hL : ∀ p ∈ L, p.1 ≠ "id") :
    dget (collectMissing d L) "id" = some (.oid selfId) := by
  unfold collectMissing
  induction L generalizing d with
  | nil => exact h
  | cons p L ih =>
    rw [List.foldl_cons]
    apply ih
    · split
      · exact h
      · rw [dget_dset_ne]
        · exact h
        · unfold keyFor
          split
          · exact not_endsWithId_ne (by decide)
          · exact hL p (by simp)
    · exact fun p hp => hL p (List.mem_cons_of_mem _ hp)

theorem dget_collect_id {sg : Sig} (hwf : sg.WF) {args kwargs} (selfId : Int)
    (hkp : ∀ k ∈ dkeys kwargs, k ∈ sg.params) :
    dget (collect sg selfId args kwargs) "id" = some (.oid selfId) := by
  unfold collect
  apply dget_collectMissing_id
  · apply dget_collectMissing_id
    · exact dget_collectPos_id _ _ _ hwf.ident hwf.noId
    · intro p hp h
      have := hkp p.1 (List.mem_map_of_mem (f := Prod.fst) hp)
      rw [h] at this
      exact hwf.noId this
  · intro p hp h
    have := hwf.defaultsParams p.1 (List.mem_map_of_mem (f := Prod.fst) hp)
    rw [h] at this
    exact hwf.noId this

/-- The keys of the collected parameters. -/
theorem collect_keys {sg : Sig} (hwf : sg.WF) {args kwargs} (selfId : Int)
    (hkp : ∀ k ∈ dkeys kwargs, k ∈ sg.params) :
    ∀ key ∈ dkeys (collect sg selfId args kwargs),
      key = "id" ∨ target key ∈ sg.params := by
  have hset : ∀ (d : Dict String Val) (n : String) (v : Val), n ∈ sg.params →
      (∀ key ∈ dkeys d, key = "id" ∨ target key ∈ sg.params) →
      ∀ key ∈ dkeys (dset d (keyFor n v) v), key = "id" ∨ target key ∈ sg.params := by
    intro d n v hn hd key hkey
    rw [dkeys_dset] at hkey
    split at hkey
    · exact hd key hkey
    · rcases List.mem_append.1 hkey with h | h
      · exact hd key h
      · simp only [List.mem_singleton] at h
        subst h
        right
        rw [target_keyFor (hwf.ident n hn)]
        exact hn
  have hmiss : ∀ (L d : Dict String Val), (∀ p ∈ L, p.1 ∈ sg.params) →
      (∀ key ∈ dkeys d, key = "id" ∨ target key ∈ sg.params) →
      ∀ key ∈ dkeys (collectMissing d L), key = "id" ∨ target key ∈ sg.params := by
    intro L
    induction L with
    | nil => intro d _ h; exact h
    | cons p L ih =>
      intro d hL hd
      unfold collectMissing
      rw [List.foldl_cons]
      apply ih
      · exact fun p hp => hL p (List.mem_cons_of_mem _ hp)
      · split
        · exact hd
        · exact hset d p.1 p.2 (hL p (by simp)) hd
  have hpos : ∀ (L : List (String × Val)) (d : Dict String Val), (∀ p ∈ L, p.1 ∈ sg.params) →
      (∀ key ∈ dkeys d, key = "id" ∨ target key ∈ sg.params) →
      ∀ key ∈ dkeys (L.foldl (fun d p => dset d (keyFor p.1 p.2) p.2) d),
        key = "id" ∨ target key ∈ sg.params := by
    intro L
    induction L with
    | nil => intro d _ h; exact h
    | cons p L ih =>
      intro d hL hd
      rw [List.foldl_cons]
      apply ih
      · exact fun p hp => hL p (List.mem_cons_of_mem _ hp)
      · exact hset d p.1 p.2 (hL p (by simp)) hd
  unfold collect
  apply hmiss
  · exact fun p hp => hwf.defaultsParams p.1 (List.mem_map_of_mem (f := Prod.fst) hp)
  · apply hmiss
    · exact fun p hp => hkp p.1 (List.mem_map_of_mem (f := Prod.fst) hp)
    · apply hpos
      · exact fun p hp => (List.of_mem_zip (a := p.1) (b := p.2) hp).1
      · intro key hkey
        simp [dkeys] at hkey
        exact Or.inl hkey

theorem nodup_collect {sg : Sig} {args kwargs} (selfId : Int) :
    (dkeys (collect sg selfId args kwargs)).Nodup := by
  have hmiss : ∀ (L d : Dict String Val), (dkeys d).Nodup → (dkeys (collectMissing d L)).Nodup := by
    intro L
    induction L with
    | nil => intro d h; exact h
    | cons p L ih =>
      intro d hd
      unfold collectMissing
      rw [List.foldl_cons]
      apply ih
      split
      · exact hd
      · exact nodup_dkeys_dset _ _ _ hd
  have hpos : ∀ (L : List (String × Val)) (d : Dict String Val), (dkeys d).Nodup →
      (dkeys (L.foldl (fun d p => dset d (keyFor p.1 p.2) p.2) d)).Nodup := by
    intro L
    induction L with
    | nil => intro d h; exact h
    | cons p L ih =>
      intro d hd
      rw [List.foldl_cons]
      exact ih _ (nodup_dkeys_dset _ _ _ hd)
  unfold collect
  apply hmiss
  apply hmiss
  apply hpos
  simp [dkeys]

/-- The value checked against the annotation of parameter `k`, if any. -/
def checkedArg (sg : Sig) (args : List Val) (kwargs : Dict String Val) (k : String) :
    Option Val :=
  match givenArg sg args kwargs k with
  | some v => if v.isObj then (dget sg.defaults k).filter (fun d => !d.isObj) else some v
  | none => (dget sg.defaults k).filter (fun d => !d.isObj)

theorem suffix_ne (k : String) : k ++ "(id)" ≠ k := by
  intro h
  have := congrArg (fun s => s.toList.length) h
  simp at this

theorem zip_kwargs_disjoint {sg : Sig} (hwf : sg.WF) {args : List Val} {kwargs : Dict String Val}
    (hkp : ∀ k ∈ dkeys kwargs, k ∈ sg.params.drop args.length) {k : String} {v v' : Val}
    (hz : dget (sg.params.zip args) k = some v) (hk : dget kwargs k = some v') : False := by
  have h1 : k ∈ sg.params.take args.length := by
    have hm := dget_mem hz
    obtain ⟨i, hi⟩ := List.mem_iff_getElem?.1 hm
    rw [List.getElem?_zip_eq_some] at hi
    have hlt := (List.getElem?_eq_some_iff.1 hi.2).1
    rw [List.mem_iff_getElem?]
    exact ⟨i, by rw [List.getElem?_take_of_lt hlt]; exact hi.1⟩
  have h2 := hkp k ((mem_dkeys _ _).2 ⟨_, hk⟩)
  have hnd := hwf.nodup
  rw [← List.take_append_drop args.length sg.params, List.nodup_append] at hnd
  exact hnd.2.2 k h1 k h2 rfl

theorem keyFor_obj {k : String} {v : Val} (h : v.isObj = true) : keyFor k v = k ++ "(id)" := by
  simp [keyFor, h]

theorem keyFor_nonobj {k : String} {v : Val} (h : v.isObj = false) : keyFor k v = k := by
  simp [keyFor, h]

/-- The entries about one parameter, in order of insertion. -/
theorem proj_collect_eq {sg : Sig} (hwf : sg.WF) {args kwargs} (selfId : Int)
    (hkw : (dkeys kwargs).Nodup) (hkp : ∀ k ∈ dkeys kwargs, k ∈ sg.params.drop args.length)
    {k : String} (hk : k ∈ sg.params) :
    proj k (collect sg selfId args kwargs) =
      match givenArg sg args kwargs k with
      | none => (match dget sg.defaults k with | some d => [(keyFor k d, d)] | none => [])
      | some v =>
        if v.isObj then
          (match dget sg.defaults k with
            | some d => if d.isObj then [(k ++ "(id)", d)] else [(k ++ "(id)", v), (k, d)]
            | none => [(k ++ "(id)", v)])
        else [(k, v)] := by
  have hkp' : ∀ k ∈ dkeys kwargs, k ∈ sg.params := fun k h => List.mem_of_mem_drop (hkp k h)
  rw [proj_collect hwf hkw hkp' selfId hk]
  unfold givenArg
  have hs := suffix_ne k
  cases hz : dget (sg.params.zip args) k with
  | some v =>
    have hkn : dget kwargs k = none := by
      cases h : dget kwargs k with
      | none => rfl
      | some v' => exact (zip_kwargs_disjoint hwf hkp hz h).elim
    simp only [hkn, Option.some_or]
    cases hv : v.isObj with
    | true =>
      simp only [keyFor_obj hv, if_true]
      cases hd : dget sg.defaults k with
      | none => rfl
      | some d =>
        cases hdo : d.isObj with
        | true => simp [step2, dhas, dget, hs, keyFor_obj hdo, dset, hdo]
        | false => simp [step2, dhas, dget, hs, keyFor_nonobj hdo, dset, hdo]
    | false =>
      simp only [keyFor_nonobj hv]
      cases hd : dget sg.defaults k with
      | none => simp
      | some d => simp [step2, dhas, dget]
  | none =>
    simp only [Option.none_or]
    cases hkn : dget kwargs k with
    | none =>
      cases hd : dget sg.defaults k with
      | none => rfl
      | some d => simp [step2, dhas, dset]
    | some v =>
      simp only [step2, dhas, dget_nil, Option.isSome_none, Bool.false_eq_true, if_false, dset]
      cases hv : v.isObj with
      | true =>
        simp only [keyFor_obj hv, if_true]
        cases hd : dget sg.defaults k with
        | none => rfl
        | some d =>
          cases hdo : d.isObj with
          | true => simp [dget, hs, keyFor_obj hdo, dset, hdo]
          | false => simp [dget, hs, keyFor_nonobj hdo, dset, hdo]
      | false =>
        simp only [keyFor_nonobj hv]
        cases hd : dget sg.defaults k with
        | none => simp
        | some d => simp [dget]

theorem dget_collect_plain {sg : Sig} (hwf : sg.WF) {args kwargs} (selfId : Int)
    (hkw : (dkeys kwargs).Nodup) (hkp : ∀ k ∈ dkeys kwargs, k ∈ sg.params.drop args.length)
    {k : String} (hk : k ∈ sg.params) :
    dget (collect sg selfId args kwargs) k = checkedArg sg args kwargs k := by
  rw [← dget_proj k _ k (target_self (hwf.ident k hk)), proj_collect_eq hwf selfId hkw hkp hk]
  unfold checkedArg
  have hs := suffix_ne k
  cases givenArg sg args kwargs k with
  | none =>
    cases dget sg.defaults k with
    | none => rfl
    | some d =>
      cases hd : d.isObj with
      | true => simp [keyFor_obj hd, dget, hs, hd, Option.filter]
      | false => simp [keyFor_nonobj hd, dget, hd, Option.filter]
  | some v =>
    cases hv : v.isObj with
    | true =>
      cases dget sg.defaults k with
      | none => simp [dget, hs, hv]
      | some d =>
        cases hd : d.isObj with
        | true => simp [dget, hs, hd, hv, Option.filter]
        | false => simp [dget, hs, hd, hv, Option.filter]
    | false => simp [dget, hv]

/-- The type check of a whole call, in terms of the arguments. -/
theorem check_collect_iff {P : Prog} {w : World} {sg : Sig} (hwf : sg.WF) {args kwargs}
    (selfId : Int) (hkw : (dkeys kwargs).Nodup)
    (hkp : ∀ k ∈ dkeys kwargs, k ∈ sg.params.drop args.length) :
    (∃ ps, checkParams P w sg.annots (collect sg selfId args kwargs) = .ok ps) ↔
      ∀ k ∈ sg.params, ∀ v anns, checkedArg sg args kwargs k = some v →
        dget sg.annots k = some anns → Acceptable P w v anns := by
  have hkp' : ∀ k ∈ dkeys kwargs, k ∈ sg.params := fun k h => List.mem_of_mem_drop (hkp k h)
  rw [checkParams_ok_iff]
  constructor
  · intro h k hk v anns hv ha
    rw [← dget_collect_plain hwf selfId hkw hkp hk] at hv
    exact h (k, v) (dget_mem hv) anns ha
  · intro h p hp anns ha
    have hpk : p.1 ∈ dkeys (collect sg selfId args kwargs) := List.mem_map_of_mem (f := Prod.fst) hp
    have hann := hwf.annots p.1 ((mem_dkeys _ _).2 ⟨_, ha⟩)
    have hpar : p.1 ∈ sg.params := by
      rcases hann with h1 | h1
      · exact h1
      · rcases collect_keys hwf selfId hkp' p.1 hpk with h2 | h2
        · rw [h1] at h2; exact absurd h2 (by decide)
        · rw [h1] at h2 ⊢
          rwa [show target "return" = "return" by decide] at h2
    have hg : dget (collect sg selfId args kwargs) p.1 = some p.2 :=
      dget_of_mem_nodup (nodup_collect selfId) hp
    rw [dget_collect_plain hwf selfId hkw hkp hpar] at hg
    exact h p.1 hpar p.2 anns hg ha

/-! ### Recording -/

theorem getQueue_none_ix (w : World) : (getQueue w none).2 = activeIx w := by
  unfold getQueue getQueue.activeOrNew activeIx
  cases h : w.active <;> simp [newQueue]

theorem getQueue_none_conv (w : World) : (getQueue w none).1.converters = w.converters := by
  unfold getQueue getQueue.activeOrNew
  cases h : w.active <;> simp [newQueue]

/-- The queue that will receive the command. -/
theorem getQueue_none_get {w : World} (hv : w.ActiveValid) :
    ∃ u, (getQueue w none).1.queues[activeIx w]? = some u ∧ u.readonly = !activeWritable w := by
  unfold getQueue getQueue.activeOrNew activeIx activeWritable activeIx
  cases h : w.active with
  | none => simp [newQueue]
  | some q =>
    have hq := hv q h
    refine ⟨w.queues[q], by simp [hq], by simp [hq]⟩

theorem recordCall_off {P : Prog} {w : World} {r f sg args kwargs nc} (h : w.recording = false) :
    recordCall P w r f sg args kwargs nc = (w, .ok ()) := by
  simp [recordCall, h]

theorem recordCall_rejected {P : Prog} {w : World} {r f sg args kwargs nc o e}
    (h : w.recording = true) (ho : w.heap[r]? = some o)
    (hc : checkParams P w sg.annots (collect sg o.id args kwargs) = .error e) :
    recordCall P w r f sg args kwargs nc = ((getQueue w none).1, .error e) := by
  unfold recordCall
  rw [if_neg (by simp [h])]
  dsimp only
  rw [getQueue_none_heap, ho]
  dsimp only
  rw [checkParams_congr (getQueue_none_heap w) (getQueue_none_conv w), hc]

theorem recordCall_accepted {P : Prog} {w : World} {r f sg args kwargs nc o ps}
    (hv : w.ActiveValid) (h : w.recording = true) (ho : w.heap[r]? = some o)
    (hc : checkParams P w sg.annots (collect sg o.id args kwargs) = .ok ps) :
    recordCall P w r f sg args kwargs nc =
      (if !nc && activeWritable w then
        pushCmd (getQueue w none).1 (activeIx w) o.cls ((P.override o.cls f).getD f) ps
       else (getQueue w none).1, .ok ()) := by
  unfold recordCall
  rw [if_neg (by simp [h])]
  dsimp only
  rw [getQueue_none_heap, ho]
  dsimp only
  rw [checkParams_congr (getQueue_none_heap w) (getQueue_none_conv w), hc]
  dsimp only
  rw [getQueue_none_ix]
  obtain ⟨u, hu, hr⟩ := getQueue_none_get hv
  rw [hu]
  dsimp only
  rw [hr, Bool.not_not]
  split <;> rfl

/-- The effect of recording on the queues, in one formula. -/
theorem recordCall_commands {P : Prog} {w : World} {r f sg args kwargs nc o}
    (hv : w.ActiveValid) (ho : w.heap[r]? = some o) {w' res}
    (hr : recordCall P w r f sg args kwargs nc = (w', res)) :
    ∃ ps, (res = .ok () → w.recording = true →
        checkParams P w sg.annots (collect sg o.id args kwargs) = .ok ps) ∧
      ∀ q, commandsOf w' q = commandsOf w q ++
        (if res = .ok () ∧ w.recording = true ∧ nc = false ∧ activeWritable w = true ∧
            q = activeIx w then
          [{ cid := w.cidCounter + 1, cls := o.cls, meth := (P.override o.cls f).getD f,
             params := stripObjs w ps }]
         else []) := by
  cases hrec : w.recording with
  | false =>
    rw [recordCall_off hrec] at hr
    cases hr
    exact ⟨[], by simp, by simp⟩
  | true =>
    cases hc : checkParams P w sg.annots (collect sg o.id args kwargs) with
    | error e =>
      rw [recordCall_rejected hrec ho hc] at hr
      cases hr
      exact ⟨[], by simp, by simp [commandsOf_getQueue]⟩
    | ok ps =>
      rw [recordCall_accepted hv hrec ho hc] at hr
      obtain ⟨rfl, rfl⟩ := Prod.mk.inj hr
      refine ⟨ps, by simp, ?_⟩
      intro q
      obtain ⟨u, hu, hro⟩ := getQueue_none_get hv
      cases nc with
      | true => simp [commandsOf_getQueue]
      | false =>
        cases hw : activeWritable w with
        | false => simp [commandsOf_getQueue]
        | true =>
          rw [hw] at hro
          simp only [Bool.not_false, Bool.and_self, if_true]
          rw [commandsOf_pushCmd _ _ _ hu hro, commandsOf_getQueue, getQueue_cidCounter,
            stripObjs_congr (getQueue_none_heap w)]
          by_cases hq : activeIx w = q
          · simp [hq]
          · simp [hq, Ne.symm hq]

theorem typeName_logCall (w : World) (r f b) (v : Val) :
    typeName (logCall w r f b) v = typeName w v := by
  cases v <;> try rfl
  rename_i x
  unfold logCall
  cases h : w.heap[r]? with
  | none => rfl
  | some o =>
    have hlt := (List.getElem?_eq_some_iff.1 h).1
    simp only [typeName]
    by_cases hx : r = x
    · subst hx; rw [h, List.getElem?_set_self hlt]
    · rw [List.getElem?_set_ne hx]

theorem acceptable_logCall (P : Prog) (w : World) (r f b) (v : Val) (anns) :
    Acceptable P (logCall w r f b) v anns ↔ Acceptable P w v anns := by
  have : (logCall w r f b).converters = w.converters := by unfold logCall; split <;> rfl
  simp only [Acceptable, typeName_logCall, this]

end Verif
