import Verif.Spec.Deliver
import Verif.Lemmas.Define
/-! The type check of one argument, in closed form. -/

namespace Verif

theorem getConverterType_eq (P : Prog) (cs) (src dst : String) :
    getConverterType P cs src dst = registeredFrom cs (src :: P.metaBases src) dst := by
  have key : ∀ l : List String, l.findSome? (fun b => isRegistered cs b dst) =
      registeredFrom cs l dst := by
    intro l
    induction l with
    | nil => rfl
    | cons s l ih =>
      simp only [registeredFrom, List.flatMap_cons, List.findSome?_append, List.findSome?_cons,
        isRegistered] at ih ⊢
      cases h1 : dget cs (s, dst) with
      | some f => simp
      | none =>
        cases h2 : dget cs ("*", dst) with
        | some f => simp
        | none =>
          rw [h2] at ih
          simpa [h2] using ih
  rw [← key, List.findSome?_cons]
  unfold getConverterType
  cases isRegistered cs src dst <;> rfl

theorem searchConv_eq (P : Prog) (cs bases ann v) (st : Bool × Val) :
    searchConv P cs bases ann v st =
      match (bases.filterMap (fun b => getConverterType P cs b ann)).getLast? with
      | some f => (true, .conv f v)
      | none => st := by
  unfold searchConv
  induction bases generalizing st with
  | nil => rfl
  | cons b bases ih =>
    rw [List.foldl_cons, ih]
    cases h : getConverterType P cs b ann with
    | none => simp [h]
    | some f =>
      rw [List.filterMap_cons_some (f := fun b => getConverterType P cs b ann) h,
        List.getLast?_cons]
      cases hl : (bases.filterMap (fun b => getConverterType P cs b ann)).getLast? <;> simp

theorem checkLoop_eq (P : Prog) (cs c bases v anns) (st : Bool × Val) :
    checkLoop P cs (comparedClass P c) bases v anns st =
      match ((anns.takeWhile (fun ann => !fits P c ann)).flatMap (fun ann =>
        bases.filterMap (fun b => getConverterType P cs b ann))).getLast? with
      | some f => (true, .conv f v)
      | none => (st.1 || anns.any (fits P c), st.2) := by
  have hfit : ∀ ann, fits P c ann = (matchesType P (comparedClass P c) ann ||
      decide (comparedClass P c = "NoneType")) := by
    intro ann
    unfold fits matchesType
    rw [Bool.eq_iff_iff]
    simp only [decide_eq_true_eq, Bool.or_eq_true, List.mem_cons, List.contains_iff_mem]
    tauto
  induction anns generalizing st with
  | nil => simp [checkLoop]
  | cons ann anns ih =>
    unfold checkLoop
    by_cases hf : fits P c ann = true
    · have h2 := hfit ann
      rw [hf] at h2
      rw [List.takeWhile_cons_of_neg (by simp [hf])]
      simp only [List.flatMap_nil, List.getLast?_nil, List.any_cons, hf, Bool.true_or, Bool.or_true]
      split
      · rfl
      · rename_i hm
        rw [if_pos (by simpa [hm] using h2.symm)]
    · have hf' : fits P c ann = false := by simpa using hf
      have h2 := hfit ann
      rw [hf'] at h2
      have h3 : matchesType P (comparedClass P c) ann = false ∧ ¬ comparedClass P c = "NoneType" := by
        simpa using h2.symm
      rw [if_neg (by simp [h3.1]), if_neg h3.2, ih, searchConv_eq,
        List.takeWhile_cons_of_pos (by simp [hf']), List.flatMap_cons, List.getLast?_append]
      simp only [List.any_cons, hf', Bool.false_or]
      cases h4 : ((anns.takeWhile (fun ann => !fits P c ann)).flatMap (fun ann =>
        bases.filterMap (fun b => getConverterType P cs b ann))).getLast? with
      | some f => rfl
      | none =>
        cases h5 : (bases.filterMap (fun b => getConverterType P cs b ann)).getLast? with
        | none => rfl
        | some f => rfl

theorem paramType_eq (P : Prog) (c : String) : paramType P c = comparedClass P c := by
  unfold paramType comparedClass
  have : hasChar '[' c = true ↔ '[' ∈ c.toList := by simp [hasChar]
  by_cases h : '[' ∈ c.toList
  · rw [if_pos h, if_pos (this.2 h)]
    cases P.mro c with
    | nil => rfl
    | cons a l => cases l <;> rfl
  · rw [if_neg h, if_neg (fun h' => h (this.1 h'))]

theorem typeName_className (w : World) {v : Val} (h : v.isObj = false) :
    typeName w v = className v := by
  cases v <;> simp [Val.isObj] at h <;> rfl

/-- The type check of an argument that is no object. -/
theorem checkParam_eq (P : Prog) (w : World) (annots : Dict String (List String)) (k : String)
    {v : Val} (hv : v.isObj = false) :
    checkParam P w annots k v =
      match dget annots k with
      | none => .ok v
      | some anns => match recordedAs P w.converters anns v with
        | some u => .ok u
        | none => .error .valueError := by
  unfold checkParam
  cases dget annots k with
  | none => rfl
  | some anns =>
    simp only [typeName_className w hv, paramType_eq, checkLoop_eq, recordedAs, candidates,
      getConverterType_eq]
    cases ((anns.takeWhile (fun ann => !fits P (className v) ann)).flatMap (fun ann =>
        (P.mro (className v)).filterMap (fun b =>
          registeredFrom w.converters (b :: P.metaBases b) ann))).getLast? with
    | some f => rfl
    | none =>
      cases h : anns.any (fits P (className v)) <;> simp

theorem passes_iff (P : Prog) (w : World) {v : Val} (hv : v.isObj = false) (anns : List String) :
    Acceptable P w v anns ↔ recordedAs P w.converters anns v ≠ none := by
  have h1 := checkParam_ok_iff P w [("k", anns)] "k" v
  have h2 : ∀ x, dget [("k", anns)] "k" = some x ↔ anns = x := by intro x; simp [dget]
  simp only [h2, forall_eq'] at h1
  rw [← h1, checkParam_eq P w _ _ hv]
  have h3 : dget [("k", anns)] "k" = some anns := by simp [dget]
  rw [h3]
  cases h : recordedAs P w.converters anns v <;> simp [h]

/-- The recorded form of an entry. -/
def formVal (P : Prog) (cs : Dict (String × String) Nat) (annots : Dict String (List String))
    (k : String) (v : Val) : Val :=
  if v.isObj then v
  else match dget annots k with
    | none => v
    | some anns => (recordedAs P cs anns v).getD v

theorem checkParams_map {P : Prog} {w : World} {annots} {ps : Dict String Val} {g : String → Val → Val}
    (h : ∀ p ∈ ps, checkParam P w annots p.1 p.2 = .ok (g p.1 p.2)) :
    checkParams P w annots ps = .ok (ps.map (fun p => (p.1, g p.1 p.2))) := by
  induction ps with
  | nil => rfl
  | cons p ps ih =>
    obtain ⟨k, v⟩ := p
    unfold checkParams
    rw [h (k, v) (by simp)]
    simp only [ih (fun p hp => h p (List.mem_cons_of_mem _ hp))]
    rfl

/-- The entries of a command about parameter `k` with argument `v`. -/
def entriesOf (sg : Sig) (k : String) (v : Val) : Dict String Val :=
  if v.isObj then
    match dget sg.defaults k with
    | some d => [(k ++ "(id)", v), (k, d)]
    | none => [(k ++ "(id)", v)]
  else [(k, v)]

theorem proj_collect_bound {sg : Sig} (hwf : sg.WF) (hdef : ∀ p ∈ sg.defaults, p.2.isObj = false)
    {args kwargs bound} (selfId : Int) (hkw : (dkeys kwargs).Nodup)
    (hb : bindArgs sg args kwargs = .ok bound) {k : String} {v : Val}
    (hv : dget bound k = some v) :
    proj k (collect sg selfId args kwargs) = entriesOf sg k v := by
  have hB := bindArgs_ok hb
  have hk : k ∈ sg.params := by rw [← hB.keys]; exact (mem_dkeys _ _).2 ⟨v, hv⟩
  have hs := hB.vals (k, v) (dget_mem hv)
  rw [proj_collect_eq hwf selfId hkw hB.known hk]
  unfold seenArg at hs
  dsimp only at hs
  cases hg : givenArg sg args kwargs k with
  | none =>
    rw [hg] at hs
    simp only [Option.none_or] at hs
    have hno := hdef _ (dget_mem hs)
    simp only [hs, entriesOf, hno, keyFor_nonobj hno, Bool.false_eq_true, if_false]
  | some u =>
    rw [hg] at hs
    simp only [Option.some_or, Option.some.injEq] at hs
    subst hs
    simp only [entriesOf]
    split
    · cases hd : dget sg.defaults k with
      | none => rfl
      | some d => simp [hdef _ (dget_mem hd)]
    · rfl

/-- Every entry of a command is the id or is about a parameter. -/
theorem collect_entry {sg : Sig} (hwf : sg.WF) (hdef : ∀ p ∈ sg.defaults, p.2.isObj = false)
    {args kwargs bound} (selfId : Int) (hkw : (dkeys kwargs).Nodup)
    (hb : bindArgs sg args kwargs = .ok bound) {p}
    (hp : p ∈ collect sg selfId args kwargs) :
    p = ("id", .oid selfId) ∨ ∃ k v, k ∈ sg.params ∧ dget bound k = some v ∧ p ∈ entriesOf sg k v := by
  have hB := bindArgs_ok hb
  have hkp' : ∀ k ∈ dkeys kwargs, k ∈ sg.params := fun k h => List.mem_of_mem_drop (hB.known k h)
  have hpk : p.1 ∈ dkeys (collect sg selfId args kwargs) := List.mem_map_of_mem (f := Prod.fst) hp
  rcases collect_keys hwf selfId hkp' p.1 hpk with h | h
  · left
    have h1 := dget_collect_id hwf (args := args) selfId hkp'
    have h2 := dget_of_mem_nodup (k := p.1) (v := p.2) (nodup_collect selfId) hp
    rw [h, h1] at h2
    exact Prod.ext h (Option.some.inj h2).symm
  · right
    have h' := h
    rw [← hB.keys] at h'
    obtain ⟨v, hv⟩ := (mem_dkeys _ _).1 h'
    refine ⟨target p.1, v, h, hv, ?_⟩
    rw [← proj_collect_bound hwf hdef selfId hkw hb hv]
    simp [proj, hp]

/-- The type check of a whole call. -/
theorem check_collect_form {P : Prog} {w : World} {sg : Sig} (hwf : sg.WF)
    (hdef : ∀ p ∈ sg.defaults, p.2.isObj = false)
    {args kwargs bound} (selfId : Int) (hkw : (dkeys kwargs).Nodup)
    (hb : bindArgs sg args kwargs = .ok bound)
    (hrec : ∀ k v, dget bound k = some v → ∃ u, recordedArg P w.converters sg k v = some u) :
    checkParams P w sg.annots (collect sg selfId args kwargs) =
      .ok ((collect sg selfId args kwargs).map
        (fun p => (p.1, formVal P w.converters sg.annots p.1 p.2))) := by
  apply checkParams_map
  intro p hp
  have plain : ∀ k v, v.isObj = false → (∃ u, (match dget sg.annots k with
      | none => some v | some anns => recordedAs P w.converters anns v) = some u) →
      checkParam P w sg.annots k v = .ok (formVal P w.converters sg.annots k v) := by
    intro k v hv ⟨u, hu⟩
    rw [checkParam_eq P w _ _ hv]
    simp only [formVal, hv, Bool.false_eq_true, if_false]
    cases ha : dget sg.annots k with
    | none => rfl
    | some anns =>
      rw [ha] at hu
      simp only at hu
      simp [hu]
  rcases collect_entry hwf hdef selfId hkw hb hp with rfl | ⟨k, v, hk, hv, hm⟩
  · apply plain _ _ rfl
    rw [annots_id hwf (Or.inr rfl)]
    exact ⟨_, rfl⟩
  · obtain ⟨u, hu⟩ := hrec k v hv
    have hid : ∀ x : Val, x.isObj = true → checkParam P w sg.annots (k ++ "(id)") x =
        .ok (formVal P w.converters sg.annots (k ++ "(id)") x) := by
      intro x hx
      unfold checkParam
      rw [annots_id hwf (Or.inl (endsWithId_append k))]
      simp [formVal, hx]
    unfold entriesOf at hm
    cases hvo : v.isObj with
    | true =>
      rw [hvo] at hm
      simp only [if_true] at hm
      cases hd : dget sg.defaults k with
      | none =>
        rw [hd] at hm
        simp only [List.mem_singleton] at hm
        subst hm
        exact hid v hvo
      | some d =>
        rw [hd] at hm
        have hdo := hdef _ (dget_mem hd)
        simp only [List.mem_cons, List.not_mem_nil, or_false] at hm
        rcases hm with rfl | rfl
        · exact hid v hvo
        · apply plain _ _ hdo
          refine ⟨u, ?_⟩
          have hkept : keptArg sg k v = d := by simp [keptArg, hvo, hd]
          simp only [recordedArg, hkept] at hu
          rw [if_neg (by simpa using hdo)] at hu
          exact hu
    | false =>
      rw [hvo] at hm
      simp only [Bool.false_eq_true, if_false, List.mem_singleton] at hm
      subst hm
      apply plain _ _ hvo
      refine ⟨u, ?_⟩
      have hkept : keptArg sg k v = v := by simp [keptArg, hvo]
      simp only [recordedArg, hkept] at hu
      rw [if_neg (by simpa using hvo)] at hu
      exact hu

end Verif
