import Verif.Spec.Session
import Verif.Lemmas.Queues
/-! The parameters collected by the decorator, and their resolution at replay. -/

namespace Verif

/-- The parameter a key of a command speaks about. -/
def target (k : String) : String := if endsWithId k then dropId k else k

/-- The entries of a command about parameter `k`, in order. -/
def proj (k : String) (ps : Dict String Val) : Dict String Val :=
  ps.filter (fun p => target p.1 = k)

theorem target_self {k : String} (h : endsWithId k = false) : target k = k := by
  simp [target, h]

@[simp] theorem target_suffix (k : String) : target (k ++ "(id)") = k := by
  simp [target]

theorem target_keyFor {k : String} (h : endsWithId k = false) (v : Val) :
    target (keyFor k v) = k := by
  unfold keyFor
  split
  · simp
  · exact target_self h

theorem proj_dset_ne (k : String) (d : Dict String Val) (key : String) (v : Val)
    (h : target key ≠ k) : proj k (dset d key v) = proj k d := by
  induction d with
  | nil => simp [proj, dset, h]
  | cons p d ih =>
    obtain ⟨a, b⟩ := p
    simp only [proj] at ih
    simp only [dset]
    split
    · rename_i hak
      subst hak
      simp [proj, h]
    · simp only [proj, List.filter_cons, ih]

theorem proj_dset_eq (k : String) (d : Dict String Val) (key : String) (v : Val)
    (h : target key = k) : proj k (dset d key v) = dset (proj k d) key v := by
  induction d with
  | nil => simp [proj, dset, h]
  | cons p d ih =>
    obtain ⟨a, b⟩ := p
    simp only [proj] at ih
    simp only [dset]
    split
    · rename_i hak
      subst hak
      simp [proj, h, dset]
    · rename_i hak
      simp only [proj, List.filter_cons, ih]
      split
      · simp [dset, hak]
      · rfl

theorem dget_proj (k : String) (d : Dict String Val) (key : String) (h : target key = k) :
    dget (proj k d) key = dget d key := by
  induction d with
  | nil => rfl
  | cons p d ih =>
    obtain ⟨a, b⟩ := p
    simp only [proj] at ih
    by_cases hak : a = key
    · subst hak
      simp [proj, dget, h]
    · simp only [proj, List.filter_cons, dget, if_neg hak]
      split
      · simp only [dget, if_neg hak]; exact ih
      · exact ih

/-- One step of the positional loop. -/
def step1 (d : Dict String Val) (p : String × Val) : Dict String Val :=
  dset d (keyFor p.1 p.2) p.2

/-- One step of the keyword and default loops. -/
def step2 (d : Dict String Val) (p : String × Val) : Dict String Val :=
  if dhas d p.1 then d else dset d (keyFor p.1 p.2) p.2

theorem proj_step1_ne {k n : String} (v : Val) (d) (hn : endsWithId n = false) (h : n ≠ k) :
    proj k (step1 d (n, v)) = proj k d :=
  proj_dset_ne _ _ _ _ (by rw [target_keyFor hn]; exact h)

theorem proj_step1_eq {k : String} (v : Val) (d) (hn : endsWithId k = false) :
    proj k (step1 d (k, v)) = step1 (proj k d) (k, v) :=
  proj_dset_eq _ _ _ _ (target_keyFor hn v)

theorem proj_step2_ne {k n : String} (v : Val) (d) (hn : endsWithId n = false) (h : n ≠ k) :
    proj k (step2 d (n, v)) = proj k d := by
  unfold step2
  split
  · rfl
  · exact proj_dset_ne _ _ _ _ (by rw [target_keyFor hn]; exact h)

theorem proj_step2_eq {k : String} (v : Val) (d) (hn : endsWithId k = false) :
    proj k (step2 d (k, v)) = step2 (proj k d) (k, v) := by
  unfold step2
  simp only [dhas, dget_proj k d k (target_self hn)]
  by_cases h : (dget d k).isSome = true
  · simp [h]
  · simp only [h]
    exact proj_dset_eq _ _ _ _ (target_keyFor hn v)

/-- A fold whose step on a name only concerns that name. -/
theorem proj_foldl (k : String) (hk : endsWithId k = false)
    (st : Dict String Val → String × Val → Dict String Val)
    (hne : ∀ n v d, endsWithId n = false → n ≠ k → proj k (st d (n, v)) = proj k d)
    (heq : ∀ v d, proj k (st d (k, v)) = st (proj k d) (k, v))
    (L : Dict String Val) (hid : ∀ p ∈ L, endsWithId p.1 = false) (hnd : (dkeys L).Nodup)
    (d : Dict String Val) :
    proj k (L.foldl st d) =
      match dget L k with
      | some v => st (proj k d) (k, v)
      | none => proj k d := by
  induction L generalizing d with
  | nil => rfl
  | cons p L ih =>
    obtain ⟨n, v⟩ := p
    simp only [dkeys, List.map_cons, List.nodup_cons] at hnd
    rw [List.foldl_cons, ih (fun p hp => hid p (List.mem_cons_of_mem _ hp)) hnd.2]
    by_cases hnk : n = k
    · subst hnk
      have : dget L n = none := by
        cases hL : dget L n with
        | none => rfl
        | some v' => exact absurd (List.mem_map_of_mem (f := Prod.fst) (dget_mem hL)) hnd.1
      simp only [this, dget, if_true]
      exact heq v d
    · have h1 := hne n v d (hid (n, v) (by simp)) hnk
      simp only [dget, if_neg hnk, h1]

theorem dkeys_zip_sublist (ks : List String) (vs : List Val) :
    (dkeys (ks.zip vs)).Sublist ks := by
  induction ks generalizing vs with
  | nil => simp [dkeys]
  | cons k ks ih =>
    cases vs with
    | nil => simp [dkeys]
    | cons v vs => simpa [dkeys] using (ih vs)

section collect
variable {sg : Sig} (hwf : sg.WF) {args : List Val} {kwargs : Dict String Val}
include hwf

/-- The entries about parameter `k` after each of the three loops. -/
theorem proj_collect (hkw : (dkeys kwargs).Nodup) (hkp : ∀ k ∈ dkeys kwargs, k ∈ sg.params)
    (selfId : Int) {k : String} (hk : k ∈ sg.params) :
    proj k (collect sg selfId args kwargs) =
      (let l1 : Dict String Val := match dget (sg.params.zip args) k with
        | some v => [(keyFor k v, v)]
        | none => []
       let l2 := match dget kwargs k with
        | some v => step2 l1 (k, v)
        | none => l1
       match dget sg.defaults k with
        | some v => step2 l2 (k, v)
        | none => l2) := by
  have hkid := hwf.ident k hk
  have hzip : ∀ p ∈ sg.params.zip args, endsWithId p.1 = false := by
    intro p hp
    exact hwf.ident _ (List.of_mem_zip (a := p.1) (b := p.2) hp).1
  have hz : (dkeys (sg.params.zip args)).Nodup :=
    (dkeys_zip_sublist _ _).nodup hwf.nodup
  have h0 : proj k [("id", Val.oid selfId)] = [] := by
    have : target "id" = "id" := by decide
    have hne : "id" ≠ k := by rintro rfl; exact hwf.noId hk
    simp [proj, this, hne]
  have e1 : proj k (collectPos selfId sg.params args) =
      match dget (sg.params.zip args) k with
      | some v => [(keyFor k v, v)]
      | none => [] := by
    have := proj_foldl k hkid step1 (fun n v d => proj_step1_ne v d)
      (fun v d => proj_step1_eq v d hkid) (sg.params.zip args) hzip hz [("id", .oid selfId)]
    rw [h0] at this
    exact this
  have hidk : ∀ p ∈ kwargs, endsWithId p.1 = false := by
    intro p hp
    exact hwf.ident _ (hkp _ (List.mem_map_of_mem (f := Prod.fst) hp))
  have hidd : ∀ p ∈ sg.defaults, endsWithId p.1 = false := by
    intro p hp
    exact hwf.ident _ (hwf.defaultsParams _ (List.mem_map_of_mem (f := Prod.fst) hp))
  have e2 := proj_foldl k hkid step2 (fun n v d => proj_step2_ne v d)
    (fun v d => proj_step2_eq v d hkid) kwargs hidk hkw (collectPos selfId sg.params args)
  have e3 := proj_foldl k hkid step2 (fun n v d => proj_step2_ne v d)
    (fun v d => proj_step2_eq v d hkid) sg.defaults hidd hwf.defaultsNodup
    (collectMissing (collectPos selfId sg.params args) kwargs)
  have e2' : proj k (collectMissing (collectPos selfId sg.params args) kwargs) = _ := e2
  have e3' : proj k (collect sg selfId args kwargs) = _ := e3
  rw [e3', e2', e1]

end collect

/-! ### Binding -/

theorem mapM_option_some {α β : Type} {f : α → Option β} {l : List α} {l' : List β}
    (h : l.mapM f = some l') : l.length = l'.length ∧
      ∀ (i : Nat) a, l[i]? = some a → ∃ b, l'[i]? = some b ∧ f a = some b := by
  induction l generalizing l' with
  | nil => simp at h; subst h; simp
  | cons x l ih =>
    simp only [List.mapM_cons, Option.bind_eq_bind, Option.pure_def, Option.bind_eq_some_iff,
      Option.some.injEq] at h
    obtain ⟨b, hb, l'', hl, rfl⟩ := h
    obtain ⟨h1, h2⟩ := ih hl
    refine ⟨by simp [h1], ?_⟩
    intro i a hi
    cases i with
    | zero => simp at hi; subst hi; exact ⟨b, by simp, hb⟩
    | succ i => simpa using h2 i a (by simpa using hi)

theorem mapM_option_of_forall {α β : Type} {f : α → Option β} {g : α → β} {l : List α}
    (h : ∀ a ∈ l, f a = some (g a)) : l.mapM f = some (l.map g) := by
  induction l with
  | nil => simp
  | cons x l ih =>
    simp only [List.mapM_cons, h x (by simp), ih (fun a ha => h a (List.mem_cons_of_mem _ ha))]
    rfl

/-- What a successful binding means. -/
structure Bound (sg : Sig) (args : List Val) (kwargs bound : Dict String Val) : Prop where
  few : args.length ≤ sg.params.length
  known : ∀ k ∈ dkeys kwargs, k ∈ sg.params.drop args.length
  keys : dkeys bound = sg.params
  vals : ∀ p ∈ bound, seenArg sg args kwargs p.1 = some p.2

theorem bindArgs_ok {sg : Sig} {args : List Val} {kwargs bound : Dict String Val}
    (h : bindArgs sg args kwargs = .ok bound) : Bound sg args kwargs bound := by
  unfold bindArgs at h
  split at h
  · simp at h
  · rename_i h1
    split at h
    · simp at h
    · rename_i h2
      dsimp only at h
      generalize hm : (List.mapM (m := Option) _ sg.params) = m at h
      cases m with
      | none => simp at h
      | some l =>
        simp only [Option.elim_some, Except.ok.injEq] at h
        subst h
        obtain ⟨hl, hv⟩ := mapM_option_some hm
        have hf : ∀ (i : Nat) k, sg.params[i]? = some k → ∃ v, l[i]? = some (k, v) ∧
            seenArg sg args kwargs k = some v := by
          intro i k hi
          obtain ⟨b, hb, hfb⟩ := hv i k hi
          simp only [seenArg, givenArg]
          split at hfb
          · rename_i v hz
            cases hfb
            exact ⟨v, hb, by simp [hz]⟩
          · rename_i hz
            split at hfb
            · rename_i v hk
              cases hfb
              exact ⟨v, hb, by simp [hz, hk]⟩
            · rename_i hk
              simp only [Option.map_eq_some_iff] at hfb
              obtain ⟨v, hv, rfl⟩ := hfb
              exact ⟨v, hb, by simp [hz, hk, hv]⟩
        refine ⟨by omega, ?_, ?_, ?_⟩
        · intro k hk
          simp only [dkeys, List.mem_map] at hk
          obtain ⟨p, hp, rfl⟩ := hk
          simp only [List.any_eq_true, Bool.not_eq_true', not_exists, not_and] at h2
          have := h2 p hp
          simpa using this
        · apply List.ext_getElem?
          intro i
          simp only [dkeys, List.getElem?_map]
          cases hi : sg.params[i]? with
          | none =>
            have : sg.params.length ≤ i := List.getElem?_eq_none_iff.1 hi
            rw [List.getElem?_eq_none (by omega)]
            rfl
          | some k =>
            obtain ⟨v, hb, _⟩ := hf i k hi
            rw [hb]; rfl
        · intro p hp
          obtain ⟨i, hi⟩ := List.mem_iff_getElem?.1 hp
          have hlt : i < sg.params.length := by
            rw [hl]; exact (List.getElem?_eq_some_iff.1 hi).1
          obtain ⟨v, hb, hs⟩ := hf i _ (List.getElem?_eq_getElem hlt)
          rw [hi] at hb
          cases hb
          exact hs

/-- Calling with all arguments by name. -/
theorem bindArgs_kwargs {sg : Sig} {ps : Dict String Val} {g : String → Val}
    (hk : ∀ k ∈ dkeys ps, k ∈ sg.params) (hg : ∀ k ∈ sg.params, dget ps k = some (g k)) :
    bindArgs sg [] ps = .ok (sg.params.map (fun k => (k, g k))) := by
  unfold bindArgs
  rw [if_neg (by simp), if_neg]
  · dsimp only
    rw [mapM_option_of_forall (g := fun k => (k, g k))]
    · rfl
    · intro k hkp
      simp [hg k hkp]
  · simp only [List.length_nil, List.drop_zero, List.any_eq_true, Bool.not_eq_true', not_exists,
      not_and]
    intro p hp
    have := hk p.1 (List.mem_map_of_mem (f := Prod.fst) hp)
    simpa using this

end Verif
