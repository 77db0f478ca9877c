import Verif.Lemmas.Recording
/-! Resolution of the parameters of a recorded command. -/

namespace Verif

/-- An object reference stands for the registered object. -/
def refOf (w : World) : Val → Val
  | .oid n => match dget w.objects n with | some r => .obj r | none => .oid n
  | .int n => match dget w.objects n with | some r => .obj r | none => .int n
  | v => v

/-- What an entry of a command is resolved to. -/
def valR (w : World) (p : String × Val) : Val := if endsWithId p.1 then refOf w p.2 else p.2

/-- The entry can be resolved without conversion. -/
def ResOK (w : World) (p : String × Val) : Prop :=
  if endsWithId p.1 then ∃ n r, (p.2 = .oid n ∨ p.2 = .int n) ∧ dget w.objects n = some r
  else (∀ n, p.2 ≠ .oid n) ∧ (∀ f v, p.2 ≠ .conv f v)

theorem resolveParams_eq (P : Prog) (w : World) (ps : Dict String Val) (acc : Dict String Val)
    (h : ∀ p ∈ ps, ResOK w p) :
    resolveParams P w ps acc =
      (w, .ok (ps.foldl (fun a p => dset a (target p.1) (valR w p)) acc)) := by
  induction ps generalizing acc with
  | nil => rfl
  | cons p ps ih =>
    obtain ⟨k, v⟩ := p
    have hp := h (k, v) (by simp)
    have ih' := fun acc => ih acc (fun p hp => h p (List.mem_cons_of_mem _ hp))
    rw [List.foldl_cons]
    unfold resolveParams
    unfold ResOK at hp
    by_cases hk : endsWithId k = true
    · simp only [hk, if_true] at hp ⊢
      obtain ⟨n, r, hv, hr⟩ := hp
      rcases hv with rfl | rfl
      · simp only [hr, ih', target, hk, if_true, valR, refOf]
      · simp only [hr, ih', target, hk, if_true, valR, refOf]
    · have hk' : endsWithId k = false := by simpa using hk
      simp only [hk', Bool.false_eq_true, if_false] at hp ⊢
      split
      · rename_i n; exact absurd rfl (hp.1 n)
      · rename_i f v; exact absurd rfl (hp.2 f v)
      · simp [ih', target, hk', valR]

theorem dget_foldl_dset (w : World) (k : String) (ps : Dict String Val) (acc : Dict String Val) :
    dget (ps.foldl (fun a p => dset a (target p.1) (valR w p)) acc) k =
      match (proj k ps).getLast? with
      | some p => some (valR w p)
      | none => dget acc k := by
  induction ps generalizing acc with
  | nil => rfl
  | cons p ps ih =>
    rw [List.foldl_cons, ih]
    by_cases hp : target p.1 = k
    · have : proj k (p :: ps) = p :: proj k ps := by simp [proj, hp]
      rw [this]
      cases hl : (proj k ps).getLast? with
      | none =>
        have : proj k ps = [] := by simpa using hl
        rw [this, ← hp]
        simp
      | some q => simp [List.getLast?_cons, hl]
    · have : proj k (p :: ps) = proj k ps := by simp [proj, hp]
      rw [this]
      cases hl : (proj k ps).getLast? with
      | none => exact dget_dset_ne _ _ hp
      | some q => rfl

theorem dkeys_foldl_dset (w : World) (ps : Dict String Val) (acc : Dict String Val) :
    (∀ k ∈ dkeys (ps.foldl (fun a p => dset a (target p.1) (valR w p)) acc),
      k ∈ dkeys acc ∨ ∃ p ∈ ps, target p.1 = k) ∧
    ((dkeys acc).Nodup →
      (dkeys (ps.foldl (fun a p => dset a (target p.1) (valR w p)) acc)).Nodup) := by
  induction ps generalizing acc with
  | nil => exact ⟨fun k hk => Or.inl hk, id⟩
  | cons p ps ih =>
    rw [List.foldl_cons]
    obtain ⟨h1, h2⟩ := ih (dset acc (target p.1) (valR w p))
    refine ⟨?_, fun h => h2 (nodup_dkeys_dset _ _ _ h)⟩
    intro k hk
    rcases h1 k hk with h | ⟨q, hq, ht⟩
    · rw [dkeys_dset] at h
      split at h
      · exact Or.inl h
      · rcases List.mem_append.1 h with h | h
        · exact Or.inl h
        · exact Or.inr ⟨p, by simp, (List.mem_singleton.1 h).symm⟩
    · exact Or.inr ⟨q, List.mem_cons_of_mem _ hq, ht⟩

theorem proj_map (k : String) (t : Val → Val) (ps : Dict String Val) :
    proj k (ps.map (fun p => (p.1, t p.2))) = (proj k ps).map (fun p => (p.1, t p.2)) := by
  simp only [proj, List.filter_map]
  rfl

theorem proj_ddel (k key : String) (ps : Dict String Val) (h : target key ≠ k) :
    proj k (ddel ps key) = proj k ps := by
  simp only [proj, ddel, List.filter_filter]
  apply List.filter_congr
  intro p _
  by_cases hp : p.1 = key
  · simp [hp, h]
  · simp [hp]

/-- Arguments that replay faithfully: no object for an optional parameter. -/
theorem proj_collect_single {sg : Sig} (hwf : sg.WF) {args kwargs} (selfId : Int)
    (hkw : (dkeys kwargs).Nodup) (hkp : ∀ k ∈ dkeys kwargs, k ∈ sg.params.drop args.length)
    (hopt : ∀ k v, givenArg sg args kwargs k = some v → v.isObj = true →
      dget sg.defaults k = none)
    {k : String} (hk : k ∈ sg.params) :
    proj k (collect sg selfId args kwargs) =
      match seenArg sg args kwargs k with
      | some v => [(keyFor k v, v)]
      | none => [] := by
  rw [proj_collect_eq hwf selfId hkw hkp hk]
  unfold seenArg
  cases hg : givenArg sg args kwargs k with
  | none =>
    simp only [Option.none_or]
    cases dget sg.defaults k <;> rfl
  | some v =>
    simp only [Option.some_or]
    cases hv : v.isObj with
    | true => simp [hopt k v hg hv, keyFor_obj hv]
    | false => simp [keyFor_nonobj hv]

/-- What the transport of a command (none, or JSON) must do to the arguments. -/
structure Transports (w w2 : World) (t : Val → Val) (sg : Sig) (args : List Val)
    (kwargs : Dict String Val) : Prop where
  plain : ∀ k v, seenArg sg args kwargs k = some v → v.isObj = false →
    t v = v ∧ (∀ n, v ≠ .oid n) ∧ (∀ f x, v ≠ .conv f x)
  refs : ∀ k x, seenArg sg args kwargs k = some (.obj x) → ∃ o y,
    w.heap[x]? = some o ∧ dget w2.objects o.id = some y ∧
    (t (.obj x) = .oid o.id ∨ t (.obj x) = .int o.id)

/-- Resolving a recorded command gives back the arguments. -/
theorem resolve_recorded {P : Prog} {w w2 : World} {t : Val → Val} {sg : Sig} (hwf : sg.WF)
    {args kwargs bound} (selfId : Int) (hkw : (dkeys kwargs).Nodup)
    (hb : bindArgs sg args kwargs = .ok bound)
    (hopt : ∀ k v, givenArg sg args kwargs k = some v → v.isObj = true →
      dget sg.defaults k = none)
    (ht : Transports w w2 t sg args kwargs) :
    ∃ ps2, resolveParams P w2
        (ddel ((collect sg selfId args kwargs).map (fun p => (p.1, t p.2))) "id") [] = (w2, .ok ps2) ∧
      bindArgs sg [] ps2 = .ok (bound.map (fun p => (p.1, relink w w2 p.2))) ∧
      (dkeys ps2).Nodup ∧ (∀ k ∈ dkeys ps2, k ∈ sg.params) ∧
      ∀ k ∈ sg.params, dget ps2 k = (seenArg sg args kwargs k).map (relink w w2) := by
  have hB := bindArgs_ok hb
  have hkp' : ∀ k ∈ dkeys kwargs, k ∈ sg.params :=
    fun k h => List.mem_of_mem_drop (hB.known k h)
  -- the entries of the command
  have hent : ∀ p ∈ ddel ((collect sg selfId args kwargs).map (fun p => (p.1, t p.2))) "id",
      ∃ k v, k ∈ sg.params ∧ seenArg sg args kwargs k = some v ∧ p = (keyFor k v, t v) := by
    intro p hp
    simp only [ddel, List.mem_filter, List.mem_map, ne_eq, decide_eq_true_eq] at hp
    obtain ⟨⟨q, hq, rfl⟩, hne⟩ := hp
    have hqk : q.1 ∈ dkeys (collect sg selfId args kwargs) := List.mem_map_of_mem (f := Prod.fst) hq
    rcases collect_keys hwf selfId hkp' q.1 hqk with h | h
    · exact absurd h (by simpa using hne)
    · have hpr : q ∈ proj (target q.1) (collect sg selfId args kwargs) := by
        simp [proj, hq]
      rw [proj_collect_single hwf selfId hkw hB.known hopt h] at hpr
      cases hs : seenArg sg args kwargs (target q.1) with
      | none => rw [hs] at hpr; simp at hpr
      | some v =>
        rw [hs] at hpr
        simp only [List.mem_singleton] at hpr
        exact ⟨target q.1, v, h, hs, by rw [hpr]; simp [target_keyFor (hwf.ident _ h)]⟩
  have hok : ∀ p ∈ ddel ((collect sg selfId args kwargs).map (fun p => (p.1, t p.2))) "id",
      ResOK w2 p := by
    intro p hp
    obtain ⟨k, v, hk, hs, rfl⟩ := hent p hp
    unfold ResOK
    cases hv : v.isObj with
    | true =>
      cases v <;> simp [Val.isObj] at hv
      rename_i x
      obtain ⟨o, y, h1, h2, h3⟩ := ht.refs k x hs
      rw [keyFor_obj (by rfl), if_pos (endsWithId_append k)]
      exact ⟨o.id, y, h3, h2⟩
    | false =>
      obtain ⟨h1, h2, h3⟩ := ht.plain k v hs hv
      dsimp only
      rw [keyFor_nonobj hv, if_neg (by simp [hwf.ident k hk]), h1]
      exact ⟨h2, h3⟩
  refine ⟨_, resolveParams_eq P w2 _ [] hok, ?_⟩
  generalize hR : List.foldl (fun a p => dset a (target p.1) (valR w2 p)) []
    (ddel ((collect sg selfId args kwargs).map (fun p => (p.1, t p.2))) "id") = ps2
  have hget : ∀ k ∈ sg.params, dget ps2 k = (seenArg sg args kwargs k).map (relink w w2) := by
    intro k hk
    rw [← hR, dget_foldl_dset, proj_ddel, proj_map,
      proj_collect_single hwf selfId hkw hB.known hopt hk]
    · cases hs : seenArg sg args kwargs k with
      | none => rfl
      | some v =>
        simp only [List.map_cons, List.map_nil, List.getLast?_singleton, Option.map_some,
          Option.some.injEq]
        cases hv : v.isObj with
        | true =>
          cases v <;> simp [Val.isObj] at hv
          rename_i x
          obtain ⟨o, y, h1, h2, h3⟩ := ht.refs k x hs
          rw [keyFor_obj (by rfl)]
          simp only [valR, endsWithId_append, if_true, relink, h1, h2]
          rcases h3 with h3 | h3 <;> rw [h3] <;> simp [refOf, h2]
        | false =>
          obtain ⟨h1, _, _⟩ := ht.plain k v hs hv
          rw [keyFor_nonobj hv, h1]
          simp only [valR, hwf.ident k hk, Bool.false_eq_true, if_false]
          cases v <;> simp [Val.isObj] at hv <;> rfl
    · rw [show target "id" = "id" by decide]
      rintro rfl
      exact hwf.noId hk
  have hkeys : ∀ k ∈ dkeys ps2, k ∈ sg.params := by
    intro k hk
    rw [← hR] at hk
    rcases (dkeys_foldl_dset w2 _ []).1 k hk with h | ⟨p, hp, h⟩
    · simp [dkeys] at h
    · obtain ⟨k', v, hk', _, rfl⟩ := hent p hp
      rw [target_keyFor (hwf.ident k' hk')] at h
      exact h ▸ hk'
  have hnd : (dkeys ps2).Nodup := by
    rw [← hR]; exact (dkeys_foldl_dset w2 _ []).2 (by simp [dkeys])
  have hseen : ∀ k ∈ sg.params, ∃ v, dget bound k = some v ∧ seenArg sg args kwargs k = some v := by
    intro k hk
    rw [← hB.keys] at hk
    obtain ⟨v, hv⟩ := (mem_dkeys _ _).1 hk
    exact ⟨v, hv, hB.vals (k, v) (dget_mem hv)⟩
  refine ⟨?_, hnd, hkeys, hget⟩
  rw [bindArgs_kwargs (g := fun k => relink w w2 ((dget bound k).getD .none)) hkeys]
  · congr 1
    rw [← hB.keys]
    simp only [dkeys, List.map_map]
    apply List.map_congr_left
    intro p hp
    have hbn : (dkeys bound).Nodup := by rw [hB.keys]; exact hwf.nodup
    have := dget_of_mem_nodup (k := p.1) (v := p.2) hbn hp
    simp [this]
  · intro k hk
    obtain ⟨v, hv, hs⟩ := hseen k hk
    rw [hget k hk, hs, hv]
    rfl

end Verif
