import Verif.Spec.Handle
import Verif.Lemmas.Number
import Verif.Lemmas.Form
/-! Objects given by what leads to them. -/

namespace Verif

/-! ### The parameters collected -/

/-- The same entry, or that of an object under `k(id)` and that of `v` under `k`. -/
def EntrySwap (R : String → Nat → Val → Prop) (p p' : String × Val) : Prop :=
  p' = p ∨ ∃ k r v, p = (k ++ "(id)", .obj r) ∧ p' = (k, v) ∧ R k r v

/-- What swapped arguments are. -/
def ArgSwap (R : String → Nat → Val → Prop) (p p' : String × Val) : Prop :=
  p' = p ∨ ∃ r v, p.2 = .obj r ∧ p' = (p.1, v) ∧ R p.1 r v

/-- The names `R` speaks of. -/
structure SwapOK (R : String → Nat → Val → Prop) (sg : Sig) : Prop where
  nonobj : ∀ {k r v}, R k r v → v.isObj = false
  param : ∀ {k r v}, R k r v → k ∈ sg.params
  nodef : ∀ {k r v}, R k r v → dget sg.defaults k = none

def targets (d : Dict String Val) : List String := d.map (fun p => target p.1)

theorem targets_swap {R : String → Nat → Val → Prop} {sg : Sig} (hR : SwapOK R sg) (hwf : sg.WF)
    {d d' : Dict String Val} (h : List.Forall₂ (EntrySwap R) d d') : targets d' = targets d := by
  induction h with
  | nil => rfl
  | cons hp _ ih =>
    simp only [targets, List.map_cons] at ih ⊢
    rw [ih]
    rcases hp with rfl | ⟨k, r, v, rfl, rfl, hr⟩
    · rfl
    · simp only [target_suffix, target_self (hwf.ident k (hR.param hr))]

theorem dset_fresh {d : Dict String Val} {k : String} {v : Val} (h : target k ∉ targets d) :
    dset d k v = d ++ [(k, v)] := by
  induction d with
  | nil => rfl
  | cons p d ih =>
    obtain ⟨a, b⟩ := p
    simp only [targets, List.map_cons, List.mem_cons, not_or] at h
    have : a ≠ k := by rintro rfl; exact h.1 rfl
    simp only [dset, if_neg this, List.cons_append, ih h.2]

theorem dhas_fresh {d : Dict String Val} {k : String} (hk : endsWithId k = false) (h : k ∉ targets d) :
    dhas d k = false := by
  cases hd : dget d k with
  | none => simp [dhas, hd]
  | some v =>
    refine absurd ?_ h
    have := List.mem_map_of_mem (f := fun p : String × Val => target p.1) (dget_mem hd)
    simpa only [targets, target_self hk] using this

theorem keyed_swap {R : String → Nat → Val → Prop} {sg : Sig} (hR : SwapOK R sg) {p p' : String × Val}
    (h : ArgSwap R p p') : EntrySwap R (keyFor p.1 p.2, p.2) (keyFor p'.1 p'.2, p'.2) := by
  rcases h with rfl | ⟨r, v, h1, rfl, hr⟩
  · exact Or.inl rfl
  · refine Or.inr ⟨p.1, r, v, ?_, ?_, hr⟩
    · rw [h1]; simp [keyFor, Val.isObj]
    · simp [keyFor, hR.nonobj hr]

/-- Appending entries for new names. -/
theorem swap_fresh {R : String → Nat → Val → Prop} {sg : Sig} (hR : SwapOK R sg) (hwf : sg.WF)
    {st : Dict String Val → String × Val → Dict String Val} (hst : st = step1 ∨ st = step2) :
    ∀ {L L' d d' : Dict String Val}, List.Forall₂ (ArgSwap R) L L' → (∀ p ∈ L, p.1 ∈ sg.params) →
    (dkeys L).Nodup → (∀ p ∈ L, p.1 ∉ targets d) → List.Forall₂ (EntrySwap R) d d' →
    List.Forall₂ (EntrySwap R) (L.foldl st d) (L'.foldl st d') ∧
      targets (L.foldl st d) = targets d ++ dkeys L := by
  intro L L' d d' hL
  induction hL generalizing d d' with
  | nil => intro _ _ _ h; exact ⟨h, by simp [dkeys]⟩
  | @cons p p' L L' hp _ ih =>
    intro hpar hnd hfr hd
    have hp1 : p'.1 = p.1 := by rcases hp with rfl | ⟨_, _, _, rfl, _⟩ <;> rfl
    have hk := hwf.ident p.1 (hpar p (by simp))
    have hf := hfr p (by simp)
    have hf' : p'.1 ∉ targets d' := by rw [hp1, targets_swap hR hwf hd]; exact hf
    have e : st d p = d ++ [(keyFor p.1 p.2, p.2)] := by
      have h1 : dset d (keyFor p.1 p.2) p.2 = d ++ [(keyFor p.1 p.2, p.2)] :=
        dset_fresh (by rw [target_keyFor hk]; exact hf)
      rcases hst with rfl | rfl
      · exact h1
      · simp only [step2, dhas_fresh hk hf, Bool.false_eq_true, if_false, h1]
    have e' : st d' p' = d' ++ [(keyFor p'.1 p'.2, p'.2)] := by
      have h1 : dset d' (keyFor p'.1 p'.2) p'.2 = d' ++ [(keyFor p'.1 p'.2, p'.2)] :=
        dset_fresh (by rw [target_keyFor (hp1 ▸ hk)]; exact hf')
      rcases hst with rfl | rfl
      · exact h1
      · simp only [step2, dhas_fresh (hp1 ▸ hk) hf', Bool.false_eq_true, if_false, h1]
    simp only [List.foldl_cons, e, e']
    simp only [dkeys, List.map_cons, List.nodup_cons] at hnd
    have ht : targets (d ++ [(keyFor p.1 p.2, p.2)]) = targets d ++ [p.1] := by
      simp [targets, target_keyFor hk]
    obtain ⟨i1, i2⟩ := ih (fun q hq => hpar q (List.mem_cons_of_mem _ hq)) hnd.2 (by
      intro q hq
      rw [ht]
      simp only [List.mem_append, List.mem_singleton, not_or]
      refine ⟨hfr q (List.mem_cons_of_mem _ hq), ?_⟩
      intro hqp
      exact hnd.1 (hqp ▸ List.mem_map_of_mem (f := Prod.fst) hq)) (forall₂_snoc hd (keyed_swap hR hp))
    refine ⟨i1, ?_⟩
    rw [i2, ht]
    simp [dkeys]

theorem dhas_swap {R : String → Nat → Val → Prop} {sg : Sig} (hR : SwapOK R sg) {k : String}
    (hk : endsWithId k = false) (hdef : dget sg.defaults k ≠ none) {d d' : Dict String Val}
    (h : List.Forall₂ (EntrySwap R) d d') : dhas d' k = dhas d k := by
  induction h with
  | nil => rfl
  | @cons p p' d d' hp _ ih =>
    rcases hp with rfl | ⟨n, r, v, rfl, rfl, hr⟩
    · obtain ⟨a, b⟩ := p'
      simp only [dhas, dget] at ih ⊢
      split
      · rfl
      · exact ih
    · have h1 : n ++ "(id)" ≠ k := by
        rintro rfl
        simp at hk
      have h2 : n ≠ k := by
        rintro rfl
        exact hdef (hR.nodef hr)
      simp only [dhas, dget, if_neg h1, if_neg h2] at ih ⊢
      exact ih

/-- The defaults. -/
theorem swap_defaults {R : String → Nat → Val → Prop} {sg : Sig} (hR : SwapOK R sg) (hwf : sg.WF)
    (hdef : ∀ p ∈ sg.defaults, p.2.isObj = false) :
    ∀ {L d d' : Dict String Val}, L ⊆ sg.defaults → List.Forall₂ (EntrySwap R) d d' →
    List.Forall₂ (EntrySwap R) (L.foldl step2 d) (L.foldl step2 d') := by
  intro L
  induction L with
  | nil => intro d d' _ h; exact h
  | cons p L ih =>
    intro d d' hL hd
    have hp : p ∈ sg.defaults := hL (by simp)
    have hkey : p.1 ∈ dkeys sg.defaults := List.mem_map_of_mem (f := Prod.fst) hp
    have hk := hwf.ident p.1 (hwf.defaultsParams _ hkey)
    have hd1 : dget sg.defaults p.1 ≠ none := by
      obtain ⟨v, hv⟩ := (mem_dkeys _ _).1 hkey
      rw [hv]; simp
    have hh := dhas_swap hR hk hd1 hd
    simp only [List.foldl_cons]
    refine ih (fun q hq => hL (List.mem_cons_of_mem _ hq)) ?_
    unfold step2
    rw [hh]
    split
    · exact hd
    · rename_i hn
      have hkf : keyFor p.1 p.2 = p.1 := by simp [keyFor, hdef p hp]
      rw [hkf]
      have happ : ∀ d : Dict String Val, dhas d p.1 = false → dset d p.1 p.2 = d ++ [(p.1, p.2)] := by
        intro d hd
        induction d with
        | nil => rfl
        | cons q d ihd =>
          obtain ⟨a, b⟩ := q
          by_cases ha : a = p.1
          · simp [dhas, dget, ha] at hd
          · simp only [dset, if_neg ha, List.cons_append]
            rw [ihd]
            simpa [dhas, dget, ha] using hd
      have hn' : dhas d p.1 = false := by simpa using hn
      rw [happ d hn', happ d' (hh.trans hn')]
      exact forall₂_snoc hd (Or.inl rfl)

/-- The parameters collected from swapped arguments. -/
theorem swap_collect {R : String → Nat → Val → Prop} {sg : Sig} (hR : SwapOK R sg) (hwf : sg.WF)
    (hdef : ∀ p ∈ sg.defaults, p.2.isObj = false) {args args' : List Val}
    {kwargs kwargs' : Dict String Val} (hkw : (dkeys kwargs).Nodup)
    (hknown : ∀ k ∈ dkeys kwargs, k ∈ sg.params.drop args.length)
    (ha : List.Forall₂ (ArgSwap R) (sg.params.zip args) (sg.params.zip args'))
    (hk : List.Forall₂ (ArgSwap R) kwargs kwargs') (id : Int) :
    List.Forall₂ (EntrySwap R) (collect sg id args kwargs) (collect sg id args' kwargs') := by
  have h0 : List.Forall₂ (EntrySwap R) [("id", Val.oid id)] [("id", Val.oid id)] :=
    List.Forall₂.cons (Or.inl rfl) List.Forall₂.nil
  have ht0 : targets [("id", Val.oid id)] = ["id"] := by
    have : target "id" = "id" := by decide
    simp [targets, this]
  obtain ⟨i1, i2⟩ := swap_fresh hR hwf (Or.inl rfl) ha
    (fun p hp => (List.of_mem_zip (a := p.1) (b := p.2) hp).1)
    ((dkeys_zip_sublist _ _).nodup hwf.nodup) (by
      intro p hp
      rw [ht0]
      simp only [List.mem_singleton]
      rintro hid
      exact hwf.noId (hid ▸ (List.of_mem_zip (a := p.1) (b := p.2) hp).1)) h0
  obtain ⟨j1, _⟩ := swap_fresh hR hwf (Or.inr rfl) hk
    (fun p hp => List.mem_of_mem_drop (hknown p.1 (List.mem_map_of_mem (f := Prod.fst) hp))) hkw (by
      intro p hp
      have hpk := hknown p.1 (List.mem_map_of_mem (f := Prod.fst) hp)
      rw [i2, ht0]
      simp only [List.mem_append, List.mem_singleton, not_or]
      refine ⟨?_, ?_⟩
      · intro hid
        exact hwf.noId (hid ▸ List.mem_of_mem_drop hpk)
      · intro hz
        have hz' : p.1 ∈ sg.params.take args.length := by
          have : ∀ (ks : List String) (vs : List Val), ∀ k ∈ dkeys (ks.zip vs), k ∈ ks.take vs.length := by
            intro ks
            induction ks with
            | nil => intro vs k hk; simp [dkeys] at hk
            | cons a ks ih =>
              intro vs k hk
              cases vs with
              | nil => simp [dkeys] at hk
              | cons v vs =>
                simp only [List.zip_cons_cons, dkeys, List.map_cons, List.mem_cons] at hk
                simp only [List.length_cons, List.take_succ_cons, List.mem_cons]
                rcases hk with h | h
                · exact Or.inl h
                · exact Or.inr (ih vs k h)
          exact this _ _ _ hz
        have hnd := hwf.nodup
        rw [← List.take_append_drop args.length sg.params, List.nodup_append] at hnd
        exact hnd.2.2 _ hz' _ hpk rfl) i1
  exact swap_defaults hR hwf hdef (fun _ h => h) j1

/-! ### The parameters recorded -/

/-- `v` leads to object `r`: it is recorded with a conversion that looks its number up. -/
structure Leads (P : Prog) (x : World) (sg : Sig) (k : String) (r : Nat) (v : Val) : Prop where
  nonobj : v.isObj = false
  nodef : dget sg.defaults k = none
  param : k ∈ sg.params
  look : ∃ (o : Obj) (anns : List String) (f : Nat) (key : Val → Option Int), x.heap[r]? = some o ∧
    dget sg.annots k = some anns ∧
    recordedAs P x.converters anns v = some (.conv f v) ∧ P.conv f v = .look key ∧ key v = some o.id ∧
    (dget x.objects o.id).isSome = true

theorem leads_ok (P : Prog) (x : World) (sg : Sig) : SwapOK (Leads P x sg) sg :=
  ⟨fun h => h.nonobj, fun h => h.param, fun h => h.nodef⟩

theorem checkedAlike_cons {P : Prog} {x x' : World} {annots : Dict String (List String)}
    {k k' : String} {y y' z z' : Val} {l l' : Dict String Val}
    (h1 : checkParam P x annots k y = .ok z) (h2 : checkParam P x' annots k' y' = .ok z')
    (hp : List.Forall₂ (ParamAlike P x.objects) (stripObjs x [(k, z)]) (stripObjs x' [(k', z')]))
    (ih : CheckedAlike P x x' (checkParams P x annots l) (checkParams P x' annots l')) :
    CheckedAlike P x x' (checkParams P x annots ((k, y) :: l)) (checkParams P x' annots ((k', y') :: l')) := by
  simp only [Verif.checkParams, h1, h2]
  cases e1 : Verif.checkParams P x annots l with
  | error e =>
    rw [e1] at ih
    cases e2 : Verif.checkParams P x' annots l' with
    | error e' => rw [e2] at ih; exact ih
    | ok ps' => rw [e2] at ih; exact ih.elim
  | ok ps =>
    rw [e1] at ih
    cases e2 : Verif.checkParams P x' annots l' with
    | error e' => rw [e2] at ih; exact ih.elim
    | ok ps' =>
      rw [e2] at ih
      simp only [stripObjs, List.map_cons, List.map_nil] at hp
      cases hp with
      | cons hd _ => exact List.Forall₂.cons hd ih

theorem leads_checked {P : Prog} {x x' : World} (h : Alike P x x') {sg : Sig} (hwf : sg.WF) :
    ∀ {d d' : Dict String Val}, List.Forall₂ (EntrySwap (Leads P x sg)) d d' →
    CheckedAlike P x x' (checkParams P x sg.annots d) (checkParams P x' sg.annots d') := by
  intro d d' hd
  induction hd with
  | nil => exact List.Forall₂.nil
  | @cons p p' l l' hp tl ih =>
    rcases hp with rfl | ⟨k, r, v, rfl, rfl, hl⟩
    · obtain ⟨k, y⟩ := p'
      cases hc : Verif.checkParam P x sg.annots k y with
      | error e => simp only [Verif.checkParams, h.checkParam, hc]; rfl
      | ok z =>
        refine checkedAlike_cons hc (by rw [h.checkParam, hc]) ?_ ih
        rw [h.stripObjs]
        exact paramsAlike_refl _ _ _
    · obtain ⟨o, anns, f, key, ho, ha, hr, hf, hk, hreg⟩ := hl.look
      have hid : dget sg.annots (k ++ "(id)") = none := by
        cases hd : dget sg.annots (k ++ "(id)") with
        | none => rfl
        | some a =>
          rcases hwf.annots _ ((mem_dkeys _ _).2 ⟨a, hd⟩) with h1 | h1
          · have := hwf.ident _ h1
            simp at this
          · have h2 : endsWithId (k ++ "(id)") = true := by simp
            rw [h1] at h2
            exact absurd h2 (by decide)
      refine checkedAlike_cons (z := .obj r) (z' := .conv f v) ?_ ?_ ?_ ih
      · unfold Verif.checkParam
        rw [hid]
      · rw [checkParam_eq _ _ _ _ hl.nonobj, ha, h.converters]
        dsimp only
        rw [hr]
      · refine List.Forall₂.cons (Or.inr ⟨k, f, v, key, o.id, ?_, rfl, hf, hk, hreg⟩) List.Forall₂.nil
        simp only [ho]

/-! ### Calls -/

theorem Alike.callWith {P : Prog} (hP : ByClass P) {w w' : World} (h : Alike P w w')
    {r f args kwargs args' kwargs' nc}
    (hb : ∀ o sg, w.heap[r]? = some o → P.sig o.cls f = some sg →
      (∃ e, bindArgs sg args kwargs = .error e ∧ bindArgs sg args' kwargs' = .error e) ∨
      ∃ b b', bindArgs sg args kwargs = .ok b ∧ bindArgs sg args' kwargs' = .ok b' ∧
        P.raises o f b' = P.raises o f b ∧
        ∀ x x' id, Alike P x x' → (∀ m, (dget w.objects m).isSome = true → (dget x.objects m).isSome = true) →
          (∀ (r : Nat) (o : Obj), w.heap[r]? = some o → ∃ o' : Obj, x.heap[r]? = some o' ∧ o'.id = o.id) →
          x.converters = w.converters →
          CheckedAlike P x x' (Verif.checkParams P x sg.annots (collect sg id args kwargs))
            (Verif.checkParams P x' sg.annots (collect sg id args' kwargs'))) :
    AlikeRes P (Verif.callMethod P w r f args kwargs nc) (Verif.callMethod P w' r f args' kwargs' nc) := by
  unfold Verif.callMethod
  cases ho : w.heap[r]? with
  | none => rw [h.gone ho]; exact ⟨rfl, h⟩
  | some o =>
    obtain ⟨o', ho', _, hcls, _⟩ := h.there ho
    rw [ho']
    dsimp only
    rw [hcls]
    cases hs : P.sig o.cls f with
    | none => exact ⟨rfl, h⟩
    | some sg =>
      dsimp only
      rcases hb o sg ho hs with ⟨e, h1, h2⟩ | ⟨b, b', h1, h2, h3, h4⟩
      · rw [h1, h2]; exact ⟨rfl, h⟩
      · rw [h1, h2]
        dsimp only
        rw [hP o o' f b' hcls, h3]
        cases P.raises o f b with
        | some e => exact ⟨rfl, h⟩
        | none =>
          refine (h.logCall r f b b').recordCall (fun x x' id hx hheap hobj hconv => ?_)
          refine h4 x x' id hx ?_ ?_ ?_
          · intro m hm
            rw [hobj]
            unfold Verif.logCall
            split <;> exact hm
          · intro i oi hi
            rw [hheap]
            unfold Verif.logCall
            rw [ho]
            dsimp only
            by_cases hri : r = i
            · subst hri
              rw [List.getElem?_set_self (List.getElem?_eq_some_iff.1 ho).1]
              rw [ho] at hi
              cases hi
              exact ⟨_, rfl, rfl⟩
            · rw [List.getElem?_set_ne hri]
              exact ⟨oi, hi, rfl⟩
          · rw [hconv]
            unfold Verif.logCall
            split <;> rfl

/-! ### The public classes -/

theorem dget_stand {R : String → Val → Val → Prop} {d d' : Dict String Val}
    (h : List.Forall₂ (fun p p' => p'.1 = p.1 ∧ R p.1 p.2 p'.2) d d') (k : String) :
    dget d k = none ∧ dget d' k = none ∨ ∃ v v', dget d k = some v ∧ dget d' k = some v' ∧ R k v v' := by
  induction h with
  | nil => exact Or.inl ⟨rfl, rfl⟩
  | @cons p p' d d' hp _ ih =>
    obtain ⟨a, b⟩ := p
    obtain ⟨a', b'⟩ := p'
    obtain ⟨rfl, hR⟩ := hp
    simp only [dget]
    split
    · rename_i h; subst h; exact Or.inr ⟨b, b', rfl, rfl, hR⟩
    · exact ih

theorem keys_stand {R : String → Val → Val → Prop} {d d' : Dict String Val}
    (h : List.Forall₂ (fun p p' => p'.1 = p.1 ∧ R p.1 p.2 p'.2) d d') : dkeys d' = dkeys d := by
  induction h with
  | nil => rfl
  | cons hp _ ih =>
    simp only [dkeys, List.map_cons] at ih ⊢
    rw [hp.1, ih]

/-- What the bodies see. -/
theorem seen_stand {R : String → Val → Val → Prop} (hR : ∀ k x, R k x x) {sg : Sig}
    {args args' : List Val} {kwargs kwargs' : Dict String Val} (h : ArgsStand R sg args args' kwargs kwargs')
    (hwf : sg.WF) {b b' : Dict String Val} (hb : bindArgs sg args kwargs = .ok b)
    (hb' : bindArgs sg args' kwargs' = .ok b') (k : String) :
    dget b k = none ∧ dget b' k = none ∨ ∃ v v', dget b k = some v ∧ dget b' k = some v' ∧ R k v v' := by
  have hB := bindArgs_ok hb
  have hB' := bindArgs_ok hb'
  have hkeys : dkeys b' = dkeys b := by rw [hB.keys, hB'.keys]
  have hs := dget_isSome_keys hkeys k
  cases hv : dget b k with
  | none =>
    rw [hv] at hs
    left
    refine ⟨rfl, ?_⟩
    cases hv' : dget b' k with
    | none => rfl
    | some v' => rw [hv'] at hs; cases hs
  | some v =>
    rw [hv] at hs
    cases hv' : dget b' k with
    | none => rw [hv'] at hs; cases hs
    | some v' =>
      refine Or.inr ⟨v, v', rfl, rfl, ?_⟩
      have s1 := hB.vals (k, v) (dget_mem hv)
      have s2 := hB'.vals (k, v') (dget_mem hv')
      unfold seenArg givenArg at s1 s2
      dsimp only at s1 s2
      rcases dget_stand h.2.1 k with ⟨e1, e2⟩ | ⟨u, u', e1, e2, hu⟩
      · rw [e1] at s1
        rw [e2] at s2
        rcases dget_stand h.2.2 k with ⟨e3, e4⟩ | ⟨u, u', e3, e4, hu⟩
        · rw [e3] at s1
          rw [e4, s1] at s2
          cases s2
          exact hR k v
        · rw [e3] at s1
          rw [e4] at s2
          cases s1
          cases s2
          exact hu
      · rw [e1] at s1
        rw [e2] at s2
        cases s1
        cases s2
        exact hu

theorem row_of_sig {A : ArrayInfo} {cls f : String} {sg : Sig} (h : (gspProg A).sig cls f = some sg) :
    ∃ r ∈ gspRows, sg = r.sig := by
  have h' : (findRow gspRows cls f).map Row.sig = some sg := h
  cases hr : findRow gspRows cls f with
  | none => rw [hr] at h'; cases h'
  | some r =>
    rw [hr] at h'
    cases h'
    exact ⟨r, List.mem_of_find?_eq_some hr, rfl⟩

/-- Where arrays and numbers of canvases may be given. -/
theorem gsp_annots : ∀ r ∈ gspRows, ∀ p ∈ r.sig.annots,
    ("Buffer" ∈ p.2 → (candidates gsp0 allConverters "tracked" p.2).getLast? = some 12) ∧
    (p.2 = ["Canvas"] → p.1 ≠ "positions" ∧ p.1 ≠ "indices") := by decide +kernel

theorem gsp_raises_stand (A : ArrayInfo) {w : World} {cls f : String} {sg : Sig}
    (hs : (gspProg A).sig cls f = some sg) {args args' : List Val} {kwargs kwargs' : Dict String Val}
    (h : ArgsStand (LeadsTo A w sg) sg args args' kwargs kwargs') {b b' : Dict String Val}
    (hb : bindArgs sg args kwargs = .ok b) (hb' : bindArgs sg args' kwargs' = .ok b') (o : Obj)
    (m : String) : (gspProg A).raises o m b' = (gspProg A).raises o m b := by
  obtain ⟨row, hrow, rfl⟩ := row_of_sig hs
  have hwf := (gspProg_wf A _ _ _ hs).1
  have hseen := seen_stand (fun k x => Or.inl rfl) h hwf hb hb'
  have hno : ∀ k x x', k = "positions" ∨ k = "indices" → LeadsTo A w row.sig k x x' → x' = x ∨
      ∃ r p, x = .obj r ∧ x' = .inst "tracked" p := by
    intro k x x' hk hst
    rcases hst with h | ⟨_, r, o, anns, rfl, _, ha, hcase⟩
    · exact Or.inl h
    · have hann := gsp_annots row hrow (k, anns) (dget_mem ha)
      rcases hcase with ⟨rfl, _⟩ | ⟨_, p, rfl, _⟩
      · exfalso
        obtain ⟨h1, h2⟩ := hann.2 rfl
        rcases hk with hk | hk
        · exact h1 hk
        · exact h2 hk
      · exact Or.inr ⟨r, p, rfl, rfl⟩
  show gspRaises o m b' = gspRaises o m b
  unfold gspRaises
  split
  · rfl
  · have hind : (dget b' "indices").elim none indicesRaise = (dget b "indices").elim none indicesRaise := by
      rcases hseen "indices" with ⟨e1, e2⟩ | ⟨v, v', e1, e2, hst⟩
      · rw [e1, e2]
      · rw [e1, e2]
        rcases hno _ _ _ (Or.inr rfl) hst with rfl | ⟨r, p, rfl, rfl⟩
        · rfl
        · rfl
    rcases hseen "positions" with ⟨e1, e2⟩ | ⟨v, v', e1, e2, hst⟩
    · rw [e1, e2]
    · rw [e1, e2, hind]
      rcases hno _ _ _ (Or.inl rfl) hst with rfl | ⟨r, p, rfl, rfl⟩
      · rfl
      · rfl

theorem int_classes {v : Val} {m : Int} (hv : intValue v = some m) :
    className v ∈ ["int", "OID", "bool"] ++ enumClasses := by
  cases v with
  | inst c p =>
    simp only [intValue] at hv
    split at hv
    · rename_i h
      have h' : c ∈ enumClasses := by simpa using h
      exact List.mem_append_right _ h'
    · cases hv
  | int n => exact List.mem_append_left _ (by simp [className])
  | oid n => exact List.mem_append_left _ (by simp [className])
  | bool b => exact List.mem_append_left _ (by simp [className])
  | _ => cases hv

/-- What stands for an object leads to it. -/
theorem stands_leads (A : ArrayInfo) {w x : World} (hi : NumInv w) (hall : w.converters = allConverters)
    {cls f : String} {sg : Sig} (hs : (gspProg A).sig cls f = some sg)
    (hreg : ∀ m, (dget w.objects m).isSome = true → (dget x.objects m).isSome = true)
    (hheap : ∀ (r : Nat) (o : Obj), w.heap[r]? = some o → ∃ o' : Obj, x.heap[r]? = some o' ∧ o'.id = o.id)
    (hconv : x.converters = w.converters) {p p' : String × Val}
    (h : p'.1 = p.1 ∧ LeadsTo A w sg p.1 p.2 p'.2) : ArgSwap (Leads (gspProg A) x sg) p p' := by
  obtain ⟨k, u⟩ := p
  obtain ⟨k', u'⟩ := p'
  obtain ⟨h0, hst⟩ := h
  dsimp only at h0 hst
  subst h0
  rename' k' => k
  have hwf := (gspProg_wf A _ _ _ hs).1
  rcases hst with rfl | ⟨hnd, r, o, anns, rfl, ho, ha, hcase⟩
  · exact Or.inl rfl
  · obtain ⟨o', ho', hid⟩ := hheap r o ho
    have hr := hreg _ (hi.reg r o ho)
    rw [← hid] at hr
    have hcx : x.converters = allConverters := hconv.trans hall
    have hpar : k ∈ sg.params := by
      rcases hwf.annots k ((mem_dkeys _ _).2 ⟨anns, ha⟩) with h | h
      · exact h
      · obtain ⟨row, hrow, rfl⟩ := row_of_sig hs
        have : ∀ r ∈ gspRows, dget r.sig.annots "return" = none := by decide +kernel
        rw [h, this row hrow] at ha
        cases ha
    refine Or.inr ⟨r, u', rfl, rfl, ?_⟩
    rcases hcase with ⟨rfl, hv⟩ | ⟨hbuf, p, rfl, hp⟩
    · refine ⟨isObj_of_int hv, hnd, hpar, o', _, 16, intValue, ho', ha, ?_, rfl, by rw [hid]; exact hv, hr⟩
      have key : ∀ c ∈ ["int", "OID", "bool"] ++ enumClasses,
          (candidates gsp0 allConverters c ["Canvas"]).getLast? = some 16 := by decide +kernel
      unfold recordedAs
      have : (candidates (gspProg A) x.converters (className u') ["Canvas"]).getLast? = some 16 := by
        rw [hcx]; exact key _ (int_classes hv)
      rw [this]
    · refine ⟨rfl, hnd, hpar, o', _, 12, A.bufferId, ho', ha, ?_, rfl, by rw [hid]; exact hp, hr⟩
      obtain ⟨row, hrow, rfl⟩ := row_of_sig hs
      have := (gsp_annots row hrow (k, anns) (dget_mem ha)).1 hbuf
      unfold recordedAs
      have : (candidates (gspProg A) x.converters (className (.inst "tracked" p)) anns).getLast? = some 12 := by
        rw [hcx]; exact this
      rw [this]

/-- Binding and checking calls with swapped arguments. -/
theorem stands_call (A : ArrayInfo) {w : World} (hi : NumInv w) (hall : w.converters = allConverters)
    {cls f : String} {sg : Sig} (hs : (gspProg A).sig cls f = some sg) {args args' : List Val}
    {kwargs kwargs' : Dict String Val} (hkw : (dkeys kwargs).Nodup)
    (h : ArgsStand (LeadsTo A w sg) sg args args' kwargs kwargs') :
      (∃ e, bindArgs sg args kwargs = .error e ∧ bindArgs sg args' kwargs' = .error e) ∨
      ∃ b b', bindArgs sg args kwargs = .ok b ∧ bindArgs sg args' kwargs' = .ok b' ∧
        (∀ o m, (gspProg A).raises o m b' = (gspProg A).raises o m b) ∧
        ∀ x x' id, Alike (gspProg A) x x' →
          (∀ m, (dget w.objects m).isSome = true → (dget x.objects m).isSome = true) →
          (∀ (r : Nat) (o : Obj), w.heap[r]? = some o → ∃ o' : Obj, x.heap[r]? = some o' ∧ o'.id = o.id) →
          x.converters = w.converters →
          CheckedAlike (gspProg A) x x' (checkParams (gspProg A) x sg.annots (collect sg id args kwargs))
            (checkParams (gspProg A) x' sg.annots (collect sg id args' kwargs')) := by
  rcases bindArgs_alike sg h.1 (keys_stand h.2.2) with he | ⟨b, b', hb, hb'⟩
  · exact Or.inl he
  · refine Or.inr ⟨b, b', hb, hb', fun o m => gsp_raises_stand A hs h hb hb' o m, ?_⟩
    intro x x' id hx hreg hheap hconv
    obtain ⟨hwf, hdef⟩ := gspProg_wf A _ _ _ hs
    refine leads_checked hx hwf (swap_collect (leads_ok _ x sg) hwf hdef hkw (bindArgs_ok hb).known ?_ ?_ id)
    · exact h.2.1.imp (fun p p' hp => stands_leads A hi hall hs hreg hheap hconv hp)
    · exact h.2.2.imp (fun p p' hp => stands_leads A hi hall hs hreg hheap hconv hp)

/-! ### Sessions -/

theorem alike_create {P : Prog} {w w' : World} {cls args kwargs cls' args' kwargs'}
    (hc : AlikeRes P (construct P w cls args kwargs false) (construct P w' cls' args' kwargs' false)) :
    AlikeRes P (step P w (Op.create cls args kwargs false)) (step P w' (Op.create cls' args' kwargs' false)) := by
  obtain ⟨k1, k2⟩ := hc
  simp only [Verif.step]
  generalize Verif.construct P w cls args kwargs false = x at k1 k2 ⊢
  generalize Verif.construct P w' cls' args' kwargs' false = x' at k1 k2 ⊢
  obtain ⟨x, rx⟩ := x
  obtain ⟨x', rx'⟩ := x'
  dsimp only at k1 k2
  subst k1
  cases rx' with
  | error e => exact ⟨rfl, k2⟩
  | ok u => exact ⟨rfl, k2⟩

theorem Alike.handleStep (A : ArrayInfo) {w w' : World} (h : Alike (gspProg A) w w') (hi : NumInv w)
    (hall : w.converters = allConverters) {a a' : Act} (ha : ByHandle A (gspProg A) w a a') :
    AlikeRes (gspProg A) (Verif.step (gspProg A) w a.op) (Verif.step (gspProg A) w' a'.op) := by
  cases a with
  | create cls args kwargs =>
    cases a' with
    | call => exact ha.elim
    | create cls' args' kwargs' =>
      obtain ⟨rfl, ⟨rfl, rfl⟩ | ⟨hn, sg, hs, hst⟩⟩ := ha
      · exact alike_create (h.construct (gsp_byClass A))
      · refine alike_create (h.constructWith (gsp_byClass A) ?_)
        intro sg' hs'
        rw [hs] at hs'
        cases hs'
        rcases stands_call A hi hall hs hn hst with he | ⟨b, b', h1, h2, h3, h4⟩
        · exact Or.inl he
        · exact Or.inr ⟨b, b', h1, h2, fun o _ => h3 o _, h4⟩
  | call r f args kwargs =>
    cases a' with
    | create => exact ha.elim
    | call r' f' args' kwargs' =>
      obtain ⟨rfl, rfl, ⟨rfl, rfl⟩ | ⟨hn, o, sg, ho, hs, hst⟩⟩ := ha
      · exact h.callMethod (gsp_byClass A)
      · refine h.callWith (gsp_byClass A) ?_
        intro o' sg' ho' hs'
        rw [ho] at ho'
        cases ho'
        rw [hs] at hs'
        cases hs'
        rcases stands_call A hi hall hs hn hst with he | ⟨b, b', h1, h2, h3, h4⟩
        · exact Or.inl he
        · exact Or.inr ⟨b, b', h1, h2, h3 o _, h4⟩

theorem step_converters {P : Prog} {w : World} {cs} (h : w.converters = cs) (a : Act) :
    (Verif.step P w a.op).1.converters = cs := by
  have hclosed : CallClosed (fun w => w.converters = cs) :=
    { newObj := fun w cls h => h
      log := by intro w r m b h; unfold logCall; split <;> exact h
      getq := by
        intro w h
        unfold getQueue getQueue.activeOrNew
        dsimp only
        split <;> exact h
      push := fun w q u cls meth ps h _ _ _ => h }
  cases a with
  | create cls args kwargs =>
    have := hclosed.construct (P := P) (cls := cls) (args := args) (kwargs := kwargs) (nc := false) h
    simp only [Act.op, step]
    split <;> (rename_i heq; rw [heq] at this; exact this)
  | call r f args kwargs => exact hclosed.callMethod h

theorem Alike.handles (A : ArrayInfo) : ∀ {as as' : List Act} {w w' : World}, Alike (gspProg A) w w' →
    NumInv w → w.converters = allConverters → ByHandles A (gspProg A) w as as' →
    outcomes (gspProg A) w' as' = outcomes (gspProg A) w as ∧
      Alike (gspProg A) (runActs (gspProg A) w as) (runActs (gspProg A) w' as') ∧
      NumInv (runActs (gspProg A) w as)
  | [], [], _, _, h, hi, _, _ => ⟨rfl, h, hi⟩
  | [], _ :: _, _, _, _, _, _, hb => hb.elim
  | _ :: _, [], _, _, _, _, _, hb => hb.elim
  | a :: as, a' :: as', w, w', h, hi, hc, hb => by
    obtain ⟨k1, k2⟩ := h.handleStep A hi hc hb.1
    obtain ⟨i1, i2, i3⟩ := Alike.handles A k2 (numInv_step hi a) (step_converters hc a) hb.2
    exact ⟨by simp only [outcomes, k1, i1], i2, i3⟩

end Verif
