import Verif.Lemmas.Send
import Verif.Lemmas.Simulation
/-! Replaying a command delivers its arguments; replaying a session. -/

namespace Verif

/-! ### Monotonicity -/

theorem Delivered.mono {P t ref made u v ref' made'} (h : Delivered P t ref made u v)
    (hm : ∀ m ∈ made, m ∈ made') : Delivered P t (ref ++ ref') made' u v := by
  cases h with
  | object h =>
    exact Delivered.object (by
      rw [List.getElem?_append_left (List.getElem?_eq_some_iff.1 h).1]; exact h)
  | value h h' => exact Delivered.value h h'
  | converted h hv hf hg => exact Delivered.converted h hv hf hg
  | built h hv hf hb hy => exact Delivered.built h hv hf hb (hm _ hy)

theorem DeliveredArgs.mono {P P2 cs t ref made cls f b b' ref' made'}
    (h : DeliveredArgs P P2 cs t ref made cls f b b') (hm : ∀ m ∈ made, m ∈ made') :
    DeliveredArgs P P2 cs t (ref ++ ref') made' cls f b b' := by
  obtain ⟨sg, h1, h2, h3⟩ := h
  refine ⟨sg, h1, h2, fun k v hv => ?_⟩
  obtain ⟨u, v', h4, h5, h6⟩ := h3 k v hv
  exact ⟨u, v', h4, h5, h6.mono hm⟩

theorem DeliveredLog.mono {P P2 cs t ref made cls l l' ref' made'}
    (h : DeliveredLog P P2 cs t ref made cls l l') (hm : ∀ m ∈ made, m ∈ made') :
    DeliveredLog P P2 cs t (ref ++ ref') made' cls l l' :=
  List.Forall₂.imp (fun _ _ h => ⟨h.1, h.2.mono hm⟩) h

theorem CopyOf.mono {P P2 cs t ref made o o' ref' made'}
    (h : CopyOf P P2 cs t ref made o o') (hm : ∀ m ∈ made, m ∈ made') :
    CopyOf P P2 cs t (ref ++ ref') made' o o' :=
  ⟨h.id, h.cls, h.log.mono hm⟩

/-! ### One command -/

theorem dget_foldl_pairs (k : String) (M acc : Dict String Val) :
    dget (M.foldl (fun a m => dset a m.1 m.2) acc) k =
      match (M.filter (fun m => m.1 = k)).getLast? with
      | some m => some m.2
      | none => dget acc k := by
  induction M generalizing acc with
  | nil => rfl
  | cons m M ih =>
    rw [List.foldl_cons, ih]
    by_cases hm : m.1 = k
    · have : (m :: M).filter (fun m => m.1 = k) = m :: M.filter (fun m => m.1 = k) := by simp [hm]
      rw [this, List.getLast?_cons]
      cases (M.filter (fun m => m.1 = k)).getLast? with
      | none => rw [← hm]; simp
      | some q => rfl
    · have : (m :: M).filter (fun m => m.1 = k) = M.filter (fun m => m.1 = k) := by simp [hm]
      rw [this]
      cases (M.filter (fun m => m.1 = k)).getLast? with
      | none => exact dget_dset_ne _ _ hm
      | some q => rfl

theorem dkeys_foldl_pairs (M acc : Dict String Val) :
    (∀ k, k ∈ dkeys (M.foldl (fun a m => dset a m.1 m.2) acc) ↔ k ∈ dkeys acc ∨ k ∈ dkeys M) ∧
    ((dkeys acc).Nodup → (dkeys (M.foldl (fun a m => dset a m.1 m.2) acc)).Nodup) := by
  induction M generalizing acc with
  | nil => exact ⟨fun k => by simp [dkeys], id⟩
  | cons m M ih =>
    rw [List.foldl_cons]
    obtain ⟨h1, h2⟩ := ih (dset acc m.1 m.2)
    refine ⟨?_, fun h => h2 (nodup_dkeys_dset _ _ _ h)⟩
    intro k
    rw [h1, dkeys_dset]
    have : dkeys (m :: M) = m.1 :: dkeys M := rfl
    rw [this, List.mem_cons]
    split
    · rename_i hm
      constructor
      · rintro (h | h)
        · exact Or.inl h
        · exact Or.inr (Or.inr h)
      · rintro (h | rfl | h)
        · exact Or.inl h
        · exact Or.inl ((mem_dkeys _ _).2 ((dhas_iff _ _).1 hm))
        · exact Or.inr h
    · simp only [List.mem_append, List.mem_singleton]
      tauto

theorem forall₂_filter {R : String × Val → String × Val → Prop} {ps M : Dict String Val}
    (h : List.Forall₂ (fun p m => m.1 = target p.1 ∧ R p m) ps M) (k : String) :
    List.Forall₂ (fun p m => m.1 = target p.1 ∧ R p m) (proj k ps) (M.filter (fun m => m.1 = k)) := by
  induction h with
  | nil => exact List.Forall₂.nil
  | @cons p m ps M hpm _ ih =>
    unfold proj at ih ⊢
    by_cases hk : target p.1 = k
    · rw [List.filter_cons_of_pos (by simpa using hk),
        List.filter_cons_of_pos (by simpa [hpm.1] using hk)]
      exact List.Forall₂.cons hpm ih
    · rw [List.filter_cons_of_neg (by simpa using hk),
        List.filter_cons_of_neg (by simpa [hpm.1] using hk)]
      exact ih

theorem proj_mapKey (k : String) (G : String → Val → Val) (ps : Dict String Val) :
    proj k (ps.map (fun p => (p.1, G p.1 p.2))) = (proj k ps).map (fun p => (p.1, G p.1 p.2)) := by
  simp only [proj, List.filter_map]
  rfl

theorem dget_mapKey (G : String → Val → Val) (ps : Dict String Val) (k : String) :
    dget (ps.map (fun p => (p.1, G p.1 p.2))) k = (dget ps k).map (G k) := by
  induction ps with
  | nil => rfl
  | cons p ps ih =>
    obtain ⟨a, b⟩ := p
    simp only [List.map_cons, dget]
    split
    · rename_i h; subst h; rfl
    · exact ih

theorem dget_mapList {l : List String} (g : String → Val) (k : String) :
    dget (l.map (fun k => (k, g k))) k = if k ∈ l then some (g k) else none := by
  induction l with
  | nil => rfl
  | cons a l ih =>
    simp only [List.map_cons, dget, ih, List.mem_cons]
    by_cases h : a = k
    · simp [h]
    · simp [h, Ne.symm h]

theorem recordedArg_of_kept {P : Prog} {cs sg k v}
    (h : (keptArg sg k v).isObj = true ∨ Passes P cs true (dget sg.annots k) (keptArg sg k v)) :
    ∃ u, recordedArg P cs sg k v = some u := by
  unfold recordedArg
  split
  · exact ⟨_, rfl⟩
  · rename_i hv
    have h := h.resolve_left hv
    cases ha : dget sg.annots k with
    | none => exact ⟨_, rfl⟩
    | some anns =>
      have := h rfl anns ha
      cases hr : recordedAs P cs anns (keptArg sg k v) with
      | none => exact absurd hr this
      | some u => exact ⟨u, hr⟩

theorem formVal_recorded {P : Prog} {cs sg k v u} (hu : recordedArg P cs sg k v = some u)
    (hv : (keptArg sg k v).isObj = false) :
    formVal P cs sg.annots k (keptArg sg k v) = u ∧ u.isObj = false := by
  have h1 : formVal P cs sg.annots k (keptArg sg k v) = u := by
    unfold recordedArg at hu
    rw [if_neg (by simp [hv])] at hu
    unfold formVal
    rw [if_neg (by simp [hv])]
    cases ha : dget sg.annots k with
    | none => rw [ha] at hu; exact Option.some.inj hu
    | some anns =>
      rw [ha] at hu
      dsimp only at hu ⊢
      rw [hu]; rfl
  refine ⟨h1, ?_⟩
  cases hx : u with
  | obj x =>
    rw [hx] at h1
    have := formVal_obj h1
    rw [this] at hv
    simp [Val.isObj] at hv
  | _ => rfl

theorem arrives_entryOK {P : Prog} {w : World} {anns x k} (h : Arrives P w.converters w.recording anns x)
    (hk : endsWithId k = false) : EntryOK P w (k, x) := by
  unfold EntryOK
  rw [if_neg (by simp [hk])]
  refine ⟨?_, ?_, ?_, ?_⟩
  · rintro n rfl; exact h
  · rintro f y g rfl hf
    simp only [Arrives, hf] at h
    obtain ⟨v, h1, _⟩ := h
    exact ⟨v, h1⟩
  · rintro f y cls kw rfl hf
    simpa only [Arrives, hf] using h
  · rintro f y key rfl hf
    simp only [Arrives, hf] at h

theorem arrives_val {P : Prog} {w : World} {cs on anns t u k ref made v'}
    (h : Arrives P cs on anns (t u))
    (hk : endsWithId k = false) (hu : u.isObj = false) (hv : EntryVal P w made (k, t u) v') :
    Delivered P t ref made u v' ∧ (v'.isObj = false → Passes P cs on anns v') := by
  unfold EntryVal at hv
  rw [if_neg (by simp [hk])] at hv
  rcases hv with ⟨h1, rfl⟩ | ⟨f, x, g, h1, h2, h3⟩ | ⟨f, x, cls, kw, b, y, h1, h2, h3, h4, rfl⟩
  · refine ⟨Delivered.value hu h1, fun _ => ?_⟩
    dsimp only at h1 ⊢
    generalize t u = z at h h1
    cases z <;> first | exact absurd rfl (h1 _ _) | exact h.elim | exact h
  · dsimp only at h1
    refine ⟨Delivered.converted hu h1 h2 h3, fun _ => ?_⟩
    rw [h1] at h
    simp only [Arrives, h2] at h
    obtain ⟨v, h4, h5, h6⟩ := h
    rw [h3] at h4
    cases h4
    exact h6
  · dsimp only at h1
    exact ⟨Delivered.built hu h1 h2 h3 h4, fun h => by simp [Val.isObj] at h⟩

/-- The references of `w` can be resolved in `w2`. -/
def RefsOK (w w2 : World) (ref : List Nat) : Prop :=
  ∀ x, x < w.heap.length → ∃ o y, w.heap[x]? = some o ∧ ref[x]? = some y ∧
    dget w2.objects o.id = some y ∧ o.id ≤ w2.oidCounter

/-- What is sent for an entry. -/
def sentVal (P : Prog) (t : Val → Val) (w : World) (sg : Sig) (k : String) (v : Val) : Val :=
  t (stripVal w (formVal P w.converters sg.annots k v))

theorem resolve_sent {P P2 : Prog} (hP2 : P2.SigsWF) {t : Val → Val}
    (hoid : ∀ n, t (.oid n) = .oid n ∨ t (.oid n) = .int n) {sg sg2 : Sig} (hwf : sg.WF)
    (hdef : ∀ p ∈ sg.defaults, p.2.isObj = false) {args kwargs bound} (selfId : Int)
    (hkw : (dkeys kwargs).Nodup) (hb : bindArgs sg args kwargs = .ok bound)
    {w w2 : World} {ref} (hrefs : RefsOK w w2 ref)
    (hlive : ∀ k x, dget bound k = some (.obj x) → x < w.heap.length)
    (hsend : Sendable P P2 w.converters w2.converters w2.recording t sg sg2 bound) :
    ∃ w2a L ps2, resolveParams P2 w2 (ddel ((collect sg selfId args kwargs).map
        (fun p => (p.1, sentVal P t w sg p.1 p.2))) "id") [] = (w2a, .ok ps2) ∧
      Grown w2 w2a L ∧ (dkeys ps2).Nodup ∧ (∀ k, k ∈ dkeys ps2 ↔ k ∈ sg.params) ∧
      ∀ k v, dget bound k = some v → ∃ u v', recordedArg P w.converters sg k v = some u ∧
        dget ps2 k = some v' ∧ Delivered P2 t ref (madeAt w2.heap.length L) u v' ∧
        (v'.isObj = false → Passes P2 w2.converters w2.recording (dget sg2.annots k) v') := by
  have hB := bindArgs_ok hb
  have hobj : ∀ k v, dget bound k = some v → v.isObj = true → ∃ x o y, v = .obj x ∧
      w.heap[x]? = some o ∧ ref[x]? = some y ∧ dget w2.objects o.id = some y ∧
      o.id ≤ w2.oidCounter ∧ (∀ key, sentVal P t w sg key v = .oid o.id ∨
        sentVal P t w sg key v = .int o.id) := by
    intro k v hv hvo
    cases v <;> simp [Val.isObj] at hvo
    rename_i x
    obtain ⟨o, y, h1, h2, h3, h4⟩ := hrefs x (hlive k x hv)
    refine ⟨x, o, y, rfl, h1, h2, h3, h4, ?_⟩
    intro key
    simp only [sentVal, formVal, Val.isObj, if_true, stripVal, h1]
    exact hoid _
  have hplain : ∀ k v, dget bound k = some v → (keptArg sg k v).isObj = false →
      ∃ u, recordedArg P w.converters sg k v = some u ∧ u.isObj = false ∧
        sentVal P t w sg k (keptArg sg k v) = t u ∧
        Arrives P2 w2.converters w2.recording (dget sg2.annots k) (t u) := by
    intro k v hv hko
    obtain ⟨u, hu, ha⟩ := hsend k v hv
    obtain ⟨h1, h2⟩ := formVal_recorded hu hko
    exact ⟨u, hu, h2, by rw [sentVal, h1, stripVal_nonobj w h2], ha h2⟩
  have hpar : ∀ k v, dget bound k = some v → k ∈ sg.params := by
    intro k v hv; rw [← hB.keys]; exact (mem_dkeys _ _).2 ⟨v, hv⟩
  have hok : ∀ p ∈ ddel ((collect sg selfId args kwargs).map
      (fun p => (p.1, sentVal P t w sg p.1 p.2))) "id", EntryOK P2 w2 p := by
    intro p hp
    simp only [ddel, List.mem_filter, List.mem_map, ne_eq, decide_eq_true_eq] at hp
    obtain ⟨⟨e, he, rfl⟩, hne⟩ := hp
    rcases collect_entry hwf hdef selfId hkw hb he with rfl | ⟨k, v, hk, hv, hm⟩
    · simp at hne
    · have hidk : ∀ (x : Val), v = x → v.isObj = true →
          EntryOK P2 w2 (k ++ "(id)", sentVal P t w sg (k ++ "(id)") x) := by
        rintro x rfl hvo
        obtain ⟨x, o, y, _, h1, h2, h3, h4, h5⟩ := hobj k v hv hvo
        unfold EntryOK
        rw [if_pos (endsWithId_append k)]
        exact ⟨o.id, y, h5 _, h3, h4⟩
      unfold entriesOf at hm
      cases hvo : v.isObj with
      | true =>
        rw [hvo] at hm
        simp only [if_true] at hm
        cases hd : dget sg.defaults k with
        | none =>
          rw [hd] at hm
          simp only [List.mem_singleton] at hm
          subst hm
          exact hidk v rfl hvo
        | some d =>
          rw [hd] at hm
          simp only [List.mem_cons, List.not_mem_nil, or_false] at hm
          rcases hm with rfl | rfl
          · exact hidk v rfl hvo
          · have hkept : keptArg sg k v = d := by simp [keptArg, hvo, hd]
            obtain ⟨u, hu, h1, h2, h3⟩ := hplain k v hv (by rw [hkept]; exact hdef _ (dget_mem hd))
            rw [hkept] at h2
            dsimp only
            rw [h2]
            exact arrives_entryOK h3 (hwf.ident k hk)
      | false =>
        rw [hvo] at hm
        simp only [Bool.false_eq_true, if_false, List.mem_singleton] at hm
        subst hm
        have hkept : keptArg sg k v = v := by simp [keptArg, hvo]
        obtain ⟨u, hu, h1, h2, h3⟩ := hplain k v hv (by rw [hkept]; exact hvo)
        rw [hkept] at h2
        dsimp only
        rw [h2]
        exact arrives_entryOK h3 (hwf.ident k hk)
  obtain ⟨w2a, L, M, h1, h2, h3⟩ := resolve_entries hP2 _ w2 [] hok
  have hentry : ∀ k v, dget bound k = some v →
      proj k (ddel ((collect sg selfId args kwargs).map
        (fun p => (p.1, sentVal P t w sg p.1 p.2))) "id") =
      (entriesOf sg k v).map (fun p => (p.1, sentVal P t w sg p.1 p.2)) := by
    intro k v hv
    rw [proj_ddel, proj_mapKey, proj_collect_bound hwf hdef selfId hkw hb hv]
    rw [show target "id" = "id" by decide]
    rintro rfl
    exact hwf.noId (hpar _ v hv)
  have hlast : ∀ k v, dget bound k = some v → ∀ e, (entriesOf sg k v).getLast? = some e →
      ∃ v', dget (M.foldl (fun a m => dset a m.1 m.2) []) k = some v' ∧
        EntryVal P2 w2 (madeAt w2.heap.length L) (e.1, sentVal P t w sg e.1 e.2) v' := by
    intro k v hv e he
    have hf := forall₂_filter h3 k
    rw [hentry k v hv] at hf
    rw [dget_foldl_pairs]
    have : ∀ {l M' : Dict String Val}, List.Forall₂ (fun p m => m.1 = target p.1 ∧
        EntryVal P2 w2 (madeAt w2.heap.length L) p m.2) l M' → ∀ e, l.getLast? = some e →
        ∃ m, M'.getLast? = some m ∧ EntryVal P2 w2 (madeAt w2.heap.length L) e m.2 := by
      intro l M' h
      induction h with
      | nil => intro e he; simp at he
      | @cons a b l1 l2 hab hl ih =>
        intro e he
        cases hl with
        | nil =>
          simp only [List.getLast?_singleton, Option.some.injEq] at he ⊢
          exact ⟨b, rfl, he ▸ hab.2⟩
        | cons h1 h2 =>
          rw [List.getLast?_cons_cons] at he ⊢
          exact ih e he
    obtain ⟨m, hm, hval⟩ := this hf (e.1, sentVal P t w sg e.1 e.2) (by
      rw [List.getLast?_map, he]; rfl)
    rw [hm]
    exact ⟨m.2, rfl, hval⟩
  have hM : ∀ k, k ∈ dkeys M ↔ k ∈ sg.params := by
    intro k
    constructor
    · intro hk
      have : ∀ {l M' : Dict String Val}, List.Forall₂ (fun p m => m.1 = target p.1 ∧
          EntryVal P2 w2 (madeAt w2.heap.length L) p m.2) l M' → k ∈ dkeys M' →
          ∃ p ∈ l, target p.1 = k := by
        intro l M' h
        induction h with
        | nil => intro h; simp [dkeys] at h
        | @cons a b l1 l2 hab hl ih =>
          intro h
          have hc : dkeys (b :: l2) = b.1 :: dkeys l2 := rfl
          rw [hc, List.mem_cons] at h
          rcases h with h | h
          · exact ⟨a, by simp, by rw [h, hab.1]⟩
          · obtain ⟨p, hp, ht⟩ := ih h
            exact ⟨p, List.mem_cons_of_mem _ hp, ht⟩
      obtain ⟨p, hp, ht⟩ := this h3 hk
      simp only [ddel, List.mem_filter, List.mem_map, ne_eq, decide_eq_true_eq] at hp
      obtain ⟨⟨e, he, rfl⟩, hne⟩ := hp
      have hpk : e.1 ∈ dkeys (collect sg selfId args kwargs) := List.mem_map_of_mem (f := Prod.fst) he
      rcases collect_keys hwf selfId (fun k h => List.mem_of_mem_drop (hB.known k h)) e.1 hpk
        with h | h
      · exact absurd h (by simpa using hne)
      · dsimp only at ht; rw [← ht]; exact h
    · intro hk
      have hk' := hk
      rw [← hB.keys] at hk'
      obtain ⟨v, hv⟩ := (mem_dkeys _ _).1 hk'
      have hne : ∃ e, (entriesOf sg k v).getLast? = some e := by
        unfold entriesOf
        split
        · split <;> exact ⟨_, rfl⟩
        · exact ⟨_, rfl⟩
      obtain ⟨e, he⟩ := hne
      obtain ⟨v', hv', _⟩ := hlast k v hv e he
      have := (mem_dkeys _ k).2 ⟨v', hv'⟩
      rcases ((dkeys_foldl_pairs M []).1 k).1 this with h | h
      · simp [dkeys] at h
      · exact h
  refine ⟨w2a, L, _, h1, h2, (dkeys_foldl_pairs M []).2 (by simp [dkeys]), ?_, ?_⟩
  · intro k
    rw [(dkeys_foldl_pairs M []).1 k, hM]
    simp [dkeys]
  · intro k v hv
    have hk := hpar k v hv
    cases hko : (keptArg sg k v).isObj with
    | false =>
      obtain ⟨u, hu, h4, h5, h6⟩ := hplain k v hv hko
      have he : (entriesOf sg k v).getLast? = some (k, keptArg sg k v) := by
        unfold entriesOf keptArg at *
        split
        · rename_i hvo
          rw [if_pos hvo] at hko
          split
          · rename_i d hd; simp [hd]
          · rename_i hd; rw [hd] at hko; simp [hvo] at hko
        · rfl
      obtain ⟨v', hv', hval⟩ := hlast k v hv _ he
      dsimp only at hval
      rw [h5] at hval
      obtain ⟨h7, h8⟩ := arrives_val h6 (hwf.ident k hk) h4 hval
      exact ⟨u, v', hu, hv', h7, h8⟩
    | true =>
      have hvo : v.isObj = true := by
        unfold keptArg at hko
        split at hko
        · assumption
        · exact hko
      have hnd : dget sg.defaults k = none := by
        unfold keptArg at hko
        rw [if_pos hvo] at hko
        cases hd : dget sg.defaults k with
        | none => rfl
        | some d =>
          rw [hd] at hko
          have := hdef _ (dget_mem hd)
          simp at hko
          rw [hko] at this
          cases this
      have hkept : keptArg sg k v = v := by simp [keptArg, hvo, hnd]
      obtain ⟨x, o, y, rfl, h4, h5, h6, h7, h8⟩ := hobj k v hv hvo
      have he : (entriesOf sg k (.obj x)).getLast? = some (k ++ "(id)", .obj x) := by
        simp [entriesOf, Val.isObj, hnd]
      obtain ⟨v', hv', hval⟩ := hlast k _ hv _ he
      unfold EntryVal at hval
      rw [if_pos (endsWithId_append k)] at hval
      obtain ⟨n, r, h9, h10, rfl⟩ := hval
      have hn : n = o.id := by
        rcases h8 (k ++ "(id)") with h | h <;> rcases h9 with h' | h' <;> dsimp only at h' <;>
          rw [h] at h' <;> simp at h' <;> exact h'.symm
      subst hn
      rw [h6] at h10
      cases h10
      refine ⟨.obj x, .obj y, ?_, hv', Delivered.object h5, fun h => by simp [Val.isObj] at h⟩
      simp [recordedArg, hkept, Val.isObj]

/-- The resolved parameters fit the signature of the replaying program. -/
theorem sent_binds {P P2 : Prog} (hP2 : P2.SigsWF) {t : Val → Val} {cls f sg sg2}
    (hs : P.sig cls f = some sg) (hs2 : P2.sig cls f = some sg2) {cs cs2 on}
    (hag : SigsAgree P2 cs2 on sg sg2) {bound : Dict String Val} (hbk : dkeys bound = sg.params)
    {ps2 : Dict String Val} (hk : ∀ k, k ∈ dkeys ps2 ↔ k ∈ sg.params) {ref made}
    (hd : ∀ k v, dget bound k = some v → ∃ u v', recordedArg P cs sg k v = some u ∧
        dget ps2 k = some v' ∧ Delivered P2 t ref made u v' ∧
        (v'.isObj = false → Passes P2 cs2 on (dget sg2.annots k) v')) :
    ∃ b', bindArgs sg2 [] ps2 = .ok b' ∧ (on = true → Recordable P2 cs2 sg2 b') ∧
      DeliveredArgs P P2 cs t ref made cls f bound b' := by
  obtain ⟨hwf2, hdef2⟩ := hP2 _ _ _ hs2
  have hall : ∀ k ∈ sg2.params, ∃ v v', dget bound k = some v ∧ dget ps2 k = some v' := by
    intro k hk2
    have := (hag.1 k).1 hk2
    rw [← hbk] at this
    obtain ⟨v, hv⟩ := (mem_dkeys _ _).1 this
    obtain ⟨u, v', _, h, _⟩ := hd k v hv
    exact ⟨v, v', hv, h⟩
  have hbind := bindArgs_kwargs (sg := sg2) (ps := ps2) (g := fun k => (dget ps2 k).getD .none)
    (fun k h => (hag.1 k).2 ((hk k).1 h))
    (fun k h => by obtain ⟨v, v', _, h'⟩ := hall k h; rw [h']; rfl)
  have hget : ∀ k, dget (sg2.params.map (fun k => (k, (dget ps2 k).getD .none))) k =
      if k ∈ sg2.params then dget ps2 k else none := by
    intro k
    rw [dget_mapList]
    split
    · rename_i h
      obtain ⟨v, v', _, h'⟩ := hall k h
      rw [h']; rfl
    · rfl
  refine ⟨_, hbind, ?_, sg, hs, ?_, ?_⟩
  · rintro rfl k v' hv'
    rw [hget] at hv'
    split at hv'
    · rename_i hk2
      obtain ⟨v, _, hv, _⟩ := hall k hk2
      obtain ⟨u, v'', _, h2, _, h4⟩ := hd k v hv
      rw [hv'] at h2
      cases h2
      apply recordedArg_of_kept
      cases hvo : v'.isObj with
      | false =>
        right
        have : keptArg sg2 k v' = v' := by simp [keptArg, hvo]
        rw [this]
        exact h4 hvo
      | true =>
        cases hd2 : dget sg2.defaults k with
        | none => left; simp [keptArg, hvo, hd2]
        | some d =>
          right
          have : keptArg sg2 k v' = d := by simp [keptArg, hvo, hd2]
          rw [this]
          exact hag.2 k d hd2
    · cases hv'
  · intro k
    have : dkeys (sg2.params.map (fun k => (k, (dget ps2 k).getD .none))) = sg2.params := by
      simp [dkeys, Function.comp_def]
    rw [this, hag.1, hbk]
  · intro k v hv
    obtain ⟨u, v', h1, h2, h3, _⟩ := hd k v hv
    refine ⟨u, v', h1, ?_, h3⟩
    rw [hget, if_pos, h2]
    rw [hag.1, ← hbk]
    exact (mem_dkeys _ _).2 ⟨v, hv⟩

/-- Executing a creation once its parameters are resolved. -/
theorem execute_create_of {P : Prog} (hP : P.SigsWF) {w2 w2a : World} {c : Cmd} {selfId : Int}
    {ps2 b' : Dict String Val} {idv cls sg}
    (hid : dget c.params "id" = some idv) (hidv : idOf idv = some selfId)
    (hres : resolveParams P w2 (ddel c.params "id") [] = (w2a, .ok ps2))
    (hinit : c.meth = "__init__") (hcls : P.resolve c.cls = some cls)
    (hs : P.sig cls "__init__" = some sg) (hkw : (dkeys ps2).Nodup)
    (hb : bindArgs sg [] ps2 = .ok b')
    (hr : P.raises (Obj.mk (1 + (w2a.oidCounter : Int)) cls [] (1 + (w2a.oidCounter : Int)))
      "__init__" b' = none) (hrec : w2a.recording = true → Recordable P w2a.converters sg b') :
    ∃ w2', execute P w2 c = (w2', .ok ()) ∧
      w2'.heap = w2a.heap ++ [Obj.mk selfId cls [("__init__", b')] (1 + (w2a.oidCounter : Int))] ∧
      w2'.oidCounter = w2a.oidCounter + 1 ∧ w2'.objRecord = w2a.objRecord ∧
      w2'.converters = w2a.converters ∧ w2'.recording = w2a.recording ∧
      (w2a.objRecord = true → ∀ k, dget w2'.objects k =
        if k = selfId then some w2a.heap.length
        else if k = 1 + (w2a.oidCounter : Int) then none
        else dget w2a.objects k) := by
  obtain ⟨W2, hcons, hcore, _⟩ := construct_form (nc := false) hs hP hkw hb hr hrec
  have hWh := hcore.heap
  dsimp only at hWh
  have hset : setId W2 w2a.heap.length selfId = { W2 with
      objects := if dhas W2.objects (1 + (w2a.oidCounter : Int)) then
        dset (ddel W2.objects (1 + (w2a.oidCounter : Int))) selfId w2a.heap.length else W2.objects
      heap := w2a.heap ++ [Obj.mk selfId cls [("__init__", b')] (1 + (w2a.oidCounter : Int))] } := by
    simp [setId, hWh]
  refine ⟨{ setId W2 w2a.heap.length selfId with
    objects := dset (setId W2 w2a.heap.length selfId).objects selfId w2a.heap.length }, ?_, ?_⟩
  · simp only [execute, hid, hidv, hres, hinit, hcls, hcons]
    rw [if_neg (by decide)]
    rfl
  · rw [hset]
    refine ⟨rfl, ?_, ?_, ?_, ?_, ?_⟩
    · show W2.oidCounter = _
      rw [hcore.oidCounter]; rfl
    · show W2.objRecord = _
      rw [hcore.objRecord]; rfl
    · show W2.converters = _
      rw [hcore.converters]; rfl
    · show W2.recording = _
      rw [hcore.recording]; rfl
    · intro hobj k
      have hob : W2.objects = dset w2a.objects (1 + (w2a.oidCounter : Int)) w2a.heap.length := by
        rw [hcore.objects]
        show (if w2a.objRecord then _ else _) = _
        rw [if_pos hobj]
      have hhas : dhas W2.objects (1 + (w2a.oidCounter : Int)) = true := by
        rw [hob, dhas_iff]; exact ⟨_, dget_dset_self _ _ _⟩
      dsimp only
      rw [if_pos hhas]
      simp only [hob, dget_dset, dget_ddel]
      by_cases hk : selfId = k
      · simp [hk]
      · simp only [hk, Ne.symm hk, if_false]
        by_cases hk2 : 1 + (w2a.oidCounter : Int) = k
        · simp [hk2]
        · simp [hk2, Ne.symm hk2]

/-- Executing a method call once its parameters are resolved. -/
theorem execute_call_of {P : Prog} (hP : P.SigsWF) {w2 w2a : World} {c : Cmd} {selfId : Int}
    {ps2 b' : Dict String Val} {idv sg} {r2 : Nat} {o2 : Obj}
    (hid : dget c.params "id" = some idv) (hidv : idOf idv = some selfId)
    (hres : resolveParams P w2 (ddel c.params "id") [] = (w2a, .ok ps2))
    (hdot : hasChar '.' c.meth = false) (hinit : c.meth ≠ "__init__")
    (hr2 : dget w2a.objects selfId = some r2) (ho2 : w2a.heap[r2]? = some o2)
    (hs : P.sig o2.cls c.meth = some sg) (hkw : (dkeys ps2).Nodup)
    (hb : bindArgs sg [] ps2 = .ok b') (hr : P.raises o2 c.meth b' = none)
    (hrec : w2a.recording = true → Recordable P w2a.converters sg b') :
    ∃ w2', execute P w2 c = (w2', .ok ()) ∧ SameCore (logCall w2a r2 c.meth b') w2' := by
  obtain ⟨w2', hc, hcore, _⟩ := callMethod_form (nc := false) ho2 hs hP hkw hb hr hrec
  refine ⟨w2', ?_, hcore⟩
  simp only [execute, hid, hidv, hres, hdot, hinit, hr2, hc, if_false, Bool.false_eq_true]

/-! ### The simulation -/

/-- The parameters have different names, and one is the id. -/
def WellKeyed (c : Cmd) : Prop :=
  (dkeys c.params).Nodup ∧ ∃ n, dget c.params "id" = some (.oid n)

theorem wellKeyed_form {sg : Sig} (hwf : sg.WF) {args kwargs bound selfId} {w : World}
    (hb : bindArgs sg args kwargs = .ok bound) (P : Prog) (n : Nat) (cls meth : String) :
    WellKeyed (Cmd.mk n cls meth ((collect sg selfId args kwargs).map (fun p =>
      (p.1, stripVal w (formVal P w.converters sg.annots p.1 p.2))))) := by
  constructor
  · have : dkeys ((collect sg selfId args kwargs).map (fun p =>
        (p.1, stripVal w (formVal P w.converters sg.annots p.1 p.2)))) =
        dkeys (collect sg selfId args kwargs) := by
      simp [dkeys, Function.comp_def]
    rw [this]
    exact nodup_collect selfId
  · refine ⟨selfId, ?_⟩
    have h := dget_mapKey (fun k v => stripVal w (formVal P w.converters sg.annots k v))
      (collect sg selfId args kwargs) "id"
    dsimp only at h ⊢
    rw [h, dget_collect_id hwf _ (fun k h => List.mem_of_mem_drop ((bindArgs_ok hb).known k h))]
    simp only [Option.map_some, formVal, Val.isObj, Bool.false_eq_true, if_false,
        annots_id hwf (Or.inr rfl), stripVal]

/-- The recorded world `w` and the world `w2` of the replay. -/
structure SimD (P P2 : Prog) (cs cs2 : Dict (String × String) Nat) (on : Bool) (t : Val → Val) (base : Nat)
    (H0 : List Obj) (ref : List Nat) (made : List (Nat × String × Dict String Val))
    (w w2 : World) : Prop where
  ids : ∀ (r : Nat) o, w.heap[r]? = some o → o.id = 1 + (r : Int)
  cnt : w.oidCounter = w.heap.length
  cnt2 : w.oidCounter ≤ w2.oidCounter
  rec2 : w2.objRecord = true
  conv : w.converters = cs
  conv2 : w2.converters = cs2
  on2 : w2.recording = on
  len : ref.length = w.heap.length
  len2 : w2.heap.length = base + ref.length + made.length
  sorted : ref.Pairwise (· < ·)
  range : ∀ y ∈ ref, base ≤ y ∧ y < w2.heap.length
  obj : ∀ (r : Nat) o, w.heap[r]? = some o → ∃ y o', ref[r]? = some y ∧
    dget w2.objects o.id = some y ∧ w2.heap[y]? = some o' ∧ CopyOf P P2 cs t ref made o o'
  mades : ∀ m ∈ made, base ≤ m.1 ∧ m.1 ∉ ref ∧
    ∃ o', w2.heap[m.1]? = some o' ∧ o'.cls = m.2.1 ∧ o'.log = [("__init__", m.2.2)]
  old : w2.heap.take base = H0
  nodup : (made.map (·.1)).Nodup

theorem SimD.refs {P P2 cs cs2 on t base H0 ref made w w2}
    (h : SimD P P2 cs cs2 on t base H0 ref made w w2) : RefsOK w w2 ref := by
  intro x hx
  have he : w.heap[x]? = some w.heap[x] := List.getElem?_eq_getElem hx
  obtain ⟨y, o', h1, h2, _⟩ := h.obj x _ he
  refine ⟨_, y, he, h1, h2, ?_⟩
  have h3 := h.ids x _ he
  have h4 := h.cnt
  have h5 := h.cnt2
  rw [h3]; omega

/-- The replaying world after the conversions of a command. -/
theorem SimD.grown {P P2 cs cs2 on t base H0 ref made w w2 w2a L}
    (h : SimD P P2 cs cs2 on t base H0 ref made w w2) (hg : Grown w2 w2a L) :
    SimD P P2 cs cs2 on t base H0 ref (made ++ madeAt w2.heap.length L) w w2a := by
  have hlen : w2a.heap.length = w2.heap.length + L.length := by rw [hg.heap]; simp
  have hkeep : ∀ (y : Nat) o, w2.heap[y]? = some o → w2a.heap[y]? = some o := by
    intro y o ho
    rw [hg.heap, List.getElem?_append_left (List.getElem?_eq_some_iff.1 ho).1]
    exact ho
  have hb : base ≤ w2.heap.length := by rw [h.len2]; omega
  refine ⟨h.ids, h.cnt, ?_, by rw [hg.objRecord]; exact h.rec2, h.conv, by rw [hg.conv]; exact h.conv2,
    by rw [hg.recording]; exact h.on2, h.len, ?_, h.sorted, ?_, ?_, ?_, ?_, ?_⟩
  · rw [hg.cnt]; exact Nat.le_trans h.cnt2 (Nat.le_add_right _ _)
  · rw [hlen, h.len2, List.length_append, length_madeAt]; omega
  · intro y hy
    obtain ⟨h1, h2⟩ := h.range y hy
    exact ⟨h1, by omega⟩
  · intro r o ho
    obtain ⟨y, o', h1, h2, h3, h4⟩ := h.obj r o ho
    refine ⟨y, o', h1, ?_, hkeep _ _ h3, ?_⟩
    · rw [hg.objects]
      · exact h2
      · have := h.ids r o ho
        have h5 := (List.getElem?_eq_some_iff.1 ho).1
        have h6 := h.cnt
        have h7 := h.cnt2
        omega
    · have := h4.mono (ref' := []) (made' := made ++ madeAt w2.heap.length L)
        (fun m hm => List.mem_append_left _ hm)
      rwa [List.append_nil] at this
  · intro m hm
    rcases List.mem_append.1 hm with hm | hm
    · obtain ⟨h1, h2, o', h3, h4⟩ := h.mades m hm
      exact ⟨h1, h2, o', hkeep _ _ h3, h4⟩
    · obtain ⟨y, cls, b⟩ := m
      obtain ⟨h1, o', h2, h3, h4⟩ := mem_madeAt hm w2.oidCounter
      refine ⟨by dsimp only; omega, ?_, o', ?_, h3, h4⟩
      · intro hy
        have := (h.range y hy).2
        omega
      · dsimp only
        rw [hg.heap, List.getElem?_append_right h1]
        exact h2
  · rw [hg.heap, List.take_append_of_le_length hb]
    exact h.old
  · rw [List.map_append, List.nodup_append]
    refine ⟨h.nodup, nodup_madeAt _ _, ?_⟩
    rintro x hx y hy rfl
    obtain ⟨m, hm, rfl⟩ := List.mem_map.1 hx
    obtain ⟨_, _, o', h3, _⟩ := h.mades m hm
    have h4 := (List.getElem?_eq_some_iff.1 h3).1
    have h5 := madeAt_ge hy
    omega

theorem SimD.congr2 {P P2 cs cs2 on t base H0 ref made w w2 w2'}
    (h : SimD P P2 cs cs2 on t base H0 ref made w w2) (hc : SameCore w2 w2') :
    SimD P P2 cs cs2 on t base H0 ref made w w2' :=
  ⟨h.ids, h.cnt, by rw [hc.oidCounter]; exact h.cnt2, hc.objRecord.trans h.rec2, h.conv,
   hc.converters.trans h.conv2, hc.recording.trans h.on2, h.len, by rw [hc.heap]; exact h.len2, h.sorted,
   by rw [hc.heap]; exact h.range, by rw [hc.heap, hc.objects]; exact h.obj,
   by rw [hc.heap]; exact h.mades, by rw [hc.heap]; exact h.old, h.nodup⟩

theorem SimD.congr1 {P P2 cs cs2 on t base H0 ref made w w' w2}
    (h : SimD P P2 cs cs2 on t base H0 ref made w w2) (hc : SameCore w w') :
    SimD P P2 cs cs2 on t base H0 ref made w' w2 :=
  ⟨by rw [hc.heap]; exact h.ids, by rw [hc.heap, hc.oidCounter]; exact h.cnt,
   by rw [hc.oidCounter]; exact h.cnt2, h.rec2, hc.converters.trans h.conv, h.conv2,
   h.on2,
   by rw [hc.heap]; exact h.len, h.len2, h.sorted, h.range, by rw [hc.heap]; exact h.obj,
   h.mades, h.old, h.nodup⟩

theorem sorted_inj {l : List Nat} (h : l.Pairwise (· < ·)) {i j y : Nat} (hi : l[i]? = some y)
    (hj : l[j]? = some y) : i = j := by
  obtain ⟨hi1, hi2⟩ := List.getElem?_eq_some_iff.1 hi
  obtain ⟨hj1, hj2⟩ := List.getElem?_eq_some_iff.1 hj
  rw [List.pairwise_iff_getElem] at h
  rcases Nat.lt_trichotomy i j with hij | hij | hij
  · have := h i j hi1 hj1 hij; omega
  · exact hij
  · have := h j i hj1 hi1 hij; omega

/-- One action. -/
theorem simD_act {P P2 : Prog} {cs cs2 on nm t base H0 q ref made w w2 a} (hP : P.SigsWF)
    (hP2 : P2.SigsWF) (hoid : ∀ n, t (.oid n) = .oid n ∨ t (.oid n) = .int n)
    (hsim : SimD P P2 cs cs2 on t base H0 ref made w w2)
    (hrec : RecInv q w) (hcl : Replayable P P2 cs cs2 on nm t w a) :
    ∃ c, commandsOf (step P w a.op).1 q = commandsOf w q ++ [c] ∧
      (step P w a.op).2 = .ok () ∧ RecInv q (step P w a.op).1 ∧ WellKeyed c ∧
      ∀ c', SentAs nm t c c' → ∃ w2' ref' made', execute P2 w2 c' = (w2', .ok ()) ∧
        (ref <+: ref' ∧ made <+: made') ∧
        SimD P P2 cs cs2 on t base H0 ref' made' (step P w a.op).1 w2' := by
  cases a with
  | create cls args kwargs =>
    obtain ⟨sg, sg2, b, hs, hs2, hag, hkw, hb, hlive, hsend, hr, htol, hnm, hres⟩ := hcl
    obtain ⟨hwf, hdef⟩ := hP _ _ _ hs
    have hB := bindArgs_ok hb
    have hrcd : Recordable P w.converters sg b := by
      rw [hsim.conv]
      intro k v hv
      obtain ⟨u, hu, _⟩ := hsend k v hv
      exact ⟨u, hu⟩
    obtain ⟨w', h1, hcore, h2⟩ := construct_form (nc := false) hs hP hkw hb hr (fun _ => hrcd)
    have hstep : step P w (Act.create cls args kwargs).op = (w', .ok ()) := by
      simp only [Act.op, step, h1]
    have hq := h2 hrec.activeValid hlive hrec.on q
    rw [if_pos ⟨rfl, hrec.writable, hrec.activeIx.symm⟩] at hq
    rw [hstep]
    refine ⟨_, hq, rfl, ?_, wellKeyed_form hwf hb P _ _ _, ?_⟩
    · have hfin := (recInv_closed q).construct (P := P) (cls := cls) (args := args)
        (kwargs := kwargs) (nc := false) hrec
      rw [h1] at hfin
      exact hfin
    intro c' hc'
    have hparams : c'.params = (collect sg (1 + (w.oidCounter : Int)) args kwargs).map
        (fun p => (p.1, sentVal P t w sg p.1 p.2)) := by
      rw [hc'.params, List.map_map]; rfl
    obtain ⟨w2a, L, ps2, h3, hg, h5, h6, h7⟩ := resolve_sent (P := P) hP2 hoid (sg2 := sg2) hwf hdef
      (1 + (w.oidCounter : Int)) hkw hb hsim.refs hlive (by rw [hsim.conv, hsim.conv2, hsim.on2]; exact hsend)
    rw [hsim.conv, hsim.conv2, hsim.on2] at h7
    obtain ⟨b', h8, h9, h10⟩ := sent_binds hP2 hs hs2 hag hB.keys h6 h7
    have hsim2 := hsim.grown hg
    have hidv : dget c'.params "id" = some (t (.oid (1 + (w.oidCounter : Int)))) := by
      rw [hparams, dget_mapKey, dget_collect_id hwf _
        (fun k h => List.mem_of_mem_drop (hB.known k h))]
      simp only [Option.map_some, sentVal, formVal, Val.isObj, Bool.false_eq_true, if_false,
        annots_id hwf (Or.inr rfl), stripVal]
    have h10' : DeliveredArgs P P2 cs t ref (made ++ madeAt w2.heap.length L) cls "__init__" b b' := by
      have := h10.mono (ref' := []) (made' := made ++ madeAt w2.heap.length L)
        (fun m hm => List.mem_append_right _ hm)
      rwa [List.append_nil] at this
    have hr2 : P2.raises (Obj.mk (1 + (w2a.oidCounter : Int)) cls [] (1 + (w2a.oidCounter : Int)))
        "__init__" b' = none :=
      htol ref (made ++ madeAt w2.heap.length L) _ b' rfl List.Forall₂.nil h10'
    obtain ⟨w2', he, hheap, hcnt, hor, hcv, hon, hob⟩ := execute_create_of hP2 hidv (idOf_of hoid _)
      (by rw [hparams]; exact h3) (hc'.meth.trans hnm) (by rw [hc'.cls]; exact hres) hs2 h5 h8 hr2
      (by rw [hsim2.conv2, hsim2.on2]; exact h9)
    refine ⟨w2', ref ++ [w2a.heap.length], made ++ madeAt w2.heap.length L, he,
      ⟨List.prefix_append _ _, List.prefix_append _ _⟩, ?_⟩
    apply SimD.congr1 _ hcore
    have hmono : ∀ {o o'}, CopyOf P P2 cs t ref (made ++ madeAt w2.heap.length L) o o' →
        CopyOf P P2 cs t (ref ++ [w2a.heap.length]) (made ++ madeAt w2.heap.length L) o o' :=
      fun h => h.mono (fun _ hm => hm)
    have hb2 : base ≤ w2a.heap.length := by rw [hsim2.len2]; omega
    have hw1 : ∀ (r : Nat) o, (w.heap ++ [Obj.mk (1 + (w.oidCounter : Int)) cls [("__init__", b)]
        (1 + (w.oidCounter : Int))])[r]? = some o → w.heap[r]? = some o ∨
        (r = w.heap.length ∧ o = Obj.mk (1 + (w.oidCounter : Int)) cls [("__init__", b)]
          (1 + (w.oidCounter : Int))) := by
      intro r o ho
      rcases Nat.lt_trichotomy r w.heap.length with h | h | h
      · left; rwa [List.getElem?_append_left h] at ho
      · right; subst h; simp at ho; exact ⟨rfl, ho.symm⟩
      · rw [List.getElem?_eq_none (by simp; omega)] at ho; cases ho
    refine ⟨?_, ?_, ?_, ?_, hsim.conv, ?_, hon.trans hsim2.on2, ?_, ?_, ?_, ?_, ?_, ?_, ?_, hsim2.nodup⟩
    · intro r o ho
      rcases hw1 r o ho with h | ⟨rfl, rfl⟩
      · exact hsim.ids r o h
      · show (1 : Int) + _ = _; rw [hsim.cnt]
    · show w.oidCounter + 1 = _; rw [hsim.cnt]; simp
    · show w.oidCounter + 1 ≤ _; rw [hcnt]; have := hsim2.cnt2; omega
    · rw [hor]; exact hsim2.rec2
    · rw [hcv]; exact hsim2.conv2
    · simp [hsim.len]
    · rw [hheap]
      have := hsim2.len2
      simp only [List.length_append, List.length_singleton] at this ⊢
      omega
    · rw [List.pairwise_append]
      refine ⟨hsim2.sorted, List.pairwise_singleton _ _, ?_⟩
      intro a ha b hb
      rw [List.mem_singleton.1 hb]
      exact (hsim2.range a ha).2
    · intro y hy
      rw [hheap]
      simp only [List.length_append, List.length_singleton]
      rcases List.mem_append.1 hy with h | h
      · have := hsim2.range y h; omega
      · rw [List.mem_singleton.1 h]; omega
    · intro r o ho
      rcases hw1 r o ho with h | ⟨rfl, rfl⟩
      · obtain ⟨y, o', g1, g2, g3, g4⟩ := hsim2.obj r o h
        refine ⟨y, o', ?_, ?_, ?_, hmono g4⟩
        · rw [List.getElem?_append_left (List.getElem?_eq_some_iff.1 g1).1]; exact g1
        · have hlt := (List.getElem?_eq_some_iff.1 h).1
          have hid := hsim.ids r o h
          have hcn := hsim.cnt
          have hcn2 := hsim2.cnt2
          rw [hob hsim2.rec2, if_neg (by rw [hid, hcn]; omega), if_neg (by rw [hid]; omega)]
          exact g2
        · rw [hheap, List.getElem?_append_left (List.getElem?_eq_some_iff.1 g3).1]; exact g3
      · refine ⟨w2a.heap.length, Obj.mk (1 + (w.oidCounter : Int)) cls [("__init__", b')]
            (1 + (w2a.oidCounter : Int)), ?_, ?_, ?_, ?_, ?_, ?_⟩
        · rw [← hsim.len]; simp
        · rw [hob hsim2.rec2, if_pos rfl]
        · rw [hheap]; simp
        · rfl
        · rfl
        · exact List.Forall₂.cons ⟨rfl, h10'.mono (fun _ hm => hm)⟩ List.Forall₂.nil
    · intro m hm
      obtain ⟨g1, g2, o', g3, g4⟩ := hsim2.mades m hm
      refine ⟨g1, ?_, o', ?_, g4⟩
      · intro h
        rcases List.mem_append.1 h with h | h
        · exact g2 h
        · have := (List.getElem?_eq_some_iff.1 g3).1
          rw [List.mem_singleton.1 h] at this
          omega
      · rw [hheap, List.getElem?_append_left (List.getElem?_eq_some_iff.1 g3).1]; exact g3
    · rw [hheap, List.take_append_of_le_length hb2]
      exact hsim2.old
  | call r f args kwargs =>
    obtain ⟨o, sg, sg2, b, ho, hs, hs2, hag, hkw, hb, hlive, hsend, hr, htol, hnm, hdot, hinit⟩ := hcl
    obtain ⟨hwf, hdef⟩ := hP _ _ _ hs
    have hB := bindArgs_ok hb
    have hrcd : Recordable P w.converters sg b := by
      rw [hsim.conv]
      intro k v hv
      obtain ⟨u, hu, _⟩ := hsend k v hv
      exact ⟨u, hu⟩
    obtain ⟨w', h1, hcore, h2⟩ := callMethod_form (nc := false) ho hs hP hkw hb hr (fun _ => hrcd)
    have hstep : step P w (Act.call r f args kwargs).op = (w', .ok ()) := by
      simp only [Act.op, step, h1]
    have hq := h2 hrec.activeValid hrec.on q
    rw [if_pos ⟨rfl, hrec.writable, hrec.activeIx.symm⟩] at hq
    rw [hstep]
    refine ⟨_, hq, rfl, ?_, wellKeyed_form hwf hb P _ _ _, ?_⟩
    · have hfin := (recInv_closed q).callMethod (P := P) (r := r) (f := f) (args := args)
        (kwargs := kwargs) (nc := false) hrec
      rw [h1] at hfin
      exact hfin
    intro c' hc'
    have hparams : c'.params = (collect sg o.id args kwargs).map
        (fun p => (p.1, sentVal P t w sg p.1 p.2)) := by
      rw [hc'.params, List.map_map]; rfl
    have hmeth : c'.meth = f := hc'.meth.trans hnm
    obtain ⟨w2a, L, ps2, h3, hg, h5, h6, h7⟩ := resolve_sent (P := P) hP2 hoid (sg2 := sg2) hwf hdef
      o.id hkw hb hsim.refs hlive (by rw [hsim.conv, hsim.conv2, hsim.on2]; exact hsend)
    rw [hsim.conv, hsim.conv2, hsim.on2] at h7
    obtain ⟨b', h8, h9, h10⟩ := sent_binds hP2 hs hs2 hag hB.keys h6 h7
    have hsim2 := hsim.grown hg
    have hidv : dget c'.params "id" = some (t (.oid o.id)) := by
      rw [hparams, dget_mapKey, dget_collect_id hwf _
        (fun k h => List.mem_of_mem_drop (hB.known k h))]
      simp only [Option.map_some, sentVal, formVal, Val.isObj, Bool.false_eq_true, if_false,
        annots_id hwf (Or.inr rfl), stripVal]
    have h10' : DeliveredArgs P P2 cs t ref (made ++ madeAt w2.heap.length L) o.cls f b b' := by
      have := h10.mono (ref' := []) (made' := made ++ madeAt w2.heap.length L)
        (fun m hm => List.mem_append_right _ hm)
      rwa [List.append_nil] at this
    obtain ⟨y, o', g1, g2, g3, g4⟩ := hsim2.obj r o ho
    have hr2 : P2.raises o' f b' = none :=
      htol ref (made ++ madeAt w2.heap.length L) o' b' g4.cls g4.log h10'
    obtain ⟨w2', he, hcore2⟩ := execute_call_of hP2 hidv (idOf_of hoid _)
      (by rw [hparams]; exact h3) (by rw [hmeth]; exact hdot) (by rw [hmeth]; exact hinit) g2 g3
      (by rw [hmeth, g4.cls]; exact hs2) h5 h8 (by rw [hmeth]; exact hr2)
      (by rw [hsim2.conv2, hsim2.on2]; exact h9)
    refine ⟨w2', ref, made ++ madeAt w2.heap.length L, he,
      ⟨List.prefix_rfl, List.prefix_append _ _⟩, ?_⟩
    apply SimD.congr1 _ hcore
    apply SimD.congr2 _ hcore2
    rw [logCall_eq ho, logCall_eq g3, hmeth]
    have hlt := (List.getElem?_eq_some_iff.1 ho).1
    have hlt2 := (List.getElem?_eq_some_iff.1 g3).1
    have hw1 : ∀ (r' : Nat) o', (w.heap.set r { o with log := o.log ++ [(f, b)] })[r']? = some o' →
        (r' ≠ r ∧ w.heap[r']? = some o') ∨
        (r' = r ∧ o' = { o with log := o.log ++ [(f, b)] }) := by
      intro r' o' h'
      by_cases hrr : r = r'
      · right; subst hrr
        rw [List.getElem?_set_self hlt] at h'
        exact ⟨rfl, (Option.some.inj h').symm⟩
      · left; rw [List.getElem?_set_ne hrr] at h'; exact ⟨Ne.symm hrr, h'⟩
    have hyb := hsim2.range y (List.mem_of_getElem? g1)
    refine ⟨?_, ?_, hsim2.cnt2, hsim2.rec2, hsim2.conv, hsim2.conv2, hsim2.on2,
      ?_, ?_, hsim2.sorted, ?_, ?_, ?_, ?_, hsim2.nodup⟩
    · intro r' o1 h'
      rcases hw1 r' o1 h' with ⟨_, h⟩ | ⟨rfl, rfl⟩
      · exact hsim.ids r' o1 h
      · exact hsim.ids r' o ho
    · show w.oidCounter = _; rw [hsim.cnt]; simp
    · show ref.length = (List.set _ _ _).length; simp [hsim.len]
    · show (List.set _ _ _).length = _; rw [List.length_set]; exact hsim2.len2
    · show ∀ y ∈ ref, base ≤ y ∧ y < (List.set _ _ _).length
      rw [List.length_set]; exact hsim2.range
    · intro r' o1 h'
      rcases hw1 r' o1 h' with ⟨hne, h⟩ | ⟨rfl, rfl⟩
      · obtain ⟨y1, o1', k1, k2, k3, k4⟩ := hsim2.obj r' o1 h
        refine ⟨y1, o1', k1, k2, ?_, k4⟩
        show (List.set _ _ _)[y1]? = _
        rw [List.getElem?_set_ne]
        · exact k3
        · rintro rfl
          exact hne (sorted_inj hsim2.sorted k1 g1)
      · refine ⟨y, { o' with log := o'.log ++ [(f, b')] }, g1, g2, ?_, g4.id, g4.cls, ?_⟩
        · show (List.set _ _ _)[y]? = _
          rw [List.getElem?_set_self hlt2]
        · exact List.rel_append g4.log (List.Forall₂.cons ⟨rfl, h10'⟩ List.Forall₂.nil)
    · intro m hm
      obtain ⟨k1, k2, o1', k3, k4⟩ := hsim2.mades m hm
      refine ⟨k1, k2, o1', ?_, k4⟩
      show (List.set _ _ _)[m.1]? = _
      rw [List.getElem?_set_ne]
      · exact k3
      · rintro rfl
        exact k2 (List.mem_of_getElem? g1)
    · show (List.set _ _ _).take base = H0
      rw [List.take_set_of_le (by omega)]
      exact hsim2.old

/-- A whole session. -/
theorem simD_session {P P2 : Prog} {cs cs2 on nm t base H0 q} (hP : P.SigsWF)
    (hP2 : P2.SigsWF) (hoid : ∀ n, t (.oid n) = .oid n ∨ t (.oid n) = .int n) :
    ∀ {as ref made w w2}, SimD P P2 cs cs2 on t base H0 ref made w w2 → RecInv q w →
    ReplayableSession P P2 cs cs2 on nm t w as →
    ∃ l, commandsOf (runActs P w as) q = commandsOf w q ++ l ∧ Succeeds P w as ∧
      (∀ c ∈ l, WellKeyed c) ∧ RecInv q (runActs P w as) ∧ l.length = as.length ∧
      ∀ l', List.Forall₂ (SentAs nm t) l l' → ∃ w2' ref' made',
        runCmds P2 w2 l' = (w2', .ok ()) ∧
        SimD P P2 cs cs2 on t base H0 ref' made' (runActs P w as) w2' := by
  intro as
  induction as with
  | nil =>
    intro ref made w w2 hsim hrec _
    refine ⟨[], by simp [runActs], trivial, by simp, hrec, rfl, ?_⟩
    intro l' hl'
    cases hl'
    exact ⟨w2, ref, made, rfl, hsim⟩
  | cons a as ih =>
    intro ref made w w2 hsim hrec hcl
    obtain ⟨c, hq, hok, hrec', hwk, he⟩ := simD_act hP hP2 hoid hsim hrec hcl.1
    -- the commands do not depend on the replaying world
    have hid : ∃ c0, SentAs nm t c c0 := ⟨c.sent nm t, rfl, rfl, rfl⟩
    obtain ⟨c0, hc0⟩ := hid
    obtain ⟨w20, ref0, made0, _, _, hsim0⟩ := he c0 hc0
    obtain ⟨l, hl, hs, hwl, hri, hll, _⟩ := ih hsim0 hrec' hcl.2
    refine ⟨c :: l, ?_, ⟨hok, hs⟩, ?_, hri, by simp [hll], ?_⟩
    · show commandsOf (runActs P (step P w a.op).1 as) q = _
      rw [hl, hq]; simp
    · intro x hx
      rcases List.mem_cons.1 hx with rfl | hx
      · exact hwk
      · exact hwl x hx
    · intro l' hl'
      cases hl' with
      | @cons _ c' _ l'' h1 h2 =>
        obtain ⟨w2', ref', made', g1, _, g2⟩ := he c' h1
        obtain ⟨l1, hl1, _, _, _, _, g3⟩ := ih g2 hrec' hcl.2
        have : l1 = l := List.append_cancel_left (hl1.symm.trans hl)
        subst this
        obtain ⟨w2'', ref'', made'', g4, g5⟩ := g3 l'' h2
        refine ⟨w2'', ref'', made'', ?_, g5⟩
        simp only [runCmds, g1, g4]

end Verif
