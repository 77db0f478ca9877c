import Verif.Spec.SaveAny
import Verif.Lemmas.Json
import Verif.Lemmas.Creation
/-! Lemmas about saving when conversions build objects. -/

namespace Verif

/-- Objects and commands are only added. -/
structure Grows (q : Nat) (w w' : World) : Prop where
  heap : w.heap <+: w'.heap
  queue : ∀ u, w.queues[q]? = some u → ∃ u', w'.queues[q]? = some u' ∧ u.commands <+: u'.commands
  counter : w.oidCounter ≤ w'.oidCounter
  fresh : ∀ (r : Nat) o, w'.heap[r]? = some o → w.heap.length ≤ r → (w.oidCounter : Int) < o.id

theorem prefix_getElem? {α : Type} {l l' : List α} (h : l <+: l') {i : Nat} {a : α}
    (ha : l[i]? = some a) : l'[i]? = some a := by
  obtain ⟨t, rfl⟩ := h
  rw [List.getElem?_append_left (List.getElem?_eq_some_iff.1 ha).1]
  exact ha

theorem Grows.refl (q : Nat) (w : World) : Grows q w w :=
  ⟨List.prefix_rfl, fun u h => ⟨u, h, List.prefix_rfl⟩, Nat.le_refl _,
   fun r o h hr => absurd (List.getElem?_eq_some_iff.1 h).1 (by omega)⟩

theorem Grows.trans {q : Nat} {a b c : World} (h : Grows q a b) (h' : Grows q b c) : Grows q a c := by
  refine ⟨h.heap.trans h'.heap, ?_, Nat.le_trans h.counter h'.counter, ?_⟩
  · intro u hu
    obtain ⟨v, hv, h1⟩ := h.queue u hu
    obtain ⟨x, hx, h2⟩ := h'.queue v hv
    exact ⟨x, hx, h1.trans h2⟩
  · intro r o ho hr
    by_cases hb : r < b.heap.length
    · have h1 := List.getElem?_eq_getElem hb
      have h2 := prefix_getElem? h'.heap h1
      rw [ho] at h2
      exact h.fresh r o (h1.trans h2.symm) hr
    · have h1 := h'.fresh r o ho (by omega)
      have h2 := h.counter
      omega

theorem queue_closed (q : Nat) (l : List Cmd) :
    CallClosed (fun w => ∃ u', w.queues[q]? = some u' ∧ l <+: u'.commands) where
  newObj := fun _ _ h => h
  log := fun w r m b h => by
    unfold logCall
    split <;> exact h
  getq := fun w h => by
    unfold getQueue getQueue.activeOrNew
    cases w.active with
    | some a => exact h
    | none =>
      obtain ⟨u', h1, h2⟩ := h
      refine ⟨u', ?_, h2⟩
      simp only [newQueue]
      rw [List.getElem?_append_left (List.getElem?_eq_some_iff.1 h1).1]
      exact h1
  push := fun w p u cls meth ps h _ _ _ => by
    obtain ⟨u', h1, h2⟩ := h
    simp only [pushCmd, setQueue, List.getElem?_modify, h1]
    refine ⟨_, rfl, ?_⟩
    dsimp only
    split
    · simp only [Queue.push]
      split
      · exact h2
      · exact h2.trans (List.prefix_append _ _)
    · exact h2

theorem construct_ok_heap {P : Prog} {w w' : World} {cls args kwargs nc r}
    (h : construct P w cls args kwargs nc = (w', .ok r)) :
    ∃ sg b, P.sig cls "__init__" = some sg ∧ bindArgs sg args kwargs = .ok b ∧
      r = w.heap.length ∧ w'.oidCounter = w.oidCounter + 1 ∧ w'.heap = w.heap ++
        [⟨1 + (w.oidCounter : Int), cls, [("__init__", b)], 1 + (w.oidCounter : Int)⟩] := by
  have hcnt := (construct_ok h).2.2.1
  unfold construct at h
  split at h
  · cases h
  · rename_i sg hsg
    split at h
    · cases h
    · rename_i b hb
      dsimp only at h
      split at h
      · cases h
      · split at h
        · cases h
        · split at h
          · cases h
          · rename_i w2 heq
            simp only [Prod.mk.injEq, Except.ok.injEq] at h
            obtain ⟨rfl, rfl⟩ := h
            refine ⟨sg, b, hsg, hb, rfl, hcnt, ?_⟩
            have := recordCall_heap P (logCall (newObject w cls).1 (newObject w cls).2
              "__init__" b) (newObject w cls).2 "__init__" sg args kwargs nc
            rw [heq] at this
            simp only at this
            rw [this]
            simp [logCall, newObject]

theorem construct_grows {P : Prog} {q : Nat} {w w' : World} {cls args kwargs nc r}
    (h : construct P w cls args kwargs nc = (w', .ok r)) : Grows q w w' := by
  obtain ⟨_, _, _, _, _, hcnt, hh⟩ := construct_ok_heap h
  refine ⟨by rw [hh]; exact List.prefix_append _ _, ?_, by omega, ?_⟩
  rotate_left
  · intro r' o ho hr
    rw [hh, List.getElem?_append_right hr] at ho
    have := List.mem_of_getElem? ho
    rw [List.mem_singleton.1 this]
    dsimp only
    omega
  intro u hu
  have := (queue_closed q u.commands).construct (P := P) (w := w) (cls := cls) (args := args)
    (kwargs := kwargs) (nc := nc) ⟨u, hu, List.prefix_rfl⟩
  rw [h] at this
  exact this

/-- What `dump_command` makes of a parameter. -/
inductive DumpedParam (P : Prog) (s : World) (w : World) : String × Val → String × Val → Prop
  | value (k : String) (v x : Val) (he : evaluated P v = some x) (hx : x.isObj = false) :
      DumpedParam P s w (k, v) (k, x)
  | object (k : String) (v : Val) (r : Nat) (o : Obj) (he : evaluated P v = some (.obj r))
      (ho : w.heap[r]? = some o) : DumpedParam P s w (k, v) (k ++ "(id)", .oid o.id)
  | built (k : String) (f : Nat) (x : Val) (cls : String) (kw : Val → Dict String Val) (r : Nat)
      (o : Obj) (sg : Sig) (b : Dict String Val) (hf : P.conv f x = .make cls kw)
      (hs : P.sig cls "__init__" = some sg) (hb : bindArgs sg [] (kw x) = .ok b)
      (hn : s.heap.length ≤ r) (ho : w.heap[r]? = some o) (hc : o.cls = cls) (hl : o.log = [("__init__", b)]) :
      DumpedParam P s w (k, .conv f x) (k ++ "(id)", .oid o.id)
  | looked (k : String) (f : Nat) (x : Val) (key : Val → Option Int) (m : Int) (r : Nat) (o : Obj)
      (hf : P.conv f x = .look key) (hk : key x = some m)
      (hr : dget s.objects m = some r ∨ s.heap.length ≤ r) (ho : w.heap[r]? = some o) :
      DumpedParam P s w (k, .conv f x) (k ++ "(id)", .oid o.id)

/-- `w` comes after `s`: objects have been added, and registered. -/
def Since (s w : World) : Prop :=
  s.heap.length ≤ w.heap.length ∧
    ∀ m r, dget w.objects m = some r → dget s.objects m = some r ∨ s.heap.length ≤ r

theorem Since.refl (w : World) : Since w w := ⟨Nat.le_refl _, fun _ _ h => Or.inl h⟩

theorem since_closed (s : World) : CallClosed (Since s) where
  newObj := fun w cls h => by
    refine ⟨?_, ?_⟩
    · simp only [newObject, List.length_append, List.length_singleton]
      have := h.1
      omega
    · intro m r hm
      simp only [newObject] at hm
      split at hm
      · by_cases he : 1 + (w.oidCounter : Int) = m
        · subst he
          rw [dget_dset_self] at hm
          cases hm
          exact Or.inr h.1
        · rw [dget_dset_ne _ _ he] at hm
          exact h.2 m r hm
      · exact h.2 m r hm
  log := fun w r m b h => by
    unfold logCall
    split
    · exact h
    · exact ⟨by simpa using h.1, h.2⟩
  getq := fun w h => by
    refine ⟨by rw [getQueue_none_heap]; exact h.1, ?_⟩
    have : (getQueue w none).1.objects = w.objects := by
      unfold getQueue getQueue.activeOrNew
      cases w.active <;> rfl
    rw [this]
    exact h.2
  push := fun w p u cls meth ps h _ _ _ => h

theorem DumpedParam.mono {P : Prog} {s : World} {w w' : World} {p p'} (h : DumpedParam P s w p p')
    (hh : w.heap <+: w'.heap) : DumpedParam P s w' p p' := by
  cases h with
  | value k v x he hx => exact .value k v x he hx
  | object k v r o he ho => exact .object k v r o he (prefix_getElem? hh ho)
  | built k f x cls kw r o sg b hf hs hb hn ho hc hl =>
    exact .built k f x cls kw r o sg b hf hs hb hn (prefix_getElem? hh ho) hc hl
  | looked k f x key m r o hf hk hr ho => exact .looked k f x key m r o hf hk hr (prefix_getElem? hh ho)

theorem DumpedParam.key {P : Prog} {s : World} {w : World} {p p'} (h : DumpedParam P s w p p') :
    p'.1 = p.1 ∨ p'.1 = p.1 ++ "(id)" := by
  cases h with
  | value k v x he hx => exact Or.inl rfl
  | object k v r o he ho => exact Or.inr rfl
  | built k f x cls kw r o sg b hf hs hb hn ho hc hl => exact Or.inr rfl
  | looked k f x key m r o hf hk hr ho => exact Or.inr rfl

/-- One round of the loop over the parameters. -/
theorem dumpParams_cons {P : Prog} {q : Nat} {s : World} {w w' : World} {k v ps acc out}
    (hn : Since s w)
    (h : dumpParams P w ((k, v) :: ps) acc = (w', .ok out)) :
    ∃ w1 e, DumpedParam P s w1 (k, v) e ∧ Grows q w w1 ∧ Since s w1 ∧
      dumpParams P w1 ps (dset acc e.1 e.2) = (w', .ok out) := by
  unfold dumpParams at h
  have key : ∀ w1 x, callIfCallable P w v = (w1, .ok x) →
      (evaluated P v = some x ∧ w1 = w) ∨
      (∃ f y cls kw r, v = .conv f y ∧ P.conv f y = .make cls kw ∧
        construct P w cls [] (kw y) false = (w1, .ok r) ∧ x = .obj r) ∨
      ∃ f y key m r, v = .conv f y ∧ P.conv f y = .look key ∧ key y = some m ∧
        dget w.objects m = some r ∧ w1 = w ∧ x = .obj r := by
    intro w1 x hx
    cases v with
    | conv f y =>
      simp only [callIfCallable, callConv] at hx
      cases hc : P.conv f y with
      | pure g =>
        rw [hc] at hx
        simp only [Prod.mk.injEq] at hx
        left
        refine ⟨?_, hx.1.symm⟩
        simp only [evaluated, hc, hx.2, Except.toOption]
      | make cls kw =>
        rw [hc] at hx
        right
        left
        dsimp only at hx
        cases hcn : construct P w cls [] (kw y) false with
        | mk w2 res =>
          rw [hcn] at hx
          cases res with
          | error e => cases hx
          | ok r =>
            simp only [Prod.mk.injEq, Except.ok.injEq] at hx
            obtain ⟨rfl, rfl⟩ := hx
            exact ⟨f, y, cls, kw, r, rfl, hc, hcn, rfl⟩
      | look key =>
        rw [hc] at hx
        right
        right
        dsimp only at hx
        cases hky : key y with
        | none => rw [hky] at hx; cases hx
        | some m =>
          rw [hky] at hx
          simp only [Option.bind_some] at hx
          cases hob : dget w.objects m with
          | none => rw [hob] at hx; cases hx
          | some r =>
            rw [hob] at hx
            simp only [Prod.mk.injEq, Except.ok.injEq] at hx
            obtain ⟨rfl, rfl⟩ := hx
            exact ⟨f, y, key, m, r, rfl, hc, hky, hob, rfl, rfl⟩
    | _ =>
      simp only [callIfCallable, Prod.mk.injEq, Except.ok.injEq] at hx
      exact Or.inl ⟨by rw [← hx.2]; rfl, hx.1.symm⟩
  cases hcall : callIfCallable P w v with
  | mk w1 res =>
    rw [hcall] at h
    cases res with
    | error e => cases h
    | ok x =>
      rcases key w1 x hcall with ⟨he, rfl⟩ | ⟨f, y, cls, kw, r, rfl, hf, hcn, rfl⟩ |
        ⟨f, y, key', m, r, rfl, hf, hk, hob, rfl, rfl⟩
      · by_cases hobj : ∃ r, x = .obj r
        · obtain ⟨r, rfl⟩ := hobj
          dsimp only at h
          cases ho : w1.heap[r]? with
          | none => rw [ho] at h; cases h
          | some o =>
            rw [ho] at h
            exact ⟨w1, _, .object k v r o he ho, Grows.refl q w1, hn, h⟩
        · refine ⟨w1, (k, x), .value k v x he ?_, Grows.refl q w1, hn, ?_⟩
          · cases x <;> first | rfl | exact absurd ⟨_, rfl⟩ hobj
          · cases x <;> first | exact h | exact absurd ⟨_, rfl⟩ hobj
      · obtain ⟨sg, b, h1, h2, h3, _, h4⟩ := construct_ok_heap hcn
        have ho : w1.heap[r]? = some ⟨1 + (w.oidCounter : Int), cls, [("__init__", b)],
            1 + (w.oidCounter : Int)⟩ := by rw [h4, h3]; simp
        dsimp only at h
        rw [ho] at h
        have hn1 : Since s w1 := by
          have := (since_closed s).construct (P := P) (cls := cls) (args := []) (kwargs := kw y)
            (nc := false) hn
          rw [hcn] at this
          exact this
        exact ⟨w1, _, .built k f y cls kw r _ sg b hf h1 h2 (h3 ▸ hn.1) ho rfl rfl, construct_grows hcn, hn1, h⟩
      · dsimp only at h
        cases ho : w1.heap[r]? with
        | none => rw [ho] at h; cases h
        | some o =>
          rw [ho] at h
          exact ⟨w1, _, .looked k f y key' m r o hf hk (hn.2 m r hob) ho, Grows.refl q w1, hn, h⟩

theorem dumpParams_any {P : Prog} {q : Nat} {s : World} : ∀ {ps acc out : Dict String Val} {w w' : World}
    (done : List String), Since s w → dumpParams P w ps acc = (w', .ok out) →
    (done ++ dkeys ps).Nodup → (∀ k ∈ done ++ dkeys ps, k ++ "(id)" ∉ done ++ dkeys ps) →
    (∀ a ∈ dkeys acc, ∃ k ∈ done, a = k ∨ a = k ++ "(id)") →
    ∃ ss, out = acc ++ ss ∧ List.Forall₂ (DumpedParam P s w') ps ss ∧ Grows q w w' := by
  intro ps
  induction ps with
  | nil =>
    intro acc out w w' done _ h _ _ _
    simp only [dumpParams, Prod.mk.injEq, Except.ok.injEq] at h
    obtain ⟨rfl, rfl⟩ := h
    exact ⟨[], by simp, .nil, Grows.refl q w⟩
  | cons p ps ih =>
    obtain ⟨k, v⟩ := p
    intro acc out w w' done hlen h hn ha hacc
    obtain ⟨w1, e, hd, hg, hsn, hrest⟩ := dumpParams_cons (q := q) hlen h
    have hkey := hd.key
    have hkd : k ∉ done := by
      intro hk
      exact (List.nodup_append.1 hn).2.2 k hk k (by simp [dkeys]) rfl
    have hnew : dget acc e.1 = none := by
      cases hgt : dget acc e.1 with
      | none => rfl
      | some x =>
        exfalso
        obtain ⟨k0, hk0, h0⟩ := hacc e.1 ((mem_dkeys acc e.1).2 ⟨x, hgt⟩)
        have hne : k0 ≠ k := fun he => hkd (he ▸ hk0)
        have hm0 : k0 ∈ done ++ dkeys ((k, v) :: ps) := List.mem_append_left _ hk0
        have hmk : k ∈ done ++ dkeys ((k, v) :: ps) := by simp [dkeys]
        rcases hkey with hk | hk <;> rcases h0 with h0 | h0 <;> dsimp only at hk
        · exact hne (h0 ▸ hk)
        · exact ha k0 hm0 (h0 ▸ hk ▸ hmk)
        · exact ha k hmk (hk ▸ h0 ▸ hm0)
        · exact hne (append_id_inj (h0 ▸ hk))
    rw [dset_of_not_mem acc e.1 e.2 hnew] at hrest
    obtain ⟨ss, hs1, hs2, hs3⟩ := ih (done ++ [k]) hsn hrest (by simpa [dkeys] using hn)
      (by simpa [dkeys] using ha) (by
        intro a hm
        simp only [dkeys, List.map_append, List.mem_append, List.map_cons, List.map_nil,
          List.mem_singleton] at hm
        rcases hm with hm | hm
        · obtain ⟨k0, hk0, h0⟩ := hacc a hm
          exact ⟨k0, by simp [hk0], h0⟩
        · exact ⟨k, by simp, by rw [hm]; exact hkey⟩)
    exact ⟨e :: ss, by simpa using hs1, .cons (hd.mono hs3.heap) hs2, hg.trans hs3⟩

/-- What `dump_command` makes of a command. -/
structure DumpedCmd (P : Prog) (s : World) (w : World) (c : Cmd) (p : Payload) : Prop where
  method : p.method = methodString c.cls c.meth
  params : List.Forall₂ (DumpedParam P s w) c.params p.params

theorem DumpedCmd.mono {P : Prog} {s : World} {w w' : World} {c p} (h : DumpedCmd P s w c p)
    (hh : w.heap <+: w'.heap) : DumpedCmd P s w' c p :=
  ⟨h.method, h.params.imp (fun _ _ hd => hd.mono hh)⟩

theorem dumpCommand_any {P : Prog} {q : Nat} {s : World} {w w' : World} {c p} (hp : ProperCmd P c)
    (hn : Since s w)
    (h : dumpCommand P w c = (w', .ok p)) : DumpedCmd P s w' c p ∧ Grows q w w' := by
  unfold dumpCommand at h
  split at h
  · cases h
  · rename_i w1 ps heq
    simp only [Prod.mk.injEq, Except.ok.injEq] at h
    obtain ⟨rfl, rfl⟩ := h
    obtain ⟨ss, h1, h2, h3⟩ := dumpParams_any (q := q) [] hn heq (by simpa using hp.keys)
      (by simpa using hp.apart) (by simp [dkeys])
    simp only [List.nil_append] at h1
    subst h1
    exact ⟨⟨rfl, h2⟩, h3⟩

theorem CallClosed.dumpParams {P : Prog} {I : World → Prop} (H : CallClosed I) :
    ∀ {ps : Dict String Val} {w acc}, I w → I (dumpParams P w ps acc).1 := by
  intro ps
  induction ps with
  | nil => intro w acc h; exact h
  | cons p ps ihp =>
    obtain ⟨k, v⟩ := p
    intro w acc h
    have hci : I (callIfCallable P w v).1 := by
      cases v <;> first
        | exact h
        | exact H.callConv h
    unfold Verif.dumpParams
    cases hcc : callIfCallable P w v with
    | mk w2 r2 =>
      rw [hcc] at hci
      cases r2 with
      | error e => exact hci
      | ok x =>
        dsimp only at hci ⊢
        split
        · split
          · exact ihp hci
          · exact hci
        · exact ihp hci

theorem CallClosed.dumpCommand {P : Prog} {I : World → Prop} (H : CallClosed I) {w c} (h : I w) :
    I (dumpCommand P w c).1 := by
  have := H.dumpParams (P := P) (ps := c.params) (acc := []) h
  unfold Verif.dumpCommand
  split <;> (rename_i heq; rw [heq] at this; exact this)

theorem dumpLoop_any {P : Prog} {q : Nat} {s : World} : ∀ {fuel i : Nat} {w w' : World} {acc out : List Payload}
    {u : Queue}, Since s w → w.queues[q]? = some u → dumpLoop P fuel w q i acc = some (w', .ok out) →
    (∀ u', w'.queues[q]? = some u' → ∀ c ∈ u'.commands, ProperCmd P c) →
    Grows q w w' ∧ ∃ ps u', w'.queues[q]? = some u' ∧ out = acc ++ ps ∧
      List.Forall₂ (DumpedCmd P s w') (u'.commands.drop i) ps := by
  intro fuel
  induction fuel with
  | zero => intro i w w' acc out u _ _ h; cases h
  | succ fuel ih =>
    intro i w w' acc out u hlen hq h hp
    unfold dumpLoop at h
    rw [hq] at h
    dsimp only at h
    cases hc : u.commands[i]? with
    | none =>
      rw [hc] at h
      simp only [Option.some.injEq, Prod.mk.injEq, Except.ok.injEq] at h
      obtain ⟨rfl, rfl⟩ := h
      refine ⟨Grows.refl q w, [], u, hq, by simp, ?_⟩
      rw [List.drop_eq_nil_of_le (List.getElem?_eq_none_iff.1 hc)]
      exact .nil
    | some c =>
      rw [hc] at h
      dsimp only at h
      cases hdc : dumpCommand P w c with
      | mk w1 res =>
        rw [hdc] at h
        cases res with
        | error e => cases h
        | ok p =>
          dsimp only at h
          -- the command is still there at the end, and proper
          have hgq : ∃ u1, w1.queues[q]? = some u1 ∧ u.commands <+: u1.commands := by
            have := (queue_closed q u.commands).dumpCommand (P := P) (c := c) ⟨u, hq, List.prefix_rfl⟩
            rw [hdc] at this
            exact this
          have hlen1 : Since s w1 := by
            have := (since_closed s).dumpCommand (P := P) (c := c) hlen
            rw [hdc] at this
            exact this
          obtain ⟨u1, hu1, hpre⟩ := hgq
          obtain ⟨hg, ps, u', hu', hout, hf⟩ := ih hlen1 hu1 h hp
          obtain ⟨u'', hu'', hpre'⟩ := hg.queue u1 hu1
          rw [hu'] at hu''
          cases hu''
          have hci : u'.commands[i]? = some c := prefix_getElem? (hpre.trans hpre') hc
          have hpc := hp u' hu' c (List.mem_of_getElem? hci)
          obtain ⟨hd, hg1⟩ := dumpCommand_any (q := q) hpc hlen hdc
          refine ⟨hg1.trans hg, p :: ps, u', hu', by rw [hout]; simp, ?_⟩
          have hlt := (List.getElem?_eq_some_iff.1 hci).1
          rw [← List.getElem_cons_drop (h := hlt), (List.getElem?_eq_some_iff.1 hci).2]
          exact .cons (hd.mono hg.heap) hf

theorem encodeParams_any {ij : Codec} {w : World} : ∀ {ps : Dict String Val} {js},
    encodeParams ij w ps = .ok js →
    List.Forall₂ (fun a b => b.1 = a.1 ∧ encodeVal ij w a.2 = .ok b.2) ps js := by
  intro ps
  induction ps with
  | nil => intro js h; cases h; exact .nil
  | cons p ps ih =>
    obtain ⟨k, v⟩ := p
    intro js h
    unfold encodeParams at h
    split at h
    · cases h
    · rename_i j hj
      split at h
      · cases h
      · rename_i js' hjs
        cases h
        exact .cons ⟨rfl, hj⟩ (ih hjs)

theorem encodeAll_any {ij : Codec} {w : World} : ∀ {ps : List Payload} {l},
    encodeAll ij w ps = .ok l →
    List.Forall₂ (fun p j => ∃ js, j = JCmd.mk (some p.method) p.id (some js) ∧
      encodeParams ij w p.params = .ok js) ps l := by
  intro ps
  induction ps with
  | nil => intro l h; cases h; exact .nil
  | cons p ps ih =>
    intro l h
    unfold encodeAll at h
    split at h
    · cases h
    · rename_i js hjs
      split at h
      · cases h
      · rename_i l' hl
        cases h
        exact .cons ⟨js, rfl, hjs⟩ (ih hl)

theorem savedParam_of {P : Prog} {ij : Codec} {w : World} {p e : String × Val} {b : String × JVal}
    (hd : DumpedParam P s w p e) (hb : b.1 = e.1 ∧ encodeVal ij w e.2 = .ok b.2)
    (hby : ∀ l, evaluated P p.2 = some (.bytes l) → ∀ x ∈ l, x < 256) :
    SavedParam P ij s w p (b.1, decodeVal b.2) := by
  obtain ⟨bk, bj⟩ := b
  obtain ⟨hk, hj⟩ := hb
  cases hd with
  | value k v x he hx =>
    dsimp only at hk hj ⊢
    rw [hk]
    refine .value k v x _ he hx ?_
    cases x with
    | inst c n =>
      simp only [encodeVal] at hj
      cases hc : ij c n with
      | none => rw [hc] at hj; cases hj
      | some j' =>
        rw [hc] at hj
        cases hj
        exact ⟨_, hc, rfl⟩
    | bytes l =>
      cases hj
      refine ⟨String.ofList (b64encode l), rfl, ?_⟩
      rw [String.toList_ofList]
      exact b64_round_trip l (hby l he)
    | obj r => cases hx
    | conv f y => cases hj
    | _ => cases hj; rfl
  | object k v r o he ho =>
    dsimp only at hk hj ⊢
    rw [hk]
    cases hj
    exact .object k v r o he ho
  | built k f x cls kw r o sg b hf hs hb hn ho hc hl =>
    dsimp only at hk hj ⊢
    rw [hk]
    cases hj
    exact .built k f x cls kw r o sg b hf hs hb hn ho hc hl
  | looked k f x key m r o hf hk' hr ho =>
    dsimp only at hk hj ⊢
    rw [hk]
    cases hj
    exact .looked k f x key m r o hf hk' hr ho

end Verif
