import Verif.Spec.SaveAny
import Verif.Lemmas.SaveAny
import Verif.Lemmas.Define
import Verif.Lemmas.Pushed
/-! Lemmas about files whose objects are built while saving. -/

namespace Verif

/-! ### Identifiers are below the counter -/

/-- The ids of objects, and those in commands, have been given out. -/
structure IdsLow (w : World) : Prop where
  heap : ∀ (r : Nat) o, w.heap[r]? = some o → o.id ≤ w.oidCounter
  cmds : ∀ q, ∀ c ∈ commandsOf w q, ∀ n, cmdId c = some n → n ≤ w.oidCounter

theorem idsLow_closed {P : Prog} (hP : ProgOK P) : PushClosed P IdsLow where
  newObj := by
    intro w cls h
    constructor
    · intro r o ho
      simp only [newObject] at ho ⊢
      by_cases hr : r < w.heap.length
      · rw [List.getElem?_append_left hr] at ho
        have := h.heap r o ho
        omega
      · rw [List.getElem?_append_right (by omega)] at ho
        rw [List.mem_singleton.1 (List.mem_of_getElem? ho)]
        dsimp only
        omega
    · intro q c hc n hn
      rw [commandsOf_newObject] at hc
      have := h.cmds q c hc n hn
      simp only [newObject]
      omega
  log := by
    intro w r m b h
    constructor
    · intro x o ho
      unfold logCall at ho ⊢
      split at ho
      · exact h.heap x o ho
      · rename_i o' heq
        dsimp only at ho ⊢
        have hlt := (List.getElem?_eq_some_iff.1 heq).1
        by_cases hx : r = x
        · subst hx
          rw [List.getElem?_set_self hlt] at ho
          cases ho
          exact h.heap r o' heq
        · rw [List.getElem?_set_ne hx] at ho
          exact h.heap x o ho
    · intro q c hc n hn
      rw [commandsOf_logCall] at hc
      have := h.cmds q c hc n hn
      unfold logCall
      split <;> exact this
  getq := by
    intro w h
    have hcnt : (getQueue w none).1.oidCounter = w.oidCounter := by
      unfold getQueue getQueue.activeOrNew
      cases w.active <;> rfl
    constructor
    · rw [getQueue_none_heap, hcnt]
      exact h.heap
    · intro q c hc n hn
      rw [commandsOf_getQueue] at hc
      rw [hcnt]
      exact h.cmds q c hc n hn
  push := by
    intro w q u r o f sg args kwargs b ps h ha hu hr ho hs hb hps
    constructor
    · exact h.heap
    · intro q' c hc n hn
      rw [commandsOf_pushCmd _ _ _ hu hr] at hc
      split at hc
      · rcases List.mem_append.1 hc with hc | hc
        · exact h.cmds q' c hc n hn
        · rw [List.mem_singleton.1 hc, cmdId_recorded (hP.wf _ _ _ hs) hb hps] at hn
          cases hn
          exact h.heap r o ho
      · exact h.cmds q' c hc n hn

theorem idsLow_session {P : Prog} (hP : ProgOK P) : ∀ {as : List Act} {w : World}, IdsLow w →
    IdsLow (runActs P w as)
  | [], _, h => h
  | a :: as, w, h => by
    have ha : IdsLow (step P w a.op).1 := by
      cases a with
      | create cls args kwargs =>
        have := (idsLow_closed hP).construct (cls := cls) (args := args) (kwargs := kwargs)
          (nc := false) h
        simp only [Act.op, step]
        split <;> (rename_i heq; rw [heq] at this; exact this)
      | call r f args kwargs => exact (idsLow_closed hP).callMethod h
    exact idsLow_session hP (w := (step P w a.op).1) ha

theorem idsLow_start (cs) : IdsLow (World.start cs) :=
  ⟨by intro r o h; simp [World.start, World.fresh] at h,
   by intro q c h; simp [commandsOf, World.start, World.fresh] at h⟩

/-! ### Saving without building -/

theorem dumpParams_still {P : Prog} : ∀ {ps acc : Dict String Val} {w : World},
    (∀ p ∈ ps, ¬ CallsClass P p.2) → (dumpParams P w ps acc).1 = w := by
  intro ps
  induction ps with
  | nil => intro acc w _; rfl
  | cons p ps ih =>
    obtain ⟨k, v⟩ := p
    intro acc w h
    have hv := h _ List.mem_cons_self
    have hrest := fun p hp => h p (List.mem_cons_of_mem _ hp)
    have hw : (callIfCallable P w v).1 = w := by
      cases v with
      | conv f x =>
        simp only [callIfCallable, callConv]
        cases hc : P.conv f x with
        | pure g => rfl
        | make cls kw => exact absurd ⟨f, x, cls, kw, rfl, hc⟩ hv
        | look key => dsimp only; split <;> rfl
      | _ => rfl
    unfold dumpParams
    cases hcc : callIfCallable P w v with
    | mk w1 r =>
      rw [hcc] at hw
      dsimp only at hw
      subst hw
      cases r with
      | error e => rfl
      | ok x =>
        dsimp only
        split
        · split
          · exact ih hrest
          · rfl
        · exact ih hrest

theorem dumpCommand_still {P : Prog} {w : World} {c : Cmd} (h : ∀ p ∈ c.params, ¬ CallsClass P p.2) :
    (dumpCommand P w c).1 = w := by
  have := dumpParams_still (P := P) (acc := []) (w := w) h
  unfold dumpCommand
  split <;> (rename_i heq; rw [heq] at this; exact this)

theorem dumpLoop_still {P : Prog} {q : Nat} {w : World} {u : Queue} (hq : w.queues[q]? = some u)
    (hb : ∀ c ∈ u.commands, ∀ p ∈ c.params, ¬ CallsClass P p.2) : ∀ {fuel i : Nat} {w' : World}
    {acc : List Payload} {res}, dumpLoop P fuel w q i acc = some (w', res) → w' = w := by
  intro fuel
  induction fuel with
  | zero => intro i w' acc res h; cases h
  | succ fuel ih =>
    intro i w' acc res h
    unfold dumpLoop at h
    rw [hq] at h
    dsimp only at h
    cases hc : u.commands[i]? with
    | none => rw [hc] at h; cases h; rfl
    | some c =>
      rw [hc] at h
      dsimp only at h
      have hst := dumpCommand_still (P := P) (w := w) (hb c (List.mem_of_getElem? hc))
      cases hdc : dumpCommand P w c with
      | mk w1 r =>
        rw [hdc] at h hst
        dsimp only at hst
        subst hst
        cases r with
        | error e => cases h; rfl
        | ok p => exact ih h

/-! ### Files -/

/-- What a successful save does to the process. -/
theorem saveQueue_grows {P : Prog} {ij : Codec} {w w' : World} {q : Nat} {u : Queue}
    {arg : Option Nat} {fuel : Nat} {old file : File} {res}
    (hq : w.queues[q]? = some u) (hd : Designates w q arg)
    (hsave : saveQueue P ij fuel w arg old = some (w', file, .ok res))
    (hp : ∀ u', w'.queues[q]? = some u' → ∀ c ∈ u'.commands, ProperCmd P c) :
    Grows q w w' ∧ ((∀ c ∈ u.commands, ∀ p ∈ c.params, ¬ CallsClass P p.2) → w' = w) := by
  unfold saveQueue at hsave
  rw [pickQueue_designates hd] at hsave
  dsimp only at hsave
  cases hdl : dumpLoop P fuel w q 0 [] with
  | none => rw [hdl] at hsave; cases hsave
  | some r =>
    obtain ⟨w1, res1⟩ := r
    rw [hdl] at hsave
    cases res1 with
    | error e => cases hsave
    | ok ps =>
      dsimp only at hsave
      cases hen : encodeAll ij w1 ps with
      | error e => rw [hen] at hsave; cases hsave
      | ok l =>
        rw [hen] at hsave
        simp only [Option.some.injEq, Prod.mk.injEq] at hsave
        obtain ⟨rfl, _, _⟩ := hsave
        exact ⟨(dumpLoop_any (Since.refl w) hq hdl hp).1, fun hb => dumpLoop_still hq hb hdl⟩

/-- A command read from a file uses what the recorded one uses or looks up, unless it builds. -/
theorem uses_of_saved {P : Prog} {ij : Codec} {w : World} {c d : Cmd}
    (hP : PlainConversions P) (h : SavedCommand P ij w w c d)
    (hcoh : ∀ m r o, dget w.objects m = some r → w.heap[r]? = some o → o.id = m)
    (hb : ∀ p ∈ c.params, ¬ CallsClass P p.2) (hno : ∀ p ∈ c.params, p.2.isObj = false)
    (hr : ∀ p ∈ c.params, endsWithId p.1 = true → ∃ n, p.2 = .oid n) {m} (hu : Uses d m) :
    Uses c m ∨ ∃ p ∈ c.params, LooksUp P p.2 m := by
  rcases hu with ⟨p, hp, he, hi⟩ | ⟨⟨cls, f, hm⟩, hi⟩
  · obtain ⟨p0, hp0, hs⟩ : ∃ p0 ∈ c.params, SavedParam P ij w w p0 p := by
      have hf := h.params
      generalize c.params = cp at hf
      clear hb hno hr
      generalize d.params = dp at hf hp
      induction hf with
      | nil => cases hp
      | cons hd _ ih =>
        rcases List.mem_cons.1 hp with rfl | hp
        · exact ⟨_, List.mem_cons_self, hd⟩
        · obtain ⟨p0, h1, h2⟩ := ih hp
          exact ⟨p0, List.mem_cons_of_mem _ h1, h2⟩
    have hb0 := hb p0 hp0
    have hno0 := hno p0 hp0
    cases hs with
    | value k v x v' hev hx hs =>
      obtain ⟨y, hy⟩ := hr _ hp0 he
      dsimp only at hy hi
      subst hy
      cases hev
      rw [show v' = .int y from hs] at hi
      exact Or.inl (Or.inl ⟨_, hp0, he, hi⟩)
    | object k v r o hev ho =>
      exfalso
      cases v with
      | obj r' => cases hno0
      | conv f x =>
        simp only [evaluated] at hev
        cases hc : P.conv f x with
        | make cls kw => rw [hc] at hev; cases hev
        | look key => rw [hc] at hev; cases hev
        | pure g =>
          rw [hc] at hev
          dsimp only at hev
          cases hg : g x with
          | error e => rw [hg] at hev; cases hev
          | ok y =>
            rw [hg] at hev
            cases hev
            exact absurd (hP f x g hc _ hg) (by simp [Val.isObj])
      | _ => cases hev
    | built k f x cls kw r o sg b hf => exact absurd ⟨f, x, cls, kw, rfl, hf⟩ hb0
    | looked k f x key m' r o hf hk hr ho =>
      have hlt := (List.getElem?_eq_some_iff.1 ho).1
      rcases hr with hr | hr
      · have := hcoh m' r o hr ho
        subst this
        cases hi
        exact Or.inr ⟨_, hp0, f, x, key, rfl, hf, hk⟩
      · omega
  · exact Or.inl <| Or.inr ⟨⟨cls, f, by rw [← h.meaning]; exact hm⟩, by rw [← h.id]; exact hi⟩

/-- The object that a parameter builds is named by the file, and is new. -/
theorem built_of_saved {P : Prog} {ij : Codec} {s w : World} {c d : Cmd}
    (h : SavedCommand P ij s w c d) {p} (hp : p ∈ c.params) (hb : CallsClass P p.2) :
    ∃ (r : Nat) (o : Obj), s.heap.length ≤ r ∧ w.heap[r]? = some o ∧ Uses d o.id := by
  obtain ⟨p', hp', hs⟩ : ∃ p' ∈ d.params, SavedParam P ij s w p p' := by
    have hf := h.params
    generalize c.params = cp at hf hp
    generalize d.params = dp at hf
    induction hf with
    | nil => cases hp
    | cons hd _ ih =>
      rcases List.mem_cons.1 hp with rfl | hp
      · exact ⟨_, List.mem_cons_self, hd⟩
      · obtain ⟨p0, h1, h2⟩ := ih hp
        exact ⟨p0, List.mem_cons_of_mem _ h1, h2⟩
  obtain ⟨f, x, cls, kw, hv, hf⟩ := hb
  have hnone : evaluated P p.2 = none := by
    rw [hv]
    simp only [evaluated, hf]
  cases hs with
  | value k v x v' hev => dsimp only at hnone; rw [hnone] at hev; cases hev
  | object k v r o hev => dsimp only at hnone; rw [hnone] at hev; cases hev
  | built k f x cls kw r o sg b hf hs hb hn ho hc hl =>
    exact ⟨r, o, hn, ho, Or.inl ⟨_, hp', endsWithId_append k, rfl⟩⟩
  | looked k f' x' key m r o hf' =>
    cases hv
    rw [hf] at hf'
    cases hf'

/-- An object that is looked up is named by the file. -/
theorem looked_of_saved {P : Prog} {ij : Codec} {w : World} {c d : Cmd}
    (h : SavedCommand P ij w w c d)
    (hcoh : ∀ m r o, dget w.objects m = some r → w.heap[r]? = some o → o.id = m) {p}
    (hp : p ∈ c.params) {m} (hb : LooksUp P p.2 m) : Uses d m := by
  obtain ⟨p', hp', hs⟩ : ∃ p' ∈ d.params, SavedParam P ij w w p p' := by
    have hf := h.params
    generalize c.params = cp at hf hp
    generalize d.params = dp at hf
    induction hf with
    | nil => cases hp
    | cons hd _ ih =>
      rcases List.mem_cons.1 hp with rfl | hp
      · exact ⟨_, List.mem_cons_self, hd⟩
      · obtain ⟨p0, h1, h2⟩ := ih hp
        exact ⟨p0, List.mem_cons_of_mem _ h1, h2⟩
  obtain ⟨f, x, key, hv, hf, hk⟩ := hb
  have hnone : evaluated P p.2 = none := by
    rw [hv]
    simp only [evaluated, hf]
  cases hs with
  | value k v x v' hev => dsimp only at hnone; rw [hnone] at hev; cases hev
  | object k v r o hev => dsimp only at hnone; rw [hnone] at hev; cases hev
  | built k f' x' cls kw r o sg b hf' =>
    cases hv
    rw [hf] at hf'
    cases hf'
  | looked k f' x' key' m' r o hf' hk' hr ho =>
    cases hv
    rw [hf] at hf'
    cases hf'
    rw [hk] at hk'
    cases hk'
    have hlt := (List.getElem?_eq_some_iff.1 ho).1
    rcases hr with hr | hr
    · have := hcoh m r o hr ho
      subst this
      exact Or.inl ⟨_, hp', endsWithId_append k, rfl⟩
    · omega

theorem forall₂_getElem? {α β : Type} {R : α → β → Prop} {l : List α} {l' : List β}
    (h : List.Forall₂ R l l') : (∀ (i : Nat) a, l[i]? = some a → ∃ b, l'[i]? = some b ∧ R a b) ∧
      ∀ (i : Nat) b, l'[i]? = some b → ∃ a, l[i]? = some a ∧ R a b := by
  induction h with
  | nil => exact ⟨by simp, by simp⟩
  | cons hab _ ih =>
    constructor
    · intro i x hx
      cases i with
      | zero => simp only [List.getElem?_cons_zero, Option.some.injEq] at hx ⊢; subst hx; exact ⟨_, rfl, hab⟩
      | succ i => simp only [List.getElem?_cons_succ] at hx ⊢; exact ih.1 i x hx
    · intro i x hx
      cases i with
      | zero => simp only [List.getElem?_cons_zero, Option.some.injEq] at hx ⊢; subst hx; exact ⟨_, rfl, hab⟩
      | succ i => simp only [List.getElem?_cons_succ] at hx ⊢; exact ih.2 i x hx

theorem nobuild_of_defines {P : Prog} {ij : Codec} {w w' : World} {cs ds : List Cmd}
    (hlow : IdsLow w) (hg : Grows 0 w w') (hpre : commandsOf w 0 <+: cs)
    (hall : List.Forall₂ (SavedCommand P ij w w') cs ds) (hdf : DefinesFirst ds) :
    ∀ c ∈ commandsOf w 0, ∀ p ∈ c.params, ¬ CallsClass P p.2 := by
  obtain ⟨h1, h2⟩ := forall₂_getElem? hall
  intro c hc p hp hb
  obtain ⟨i, hi⟩ := List.getElem?_of_mem hc
  obtain ⟨d, hd, hs⟩ := h1 i c (prefix_getElem? hpre hi)
  obtain ⟨r, o, hr, ho, hu⟩ := built_of_saved hs hp hb
  have hlt := (List.getElem?_eq_some_iff.1 hd).1
  have hsplit : ds = ds.take i ++ d :: ds.drop (i + 1) := by
    rw [← (List.getElem?_eq_some_iff.1 hd).2, List.getElem_cons_drop, List.take_append_drop]
  obtain ⟨d0, hd0, hcr⟩ := hdf _ d _ o.id hsplit hu
  obtain ⟨j, hj⟩ := List.getElem?_of_mem hd0
  have hji : j < i := by
    have := (List.getElem?_eq_some_iff.1 hj).1
    simp at this
    omega
  rw [List.getElem?_take_of_lt hji] at hj
  obtain ⟨c0, hc0, hs0⟩ := h2 j d0 hj
  have hil := (List.getElem?_eq_some_iff.1 hi).1
  have hjl : j < (commandsOf w 0).length := by omega
  have hc0' := List.getElem?_eq_getElem hjl
  have := prefix_getElem? hpre hc0'
  rw [hc0] at this
  have hmem : c0 ∈ commandsOf w 0 := by
    rw [Option.some.inj this]
    exact List.getElem_mem hjl
  have hle := hlow.cmds 0 c0 hmem o.id (by rw [← hs0.id]; exact hcr.2)
  have hgt := hg.fresh r o ho hr
  omega

theorem saved_defines_iff {P : Prog} {ij : Codec} {w w' : World} {cs ds : List Cmd}
    (hP : PlainConversions P) (hw : DefInv w) (hlow : IdsLow w)
    (hg : Grows 0 w w') (hpre : commandsOf w 0 <+: cs)
    (hcoh : ∀ m r o, dget w.objects m = some r → w.heap[r]? = some o → o.id = m)
    (hstill : (∀ c ∈ commandsOf w 0, ∀ p ∈ c.params, ¬ CallsClass P p.2) →
      cs = commandsOf w 0 ∧ w' = w)
    (hall : List.Forall₂ (SavedCommand P ij w w') cs ds) :
    DefinesFirst ds ↔ (∀ c ∈ commandsOf w 0, ∀ p ∈ c.params, ¬ CallsClass P p.2) ∧
      LooksBack P (commandsOf w 0) := by
  obtain ⟨h1, h2⟩ := forall₂_getElem? hall
  constructor
  · intro hdf
    have hnb : ∀ c ∈ commandsOf w 0, ∀ p ∈ c.params, ¬ CallsClass P p.2 :=
      nobuild_of_defines hlow hg hpre hall hdf
    refine ⟨hnb, ?_⟩
    obtain ⟨rfl, rfl⟩ := hstill hnb
    intro pre c post heq p hp m hlk
    obtain ⟨d, hd, hs⟩ := h1 pre.length c (by rw [heq]; simp)
    have hu := looked_of_saved hs hcoh hp hlk
    have hsplit : ds = ds.take pre.length ++ d :: ds.drop (pre.length + 1) := by
      rw [← (List.getElem?_eq_some_iff.1 hd).2, List.getElem_cons_drop, List.take_append_drop]
    obtain ⟨d0, hd0, hcr⟩ := hdf _ d _ m hsplit hu
    obtain ⟨j, hj⟩ := List.getElem?_of_mem hd0
    have hji : j < pre.length := by
      have := (List.getElem?_eq_some_iff.1 hj).1
      simp at this
      omega
    rw [List.getElem?_take_of_lt hji] at hj
    obtain ⟨c0, hc0, hs0⟩ := h2 j d0 hj
    rw [heq, List.getElem?_append_left hji] at hc0
    exact ⟨c0, List.mem_of_getElem? hc0, by rw [← hs0.meaning]; exact hcr.1,
      by rw [← hs0.id]; exact hcr.2⟩
  · rintro ⟨hb, hlb⟩
    obtain ⟨rfl, rfl⟩ := hstill hb
    intro pre d post n heq hu
    obtain ⟨c, hc, hs⟩ := h2 pre.length d (by rw [heq]; simp)
    have hmem := List.mem_of_getElem? hc
    have hu' := uses_of_saved hP hs hcoh (hb c hmem) (hw.noObj c hmem) (hw.refs c hmem) hu
    have hsplit : commandsOf w' 0 = (commandsOf w' 0).take pre.length ++ c ::
        (commandsOf w' 0).drop (pre.length + 1) := by
      rw [← (List.getElem?_eq_some_iff.1 hc).2, List.getElem_cons_drop, List.take_append_drop]
    obtain ⟨c0, hc0, hcr⟩ : ∃ c' ∈ (commandsOf w' 0).take pre.length, Creates c' n := by
      rcases hu' with hu' | ⟨p, hp, hlk⟩
      · exact hw.first _ c _ n hsplit hu'
      · exact hlb _ c _ hsplit p hp n hlk
    obtain ⟨j, hj⟩ := List.getElem?_of_mem hc0
    have hjl : j < pre.length := by
      have := (List.getElem?_eq_some_iff.1 hj).1
      simp at this
      omega
    rw [List.getElem?_take_of_lt hjl] at hj
    obtain ⟨d0, h3, h4⟩ := h1 j c0 hj
    rw [heq, List.getElem?_append_left hjl] at h3
    exact ⟨d0, List.mem_of_getElem? h3, by rw [h4.meaning]; exact hcr.1, by rw [h4.id]; exact hcr.2⟩

/-! ### Running commands in a process without objects -/

theorem resolveParams_has {P : Prog} {w : World} : ∀ {ps acc : Dict String Val} {w' out},
    (∀ p ∈ ps, ∀ f v, p.2 ≠ Val.conv f v) → resolveParams P w ps acc = (w', .ok out) →
    ∀ p ∈ ps, endsWithId p.1 = true → ∀ n, idOf p.2 = some n → ∃ r, dget w.objects n = some r := by
  intro ps
  induction ps with
  | nil => intro acc w' out _ _ p hp; cases hp
  | cons e ps ih =>
    obtain ⟨k, v⟩ := e
    intro acc w' out hc h p hp he n hn
    have hrest : ∀ p ∈ ps, ∀ f v, p.2 ≠ Val.conv f v := fun p hp => hc p (List.mem_cons_of_mem _ hp)
    unfold resolveParams at h
    rcases List.mem_cons.1 hp with rfl | hp'
    · rw [if_pos he] at h
      cases v with
      | oid m =>
        cases hn
        dsimp only at h
        cases hd : dget w.objects n with
        | none => rw [hd] at h; cases h
        | some r => exact ⟨r, rfl⟩
      | int m =>
        cases hn
        dsimp only at h
        cases hd : dget w.objects n with
        | none => rw [hd] at h; cases h
        | some r => exact ⟨r, rfl⟩
      | _ => cases hn
    · have hcv := hc _ List.mem_cons_self
      split at h
      · split at h
        · split at h
          · exact ih hrest h p hp' he n hn
          · cases h
        · split at h
          · exact ih hrest h p hp' he n hn
          · cases h
        · cases h
      · split at h
        · split at h
          · exact ih hrest h p hp' he n hn
          · cases h
        · exact absurd rfl (hcv _ _)
        · exact ih hrest h p hp' he n hn

theorem callMethod_objects (P : Prog) (w : World) (r : Nat) (f : String) (args : List Val)
    (kwargs : Dict String Val) (nc : Bool) :
    (callMethod P w r f args kwargs nc).1.objects = w.objects := by
  have hlog : ∀ b, (logCall w r f b).objects = w.objects := by
    intro b
    unfold logCall
    split <;> rfl
  unfold callMethod
  split
  · rfl
  · split
    · rfl
    · split
      · rfl
      · split
        · rfl
        · rw [(recordCall_sameCore P _ r f _ args kwargs nc).objects, hlog]

/-- A command that runs uses registered objects only, and registers at most the one it creates. -/
theorem execute_registry {P : Prog} {w w' : World} {c : Cmd} (hc : NoConv c)
    (h : execute P w c = (w', .ok ())) :
    (∀ n, Uses c n → ∃ r, dget w.objects n = some r) ∧
    ∀ n r, dget w'.objects n = some r → (∃ r, dget w.objects n = some r) ∨ Creates c n := by
  unfold execute at h
  cases hid : dget c.params "id" with
  | none => rw [hid] at h; cases h
  | some idv =>
    rw [hid] at h
    dsimp only at h
    cases hoid : idOf idv with
    | none => rw [hoid] at h; cases h
    | some oid =>
      rw [hoid] at h
      dsimp only at h
      have hcmd : cmdId c = some oid := by simp only [cmdId, hid]; exact hoid
      have hnc : ∀ p ∈ ddel c.params "id", ∀ f v, p.2 ≠ Val.conv f v :=
        fun p hp => hc p (List.mem_filter.1 hp).1
      have hw := resolveParams_noconv P w (ddel c.params "id") [] hnc
      cases hres : resolveParams P w (ddel c.params "id") [] with
      | mk w1 res =>
        rw [hres] at h hw
        dsimp only at hw
        subst hw
        cases res with
        | error e => cases h
        | ok ps =>
          dsimp only at h
          have hargs : ∀ p ∈ c.params, endsWithId p.1 = true → ∀ n, idOf p.2 = some n →
              ∃ r, dget w1.objects n = some r := by
            intro p hp he
            refine resolveParams_has hnc hres p (List.mem_filter.2 ⟨hp, ?_⟩) he
            have : p.1 ≠ "id" := by
              intro h
              rw [h] at he
              exact absurd he (by decide)
            simpa using this
          split at h
          · split at h <;> cases h
          · rename_i hdot
            split at h
            · rename_i hinit
              have hcr : Creates c oid := by
                refine ⟨⟨c.cls, ?_⟩, hcmd⟩
                unfold meaning
                rw [if_neg hdot, if_pos hinit]
              split at h
              · cases h
              · rename_i cls _
                cases hcon : construct P w1 cls [] ps false with
                | mk w2 res2 =>
                  rw [hcon] at h
                  cases res2 with
                  | error e => cases h
                  | ok r =>
                    simp only [Prod.mk.injEq, and_true] at h
                    obtain ⟨hr, ⟨o, hheap, hoi⟩, _, _, hobj⟩ := construct_ok hcon
                    refine ⟨?_, ?_⟩
                    · rintro n (⟨p, hp, he, hn⟩ | ⟨⟨_, _, hm⟩, _⟩)
                      · exact hargs p hp he n hn
                      · exfalso
                        unfold meaning at hm
                        rw [if_neg hdot, if_pos hinit] at hm
                        cases hm
                    · intro n r' hn
                      rw [← h] at hn
                      dsimp only at hn
                      by_cases hno : oid = n
                      · subst hno
                        exact Or.inr hcr
                      · left
                        rw [dget_dset_ne _ _ hno] at hn
                        have ho2 : w2.heap[r]? = some o := by rw [hheap, hr]; simp
                        unfold setId at hn
                        rw [ho2] at hn
                        dsimp only at hn
                        have hne : n ≠ o.id → dget w2.objects n = dget w1.objects n := by
                          intro hne
                          rw [hobj]
                          split
                          · rw [dget_dset_ne]
                            rw [← hoi]
                            exact fun h => hne h.symm
                          · rfl
                        split at hn
                        · rw [dget_dset_ne _ _ hno] at hn
                          by_cases hm : n = o.id
                          · subst hm
                            simp [dget_ddel] at hn
                          · rw [dget_ddel, if_neg (fun h => hm h.symm), hne hm] at hn
                            exact ⟨_, hn⟩
                        · rename_i hhas
                          by_cases hm : n = o.id
                          · subst hm
                            exact absurd (by simp [dhas, hn]) hhas
                          · rw [hne hm] at hn
                            exact ⟨_, hn⟩
            · rename_i hinit
              split at h
              · cases h
              · rename_i r hr
                refine ⟨?_, ?_⟩
                · rintro n (⟨p, hp, he, hn⟩ | ⟨_, hn⟩)
                  · exact hargs p hp he n hn
                  · rw [hcmd] at hn
                    cases hn
                    exact ⟨r, hr⟩
                · intro n r' hn
                  have hobj := callMethod_objects P w1 r c.meth [] ps false
                  rw [h] at hobj
                  dsimp only at hobj
                  rw [hobj] at hn
                  exact Or.inl ⟨_, hn⟩

theorem runCmds_registry {P : Prog} : ∀ {cs : List Cmd} {w w' : World},
    (∀ c ∈ cs, NoConv c) → runCmds P w cs = (w', .ok ()) →
    ∀ pre c post n, cs = pre ++ c :: post → Uses c n →
      (∃ r, dget w.objects n = some r) ∨ ∃ c' ∈ pre, Creates c' n := by
  intro cs
  induction cs with
  | nil => intro w w' _ _ pre c post n h; simp at h
  | cons c0 cs ih =>
    intro w w' hnc h pre c post n heq hu
    unfold runCmds at h
    cases hex : execute P w c0 with
    | mk w1 res =>
      rw [hex] at h
      cases res with
      | error e => cases h
      | ok _ =>
        dsimp only at h
        obtain ⟨h1, h2⟩ := execute_registry (hnc c0 List.mem_cons_self) hex
        cases pre with
        | nil =>
          simp only [List.nil_append, List.cons.injEq] at heq
          rw [← heq.1] at hu
          exact Or.inl (h1 n hu)
        | cons a pre =>
          simp only [List.cons_append, List.cons.injEq] at heq
          obtain ⟨rfl, heq⟩ := heq
          rcases ih (fun c hc => hnc c (List.mem_cons_of_mem _ hc)) h pre c post n heq hu with
            ⟨r, hr⟩ | ⟨c', hc', hcr⟩
          · rcases h2 n r hr with h | h
            · exact Or.inl h
            · exact Or.inr ⟨c0, List.mem_cons_self, h⟩
          · exact Or.inr ⟨c', List.mem_cons_of_mem _ hc', hcr⟩

end Verif
