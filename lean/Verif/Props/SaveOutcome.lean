import Verif.Spec.SaveOutcome
import Verif.Props.Json
/-! # C51: which saves raise, and what they leave -/

namespace Verif

theorem settle_obj_free {P : Prog} {w : World} {p s : String × Val} (h : settle P w p = some s) :
    ∀ r, s.2 ≠ .obj r := by
  intro r hr
  unfold settle at h
  split at h
  · cases hf : found P w p.2 with
    | none => rw [hf] at h; cases h
    | some r' =>
      rw [hf] at h
      simp only [Option.bind_some, Option.map_eq_some_iff] at h
      obtain ⟨o, _, rfl⟩ := h
      cases hr
  · simp only [Option.map_eq_some_iff] at h
    obtain ⟨o, _, rfl⟩ := h
    cases hr
  · rename_i v hno hv
    cases h
    dsimp only at hr
    exact hno r hr

theorem encodeVal_iff {ij : Codec} {w : World} {v : Val} (hv : ∀ r, v ≠ .obj r) :
    (Writable ij v → ∃ j, encodeVal ij w v = .ok j) ∧
    (¬ Writable ij v → encodeVal ij w v = .error .typeError) := by
  cases v with
  | inst c p =>
    simp only [Writable, encodeVal]
    cases ij c p <;> simp
  | obj r => exact absurd rfl (hv r)
  | conv f x => simp [Writable, encodeVal]
  | _ => simp [Writable, encodeVal]

theorem encodeParams_iff {ij : Codec} {w : World} : ∀ {ps : Dict String Val},
    (∀ p ∈ ps, ∀ r, p.2 ≠ .obj r) →
    ((∀ p ∈ ps, Writable ij p.2) → ∃ js, encodeParams ij w ps = .ok js) ∧
    (¬ (∀ p ∈ ps, Writable ij p.2) → encodeParams ij w ps = .error .typeError)
  | [], _ => by simp [encodeParams]
  | (k, v) :: ps, h => by
    obtain ⟨a1, a2⟩ := encodeVal_iff (ij := ij) (w := w) (h (k, v) (by simp))
    obtain ⟨b1, b2⟩ := encodeParams_iff (ij := ij) (w := w) (ps := ps) (fun p hp => h p (by simp [hp]))
    constructor
    · intro hw
      obtain ⟨j, hj⟩ := a1 (hw (k, v) (by simp))
      obtain ⟨js, hjs⟩ := b1 (fun p hp => hw p (by simp [hp]))
      exact ⟨(k, j) :: js, by simp only [encodeParams, hj, hjs]⟩
    · intro hn
      by_cases hv : Writable ij v
      · obtain ⟨j, hj⟩ := a1 hv
        have : ¬ ∀ p ∈ ps, Writable ij p.2 := by
          intro hall
          apply hn
          intro p hp
          rcases List.mem_cons.1 hp with rfl | hp
          · exact hv
          · exact hall p hp
        simp only [encodeParams, hj, b2 this]
      · simp only [encodeParams, a2 hv]

theorem encodeAll_iff {ij : Codec} {w : World} : ∀ {ps : List Payload},
    (∀ q ∈ ps, ∀ p ∈ q.params, ∀ r, p.2 ≠ .obj r) →
    ((∀ q ∈ ps, ∀ p ∈ q.params, Writable ij p.2) →
      ∃ js, encodeAll ij w ps = .ok js ∧ js.length = ps.length) ∧
    (¬ (∀ q ∈ ps, ∀ p ∈ q.params, Writable ij p.2) → encodeAll ij w ps = .error .typeError)
  | [], _ => by simp [encodeAll]
  | q :: ps, h => by
    obtain ⟨a1, a2⟩ := encodeParams_iff (ij := ij) (w := w) (h q (by simp))
    obtain ⟨b1, b2⟩ := encodeAll_iff (ij := ij) (w := w) (ps := ps) (fun p hp => h p (by simp [hp]))
    constructor
    · intro hw
      obtain ⟨j, hj⟩ := a1 (hw q (by simp))
      obtain ⟨js, hjs, hl⟩ := b1 (fun p hp => hw p (by simp [hp]))
      exact ⟨⟨some q.method, q.id, some j⟩ :: js, by simp only [encodeAll, hj, hjs], by simp [hl]⟩
    · intro hn
      by_cases hv : ∀ p ∈ q.params, Writable ij p.2
      · obtain ⟨j, hj⟩ := a1 hv
        have : ¬ ∀ q ∈ ps, ∀ p ∈ q.params, Writable ij p.2 := by
          intro hall
          apply hn
          intro p hp
          rcases List.mem_cons.1 hp with rfl | hp
          · exact hv
          · exact hall p hp
        simp only [encodeAll, hj, b2 this]
      · simp only [encodeAll, a2 hv]

/-- A parameter that cannot be settled stops the loop. -/
theorem settle_none_step {P : Prog} {w : World} {k v ps acc} (h : settle P w (k, v) = none)
    (hb : ∀ f x, v = .conv f x → ∀ cls kw, P.conv f x ≠ .make cls kw) :
    ∃ e, dumpParams P w ((k, v) :: ps) acc = (w, .error e) ∧ Refuses P w v e := by
  unfold dumpParams
  cases v with
  | conv f x =>
    simp only [callIfCallable, callConv]
    cases hc : P.conv f x with
    | make cls kw => exact absurd hc (hb f x rfl cls kw)
    | pure g =>
      dsimp only
      cases hg : g x with
      | error e => exact ⟨e, rfl, .raises hc hg⟩
      | ok y =>
        have hev : evaluated P (.conv f x) = some y := by simp [evaluated, hc, hg, Except.toOption]
        unfold settle at h
        dsimp only at h
        rw [hev] at h
        cases y with
        | obj r =>
          simp only [Option.map_eq_none_iff] at h
          exact ⟨.attributeError, by simp only [h], .dangling (.inl hev) h⟩
        | _ => cases h
    | look key =>
      dsimp only
      cases hk : (key x).bind (dget w.objects) with
      | none => exact ⟨.keyError, rfl, .missing hc hk⟩
      | some r =>
        have hev : evaluated P (.conv f x) = none := by simp [evaluated, hc]
        have hfo : found P w (.conv f x) = some r := by simp [found, hc, hk]
        unfold settle at h
        dsimp only at h
        rw [hev, hfo] at h
        simp only [Option.bind_some, Option.map_eq_none_iff] at h
        exact ⟨.attributeError, by simp only [h], .dangling (.inr hfo) h⟩
  | obj r =>
    have hev : evaluated P (.obj r) = some (.obj r) := rfl
    unfold settle at h
    dsimp only at h
    rw [hev] at h
    simp only [Option.map_eq_none_iff] at h
    exact ⟨.attributeError, by simp only [callIfCallable, h], .dangling (.inl hev) h⟩
  | _ => cases h

theorem dumpParams_refused {P : Prog} {w : World} : ∀ {ps acc : Dict String Val},
    (∀ p ∈ ps, ∀ f x, p.2 = .conv f x → ∀ cls kw, P.conv f x ≠ .make cls kw) →
    ¬ (∀ p ∈ ps, (settle P w p).isSome = true) →
    ∃ e, dumpParams P w ps acc = (w, .error e) ∧ ∃ l p r, ps = l ++ p :: r ∧
      (∀ p' ∈ l, (settle P w p').isSome = true) ∧ Refuses P w p.2 e
  | [], _, _, h => by simp at h
  | (k, v) :: ps, acc, hb, h => by
    cases hs : settle P w (k, v) with
    | none =>
      obtain ⟨e, h1, h2⟩ := settle_none_step (ps := ps) (acc := acc) hs (hb (k, v) (by simp))
      exact ⟨e, h1, [], (k, v), ps, rfl, by simp, h2⟩
    | some s =>
      have hn : ¬ (∀ p ∈ ps, (settle P w p).isSome = true) := by
        intro hall
        apply h
        intro p hp
        rcases List.mem_cons.1 hp with rfl | hp
        · simp [hs]
        · exact hall p hp
      obtain ⟨e, h1, l, p, r, h2, h3, h4⟩ := dumpParams_refused (acc := dset acc s.1 s.2)
        (fun p hp => hb p (by simp [hp])) hn
      refine ⟨e, by rw [settle_step hs, h1], (k, v) :: l, p, r, by simp [h2], ?_, h4⟩
      intro p' hp'
      rcases List.mem_cons.1 hp' with rfl | hp'
      · simp [hs]
      · exact h3 p' hp'

theorem mapM_settle {P : Prog} {w : World} : ∀ {ps : Dict String Val},
    (∀ p ∈ ps, (settle P w p).isSome = true) → ∃ ss, ps.mapM (settle P w) = some ss ∧
      (∀ s ∈ ss, ∃ p ∈ ps, settle P w p = some s) ∧ (∀ p ∈ ps, ∀ s, settle P w p = some s → s ∈ ss)
  | [], _ => ⟨[], rfl, by simp, by simp⟩
  | p :: ps, h => by
    obtain ⟨s, hs⟩ := Option.isSome_iff_exists.1 (h p (by simp))
    obtain ⟨ss, h1, h2, h3⟩ := mapM_settle (ps := ps) (fun q hq => h q (by simp [hq]))
    refine ⟨s :: ss, by simp [List.mapM_cons, hs, h1], ?_, ?_⟩
    · intro t ht
      rcases List.mem_cons.1 ht with rfl | ht
      · exact ⟨p, by simp, hs⟩
      · obtain ⟨q, hq, h4⟩ := h2 t ht
        exact ⟨q, by simp [hq], h4⟩
    · intro q hq t ht
      rcases List.mem_cons.1 hq with rfl | hq
      · rw [hs] at ht
        cases ht
        simp
      · exact List.mem_cons_of_mem _ (h3 q hq t ht)

/-- The loop stops at the first command with a parameter that cannot be settled. -/
theorem dumpLoop_refused {P : Prog} {w : World} {q : Nat} {u : Queue} (hq : w.queues[q]? = some u)
    (hb : BuildsNone P u) : ∀ (cs pre : List Cmd) (fuel : Nat) (acc : List Payload),
    u.commands = pre ++ cs → cs.length < fuel →
    ¬ (∀ c ∈ cs, ∀ p ∈ c.params, (settle P w p).isSome = true) →
    ∃ e, dumpLoop P fuel w q pre.length acc = some (w, .error e) ∧
      ∃ l c r ps p qs, cs = l ++ c :: r ∧ c.params = ps ++ p :: qs ∧
        (∀ c' ∈ l, ∀ p' ∈ c'.params, (settle P w p').isSome = true) ∧
        (∀ p' ∈ ps, (settle P w p').isSome = true) ∧ Refuses P w p.2 e := by
  intro cs
  induction cs with
  | nil => intro pre fuel acc _ _ h; simp at h
  | cons c cs ih =>
    intro pre fuel acc hu hf hn
    obtain ⟨f, rfl⟩ : ∃ f, fuel = f + 1 := ⟨fuel - 1, by omega⟩
    have hget : u.commands[pre.length]? = some c := by simp [hu]
    have hbc : ∀ p ∈ c.params, ∀ f x, p.2 = .conv f x → ∀ cls kw, P.conv f x ≠ .make cls kw :=
      hb c (by simp [hu])
    unfold dumpLoop
    rw [hq]
    dsimp only
    rw [hget]
    dsimp only
    by_cases hall : ∀ p ∈ c.params, (settle P w p).isSome = true
    · obtain ⟨x, hx⟩ : ∃ x, dumpParams P w c.params [] = (w, .ok x) := by
        have key : ∀ (ps acc : Dict String Val), (∀ p ∈ ps, (settle P w p).isSome = true) →
            ∃ x, dumpParams P w ps acc = (w, .ok x) := by
          intro ps
          induction ps with
          | nil => intro acc _; exact ⟨acc, rfl⟩
          | cons p ps ih' =>
            intro acc h
            obtain ⟨s, hs⟩ := Option.isSome_iff_exists.1 (h p (by simp))
            obtain ⟨x, hx⟩ := ih' (dset acc s.1 s.2) (fun p' hp' => h p' (by simp [hp']))
            exact ⟨x, by rw [settle_step hs, hx]⟩
        exact key _ _ hall
      have hn' : ¬ (∀ c ∈ cs, ∀ p ∈ c.params, (settle P w p).isSome = true) := by
        intro h
        apply hn
        intro c' hc'
        rcases List.mem_cons.1 hc' with rfl | hc'
        · exact hall
        · exact h c' hc'
      obtain ⟨e, h1, l, c1, r, ps, p, qs, h2, h3, h4, h5, h6⟩ := ih (pre ++ [c]) f
        (acc ++ [⟨methodString c.cls c.meth, c.cid, x⟩]) (by simp [hu]) (by simp at hf; omega) hn'
      rw [List.length_append, List.length_singleton] at h1
      refine ⟨e, ?_, c :: l, c1, r, ps, p, qs, by simp [h2], h3, ?_, h5, h6⟩
      · simp only [dumpCommand, hx]
        exact h1
      · intro c' hc'
        rcases List.mem_cons.1 hc' with rfl | hc'
        · exact hall
        · exact h4 c' hc'
    · obtain ⟨e, h1, l, p, r, h2, h3, h4⟩ := dumpParams_refused (acc := []) hbc hall
      refine ⟨e, ?_, [], c, cs, l, p, r, rfl, h2, by simp, h3, h4⟩
      simp only [dumpCommand, h1]

/-- **C51.** What saving a queue does when no delayed conversion builds an object: if a parameter cannot
be settled, the first such parameter raises and the file is kept; if all can but a value cannot be written,
`TypeError` is raised and the file is lost; otherwise the file gets one entry for each command. The
process is unchanged in every case. -/
theorem save_outcome (P : Prog) (ij : Codec) (w : World) (q : Nat) (u : Queue) (arg : Option Nat)
    (fuel : Nat) (old : File) (hq : w.queues[q]? = some u) (hd : Designates w q arg)
    (hb : BuildsNone P u) (hk : NamesApart P w u) (hf : u.commands.length < fuel) :
    (¬ AllSettle P w u → ∃ e, saveQueue P ij fuel w arg old = some (w, old, .error e) ∧
      FirstRefused P w u e) ∧
    (AllSettle P w u → ¬ AllWritable P ij w u →
      saveQueue P ij fuel w arg old = some (w, .invalid, .error .typeError)) ∧
    (AllSettle P w u → AllWritable P ij w u →
      ∃ cmds, saveQueue P ij fuel w arg old = some (w, .doc cmds, .ok ()) ∧
        cmds.length = u.commands.length) := by
  have hpq := pickQueue_designates hd
  refine ⟨fun hn => ?_, ?_⟩
  · obtain ⟨e, h1, l, c, r, ps, p, qs, h2, h3, h4, h5, h6⟩ := dumpLoop_refused hq hb u.commands [] fuel []
      rfl hf hn
    refine ⟨e, ?_, l, c, r, ps, p, qs, h2, h3, h4, h5, h6⟩
    simp only [saveQueue, hpq]
    simp only [List.length_nil] at h1
    rw [h1]
  · rw [← imp_and]
    intro hs
    let st : Cmd → Cmd := fun c => { c with params := (c.params.mapM (settle P w)).getD [] }
    have hst : ∀ c ∈ u.commands, Settles P w c (st c) := by
      intro c hc
      obtain ⟨ss, h1, _⟩ := mapM_settle (hs c hc)
      exact ⟨rfl, rfl, rfl, by simp [st, h1]⟩
    have hnd : ∀ c ∈ u.commands, (dkeys (st c).params).Nodup := by
      intro c hc
      exact hk c hc _ (hst c hc).2.2.2
    have hloop := dumpLoop_settle st hq hst hnd u.commands.length 0 fuel [] (by omega) hf
    simp only [List.drop_zero, List.nil_append] at hloop
    have hmem : ∀ c ∈ u.commands, (∀ s ∈ (st c).params, ∃ p ∈ c.params, settle P w p = some s) ∧
        (∀ p ∈ c.params, ∀ s, settle P w p = some s → s ∈ (st c).params) := by
      intro c hc
      obtain ⟨ss, h1, h2, h3⟩ := mapM_settle (hs c hc)
      have : (st c).params = ss := by simp [st, h1]
      rw [this]
      exact ⟨h2, h3⟩
    obtain ⟨pays, hpays⟩ : ∃ pays, pays =
        u.commands.map (fun c => (⟨methodString c.cls c.meth, c.cid, (st c).params⟩ : Payload)) := ⟨_, rfl⟩
    rw [← hpays] at hloop
    obtain ⟨e1, e2⟩ := encodeAll_iff (ij := ij) (w := w) (ps := pays) (by
      intro q hq p hp
      obtain ⟨c, hc, rfl⟩ := List.mem_map.1 (hpays ▸ hq)
      obtain ⟨p0, _, h0⟩ := (hmem c hc).1 p hp
      exact settle_obj_free h0)
    have hiff : (∀ q ∈ pays, ∀ p ∈ q.params, Writable ij p.2) ↔ AllWritable P ij w u := by
      constructor
      · intro h c hc p hp s hs'
        exact h _ (hpays ▸ List.mem_map.2 ⟨c, hc, rfl⟩) s ((hmem c hc).2 p hp s hs')
      · intro h q hq p hp
        obtain ⟨c, hc, rfl⟩ := List.mem_map.1 (hpays ▸ hq)
        obtain ⟨p0, hp0, h0⟩ := (hmem c hc).1 p hp
        exact h c hc p0 hp0 p h0
    constructor
    · intro hw
      have := e2 (fun h => hw (hiff.1 h))
      simp only [saveQueue, hpq]
      rw [hloop]
      dsimp only
      rw [this]
    · intro hw
      obtain ⟨js, h1, h2⟩ := e1 (hiff.2 hw)
      refine ⟨js, ?_, by rw [h2, hpays, List.length_map]⟩
      simp only [saveQueue, hpq]
      rw [hloop]
      dsimp only
      rw [h1]

/-- **C51.** A save destroys the file just when it is reached: all conversions succeed and a value cannot
be written. -/
theorem save_destroys_iff (P : Prog) (ij : Codec) (w : World) (q : Nat) (u : Queue) (arg : Option Nat)
    (fuel : Nat) (cmds : List JCmd) (hq : w.queues[q]? = some u) (hd : Designates w q arg)
    (hb : BuildsNone P u) (hk : NamesApart P w u) (hf : u.commands.length < fuel) :
    (∃ w' f e, saveQueue P ij fuel w arg (.doc cmds) = some (w', f, .error e) ∧ f ≠ .doc cmds) ↔
      AllSettle P w u ∧ ¬ AllWritable P ij w u := by
  obtain ⟨h1, h2, h3⟩ := save_outcome P ij w q u arg fuel (.doc cmds) hq hd hb hk hf
  constructor
  · rintro ⟨w', f, e, h, hne⟩
    by_cases hs : AllSettle P w u
    · refine ⟨hs, fun hw => ?_⟩
      obtain ⟨l, h4, _⟩ := h3 hs hw
      rw [h4] at h
      cases h
    · obtain ⟨e', h4, _⟩ := h1 hs
      rw [h4] at h
      cases h
      exact absurd rfl hne
  · rintro ⟨hs, hw⟩
    exact ⟨w, .invalid, .typeError, h2 hs hw, by simp⟩

/-- **C51, C11.** Saving succeeds just when every parameter can be settled and written. -/
theorem save_succeeds_iff (P : Prog) (ij : Codec) (w : World) (q : Nat) (u : Queue) (arg : Option Nat)
    (fuel : Nat) (old : File) (hq : w.queues[q]? = some u) (hd : Designates w q arg)
    (hb : BuildsNone P u) (hk : NamesApart P w u) (hf : u.commands.length < fuel) :
    (∃ w' f, saveQueue P ij fuel w arg old = some (w', f, .ok ())) ↔
      AllSettle P w u ∧ AllWritable P ij w u := by
  obtain ⟨h1, h2, h3⟩ := save_outcome P ij w q u arg fuel old hq hd hb hk hf
  constructor
  · rintro ⟨w', f, h⟩
    by_cases hs : AllSettle P w u
    · refine ⟨hs, ?_⟩
      refine Classical.byContradiction fun hw => ?_
      rw [h2 hs hw] at h
      cases h
    · obtain ⟨e', h4, _⟩ := h1 hs
      rw [h4] at h
      cases h
  · rintro ⟨hs, hw⟩
    obtain ⟨l, h4, _⟩ := h3 hs hw
    exact ⟨w, .doc l, h4⟩

/-! Concrete cases: a converted number followed by a value without encoding (the file is lost), and by a
conversion that raises (the file is kept). -/

/-- A queue with one command, whose last parameter is `v`. -/
def lastParam (v : Val) : Queue :=
  ⟨"q", false, [⟨1, "Foo", "set_value", [("id", .oid 1), ("value", .conv 0 (.float 3)), ("unit", v)]⟩]⟩

/-- The process with this queue. -/
def lastParamWorld (v : Val) : World := { World.fresh with queues := [lastParam v], active := some 0 }

example (cmds : List JCmd) : saveQueue demo (fun _ _ => none) 9 (lastParamWorld (.inst "Enum" 0)) none (.doc cmds) =
    some (lastParamWorld (.inst "Enum" 0), .invalid, .error .typeError) := by
  refine (save_outcome demo (fun _ _ => none) _ 0 (lastParam (.inst "Enum" 0)) none 9 (.doc cmds) rfl
    (.inr ⟨rfl, .inl rfl⟩) ?_ ?_ (by decide)).2.1 ?_ ?_
  · intro c hc p hp f x hx cls kw
    simp only [lastParam, List.mem_singleton] at hc
    subst hc
    simp only [List.mem_cons, List.not_mem_nil, or_false] at hp
    rcases hp with rfl | rfl | rfl <;> cases hx
    simp [demo]
  · intro c hc ss hss
    simp only [lastParam, List.mem_singleton] at hc
    subst hc
    have : ss = [("id", .oid 1), ("value", .int 3), ("unit", .inst "Enum" 0)] := by
      rw [← Option.some.injEq, ← hss]
      decide
    subst this
    decide
  · intro c hc p hp
    simp only [lastParam, List.mem_singleton] at hc
    subst hc
    simp only [List.mem_cons, List.not_mem_nil, or_false] at hp
    rcases hp with rfl | rfl | rfl <;> decide
  · intro h
    have := h _ (List.mem_singleton.2 rfl) ("unit", .inst "Enum" 0) (by simp) ("unit", .inst "Enum" 0) rfl
    simp [Writable] at this

example (cmds : List JCmd) : saveQueue demo (fun _ _ => none) 9 (lastParamWorld (.conv 0 (.str "x"))) none (.doc cmds) =
    some (lastParamWorld (.conv 0 (.str "x")), .doc cmds, .error .typeError) := rfl

example : Refuses demo (lastParamWorld .none) (.conv 0 (.str "x")) .typeError :=
  .raises (g := fun v => match v with | .float n => .ok (.int n) | _ => .error .typeError) rfl rfl

end Verif
