import Verif.Spec.Json
import Verif.Lemmas.Py
import Verif.Lemmas.Queues
import Verif.Lemmas.Base64

namespace Verif

/-! ### Names -/

theorem hasChar_iff (c : Char) (s : String) : hasChar c s = true ↔ c ∈ s.toList := by
  simp [hasChar]

theorem splitMethod_noSlash {s : String} (h : '/' ∉ s.toList) :
    splitMethod s = (s, "__init__") := by
  unfold splitMethod pySplit
  rw [splitChars_of_not_mem h]
  rfl

theorem splitMethod_slash {c m : String} (hc : '/' ∉ c.toList) (hm : '/' ∉ m.toList) :
    splitMethod (c ++ "/" ++ m) = (c, m) := by
  unfold splitMethod pySplit
  have : (c ++ "/" ++ m).toList = c.toList ++ '/' :: m.toList := by
    simp [String.toList_append]
  rw [this, splitChars_append hc, splitChars_of_not_mem hm]
  simp

/-- Name transport of save and load. -/
def jsonName (p : String × String) : String × String := splitMethod (methodString p.1 p.2)

theorem jsonName_eq {cls meth : String} (h : NameOK cls meth) :
    jsonName (cls, meth) = if hasChar '.' meth then (meth, "__init__") else (cls, meth) := by
  obtain ⟨h1, h2, h3⟩ := h
  unfold jsonName methodString
  rw [if_neg h3]
  split
  · exact splitMethod_noSlash h2
  · exact splitMethod_slash h1 h2

theorem meaning_jsonName {cls meth : String} (h : NameOK cls meth) :
    meaning (jsonName (cls, meth)).1 (jsonName (cls, meth)).2 = meaning cls meth := by
  rw [jsonName_eq h]
  by_cases hd : hasChar '.' meth = true
  · simp only [hd, if_true, meaning]
    rw [if_neg (by decide)]
  · simp only [hd, if_false, Bool.false_eq_true]

/-! ### Values -/

theorem encodeVal_ok {ij : Codec} {w : World} {v : Val} (h : Encodable ij v) :
    ∃ j, encodeVal ij w v = .ok j ∧ SameValue ij v (decodeVal j) := by
  cases v with
  | inst c p =>
    obtain ⟨j, hj⟩ := Option.isSome_iff_exists.1 (show (ij c p).isSome = true from h)
    exact ⟨j, by simp [encodeVal, hj], j, hj, rfl⟩
  | bytes b =>
    refine ⟨_, rfl, String.ofList (b64encode b), rfl, ?_⟩
    rw [String.toList_ofList]
    exact b64_round_trip b h
  | obj r => exact absurd h id
  | conv f x => exact absurd h id
  | _ => exact ⟨_, rfl, rfl⟩

theorem encodeParams_ok {ij : Codec} {w : World} : ∀ {ps : Dict String Val},
    (∀ p ∈ ps, Encodable ij p.2) →
    ∃ js, encodeParams ij w ps = .ok js ∧ dkeys js = dkeys ps ∧
      ∀ k v, dget ps k = some v → ∃ j, dget js k = some j ∧ encodeVal ij w v = .ok j
  | [], _ => ⟨[], rfl, rfl, by simp [dget]⟩
  | (k, v) :: ps, h => by
    obtain ⟨j, h1, _⟩ := encodeVal_ok (w := w) (h (k, v) (by simp))
    obtain ⟨js, h2, h3, h4⟩ := encodeParams_ok (w := w) (ps := ps)
      (fun p hp => h p (by simp [hp]))
    dsimp only at h1
    refine ⟨(k, j) :: js, by simp [encodeParams, h1, h2], by simpa [dkeys] using h3, ?_⟩
    intro k' v' hg
    simp only [dget] at hg ⊢
    split at hg
    · rename_i hk
      cases hg
      exact ⟨j, by simp [hk], h1⟩
    · rename_i hk
      rw [if_neg hk]
      exact h4 k' v' hg

theorem settle_step {P : Prog} {w : World} {k v ps acc e} (h : settle P w (k, v) = some e) :
    dumpParams P w ((k, v) :: ps) acc = dumpParams P w ps (dset acc e.1 e.2) := by
  unfold settle at h
  have hstep : ∀ x, evaluated P v = some x →
      callIfCallable P w v = (w, .ok x) := by
    intro x hx
    cases v with
    | conv f y =>
      simp only [evaluated] at hx
      simp only [callIfCallable, callConv]
      cases hc : P.conv f y with
      | make c kw => rw [hc] at hx; simp at hx
      | pure g =>
        rw [hc] at hx
        dsimp only at hx ⊢
        cases hg : g y with
        | error e => rw [hg] at hx; simp [Except.toOption] at hx
        | ok z => rw [hg] at hx; simp [Except.toOption] at hx; rw [hx]
      | look key => rw [hc] at hx; simp at hx
    | _ => simp only [evaluated, Option.some.injEq] at hx; rw [← hx]; rfl
  cases hv : evaluated P v with
  | none =>
    dsimp only at h
    rw [hv] at h
    dsimp only at h
    cases hf : found P w v with
    | none => rw [hf] at h; cases h
    | some r =>
      rw [hf] at h
      simp only [Option.bind_some] at h
      cases ho : w.heap[r]? with
      | none => rw [ho] at h; cases h
      | some o =>
        rw [ho] at h
        cases h
        cases v with
        | conv f x =>
          conv => lhs; unfold dumpParams
          simp only [callIfCallable, callConv]
          simp only [found] at hf
          cases hc : P.conv f x with
          | look key => rw [hc] at hf; dsimp only at hf ⊢; rw [hf]; simp only [ho]
          | _ => rw [hc] at hf; cases hf
        | _ => cases hf
  | some x =>
    dsimp only at h
    rw [hv] at h
    conv => lhs; unfold dumpParams
    rw [hstep x hv]
    cases x with
    | obj r =>
      dsimp only at h ⊢
      cases ho : w.heap[r]? with
      | none => rw [ho] at h; simp at h
      | some o => rw [ho] at h; cases h; rfl
    | _ => cases h; rfl

theorem dumpParams_settle {P : Prog} {w : World} : ∀ {ps acc ss : Dict String Val},
    ps.mapM (settle P w) = some ss → (dkeys (acc ++ ss)).Nodup →
    dumpParams P w ps acc = (w, .ok (acc ++ ss))
  | [], acc, ss, h, _ => by
    simp at h; subst h; simp [dumpParams]
  | (k, v) :: ps, acc, ss, h, hn => by
    rw [List.mapM_cons] at h
    cases he : settle P w (k, v) with
    | none => rw [he] at h; simp at h
    | some e =>
      cases hr : ps.mapM (settle P w) with
      | none => rw [he, hr] at h; simp at h
      | some ss' =>
        rw [he, hr] at h
        simp at h
        subst h
        have hk : dget acc e.1 = none := by
          cases hg : dget acc e.1 with
          | none => rfl
          | some x =>
            have hm := (mem_dkeys acc e.1).2 ⟨x, hg⟩
            simp only [dkeys, List.map_append, List.map_cons] at hn
            have := (List.nodup_append.1 hn).2.2 e.1 hm e.1 (by simp)
            exact absurd rfl this
        rw [settle_step he, dset_of_not_mem acc e.1 e.2 hk,
          dumpParams_settle hr (by simpa using hn)]
        simp

/-! ### Dump -/

theorem dumpLoop_settle {P : Prog} {w : World} {q : Nat} {u : Queue} (st : Cmd → Cmd)
    (hq : w.queues[q]? = some u) (hs : ∀ c ∈ u.commands, Settles P w c (st c))
    (hk : ∀ c ∈ u.commands, (dkeys (st c).params).Nodup) :
    ∀ (n i fuel : Nat) (acc : List Payload), u.commands.length = i + n → n < fuel →
    dumpLoop P fuel w q i acc = some (w, .ok (acc ++ (u.commands.drop i).map
      (fun c => ⟨methodString c.cls c.meth, c.cid, (st c).params⟩))) := by
  intro n
  induction n with
  | zero =>
    intro i fuel acc hl hf
    obtain ⟨f, rfl⟩ : ∃ f, fuel = f + 1 := ⟨fuel - 1, by omega⟩
    unfold dumpLoop
    rw [hq]
    dsimp only
    rw [List.getElem?_eq_none (by omega), List.drop_eq_nil_of_le (by omega)]
    simp
  | succ n ih =>
    intro i fuel acc hl hf
    obtain ⟨f, rfl⟩ : ∃ f, fuel = f + 1 := ⟨fuel - 1, by omega⟩
    have hi : i < u.commands.length := by omega
    unfold dumpLoop
    rw [hq]
    dsimp only
    rw [List.getElem?_eq_getElem hi]
    have hd : dumpCommand P w u.commands[i] = (w, .ok ⟨methodString u.commands[i].cls
        u.commands[i].meth, u.commands[i].cid, (st u.commands[i]).params⟩) := by
      unfold dumpCommand
      rw [dumpParams_settle (hs _ (List.getElem_mem hi)).2.2.2
        (by simpa using hk _ (List.getElem_mem hi))]
      rfl
    simp only [hd]
    rw [ih (i + 1) f _ (by omega) (by omega)]
    rw [← List.getElem_cons_drop (h := hi)]
    simp only [List.map_cons, List.append_assoc, List.singleton_append]

/-- The encoding of a command. -/
def jsonCmd (ij : Codec) (w : World) (c : Cmd) : JCmd :=
  ⟨some (methodString c.cls c.meth), c.cid,
    some ((encodeParams ij w c.params).toOption.getD [])⟩

theorem encodeAll_plain {ij : Codec} {w : World} (st : Cmd → Cmd) : ∀ {cs : List Cmd},
    (∀ c ∈ cs, PlainCmd ij (st c)) →
    (∀ c ∈ cs, (st c).cid = c.cid ∧ (st c).cls = c.cls ∧ (st c).meth = c.meth) →
    encodeAll ij w (cs.map (fun c => ⟨methodString c.cls c.meth, c.cid, (st c).params⟩)) =
      .ok (cs.map (fun c => jsonCmd ij w (st c)))
  | [], _, _ => rfl
  | c :: cs, h, h' => by
    obtain ⟨js, h1, _⟩ := encodeParams_ok (w := w) (h c (by simp)).vals
    obtain ⟨e1, e2, e3⟩ := h' c (by simp)
    have ih := encodeAll_plain (w := w) st (cs := cs) (fun x hx => h x (by simp [hx]))
      (fun x hx => h' x (by simp [hx]))
    simp only [List.map_cons, encodeAll, h1, ih, jsonCmd, e1, e2, e3]
    rfl

theorem pickQueue_designates {w : World} {q : Nat} {arg : Option Nat} (h : Designates w q arg) :
    pickQueue w arg = (w, q) := by
  rcases h with ⟨rfl, hne⟩ | ⟨ha, rfl | rfl⟩
  · unfold pickQueue
    dsimp only
    unfold commandsOf at hne
    cases hq : w.queues[q]? with
    | none => rw [hq] at hne; simp at hne
    | some u =>
      rw [hq] at hne
      dsimp only at hne ⊢
      rw [if_neg (by simpa using hne)]
  · unfold pickQueue
    exact getQueue_none_of_active ha
  · unfold pickQueue
    dsimp only
    cases hq : w.queues[q]? with
    | none => exact getQueue_none_of_active ha
    | some u =>
      dsimp only
      split
      · exact getQueue_none_of_active ha
      · rfl

theorem dumpQueue_settle {P : Prog} {ij : Codec} {w : World} {q : Nat} {u : Queue} {arg fuel}
    (st : Cmd → Cmd) (hq : w.queues[q]? = some u) (hd : Designates w q arg)
    (hs : ∀ c ∈ u.commands, Settles P w c (st c))
    (hp : ∀ c ∈ u.commands, PlainCmd ij (st c)) (hf : u.commands.length < fuel) :
    dumpQueue P ij fuel w arg = some (w, .ok (u.commands.map (fun c => jsonCmd ij w (st c)))) := by
  unfold dumpQueue
  rw [pickQueue_designates hd]
  dsimp only
  rw [dumpLoop_settle st hq hs (fun c hc => (hp c hc).keys) u.commands.length 0 fuel []
    (by omega) hf]
  simp only [List.drop_zero, List.nil_append]
  rw [encodeAll_plain st hp (fun c hc => ⟨(hs c hc).1, (hs c hc).2.1, (hs c hc).2.2.1⟩)]

theorem saveQueue_settle {P : Prog} {ij : Codec} {w : World} {q : Nat} {u : Queue} {arg fuel}
    (st : Cmd → Cmd) (old : File) (hq : w.queues[q]? = some u) (hd : Designates w q arg)
    (hs : ∀ c ∈ u.commands, Settles P w c (st c))
    (hp : ∀ c ∈ u.commands, PlainCmd ij (st c)) (hf : u.commands.length < fuel) :
    saveQueue P ij fuel w arg old =
      some (w, .doc (u.commands.map (fun c => jsonCmd ij w (st c))), .ok ()) := by
  unfold saveQueue
  rw [pickQueue_designates hd]
  dsimp only
  rw [dumpLoop_settle st hq hs (fun c hc => (hp c hc).keys) u.commands.length 0 fuel []
    (by omega) hf]
  simp only [List.drop_zero, List.nil_append]
  rw [encodeAll_plain st hp (fun c hc => ⟨(hs c hc).1, (hs c hc).2.1, (hs c hc).2.2.1⟩)]

/-! ### Load -/

/-- The command read from an entry. -/
def loadedCmd (cid : Nat) (j : JCmd) : Cmd :=
  ⟨cid, (splitMethod (j.method.getD "")).1, (splitMethod (j.method.getD "")).2,
    (j.params.getD []).map (fun p => (p.1, decodeVal p.2))⟩

/-- Entries that `load` accepts. -/
def JCmd.Good (j : JCmd) : Prop :=
  ∃ m ps, j.method = some m ∧ j.params = some ps ∧ dhas ps "id" = true

/-- Everything but the queues' contents and the command counter. -/
structure SameCoreNQ (w w' : World) : Prop where
  heap : w'.heap = w.heap
  objects : w'.objects = w.objects
  oidCounter : w'.oidCounter = w.oidCounter
  objRecord : w'.objRecord = w.objRecord
  recording : w'.recording = w.recording
  converters : w'.converters = w.converters
  active : w'.active = w.active
  instances : w'.instances = w.instances

theorem SameCoreNQ.refl (w : World) : SameCoreNQ w w := ⟨rfl, rfl, rfl, rfl, rfl, rfl, rfl, rfl⟩

theorem SameCoreNQ.trans {a b c : World} (h : SameCoreNQ a b) (h' : SameCoreNQ b c) :
    SameCoreNQ a c :=
  ⟨h'.heap.trans h.heap, h'.objects.trans h.objects, h'.oidCounter.trans h.oidCounter,
   h'.objRecord.trans h.objRecord, h'.recording.trans h.recording,
   h'.converters.trans h.converters, h'.active.trans h.active, h'.instances.trans h.instances⟩

theorem stripObjs_decode (w : World) (ps : Dict String JVal) :
    stripObjs w (ps.map (fun p => (p.1, decodeVal p.2))) =
      ps.map (fun p => (p.1, decodeVal p.2)) := by
  unfold stripObjs
  rw [List.map_map]
  apply List.map_congr_left
  intro p _
  obtain ⟨k, j⟩ := p
  cases j <;> rfl

theorem loadLoop_good {q : Nat} : ∀ {js : List JCmd} {w : World} {u : Queue},
    (∀ j ∈ js, j.Good) → w.queues[q]? = some u → u.readonly = false →
    ∃ w', loadLoop w q js = (w', .ok ()) ∧
      w'.queues[q]? = some (Queue.mk u.name u.readonly
        (u.commands ++ js.mapIdx (fun i j => loadedCmd (w.cidCounter + 1 + i) j))) ∧
      (∀ q', q' ≠ q → w'.queues[q']? = w.queues[q']?) ∧
      w'.cidCounter = w.cidCounter + js.length ∧ SameCoreNQ w w'
  | [], w, u, _, hq, _ => ⟨w, rfl, by simp [hq], fun _ _ => rfl, rfl, SameCoreNQ.refl w⟩
  | j :: js, w, u, hg, hq, hr => by
    obtain ⟨m, ps, h1, h2, h3⟩ := hg j (by simp)
    generalize hw1 : pushCmd w q (splitMethod m).1 (splitMethod m).2
      (ps.map (fun p => (p.1, decodeVal p.2))) = w1
    have hq1 : w1.queues[q]? = some (Queue.mk u.name u.readonly (u.commands ++
        [loadedCmd (w.cidCounter + 1) j])) := by
      rw [← hw1]
      simp only [pushCmd, setQueue, List.getElem?_modify, if_true, hq, Option.map_some,
        Queue.push, hr, Bool.false_eq_true, if_false, stripObjs_decode]
      simp [loadedCmd, h1, h2, hr]
    have hne1 : ∀ q', q' ≠ q → w1.queues[q']? = w.queues[q']? := by
      intro q' hne
      rw [← hw1]
      simp only [pushCmd, setQueue, List.getElem?_modify, if_neg (Ne.symm hne)]
      simp
    have hc1 : w1.cidCounter = w.cidCounter + 1 := by rw [← hw1]; rfl
    have hs1 : SameCoreNQ w w1 := by rw [← hw1]; exact ⟨rfl, rfl, rfl, rfl, rfl, rfl, rfl, rfl⟩
    obtain ⟨w', a1, a2, a3, a4, a5⟩ := loadLoop_good (js := js) (w := w1)
      (fun x hx => hg x (by simp [hx])) hq1 hr
    refine ⟨w', ?_, ?_, ?_, ?_, hs1.trans a5⟩
    · unfold loadLoop
      simp only [h1, h2, h3, if_true, hw1, a1]
    · rw [a2, hc1]
      simp only [List.mapIdx_cons, List.append_assoc, List.singleton_append, Nat.add_zero]
      congr 4
      apply List.ext_getElem?
      intro i
      simp only [List.getElem?_mapIdx]
      congr 1
      funext x
      congr 1
      omega
    · intro q' hne; rw [a3 q' hne, hne1 q' hne]
    · rw [a4, hc1, List.length_cons]; omega


/-- Loading only touches its queue and the command counter, even when it fails. -/
theorem loadLoop_frame (q : Nat) : ∀ (js : List JCmd) (w : World),
    (∀ q', q' ≠ q → (loadLoop w q js).1.queues[q']? = w.queues[q']?) ∧
    SameCoreNQ w (loadLoop w q js).1
  | [], w => ⟨fun _ _ => rfl, SameCoreNQ.refl w⟩
  | j :: js, w => by
    unfold loadLoop
    split
    · exact ⟨fun _ _ => rfl, SameCoreNQ.refl w⟩
    · split
      · exact ⟨fun _ _ => rfl, SameCoreNQ.refl w⟩
      · split
        · rename_i m _ _ ps _ _
          generalize hw1 : pushCmd w q (splitMethod m).1 (splitMethod m).2
            (ps.map (fun p => (p.1, decodeVal p.2))) = w1
          have hs1 : SameCoreNQ w w1 := by
            rw [← hw1]; exact ⟨rfl, rfl, rfl, rfl, rfl, rfl, rfl, rfl⟩
          obtain ⟨h1, h2⟩ := loadLoop_frame q js w1
          refine ⟨?_, hs1.trans h2⟩
          intro q' hne
          rw [h1 q' hne, ← hw1]
          simp only [pushCmd, setQueue, List.getElem?_modify, if_neg (Ne.symm hne)]
          simp
        · exact ⟨fun _ _ => rfl, ⟨rfl, rfl, rfl, rfl, rfl, rfl, rfl, rfl⟩⟩

/-! ### gsp.load -/

/-- The state of `gsp.load` before the format is looked at. -/
def gspLoadStart (w : World) : World :=
  emptyQueue (getQueue { w with objects := [] } none).1 (getQueue { w with objects := [] } none).2

structure LoadStart (w w' : World) : Prop where
  heap : w'.heap = w.heap
  objects : w'.objects = []
  oidCounter : w'.oidCounter = w.oidCounter
  recording : w'.recording = w.recording
  converters : w'.converters = w.converters
  active : w'.active = some (activeIx w)

theorem gspLoad_prefix (w : World) : LoadStart w (gspLoadStart w) ∧
    commandsOf (gspLoadStart w) (activeIx w) = [] := by
  obtain ⟨heap, objects, oidc, objr, cidc, recd, queues, insts, active, convs⟩ := w
  cases active with
  | some q =>
    refine ⟨⟨rfl, rfl, rfl, rfl, rfl, rfl⟩, ?_⟩
    show (match ((queues.modify q (fun u => { u with commands := [] })))[q]? with | some u => u.commands | none => []) = []
    rw [List.getElem?_modify]
    cases queues[q]? <;> simp
  | none =>
    refine ⟨⟨rfl, rfl, rfl, rfl, rfl, rfl⟩, ?_⟩
    show (match (((queues ++ [Queue.mk "default" false []]).modify queues.length
      (fun u => { u with commands := [] })))[queues.length]? with | some u => u.commands | none => []) = []
    rw [List.getElem?_modify]
    simp

theorem gspLoadStart_queues (w : World) (q : Nat) (hq : q ≠ activeIx w) :
    commandsOf (gspLoadStart w) q = commandsOf w q := by
  obtain ⟨heap, objects, oidc, objr, cidc, recd, queues, insts, active, convs⟩ := w
  cases active with
  | some a =>
    have hq' : a ≠ q := fun h => hq h.symm
    show (match ((queues.modify a (fun u => { u with commands := [] })))[q]? with | some u => u.commands | none => []) = (match queues[q]? with | some u => u.commands | none => [])
    simp only [List.getElem?_modify, if_neg hq']
    simp
  | none =>
    have hq' : queues.length ≠ q := fun h => hq h.symm
    show (match (((queues ++ [Queue.mk "default" false []]).modify queues.length
      (fun u => { u with commands := [] })))[q]? with | some u => u.commands | none => []) = (match queues[q]? with | some u => u.commands | none => [])
    simp only [List.getElem?_modify, if_neg hq']
    rcases Nat.lt_or_gt_of_ne hq' with h | h
    · rw [List.getElem?_eq_none (by simp; omega), List.getElem?_eq_none (by omega)]; rfl
    · rw [List.getElem?_append_left h]; simp

theorem gspLoad_frame (w : World) (name : String)
    (format : Option String) (f : File) :
    (gspLoad w name format f).1.heap = w.heap ∧
    (gspLoad w name format f).1.oidCounter = w.oidCounter ∧
    (gspLoad w name format f).1.converters = w.converters ∧
    (gspLoad w name format f).1.recording = w.recording ∧
    ∀ q, q ≠ activeIx w → commandsOf (gspLoad w name format f).1 q = commandsOf w q := by
  obtain ⟨h1, _⟩ := gspLoad_prefix w
  have h3 := gspLoadStart_queues w
  have base : (gspLoadStart w).heap = w.heap ∧ (gspLoadStart w).oidCounter = w.oidCounter ∧
      (gspLoadStart w).converters = w.converters ∧ (gspLoadStart w).recording = w.recording ∧
      ∀ q, q ≠ activeIx w → commandsOf (gspLoadStart w) q = commandsOf w q :=
    ⟨h1.heap, h1.oidCounter, h1.converters, h1.recording,
      h3⟩
  have hdef : gspLoad w name format f = if formatOf format name = "json" then
      loadQueue (gspLoadStart w) f none else (gspLoadStart w, .error .valueError) := rfl
  rw [hdef]
  split
  · cases f with
    | doc cmds =>
      unfold loadQueue
      dsimp only
      rw [pickQueue_designates (q := activeIx w) (Or.inr ⟨h1.active, Or.inl rfl⟩)]
      dsimp only
      obtain ⟨a1, a2⟩ := loadLoop_frame (activeIx w) cmds (emptyQueue (gspLoadStart w) (activeIx w))
      refine ⟨a2.heap.trans h1.heap, a2.oidCounter.trans h1.oidCounter,
        a2.converters.trans h1.converters, a2.recording.trans h1.recording, ?_⟩
      intro q hq
      rw [← h3 q hq]
      simp only [commandsOf, a1 q hq]
      simp only [emptyQueue, setQueue, List.getElem?_modify, if_neg (Ne.symm hq)]
      simp
    | _ => exact base
  · exact base

/-! ### The format of a file -/

theorem splitChars_append_sep (c : Char) (s t : List Char) :
    splitChars c (s ++ c :: t) = splitChars c s ++ splitChars c t := by
  induction s with
  | nil => simp [splitChars]
  | cons a s ih =>
    simp only [List.cons_append, splitChars, ih]
    split
    · rfl
    · cases h : splitChars c s with
      | nil => exact absurd h (splitChars_ne_nil c s)
      | cons w ws => rfl

theorem splitChars_eq_nil_sing {c : Char} {s : List Char} (h : splitChars c s = [[]]) :
    s = [] := by
  cases s with
  | nil => rfl
  | cons a s =>
    simp only [splitChars] at h
    split at h
    · exact absurd (List.cons.inj h).2 (splitChars_ne_nil c s)
    · cases h' : splitChars c s with
      | nil => simp [h'] at h
      | cons w ws => simp [h'] at h

/-- What follows the last dot. -/
theorem suffixOf_dot (stem ext : List Char) (h : '.' ∉ ext) :
    suffixOf (String.ofList (stem ++ '.' :: ext)) =
      if ext = [] ∨ stem = [] then "" else String.ofList ext := by
  unfold suffixOf
  rw [String.toList_ofList, splitChars_append_sep, splitChars_of_not_mem h]
  rw [List.reverse_append, List.reverse_singleton, List.singleton_append]
  cases hr : (splitChars '.' stem).reverse with
  | nil => exact absurd (List.reverse_eq_nil_iff.1 hr) (splitChars_ne_nil _ _)
  | cons prev rest =>
    dsimp only
    by_cases he : ext = []
    · simp [he]
    · simp only [he, if_false, false_or]
      have : (prev = [] ∧ rest = []) ↔ stem = [] := by
        constructor
        · rintro ⟨rfl, rfl⟩
          apply splitChars_eq_nil_sing (c := '.')
          have := congrArg List.reverse hr
          simpa using this
        · rintro rfl
          simpa [splitChars, eq_comm] using hr
      by_cases hs : stem = []
      · rw [if_pos (this.2 hs), if_pos hs]
      · rw [if_neg (fun h => hs (this.1 h)), if_neg hs]

theorem exists_last_dot {c : Char} {l : List Char} (h : c ∈ l) :
    ∃ stem ext, l = stem ++ c :: ext ∧ c ∉ ext := by
  induction l with
  | nil => simp at h
  | cons a l ih =>
    by_cases hl : c ∈ l
    · obtain ⟨stem, ext, rfl, h2⟩ := ih hl
      exact ⟨a :: stem, ext, rfl, h2⟩
    · have : a = c := by simpa [hl, eq_comm] using h
      exact ⟨[], l, by rw [this]; rfl, hl⟩

theorem loadLoop_append {q : Nat} : ∀ (js rest : List JCmd) (w : World), (∀ j ∈ js, j.Good) →
    loadLoop w q (js ++ rest) = loadLoop (loadLoop w q js).1 q rest
  | [], _, _, _ => rfl
  | j :: js, rest, w, hg => by
    obtain ⟨m, ps, h1, h2, h3⟩ := hg j (by simp)
    simp only [List.cons_append, loadLoop, h1, h2, h3, if_true]
    exact loadLoop_append js rest _ (fun x hx => hg x (by simp [hx]))

end Verif
