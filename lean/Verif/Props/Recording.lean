import Verif.Spec.Session
import Verif.Lemmas.Recording
/-! # C03, C04: what the decorator logs and what it rejects -/

namespace Verif

/-! ## C03 -/

/-- The active queue of a session always exists. -/
theorem reachable_activeValid (P : Prog) (ops : List Op) :
    (runOps P World.fresh ops).ActiveValid :=
  (namesInv_closed.runOps (w := World.fresh)
    ⟨by intro n q h; simp [World.fresh] at h, by intro q h; simp [World.fresh] at h⟩).active

/-- C03. In any session, a method call appends one command to the active queue when it
succeeds, recording is on, the call is not suppressed and the queue is writable; the
command has the next command id, the class and id of the object and the name of the
method. Otherwise, and in all other queues, the commands stay exactly as they were. -/
theorem call_logged_once (P : Prog) (ops : List Op) (r : Nat) (f : String) (args : List Val)
    (kwargs : Dict String Val) (nc : Bool) (o : Obj) (sg : Sig)
    (ho : (runOps P World.fresh ops).heap[r]? = some o) (hs : P.sig o.cls f = some sg)
    (hwf : sg.WF) :
    let w := runOps P World.fresh ops
    let out := callMethod P w r f args kwargs nc
    ∃ params, dget params "id" = some (.oid o.id) ∧
      ∀ q, commandsOf out.1 q = commandsOf w q ++
        (if out.2 = .ok () ∧ w.recording = true ∧ nc = false ∧ activeWritable w = true ∧
            q = activeIx w then
          [{ cid := w.cidCounter + 1, cls := o.cls, meth := (P.override o.cls f).getD f,
             params := params }]
         else []) := by
  intro w out
  have hval : w.ActiveValid := reachable_activeValid P ops
  have hout : out = callMethod P w r f args kwargs nc := rfl
  unfold callMethod at hout
  rw [show w.heap[r]? = some o from ho] at hout
  dsimp only at hout
  rw [hs] at hout
  dsimp only at hout
  cases hb : bindArgs sg args kwargs with
  | error e =>
    rw [hb] at hout; rw [hout]
    exact ⟨[("id", .oid o.id)], by simp [dget], by simp⟩
  | ok bound =>
    rw [hb] at hout; dsimp only at hout
    cases hr : P.raises o f bound with
    | some e =>
      rw [hr] at hout; rw [hout]
      exact ⟨[("id", .oid o.id)], by simp [dget], by simp⟩
    | none =>
      rw [hr] at hout; dsimp only at hout
      have hlt := (List.getElem?_eq_some_iff.1 (show w.heap[r]? = some o from ho)).1
      have hw1 : logCall w r f bound =
          { w with heap := w.heap.set r { o with log := o.log ++ [(f, bound)] } } := by
        simp only [logCall, show w.heap[r]? = some o from ho]
      have ho1 : (logCall w r f bound).heap[r]? = some { o with log := o.log ++ [(f, bound)] } := by
        rw [hw1]; simp [hlt]
      have hv1 : (logCall w r f bound).ActiveValid := by rw [hw1]; exact hval
      obtain ⟨ps, h1, h2⟩ := recordCall_commands (P := P) (f := f) (sg := sg) (args := args)
        (kwargs := kwargs) (nc := nc) hv1 ho1 (w' := (recordCall P (logCall w r f bound) r f sg args kwargs nc).1)
        (res := (recordCall P (logCall w r f bound) r f sg args kwargs nc).2) rfl
      rw [← hout] at h1 h2
      by_cases hl : out.2 = .ok () ∧ w.recording = true
      · refine ⟨stripObjs (logCall w r f bound) ps, ?_, ?_⟩
        · have hc := h1 hl.1 (by rw [hw1]; exact hl.2)
          have hid := dget_collect_id hwf (args := args) o.id
            (fun k hk => List.mem_of_mem_drop ((bindArgs_ok hb).known k hk))
          obtain ⟨v', hv', hg⟩ := checkParams_dget hc "id" _ hid
          have : v' = .oid o.id := by
            have hna : dget sg.annots "id" = none := by
              cases h : dget sg.annots "id" with
              | none => rfl
              | some a =>
                rcases hwf.annots "id" ((mem_dkeys _ _).2 ⟨a, h⟩) with h1 | h1
                · exact absurd h1 hwf.noId
                · exact absurd h1 (by decide)
            simp only [checkParam, hna, Except.ok.injEq] at hv'
            exact hv'.symm
          subst this
          have hmem := dget_mem hg
          apply dget_of_mem_nodup
          · have : dkeys (stripObjs (logCall w r f bound) ps) = dkeys ps := by
              simp [dkeys, stripObjs]
            rw [this, checkParams_keys hc]
            exact nodup_collect o.id
          · unfold stripObjs
            exact List.mem_map.2 ⟨_, hmem, rfl⟩
        · intro q
          rw [h2 q, commandsOf_logCall]
          have hcid : (logCall w r f bound).cidCounter = w.cidCounter := by rw [hw1]
          have hrc : (logCall w r f bound).recording = w.recording := by rw [hw1]
          have haw : activeWritable (logCall w r f bound) = activeWritable w := by rw [hw1]; rfl
          have hai : activeIx (logCall w r f bound) = activeIx w := by rw [hw1]; rfl
          rw [hcid, hrc, haw, hai]
      · refine ⟨[("id", .oid o.id)], by simp [dget], ?_⟩
        intro q
        rw [h2 q, commandsOf_logCall]
        have hrc : (logCall w r f bound).recording = w.recording := by rw [hw1]
        rw [hrc]
        rw [if_neg (by intro h; exact hl ⟨h.1, h.2.1⟩), if_neg (by intro h; exact hl ⟨h.1, h.2.1⟩)]

/-- One call logged, in the active queue only. -/
example :
    let w := runOps demo World.fresh
      [.queue (some "a"), .create "Foo" [.int 1] [] false, .queue (some "b")]
    (w.heap[0]?.map Obj.cls = some "Foo") ∧
    (commandsOf (callMethod demo w 0 "set_value" [.int 2] [] false).1 0).length = 1 ∧
    (commandsOf (callMethod demo w 0 "set_value" [.int 2] [] false).1 1).map
      (fun c => (c.cid, c.cls, c.meth)) = [(2, "Foo", "set_value")] ∧
    commandsOf (callMethod demo w 0 "set_value" [.float 2] [] false).1 1 = [] ∧
    commandsOf (callMethod demo w 0 "set_value" [.int 2] [] true).1 1 = [] := by decide

/-- The signatures of the example program meet `Sig.WF`. -/
theorem demo_wf (cls f : String) (sg : Sig) (h : demo.sig cls f = some sg) : sg.WF := by
  have : ∀ (x : Option Sig), x = some sg → (∀ s ∈ x, s.WF) → sg.WF := by
    intro x hx h; exact h sg (by simp [hx])
  apply this _ h
  show ∀ s ∈ demoSig cls f, s.WF
  unfold demoSig
  repeat' split
  all_goals intro s hs
  all_goals first
    | (simp at hs; done)
    | (cases hs; constructor <;> decide)

/-- C03, constructors. Creating an object logs one command under the same conditions, for
the class of the new object and the id minted for it. -/
theorem creation_logged_once (P : Prog) (ops : List Op) (cls : String) (args : List Val)
    (kwargs : Dict String Val) (nc : Bool) (sg : Sig) (hs : P.sig cls "__init__" = some sg)
    (hwf : sg.WF) :
    let w := runOps P World.fresh ops
    let out := construct P w cls args kwargs nc
    ∃ params, dget params "id" = some (.oid (w.oidCounter + 1)) ∧
      ∀ q, commandsOf out.1 q = commandsOf w q ++
        (if out.2 = .ok w.heap.length ∧ w.recording = true ∧ nc = false ∧ activeWritable w = true ∧
            q = activeIx w then
          [{ cid := w.cidCounter + 1, cls := cls,
             meth := (P.override cls "__init__").getD "__init__", params := params }]
         else []) := by
  intro w out
  have hval : w.ActiveValid := reachable_activeValid P ops
  have hout : out = construct P w cls args kwargs nc := rfl
  unfold construct at hout
  rw [hs] at hout
  dsimp only at hout
  cases hb : bindArgs sg args kwargs with
  | error e =>
    rw [hb] at hout; rw [hout]
    exact ⟨[("id", .oid (w.oidCounter + 1))], by simp [dget], by simp⟩
  | ok bound =>
    rw [hb] at hout; dsimp only at hout
    have ho : (newObject w cls).1.heap[(newObject w cls).2]? =
        some { id := 1 + (w.oidCounter : Int), cls := cls, log := [],
               born := 1 + (w.oidCounter : Int) } := by simp [newObject]
    rw [ho] at hout; dsimp only at hout
    generalize hobj : (Obj.mk (1 + (w.oidCounter : Int)) cls [] (1 + (w.oidCounter : Int))) = o
      at hout ho
    cases hr : P.raises o "__init__" bound with
    | some e =>
      rw [hr] at hout; rw [hout]
      exact ⟨[("id", .oid (w.oidCounter + 1))], by simp [dget], by simp [commandsOf_newObject]⟩
    | none =>
      rw [hr] at hout; dsimp only at hout
      generalize hwn : (newObject w cls).1 = wn at ho hout
      generalize hrn : (newObject w cls).2 = rn at ho hout
      have hlt := (List.getElem?_eq_some_iff.1 ho).1
      have hw1 : logCall wn rn "__init__" bound =
          { wn with heap := wn.heap.set rn { o with log := o.log ++ [("__init__", bound)] } } := by
        simp only [logCall, ho]
      have ho1 : (logCall wn rn "__init__" bound).heap[rn]? =
          some { o with log := o.log ++ [("__init__", bound)] } := by
        rw [hw1]; simp [hlt]
      have hv1 : (logCall wn rn "__init__" bound).ActiveValid := by
        rw [hw1, ← hwn]; exact hval
      obtain ⟨ps, h1, h2⟩ := recordCall_commands (P := P) (f := "__init__") (sg := sg)
        (args := args) (kwargs := kwargs) (nc := nc) hv1 ho1 (w' := (recordCall P (logCall wn rn "__init__" bound) rn "__init__" sg args kwargs nc).1)
        (res := (recordCall P (logCall wn rn "__init__" bound) rn "__init__" sg args kwargs nc).2) rfl
      have hcid : (logCall wn rn "__init__" bound).cidCounter = w.cidCounter := by
        rw [hw1, ← hwn]; rfl
      have hrc : (logCall wn rn "__init__" bound).recording = w.recording := by
        rw [hw1, ← hwn]; rfl
      have haw : activeWritable (logCall wn rn "__init__" bound) = activeWritable w := by
        rw [hw1, ← hwn]; rfl
      have hai : activeIx (logCall wn rn "__init__" bound) = activeIx w := by
        rw [hw1, ← hwn]; rfl
      have hco : ∀ q, commandsOf (logCall wn rn "__init__" bound) q = commandsOf w q := by
        intro q; rw [hw1, ← hwn]; rfl
      have hocls : o.cls = cls := by rw [← hobj]
      have hoid : o.id = w.oidCounter + 1 := by rw [← hobj]; show (1 : Int) + _ = _; omega
      rcases hrec : recordCall P (logCall wn rn "__init__" bound) rn "__init__" sg args kwargs nc
        with ⟨w2, res⟩
      rw [hrec] at h1 h2 hout
      dsimp only at h1 h2 hout
      have hout1 : out.1 = w2 := by rw [hout]; cases res <;> rfl
      have hout2 : out.2 = .ok w.heap.length ↔ res = .ok () := by
        rw [hout]; cases res <;> simp [← hrn]
      simp only [hout2, hout1]
      by_cases hl : res = .ok () ∧ w.recording = true
      · refine ⟨stripObjs (logCall wn rn "__init__" bound) ps, ?_, ?_⟩
        · have hc := h1 hl.1 (by rw [hrc]; exact hl.2)
          have hid := dget_collect_id hwf (args := args) o.id
            (fun k hk => List.mem_of_mem_drop ((bindArgs_ok hb).known k hk))
          obtain ⟨v', hv', hg⟩ := checkParams_dget hc "id" _ hid
          have : v' = .oid (w.oidCounter + 1) := by
            have hna : dget sg.annots "id" = none := by
              cases h : dget sg.annots "id" with
              | none => rfl
              | some a =>
                rcases hwf.annots "id" ((mem_dkeys _ _).2 ⟨a, h⟩) with h1 | h1
                · exact absurd h1 hwf.noId
                · exact absurd h1 (by decide)
            simp only [checkParam, hna, Except.ok.injEq] at hv'
            rw [← hv', hoid]
          subst this
          have hmem := dget_mem hg
          apply dget_of_mem_nodup
          · have : dkeys (stripObjs (logCall wn rn "__init__" bound) ps) = dkeys ps := by
              simp [dkeys, stripObjs]
            rw [this, checkParams_keys hc]
            exact nodup_collect o.id
          · unfold stripObjs
            exact List.mem_map.2 ⟨_, hmem, rfl⟩
        · intro q
          rw [h2 q, hco, hcid, hrc, haw, hai, hocls]
      · refine ⟨[("id", .oid (w.oidCounter + 1))], by simp [dget], ?_⟩
        intro q
        rw [h2 q, hco, hrc]
        rw [if_neg (by intro h; exact hl ⟨h.1, h.2.1⟩), if_neg (by intro h; exact hl ⟨h.1, h.2.1⟩)]

/-- Two creations, the second suppressed. -/
example : demo.sig "Canvas" "__init__" ≠ none ∧
    (commandsOf (runOps demo World.fresh
      [.create "Canvas" [.int 4, .int 3] [] false, .create "Foo" [.int 3] [] true]) 0).map
      (fun c => (c.cid, c.cls, c.meth, c.params)) =
      [(1, "Canvas", "core.Canvas", [("id", .oid 1), ("width", .int 4), ("height", .int 3)])] := by
  decide

/-! ## C04 -/

/-- The full claim of C04: a call whose body succeeds is accepted exactly when every
annotated argument is acceptable. -/
def RejectsExactlyBadArguments (P : Prog) : Prop :=
  ∀ (w : World) (r : Nat) (f : String) (args : List Val) (kwargs : Dict String Val) (nc : Bool)
    (o : Obj) (sg : Sig) (bound : Dict String Val),
    w.heap[r]? = some o → P.sig o.cls f = some sg → sg.WF → (dkeys kwargs).Nodup →
    bindArgs sg args kwargs = .ok bound → P.raises o f bound = none → w.recording = true →
    ((callMethod P w r f args kwargs nc).2 = .ok () ↔
      ∀ k ∈ sg.params, ∀ v anns, seenArg sg args kwargs k = some v →
        dget sg.annots k = some anns → Acceptable P w v anns)

/-- C04 fails: objects are never checked. A canvas is accepted and logged where a `Foo` is
declared (the command key `other(id)` has no annotation, gsp/io/command.py:230, 252). -/
theorem rejects_bad_arguments_fails : ¬ RejectsExactlyBadArguments demo := by
  intro h
  have h1 := h (runOps demo World.fresh
      [.create "Foo" [.int 1] [] false, .create "Canvas" [.int 4, .int 3] [] false])
    0 "attach" [.obj 1] [] false
    { id := 1, cls := "Foo", log := [("__init__", [("value", .int 1)])], born := 1 }
    ⟨["other"], [], [("other", ["Foo"])]⟩ [("other", .obj 1)] (by decide) (by decide)
    (demo_wf "Foo" "attach" _ (by decide)) (by decide) (by decide) (by decide) (by decide)
  have h2 := h1.1 (by decide) "other" (by decide) (.obj 1) ["Foo"] (by decide) (by decide)
  rcases h2 with h2 | h2 | ⟨ann, h2, base, h3, g, h4⟩
  · revert h2; decide
  · revert h2; decide
  · rw [List.mem_singleton.1 h2] at h4
    have : ∀ b ∈ ["Canvas", "Object", "object"], getConverterType demo [] b "Foo" = none := by
      decide
    exact absurd (h4.symm.trans (this base h3)) (by simp)

/-- C04 (part). With recording on, a call whose body succeeds is accepted exactly when
every annotated argument that is not a GSP object is acceptable. Missing: object arguments,
which are never checked (`rejects_bad_arguments_fails`). The defaults are assumed well
typed, because giving an object for an optional parameter makes the decorator check the
default as well. -/
theorem rejects_bad_arguments_partial (P : Prog) (w : World) (r : Nat) (f : String)
    (args : List Val) (kwargs : Dict String Val) (nc : Bool) (o : Obj) (sg : Sig)
    (bound : Dict String Val) (hval : w.ActiveValid)
    (ho : w.heap[r]? = some o) (hs : P.sig o.cls f = some sg) (hwf : sg.WF)
    (hkw : (dkeys kwargs).Nodup) (hb : bindArgs sg args kwargs = .ok bound)
    (hr : P.raises o f bound = none) (hrec : w.recording = true)
    (hdef : ∀ k d anns, dget sg.defaults k = some d → dget sg.annots k = some anns →
      Acceptable P w d anns) :
    ((callMethod P w r f args kwargs nc).2 = .ok () ↔
      ∀ k ∈ sg.params, ∀ v anns, seenArg sg args kwargs k = some v → v.isObj = false →
        dget sg.annots k = some anns → Acceptable P w v anns) := by
  have hB := bindArgs_ok hb
  have hlt := (List.getElem?_eq_some_iff.1 ho).1
  have hw1 : logCall w r f bound =
      { w with heap := w.heap.set r { o with log := o.log ++ [(f, bound)] } } := by
    simp only [logCall, ho]
  have ho1 : (logCall w r f bound).heap[r]? = some { o with log := o.log ++ [(f, bound)] } := by
    rw [hw1]; simp [hlt]
  have hv1 : (logCall w r f bound).ActiveValid := by rw [hw1]; exact hval
  have hrec1 : (logCall w r f bound).recording = true := by rw [hw1]; exact hrec
  have hcm : callMethod P w r f args kwargs nc =
      recordCall P (logCall w r f bound) r f sg args kwargs nc := by
    simp only [callMethod, ho, hs, hb, hr]
  have hiff := check_collect_iff (P := P) (w := logCall w r f bound) hwf (args := args)
    (kwargs := kwargs) o.id hkw hB.known
  have key : (callMethod P w r f args kwargs nc).2 = .ok () ↔
      ∃ ps, checkParams P (logCall w r f bound) sg.annots (collect sg o.id args kwargs) = .ok ps := by
    rw [hcm]
    cases hc : checkParams P (logCall w r f bound) sg.annots (collect sg o.id args kwargs) with
    | error e => rw [recordCall_rejected hrec1 ho1 hc]; simp
    | ok ps => rw [recordCall_accepted hv1 hrec1 ho1 hc]; simp
  rw [key, hiff]
  simp only [acceptable_logCall]
  constructor
  · intro h k hk v anns hsv hno ha
    apply h k hk v anns _ ha
    unfold seenArg at hsv
    unfold checkedArg
    cases hg : givenArg sg args kwargs k with
    | none =>
      rw [hg] at hsv
      simp only [Option.none_or] at hsv
      simp [hsv, hno, Option.filter]
    | some x =>
      rw [hg] at hsv
      simp only [Option.some_or, Option.some.injEq] at hsv
      subst hsv
      simp [hno]
  · intro h k hk v anns hc ha
    unfold checkedArg at hc
    have hfil : ∀ {d}, (dget sg.defaults k).filter (fun d => !d.isObj) = some d →
        dget sg.defaults k = some d := by
      intro d hd
      exact (Option.filter_eq_some_iff.1 hd).1
    cases hg : givenArg sg args kwargs k with
    | none =>
      rw [hg] at hc
      exact hdef k v anns (hfil hc) ha
    | some x =>
      rw [hg] at hc
      dsimp only at hc
      split at hc
      · exact hdef k v anns (hfil hc) ha
      · rename_i hx
        cases hc
        exact h k hk v anns (by simp [seenArg, hg]) (by simpa using hx) ha

/-- C04. A rejected call raises `ValueError` (whatever the arguments, objects included). -/
theorem rejection_is_value_error (P : Prog) (w : World) (r : Nat) (f : String)
    (args : List Val) (kwargs : Dict String Val) (nc : Bool) (o : Obj) (sg : Sig)
    (bound : Dict String Val) (e : Err) (ho : w.heap[r]? = some o) (hval : w.ActiveValid)
    (hs : P.sig o.cls f = some sg) (hb : bindArgs sg args kwargs = .ok bound)
    (hr : P.raises o f bound = none)
    (he : (callMethod P w r f args kwargs nc).2 = .error e) : e = .valueError := by
  have hlt := (List.getElem?_eq_some_iff.1 ho).1
  have hw1 : logCall w r f bound =
      { w with heap := w.heap.set r { o with log := o.log ++ [(f, bound)] } } := by
    simp only [logCall, ho]
  have ho1 : (logCall w r f bound).heap[r]? = some { o with log := o.log ++ [(f, bound)] } := by
    rw [hw1]; simp [hlt]
  have hcm : callMethod P w r f args kwargs nc =
      recordCall P (logCall w r f bound) r f sg args kwargs nc := by
    simp only [callMethod, ho, hs, hb, hr]
  rw [hcm] at he
  cases hrec : (logCall w r f bound).recording with
  | false => rw [recordCall_off hrec] at he; simp at he
  | true =>
    have hv1 : (logCall w r f bound).ActiveValid := by rw [hw1]; exact hval
    cases hc : checkParams P (logCall w r f bound) sg.annots (collect sg o.id args kwargs) with
    | error e' =>
      rw [recordCall_rejected hrec ho1 hc] at he
      cases he
      exact checkParams_error hc
    | ok ps => rw [recordCall_accepted hv1 hrec ho1 hc] at he; simp at he

/-- A badly typed argument is rejected, a convertible one and a good one are not. -/
example :
    let w := runOps demo World.fresh
      [.create "Foo" [.int 1] [] false, .register "float" "int" 0]
    (callMethod demo w 0 "set_value" [.str "x"] [] false).2 = .error .valueError ∧
    (callMethod demo w 0 "set_value" [.float 7] [] false).2 = .ok () ∧
    (callMethod demo w 0 "set_value" [] [("unit", .str "cm"), ("value", .int 7)] false).2
      = .ok () := by decide

/-- C04. Nothing is logged by a call that raises, but the body has already run: the object
keeps the rejected call in its state. -/
theorem rejected_call_took_effect :
    ∃ w r f args, (callMethod demo w r f args [] false).2 = .error .valueError ∧
      (∀ q, commandsOf (callMethod demo w r f args [] false).1 q = commandsOf w q) ∧
      (callMethod demo w r f args [] false).1.heap ≠ w.heap := by
  refine ⟨runOps demo World.fresh [.create "Foo" [.int 1] [] false], 0, "set_value",
    [.str "x"], by decide, ?_, by decide⟩
  have hq : (callMethod demo (runOps demo World.fresh [.create "Foo" [.int 1] [] false]) 0
    "set_value" [.str "x"] [] false).1.queues
    = (runOps demo World.fresh [.create "Foo" [.int 1] [] false]).queues := by decide
  intro q
  unfold commandsOf
  rw [hq]

end Verif
