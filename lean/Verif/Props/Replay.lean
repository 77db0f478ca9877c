import Verif.Spec.Session
import Verif.Lemmas.Recorded
/-! # C08: replaying a command repeats the call -/

namespace Verif

/-- The full claim of C08, inside one session: replaying the command just recorded for a
call makes the object receive the same call again. -/
def ReplayRepeatsCalls (P : Prog) : Prop :=
  ∀ ops r f args kwargs c q,
    let w := runOps P World.fresh ops
    let out := callMethod P w r f args kwargs false
    out.2 = .ok () → commandsOf out.1 q = commandsOf w q ++ [c] →
    ((execute P out.1 c).1.heap[r]?).any
      (fun o => o.log.length = ((out.1.heap[r]?).map (fun o => o.log.length)).getD 0 + 1 ∧
        o.log.getLast? = o.log.dropLast.getLast?) = true

/-- C08 fails: an object given for a parameter that has a default is replaced by the
default on replay. The recorded command holds both `next(id)` and `next`, because line 243
of gsp/io/command.py looks for the bare name. -/
theorem replay_repeats_calls_fails : ¬ ReplayRepeatsCalls demo := by
  intro h
  have := h [.create "Foo" [.int 1] [] false, .create "Foo" [.int 2] [] false]
    0 "set_next" [.obj 1] []
    { cid := 3, cls := "Foo", meth := "set_next",
      params := [("id", .oid 1), ("next(id)", .oid 2), ("next", .none)] } 0
    (by decide) (by decide)
  revert this
  decide

/-- C08 fails in a second way: an identifier passed as a plain value is dropped from the
arguments (line 422), and the replayed call lacks an argument. -/
theorem replay_drops_identifiers :
    let w := runOps demo World.fresh [.create "Foo" [.int 1] [] false]
    let out := callMethod demo w 0 "set_value" [.oid 1] [] false
    out.2 = .ok () ∧ (commandsOf out.1 0).length = 2 ∧
    ∀ c ∈ (commandsOf out.1 0).drop 1, (execute demo out.1 c).2 = .error .typeError := by
  decide

/-- C08 (part), method calls. A call with plain arguments (`PlainArgs`: no object for an
optional parameter, no bare identifier, no conversion), recorded as command `c`, is
repeated by executing `c` in any later state, of the same process or another one, in which
the ids of the object and of the object arguments are registered: the object registered
under that id receives the same method with the same value for each parameter. Missing:
the cases of `replay_repeats_calls_fails` and `replay_drops_identifiers`; arguments that
are converted. -/
theorem replay_repeats_call_partial (P : Prog) (w w' w2 : World) (r q r2 : Nat) (f : String)
    (args : List Val) (kwargs bound : Dict String Val) (o o2 : Obj) (sg : Sig) (c : Cmd)
    (hval : w.ActiveValid) (hrec : w.recording = true)
    (ho : w.heap[r]? = some o) (hs : P.sig o.cls f = some sg) (hwf : sg.WF)
    (hkw : (dkeys kwargs).Nodup) (hb : bindArgs sg args kwargs = .ok bound)
    (hp : PlainArgs P w sg args kwargs)
    (hname : (P.override o.cls f).getD f = f) (hdot : hasChar '.' f = false)
    (hinit : f ≠ "__init__")
    (hcall : callMethod P w r f args kwargs false = (w', .ok ()))
    (hc : commandsOf w' q = commandsOf w q ++ [c])
    (hconv : w2.converters = w.converters)
    (hr2 : dget w2.objects o.id = some r2) (ho2 : w2.heap[r2]? = some o2)
    (hcls : o2.cls = o.cls)
    (hrefs : ∀ k x, seenArg sg args kwargs k = some (.obj x) →
      ∃ ox y, w.heap[x]? = some ox ∧ dget w2.objects ox.id = some y)
    (hraise : P.raises o2 f (bound.map (fun p => (p.1, relink w w2 p.2))) = none) :
    ∃ w2', execute P w2 c = (w2', .ok ()) ∧
      w2'.heap = w2.heap.set r2
        { o2 with log := o2.log ++ [(f, bound.map (fun p => (p.1, relink w w2 p.2)))] } := by
  have hr : P.raises o f bound = none := by
    unfold callMethod at hcall
    simp only [ho, hs, hb] at hcall
    cases h : P.raises o f bound with
    | none => rfl
    | some e => rw [h] at hcall; simp at hcall
  obtain ⟨w1, h1, _, h2⟩ := callMethod_plain (nc := false) ho hs hwf hkw hb hr hp hval
  rw [hcall] at h1
  cases h1
  have hq := h2 hrec q
  rw [hc] at hq
  have hq' := List.append_cancel_left hq
  split at hq'
  · simp only [List.cons.injEq, and_true] at hq'
    have hm : c.meth = f := by rw [hq']; exact hname
    obtain ⟨w2', he, hcore⟩ := execute_call (P := P) (w := w) (w2 := w2) (t := stripVal w)
      (selfId := o.id) (c := c) (r2 := r2) (o2 := o2) hwf hkw hb (hp.congr hconv)
      (transports_strip hp hrefs) rfl (by rw [hq']) (by rw [hm]; exact hdot)
      (by rw [hm]; exact hinit) hr2 ho2 (by rw [hm, hcls]; exact hs) (by rw [hm]; exact hraise)
    refine ⟨w2', he, ?_⟩
    rw [hcore.heap, logCall_eq ho2, hm]
  · simp at hq'

/-- C08 (part), constructors: the object built by the replay has the recorded id, the
class of the original and received the same constructor arguments. -/
theorem replay_repeats_creation_partial (P : Prog) (w w' w2 : World) (q : Nat) (cls : String)
    (args : List Val) (kwargs bound : Dict String Val) (sg : Sig) (c : Cmd) (r : Nat)
    (hval : w.ActiveValid) (hrec : w.recording = true)
    (hs : P.sig cls "__init__" = some sg) (hwf : sg.WF)
    (hkw : (dkeys kwargs).Nodup) (hb : bindArgs sg args kwargs = .ok bound)
    (hp : PlainArgs P w sg args kwargs)
    (hlive : ∀ k x, seenArg sg args kwargs k = some (.obj x) → x < w.heap.length)
    (hname : P.override cls "__init__" = none) (hres : P.resolve cls = some cls)
    (hcall : construct P w cls args kwargs false = (w', .ok r))
    (hc : commandsOf w' q = commandsOf w q ++ [c])
    (hconv : w2.converters = w.converters)
    (hrefs : ∀ k x, seenArg sg args kwargs k = some (.obj x) →
      ∃ ox y, w.heap[x]? = some ox ∧ dget w2.objects ox.id = some y)
    (hraise : P.raises
        (Obj.mk (1 + (w2.oidCounter : Int)) cls [] (1 + (w2.oidCounter : Int))) "__init__"
      (bound.map (fun p => (p.1, relink w w2 p.2))) = none) :
    ∃ w2' o2, execute P w2 c = (w2', .ok ()) ∧ w2'.heap = w2.heap ++ [o2] ∧
      o2.id = 1 + (w.oidCounter : Int) ∧ o2.cls = cls ∧
      o2.log = [("__init__", bound.map (fun p => (p.1, relink w w2 p.2)))] := by
  have hr : P.raises (Obj.mk (1 + (w.oidCounter : Int)) cls [] (1 + (w.oidCounter : Int)))
      "__init__" bound = none := by
    unfold construct at hcall
    simp only [hs, hb, newObject] at hcall
    simp only [List.getElem?_append_right (Nat.le_refl _), Nat.sub_self,
      List.getElem?_cons_zero] at hcall
    cases h : P.raises (Obj.mk (1 + (w.oidCounter : Int)) cls [] (1 + (w.oidCounter : Int)))
      "__init__" bound with
    | none => rfl
    | some e => rw [h] at hcall; simp at hcall
  obtain ⟨w1, h1, _, h2⟩ := construct_plain (nc := false) hs hwf hkw hb hr hp hval hlive
  rw [hcall] at h1
  cases h1
  have hq := h2 hrec q
  rw [hc] at hq
  have hq' := List.append_cancel_left hq
  split at hq'
  · simp only [List.cons.injEq, and_true] at hq'
    have hm : c.meth = "__init__" := by rw [hq', hname]; rfl
    have hcc : c.cls = cls := by rw [hq']
    obtain ⟨w2', he, hheap, _⟩ := execute_create (P := P) (w := w) (w2 := w2) (t := stripVal w)
      (selfId := 1 + (w.oidCounter : Int)) (c := c) (cls := cls) hwf hkw hb (hp.congr hconv)
      (transports_strip hp hrefs) rfl (by rw [hq']) hm (by rw [hcc]; exact hres) hs hraise
    exact ⟨w2', _, he, hheap, rfl, rfl, rfl⟩
  · simp at hq'

/-- The hypotheses are met by a call mixing a positional, a keyword and a default argument,
and by one with an object argument. -/
example :
    let w := runOps demo World.fresh
      [.create "Foo" [.int 1] [] false, .create "Foo" [.int 2] [] false]
    let w' := (callMethod demo w 0 "set_value" [] [("value", .int 5)] false).1
    let w'' := (callMethod demo w' 0 "attach" [.obj 1] [] false).1
    (runCmds demo w'' ((commandsOf w'' 0).drop 2)).1.heap.map Obj.log =
      [[("__init__", [("value", .int 1)]),
        ("set_value", [("value", .int 5), ("unit", .str "px")]),
        ("attach", [("other", .obj 1)]),
        ("set_value", [("value", .int 5), ("unit", .str "px")]),
        ("attach", [("other", .obj 1)])],
       [("__init__", [("value", .int 2)])]] := by decide

/-- `PlainArgs` holds of the call above. -/
example (w : World) (hc : w.converters = []) :
    PlainArgs demo w ⟨["value", "unit"], [("unit", .str "px")],
      [("value", ["int"]), ("unit", ["str"])]⟩ [] [("value", .int 5)] := by
  constructor
  · intro k v hg ho
    simp only [givenArg, List.zip_nil_right, dget, Option.none_or] at hg
    split at hg
    · cases hg; simp [Val.isObj] at ho
    · simp at hg
  · intro k v hs _
    simp only [seenArg, givenArg, List.zip_nil_right, dget, Option.none_or] at hs
    split at hs
    · rename_i hk
      simp at hs
      subst hs; subst hk
      refine ⟨by simp, by simp, ?_⟩
      intro anns ha
      simp only [dget, if_true, Option.some.injEq] at ha
      subst ha
      refine ⟨Or.inl ⟨"int", by simp, (by decide : matchesType demo (paramType demo "int") "int" = true)⟩, ?_⟩
      rw [hc]
      show ∀ ann ∈ ["int"], ∀ base ∈ ["int", "object"], getConverterType demo [] base ann = none
      decide
    · split at hs
      · rename_i hk
        simp at hs
        subst hs; subst hk
        refine ⟨by simp, by simp, ?_⟩
        intro anns ha
        have : anns = ["str"] := by simpa [dget] using ha.symm
        subst this
        refine ⟨Or.inl ⟨"str", by simp, (by decide : matchesType demo (paramType demo "str") "str" = true)⟩, ?_⟩
        rw [hc]
        show ∀ ann ∈ ["str"], ∀ base ∈ ["str", "object"], getConverterType demo [] base ann = none
        decide
      · simp at hs

end Verif
