import Verif.Lemmas.SavedSent
import Verif.Props.Recording
import Mathlib.Data.List.Perm.Subperm
import Mathlib.Data.List.Nodup
/-! # C04, C16, C09, C62, C63: what is recorded, and what a replay or a transfer delivers -/

namespace Verif

/-! ## C04, C16 -/

/-- C04 (part). With recording on, a call whose body succeeds is accepted exactly when every
argument that is not a GSP object passes the type check, in terms of the class hierarchy and
of the converter table alone (`recordedAs`): it fits a declared type (its class or a base of
its class is declared, or it is `None`), or a converter from its class, a base or a
metaclass base leads to a declared type. Missing: object arguments, which are never checked
(`rejects_bad_arguments_fails`). -/
theorem accepts_exactly_passing_partial (P : Prog) (w : World) (r : Nat) (f : String)
    (args : List Val) (kwargs : Dict String Val) (nc : Bool) (o : Obj) (sg : Sig)
    (bound : Dict String Val) (hval : w.ActiveValid)
    (ho : w.heap[r]? = some o) (hs : P.sig o.cls f = some sg) (hwf : sg.WF)
    (hkw : (dkeys kwargs).Nodup) (hb : bindArgs sg args kwargs = .ok bound)
    (hr : P.raises o f bound = none) (hrec : w.recording = true)
    (hdef : ∀ k d, dget sg.defaults k = some d →
      d.isObj = false ∧ Passes P w.converters true (dget sg.annots k) d) :
    ((callMethod P w r f args kwargs nc).2 = .ok () ↔
      ∀ k ∈ sg.params, ∀ v, seenArg sg args kwargs k = some v → v.isObj = false →
        Passes P w.converters true (dget sg.annots k) v) := by
  rw [rejects_bad_arguments_partial P w r f args kwargs nc o sg bound hval ho hs hwf hkw hb hr hrec]
  · constructor
    · intro h k hk v hv hno _ anns ha
      exact (passes_iff P w hno anns).1 (h k hk v anns hv hno ha)
    · intro h k hk v anns hv hno ha
      exact (passes_iff P w hno anns).2 (h k hk v hv hno rfl anns ha)
  · intro k d anns hd ha
    obtain ⟨h1, h2⟩ := hdef k d hd
    exact (passes_iff P w h1 anns).2 (h2 rfl anns ha)

/-- A value of a class derived from a declared type, and a value converted through a base
of its metaclass, pass; a text does not. -/
example :
    let P : Prog := { demo with
      mro := fun c => if c = "OID" then ["OID", "int", "object"] else [c, "object"]
      metaBases := fun c => if c = "float" then ["number"] else ["object"] }
    Passes P [(("number", "int"), 0)] true (some ["int"]) (.oid 3) ∧
    recordedAs P [(("number", "int"), 0)] ["int"] (.float 3) = some (.conv 0 (.float 3)) ∧
    ¬ Passes P [(("number", "int"), 0)] true (some ["int"]) (.str "a") := by
  refine ⟨?_, by decide, ?_⟩
  · intro _ l hl; cases hl; decide
  · intro h; exact h rfl _ rfl (by decide)

/-- C16. Registering a converter during a session: it raises `TypeError` exactly when the
pair is taken, and then changes nothing; otherwise exactly this pair is added. -/
theorem register_in_session (P : Prog) (w : World) (src dst : String) (f : Nat) :
    let w' := (step P w (.register src dst f)).1
    let taken := (dget w.converters (src, dst)).isSome
    (step P w (.register src dst f)).2 = (if taken then .error .typeError else .ok ()) ∧
    (∀ p, dget w'.converters p =
      if p = (src, dst) ∧ taken = false then some f else dget w.converters p) ∧
    w'.heap = w.heap ∧ w'.objects = w.objects ∧ w'.queues = w.queues ∧ w'.active = w.active := by
  dsimp only [step]
  cases h : (dget w.converters (src, dst)) with
  | none =>
    rw [if_neg (by simp [dhas, h])]
    refine ⟨by simp, ?_, rfl, rfl, rfl, rfl⟩
    intro p
    dsimp only
    by_cases hp : p = (src, dst)
    · subst hp; simp [dget_dset]
    · simp [hp, dget_dset, Ne.symm hp]
  | some g =>
    rw [if_pos (by simp [dhas, h])]
    exact ⟨by simp, by simp, rfl, rfl, rfl, rfl⟩

/-! ## C09 -/

/-- C09 (part). Take any session whose actions can be replayed (`ReplayableSession`): the
arguments may be converted, and the replaying program may be another one (a backend), with
the same parameter names but other declared types, converters and bodies. Send its commands,
with names transported by `nm` and values by `t`, to a queue of any process. Then all
actions of the session succeed, running the queue succeeds, and the process holds, beside
what it held, one copy of each object of the session, registered under the same id, of the
same class, which received the same calls with the arguments delivered (`Delivered`: copies
for objects, converted values for delayed conversions), plus the objects that conversions
built. Missing: dotted class names from memory (`replay_rebuilds_fails`), optional object
parameters that lose their argument (`keptArg`). -/
theorem replay_delivers_scene_partial (P P2 : Prog) (nm : String × String → String × String)
    (t : Val → Val) (hP : P.SigsWF) (hP2 : P2.SigsWF)
    (hoid : ∀ n, t (.oid n) = .oid n ∨ t (.oid n) = .int n)
    (cs : Dict (String × String) Nat) (as : List Act) (w2 : World)
    (hses : ReplayableSession P P2 cs w2.converters w2.recording nm t (World.start cs) as)
    (q : Nat) (u : Queue) (hq : w2.queues[q]? = some u)
    (hsent : List.Forall₂ (SentAs nm t) (commandsOf (runActs P (World.start cs) as) 0) u.commands)
    (hrec : w2.objRecord = true) :
    Succeeds P (World.start cs) as ∧
    ∃ w2' ref made, runQueue P2 w2 q = (w2', .ok ()) ∧
      Rebuilt P P2 cs t (runActs P (World.start cs) as) w2 w2' ref made := by
  have hsim : SimD P P2 cs w2.converters w2.recording t w2.heap.length w2.heap [] []
      (World.start cs) (setQueue w2 q (fun u => { u with readonly := true })) :=
    (simD_start cs w2 hrec).congr2 ⟨rfl, rfl, rfl, rfl, rfl, rfl⟩
  have hinv : RecInv 0 (World.start cs) := ⟨rfl, Or.inr ⟨rfl, rfl⟩⟩
  obtain ⟨l, h1, h2, _, _, _, h3⟩ := simD_session hP hP2 hoid hsim hinv hses
  have h0 : commandsOf (World.start cs) 0 = [] := rfl
  rw [h0, List.nil_append] at h1
  rw [h1] at hsent
  obtain ⟨w3, ref, made, h4, h5⟩ := h3 _ hsent
  refine ⟨h2, setQueue w3 q (fun x => { x with readonly := u.readonly }), ref, made, ?_, ?_⟩
  · simp only [runQueue, hq, h4]
  · exact (h5.congr2 (w2' := setQueue w3 q (fun x => { x with readonly := u.readonly }))
      ⟨rfl, rfl, rfl, rfl, rfl, rfl⟩).rebuilt

/-! ## C62 -/

/-- C62 (part). Save a session to a JSON file and load the file in another process, which may
run another program (a backend), record or not, and hold other objects. If the actions of the
session can be replayed (`ReplayableSession`) with what arrives of names and values through
JSON (`jsonNames`, `jsonVal`), and the recorded arguments can be saved, then saving succeeds and
leaves the session unchanged, loading succeeds, running the active queue succeeds, and the
second process holds one copy of each object of the session, registered under the same id, of
the same class, which received the same calls with the arguments delivered. An object
given for an optional parameter is delivered as the default of the parameter
(`optional_object_fails`). Missing, because it is false: conversions that build objects while saving
(`built_replay_fails`). For `as = []` see `save_load_run_empty`. -/
theorem save_load_run_partial (P P2 : Prog) (ij : Codec) (hP : P.SigsWF) (hP2 : P2.SigsWF)
    (cs : Dict (String × String) Nat)
    (as : List Act) (hne : as ≠ []) (w2 : World)
    (hses : ReplayableSession P P2 cs w2.converters w2.recording jsonNames (jsonVal P ij)
      (World.start cs) as)
    (hsave : SavableSession P ij cs (World.start cs) as)
    (hrec : w2.objRecord = true) (hwr : w2.Writable)
    (name : String) (format : Option String) (hfmt : formatOf format name = "json")
    (old : File) (fuel : Nat) (hfuel : as.length < fuel) :
    ∃ file w3 q w4 ref made,
      gspSave P ij fuel (runActs P (World.start cs) as) name format old =
        some (runActs P (World.start cs) as, file, .ok ()) ∧
      gspLoad w2 name format file = (w3, .ok ()) ∧ w3.active = some q ∧
      runQueue P2 w3 q = (w4, .ok ()) ∧
      Rebuilt P P2 cs (jsonVal P ij) (runActs P (World.start cs) as) w2 w4 ref made := by
  have hoid : ∀ n, jsonVal P ij (.oid n) = .oid n ∨ jsonVal P ij (.oid n) = .int n :=
    fun n => Or.inr rfl
  obtain ⟨file, w3, q, u, h1, h2, h3, h4, h5, h6, f1, f3, f4⟩ :=
    save_load_sent hP hP2 hne hses hsave hrec hwr hfmt old hfuel
  rw [← f3, ← f4] at hses
  obtain ⟨_, w4, ref, made, g1, g2⟩ := replay_delivers_scene_partial P P2 jsonNames (jsonVal P ij)
    hP hP2 hoid cs as w3 hses q u h4 h5 h6
  refine ⟨file, w3, q, w4, ref, made, h1, h2, h3, g1, ?_⟩
  obtain ⟨k1, k2, k3, k4, k5, k6, k7⟩ := g2
  rw [f1] at k1 k2 k3 k7
  exact ⟨k1, k2, k3, k4, k5, k6, k7⟩

/-! ### Examples -/

/-- A front end whose bodies accept everything. -/
def front : Prog := { demo with raises := fun _ _ _ => none }

/-- A backend: other order of parameters, other declared types, another default. -/
def back : Prog := { front with
  sig := fun c f => if c = "Foo" ∧ f = "set_value" then
    some ⟨["unit", "value"], [("unit", .str "mm"), ("value", .int 0)],
      [("unit", ["str"]), ("value", ["object"])]⟩ else demoSig c f }

theorem front_wf : front.SigsWF := by
  intro c f sg h
  refine ⟨demo_wf c f sg h, ?_⟩
  have h : demoSig c f = some sg := h
  unfold demoSig at h
  repeat' split at h
  all_goals first | (cases h; simp [Val.isObj]) | simp at h

theorem back_wf : back.SigsWF := by
  intro c f sg h
  dsimp only [back] at h
  split at h
  · cases h
    refine ⟨?_, by simp [Val.isObj]⟩
    constructor <;> decide
  · exact front_wf c f sg h

/-- A session with delayed conversions from float to int: a canvas, an object, a call with a
converted argument and a reference. -/
def converting : List Act :=
  [.create "Canvas" [.float 4, .int 3] [], .create "Foo" [.float 1] [],
   .call 1 "set_value" [] [("value", .float 5)], .call 1 "attach" [.obj 0] []]

/-- It can be saved, loaded and run in a backend that does not record. -/
theorem converting_replayable : ReplayableSession front back [(("float", "int"), 0)] [] false
    jsonNames (jsonVal front (fun _ _ => none)) (World.start [(("float", "int"), 0)]) converting :=
  replayableSessionB_sound (fun _ _ _ => rfl) (fun _ _ _ => rfl) (by decide +kernel)

theorem converting_savable : SavableSession front (fun _ _ => none) [(("float", "int"), 0)]
    (World.start [(("float", "int"), 0)]) converting :=
  savableSessionB_sound (by decide +kernel)

/-- What the backend gets: integers, where the front end was given floats. -/
example : ∃ file w3 w4,
    gspSave front (fun _ _ => none) 9 (runActs front (World.start [(("float", "int"), 0)])
      converting) "a.json" none .absent =
      some (runActs front (World.start [(("float", "int"), 0)]) converting, file, .ok ()) ∧
    gspLoad { World.fresh with recording := false } "a.json" none file = (w3, .ok ()) ∧
    runQueue back w3 0 = (w4, .ok ()) ∧ w4.heap.map (fun o => (o.id, o.cls, o.log)) =
      [(1, "Canvas", [("__init__", [("width", .int 4), ("height", .int 3)])]),
       (2, "Foo", [("__init__", [("value", .int 1)]),
         ("set_value", [("unit", .str "px"), ("value", .int 5)]), ("attach", [("other", .obj 0)])])] :=
  ⟨_, _, _, rfl, rfl, rfl, rfl⟩

/-- A session with a delayed conversion that builds an object can be replayed from memory. -/
theorem building_replayable : ReplayableSession front back [(("int", "Foo"), 1)]
    [(("int", "Foo"), 1)] true id id (World.start [(("int", "Foo"), 1)])
    [.create "Foo" [.int 1] [], .call 0 "attach" [.int 7] [], .create "Foo" [.int 2] []] :=
  replayableSessionB_sound (fun _ _ _ => rfl) (fun _ _ _ => rfl) (by decide +kernel)

/-- The copies are objects 0 and 2 of the backend, object 1 was built by the conversion. Objects 1 and 2
have the same id, under which only the copy is registered. -/
example :
    let w := runActs front (World.start [(("int", "Foo"), 1)])
      [.create "Foo" [.int 1] [], .call 0 "attach" [.int 7] [], .create "Foo" [.int 2] []]
    let w2 : World := { World.start [(("int", "Foo"), 1)] with
      queues := [⟨"q", false, commandsOf w 0⟩], active := some 0 }
    (runQueue back w2 0).2 = .ok () ∧
    (runQueue back w2 0).1.heap.map (fun o => (o.id, o.cls, o.log)) =
      [(1, "Foo", [("__init__", [("value", .int 1)]), ("attach", [("other", .obj 1)])]),
       (2, "Foo", [("__init__", [("value", .int 7)])]),
       (2, "Foo", [("__init__", [("value", .int 2)])])] ∧
    dget (runQueue back w2 0).1.objects 2 = some 2 :=
  ⟨rfl, rfl, rfl⟩

/-! ## C63 -/

/-- The full claim of C63: replaying a session in a fresh process gives objects with
different ids. -/
def ReplayedIdsDistinct (P P2 : Prog) : Prop :=
  ∀ cs as w2, ReplayableSession P P2 cs w2.converters w2.recording id id (World.start cs) as →
    w2.heap = [] → w2.objRecord = true →
    w2.queues = [⟨"q", false, commandsOf (runActs P (World.start cs) as) 0⟩] →
    ((runQueue P2 w2 0).1.heap.map Obj.id).Nodup

/-- C63 fails: the object built by a delayed conversion takes the next id, which a recorded
creation then takes over. -/
theorem replayed_ids_distinct_fails : ¬ ReplayedIdsDistinct front back := by
  intro h
  have := h [(("int", "Foo"), 1)]
    [.create "Foo" [.int 1] [], .call 0 "attach" [.int 7] [], .create "Foo" [.int 2] []]
    { World.start [(("int", "Foo"), 1)] with
      queues := [⟨"q", false, commandsOf (runActs front (World.start [(("int", "Foo"), 1)])
        [.create "Foo" [.int 1] [], .call 0 "attach" [.int 7] [], .create "Foo" [.int 2] []]) 0⟩],
      active := some 0 } building_replayable rfl rfl rfl
  revert this
  have e : ((runQueue back { World.start [(("int", "Foo"), 1)] with
      queues := [⟨"q", false, commandsOf (runActs front (World.start [(("int", "Foo"), 1)])
        [.create "Foo" [.int 1] [], .call 0 "attach" [.int 7] [], .create "Foo" [.int 2] []]) 0⟩],
      active := some 0 } 0).1.heap.map Obj.id) = [1, 2, 2] := rfl
  rw [e]
  decide

/-- C63 (part). When no conversion builds an object, the objects of a session rebuilt in a
fresh process have different ids if those of the session have. Missing: conversions that
build objects. -/
theorem replayed_ids_distinct_partial (P P2 : Prog) (cs : Dict (String × String) Nat)
    (t : Val → Val) (w w2 w2' : World) (ref : List Nat) (h : Rebuilt P P2 cs t w w2 w2' ref [])
    (hfresh : w2.heap = []) (hids : (w.heap.map Obj.id).Nodup) :
    (w2'.heap.map Obj.id).Nodup := by
  have hn : w2'.heap.length = w.heap.length := by rw [h.count, hfresh]; simp
  have hlen : ref.length = w2'.heap.length := by rw [h.order.1, hn]
  have key : ∀ (r : Nat) (hr : r < ref.length), ∃ h' : ref[r] < w2'.heap.length,
      (w2'.heap[ref[r]]).id = (w.heap[r]'(by rw [← h.order.1]; exact hr)).id := by
    intro r hr
    obtain ⟨y, o', h1, _, h3, h4⟩ := h.copy r _
      (List.getElem?_eq_getElem (show r < w.heap.length by rw [← h.order.1]; exact hr))
    obtain ⟨_, rfl⟩ := List.getElem?_eq_some_iff.1 h1
    obtain ⟨h5, rfl⟩ := List.getElem?_eq_some_iff.1 h3
    exact ⟨h5, h4.id⟩
  have hnd : ref.Nodup := h.order.2.imp (fun h => Nat.ne_of_lt h)
  have hsub : ref ⊆ List.range w2'.heap.length := by
    intro y hy
    obtain ⟨r, hr, rfl⟩ := List.mem_iff_getElem.1 hy
    exact List.mem_range.2 (key r hr).1
  have hperm : ref.Perm (List.range w2'.heap.length) :=
    (hnd.subperm hsub).perm_of_length_le (by simp [hlen])
  have e1 : (List.range w2'.heap.length).map (fun y => (w2'.heap[y]?).map Obj.id) =
      (w2'.heap.map Obj.id).map some := by
    apply List.ext_getElem (by simp)
    intro i h1 h2
    simp at h1 h2
    simp [h1]
  have e2 : ref.map (fun y => (w2'.heap[y]?).map Obj.id) = (w.heap.map Obj.id).map some := by
    apply List.ext_getElem (by simp [h.order.1])
    intro i h1 h2
    simp at h1 h2
    obtain ⟨h3, h4⟩ := key i h1
    simp [h3, h4]
  have hp := hperm.map (fun y => (w2'.heap[y]?).map Obj.id)
  rw [e1, e2] at hp
  have h1 : ((w.heap.map Obj.id).map some).Nodup :=
    hids.map (fun _ _ h => Option.some.inj h)
  exact List.Nodup.of_map _ (hp.nodup_iff.1 h1)

end Verif
