import Verif.Spec.Scene
import Verif.Lemmas.Simulation
import Verif.Lemmas.Creation
import Verif.Lemmas.Check
import Verif.Props.Recording
/-! # C09, C10: replaying a whole session -/

namespace Verif

/-! ## C09 -/

/-- The full claim of C09, inside one process: after a session of successful actions,
running the queue succeeds and leaves, for each object, a registered object of the same
id, class and number of received calls. -/
def ReplayRebuilds (P : Prog) : Prop :=
  ∀ as : List Act, Succeeds P World.fresh as →
    let w := runActs P World.fresh as
    (runQueue P w 0).2 = .ok () ∧
    ∀ o ∈ w.heap, ∃ r o', dget (runQueue P w 0).1.objects o.id = some r ∧
      (runQueue P w 0).1.heap[r]? = some o' ∧ o'.cls = o.cls ∧ o'.log.length = o.log.length

/-- C09 fails: the creation of an object whose class gives the decorator a dotted name (all
classes of gsp.core, gsp.visual and gsp.transform do) cannot be replayed from memory:
`globals[module]` raises `TypeError` (gsp/io/command.py:438). -/
theorem replay_rebuilds_fails : ¬ ReplayRebuilds demo := by
  intro h
  have := (h [.create "Canvas" [.int 4, .int 3] []] (by decide)).1
  revert this
  decide

/-- C09 (part). Take any session of clean actions (`CleanSession`: each action succeeds, its
arguments are plain, and its class and method names survive transport) and send its
commands, with names transported by `nm` and values by `t`, to a queue of any process with
the same converters. Running that queue succeeds; object number `r` of the session is
rebuilt as object number `base + r`, under the same id, with the same class and the same
sequence of calls, references being shifted accordingly; the objects that were there are
kept. Missing: dotted names from memory, and the arguments excluded in C08. -/
theorem replay_rebuilds_scene_partial (P : Prog) (nm : String × String → String × String)
    (t : Val → Val) (hoid : ∀ n, t (.oid n) = .oid n ∨ t (.oid n) = .int n)
    (cs : Dict (String × String) Nat) (as : List Act)
    (hclean : CleanSession P nm t (World.start cs) as)
    (w2 : World) (q : Nat) (u : Queue) (hq : w2.queues[q]? = some u)
    (hsent : u.commands = (commandsOf (runActs P (World.start cs) as) 0).map (Cmd.sent nm t))
    (hrec : w2.objRecord = true) (hconv : w2.converters = cs)
    (hpeek : NoPeek P w2.heap.length w2.oidCounter) :
    ∃ w2', runQueue P w2 q = (w2', .ok ()) ∧ w2'.heap.take w2.heap.length = w2.heap ∧
      w2'.heap.length = w2.heap.length + (runActs P (World.start cs) as).heap.length ∧
      ∀ (r : Nat) o, (runActs P (World.start cs) as).heap[r]? = some o →
        dget w2'.objects o.id = some (w2.heap.length + r) ∧
        w2'.heap[w2.heap.length + r]? = some (shiftObj w2.heap.length w2.oidCounter o) := by
  have hsim : Sim w2.heap.length w2.oidCounter w2.heap (World.start cs)
      (setQueue w2 q (fun u => { u with readonly := true })) := by
    refine ⟨?_, rfl, ?_, ?_, hrec, hconv, ?_, ?_, ?_⟩
    · intro r o ho; simp [World.start, World.fresh] at ho
    · show w2.oidCounter = 0 + w2.oidCounter; omega
    · show w2.heap.length = w2.heap.length + 0; omega
    · intro r o ho; simp [World.start, World.fresh] at ho
    · intro r o ho; simp [World.start, World.fresh] at ho
    · show w2.heap.take w2.heap.length = w2.heap; simp
  have hinv : RecInv 0 (World.start cs) := ⟨rfl, Or.inr ⟨rfl, rfl⟩⟩
  obtain ⟨cmds, w3, h1, h2, h3⟩ := sim_session hoid hpeek hsim hinv hclean
  have h0 : commandsOf (World.start cs) 0 = [] := rfl
  rw [h0, List.nil_append] at h1
  rw [h1] at hsent
  refine ⟨setQueue w3 q (fun x => { x with readonly := u.readonly }), ?_, h3.old, h3.len2,
    fun r o ho => ⟨h3.reg r o ho, h3.obj r o ho⟩⟩
  simp only [runQueue, hq, hsent, h2]

theorem shiftObj_zero (o : Obj) : shiftObj 0 0 o = o := by
  have hv : ∀ v, shiftVal 0 v = v := by intro v; cases v <;> simp [shiftVal]
  have ha : ∀ b, shiftArgs 0 b = b := by intro b; simp [shiftArgs, hv]
  have hl : ∀ l, shiftLog 0 l = l := by intro l; simp [shiftLog, ha]
  simp [shiftObj, hl]

/-- C09 (part), in a fresh process: the replay gives exactly the objects of the session,
each registered under its id. -/
theorem replay_in_fresh_process_partial (P : Prog) (nm : String × String → String × String)
    (t : Val → Val) (hoid : ∀ n, t (.oid n) = .oid n ∨ t (.oid n) = .int n)
    (cs : Dict (String × String) Nat) (as : List Act)
    (hclean : CleanSession P nm t (World.start cs) as)
    (w2 : World) (q : Nat) (u : Queue) (hq : w2.queues[q]? = some u)
    (hsent : u.commands = (commandsOf (runActs P (World.start cs) as) 0).map (Cmd.sent nm t))
    (hheap : w2.heap = []) (hcnt : w2.oidCounter = 0)
    (hrec : w2.objRecord = true) (hconv : w2.converters = cs) :
    ∃ w2', runQueue P w2 q = (w2', .ok ()) ∧
      w2'.heap = (runActs P (World.start cs) as).heap ∧
      ∀ (r : Nat) o, w2'.heap[r]? = some o → dget w2'.objects o.id = some r := by
  have hv : ∀ v, shiftVal 0 v = v := by intro v; cases v <;> simp [shiftVal]
  have ha : ∀ b, shiftArgs 0 b = b := by intro b; simp [shiftArgs, hv]
  have hpeek : NoPeek P w2.heap.length w2.oidCounter := by
    rw [hheap, hcnt]
    intro o f b
    rw [List.length_nil, shiftObj_zero, ha]
    simp
  obtain ⟨w2', h1, _, h3, h4⟩ := replay_rebuilds_scene_partial P nm t hoid cs as hclean w2 q u hq
    hsent hrec hconv hpeek
  rw [hheap, hcnt] at h4
  simp only [List.length_nil, Nat.zero_add, shiftObj_zero] at h4
  rw [hheap] at h3
  have heq : w2'.heap = (runActs P (World.start cs) as).heap := by
    apply List.ext_getElem?
    intro r
    by_cases hr : r < (runActs P (World.start cs) as).heap.length
    · have he := List.getElem?_eq_getElem hr
      rw [(h4 r _ he).2, he]
    · simp only [List.length_nil, Nat.zero_add] at h3
      rw [List.getElem?_eq_none (by omega), List.getElem?_eq_none (by omega)]
  exact ⟨w2', h1, heq, fun r o ho => (h4 r o (heq ▸ ho)).1⟩

/-- A session with two objects, a call by keyword and a reference is clean for a replay
from memory. -/
theorem demo_session_clean : CleanSession demo id id (World.start [])
    [.create "Foo" [.int 1] [], .create "Foo" [.int 2] [],
     .call 0 "set_value" [] [("value", .int 5)], .call 1 "attach" [.obj 0] []] :=
  cleanSessionB_sound (P := demo) demo_wf (by decide)

/-- The example program does not look at references or identifiers. -/
theorem demo_noPeek (base d : Nat) : NoPeek demo base d := by
  have key : ∀ b, (dget (shiftArgs base b) "value" = some (Val.int (-1))) ↔
      dget b "value" = some (Val.int (-1)) := by
    intro b
    rw [shiftArgs, dget_map_snd]
    cases dget b "value" with
    | none => simp
    | some v => cases v <;> simp [shiftVal]
  intro o f b
  constructor <;> simp [demo, key]

/-- Replaying it in the same process gives a second copy of the scene. -/
example :
    let w := runActs demo (World.start [])
      [.create "Foo" [.int 1] [], .create "Foo" [.int 2] [],
       .call 0 "set_value" [] [("value", .int 5)], .call 1 "attach" [.obj 0] []]
    (runQueue demo w 0).2 = .ok () ∧
    (runQueue demo w 0).1.heap.map (fun o => (o.id, o.cls, o.log)) =
      w.heap.map (fun o => (o.id, o.cls, o.log)) ++
      [(1, "Foo", [("__init__", [("value", .int 1)]),
          ("set_value", [("value", .int 5), ("unit", .str "px")])]),
       (2, "Foo", [("__init__", [("value", .int 2)]), ("attach", [("other", .obj 2)])])] := by
  exact ⟨rfl, rfl⟩

/-! ## C10 -/

/-- The full claim of C10: after replaying creation commands with different ids in a fresh
process, all these ids are registered. -/
def ReplayNeverLoses (P : Prog) : Prop :=
  ∀ cs w', (∀ c ∈ cs, c.meth = "__init__") → cs.Pairwise (fun a b => cmdId a ≠ cmdId b) →
    runCmds P World.fresh cs = (w', .ok ()) →
    ∀ c ∈ cs, ∃ k, cmdId c = some k ∧ (dget w'.objects k).isSome = true

/-- C10 fails: when the recorded ids are 2 and 3 (object 1 was made before the queue was
emptied, say), the object created for the second command is first registered under its
temporary id 2, which removes the first object from the registry. -/
theorem replay_never_loses_fails : ¬ ReplayNeverLoses demo := by
  intro h
  obtain ⟨k, h1, h2⟩ := h
    [⟨1, "Foo", "__init__", [("id", .oid 2), ("value", .int 1)]⟩,
     ⟨2, "Foo", "__init__", [("id", .oid 3), ("value", .int 2)]⟩]
    (runCmds demo World.fresh
      [⟨1, "Foo", "__init__", [("id", .oid 2), ("value", .int 1)]⟩,
       ⟨2, "Foo", "__init__", [("id", .oid 3), ("value", .int 2)]⟩]).1
    (by decide) (by decide) (by decide)
    ⟨1, "Foo", "__init__", [("id", .oid 2), ("value", .int 1)]⟩ (by decide)
  have : k = 2 := by
    have : (some (2 : Int)) = some k := h1
    exact (Option.some.inj this).symm
  subst this
  revert h2
  decide

/-- C10, exact condition. After replaying creation commands with different ids, starting
with `w.oidCounter` identifiers already minted, the id recorded at position `i` is still
registered if and only if it differs from the temporary id minted for every later command. -/
theorem replay_keeps_object_iff (P : Prog) (w w' : World) (cs : List Cmd)
    (hrun : runCmds P w cs = (w', .ok ())) (hinit : ∀ c ∈ cs, c.meth = "__init__")
    (hnc : ∀ c ∈ cs, NoConv c) (hrec : w.objRecord = true)
    (hdist : cs.Pairwise (fun a b => cmdId a ≠ cmdId b))
    (i : Nat) (c : Cmd) (k : Int) (hi : cs[i]? = some c) (hk : cmdId c = some k) :
    (dget w'.objects k).isSome = true ↔
      ∀ j : Nat, i < j → j < cs.length → 1 + (w.oidCounter : Int) + j ≠ k := by
  have hlt := (List.getElem?_eq_some_iff.1 hi).1
  have hsplit : cs = cs.take i ++ c :: cs.drop (i + 1) := by
    have hc : cs[i] = c := (List.getElem?_eq_some_iff.1 hi).2
    rw [← hc, List.getElem_cons_drop, List.take_append_drop]
  generalize hpre : cs.take i = pre at hsplit
  generalize hpost : cs.drop (i + 1) = post at hsplit
  have hlen : pre.length = i := by rw [← hpre]; simp; omega
  subst hsplit
  rw [runCmds_append] at hrun
  cases h1 : runCmds P w pre with
  | mk w1 res => cases res with
    | error e => rw [h1] at hrun; simp at hrun
    | ok _ =>
      rw [h1] at hrun
      dsimp only at hrun
      obtain ⟨hr1, hc1⟩ := runCmds_counter h1 (fun c hc => hinit c (List.mem_append_left _ hc))
        (fun c hc => hnc c (List.mem_append_left _ hc)) hrec
      unfold runCmds at hrun
      split at hrun
      · simp at hrun
      · rename_i w2 he
        obtain ⟨oid, h5, h6, h7, h8⟩ := execute_init he (hinit c (by simp)) (hnc c (by simp)) hr1
        have hoid : oid = k := Option.some.inj (h5.symm.trans hk)
        subst hoid
        have hne : ∀ c' ∈ post, cmdId c' ≠ some oid := by
          have := (List.pairwise_append.1 hdist).2.1
          have := (List.pairwise_cons.1 this).1
          intro c' hc' hh
          exact this c' hc' (hk.trans hh.symm)
        have := runCmds_keeps oid hrun
          (fun c hc => hinit c (List.mem_append_right _ (List.mem_cons_of_mem _ hc)))
          (fun c hc => hnc c (List.mem_append_right _ (List.mem_cons_of_mem _ hc))) h7 hne
          (by rw [h8, if_pos rfl]; rfl)
        rw [this, h6, hc1, hlen]
        simp only [List.length_append, List.length_cons]
        constructor
        · intro hall j hj1 hj2
          have := hall (j - (i + 1)) (by omega)
          push_cast at this ⊢
          omega
        · intro hall j hj
          have := hall (i + 1 + j) (by omega) (by omega)
          push_cast at this ⊢
          omega

/-- C10 (part). When the history is complete, i.e. the id recorded at position `i` is at
most `i + 1` plus the number of ids already minted, no object is lost. Missing: histories
with gaps, where the exact condition is `replay_keeps_object_iff`. -/
theorem replay_never_loses_partial (P : Prog) (w w' : World) (cs : List Cmd)
    (hrun : runCmds P w cs = (w', .ok ())) (hinit : ∀ c ∈ cs, c.meth = "__init__")
    (hnc : ∀ c ∈ cs, NoConv c) (hrec : w.objRecord = true)
    (hdist : cs.Pairwise (fun a b => cmdId a ≠ cmdId b))
    (hfull : ∀ (i : Nat) c k, cs[i]? = some c → cmdId c = some k →
      k ≤ 1 + (w.oidCounter : Int) + i)
    (i : Nat) (c : Cmd) (k : Int) (hi : cs[i]? = some c) (hk : cmdId c = some k) :
    (dget w'.objects k).isSome = true := by
  rw [replay_keeps_object_iff P w w' cs hrun hinit hnc hrec hdist i c k hi hk]
  intro j hj _
  have := hfull i c k hi hk
  omega

example :
    let cs : List Cmd := [⟨1, "Foo", "__init__", [("id", .oid 2), ("value", .int 1)]⟩,
     ⟨2, "Foo", "__init__", [("id", .oid 1), ("value", .int 2)]⟩]
    (runCmds demo World.fresh cs).2 = .ok () ∧
    (runCmds demo (runOps demo World.fresh [.create "Foo" [.int 1] [] true]) cs).2 = .ok () ∧
    (dget (runCmds demo (runOps demo World.fresh [.create "Foo" [.int 1] [] true]) cs).1.objects
      2).isSome = true ∧
    (dget (runCmds demo World.fresh cs).1.objects 2).isSome = false := by decide

end Verif
