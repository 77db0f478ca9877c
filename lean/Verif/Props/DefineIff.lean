import Verif.Lemmas.DefineIff
import Verif.Lemmas.Registry
import Verif.Props.Define
import Verif.Props.SaveAny
import Verif.Lemmas.Api
/-! # C15: exactly when a saved file defines every object before using it -/

namespace Verif

theorem loadLoop_noConv {q : Nat} : ∀ {l : List JCmd} {w : World},
    (∀ c ∈ commandsOf w q, NoConv c) → ∀ c ∈ commandsOf (loadLoop w q l).1 q, NoConv c := by
  intro l
  induction l with
  | nil => intro w h; exact h
  | cons j l ih =>
    intro w h
    unfold loadLoop
    split
    · exact h
    · split
      · exact h
      · split
        · apply ih
          rename_i ps _ _
          cases hu : w.queues[q]? with
          | none =>
            intro c hc
            unfold pushCmd at hc
            dsimp only at hc
            rw [commandsOf_setQueue] at hc
            rw [if_pos rfl] at hc
            simp [hu] at hc
          | some u =>
            cases hr : u.readonly with
            | true =>
              have : ∀ a b, commandsOf (pushCmd w q a b
                  (ps.map (fun p => (p.1, decodeVal p.2)))) q = commandsOf w q := by
                intro a b
                unfold pushCmd
                dsimp only
                rw [commandsOf_setQueue, if_pos rfl]
                simp [commandsOf, hu, Queue.push, hr]
              rw [this]
              exact h
            | false =>
              rw [commandsOf_pushCmd _ _ _ hu hr, if_pos rfl]
              intro c hc
              rcases List.mem_append.1 hc with hc | hc
              · exact h c hc
              · rw [List.mem_singleton.1 hc]
                intro p hp f v
                rw [stripObjs_eq] at hp
                obtain ⟨p1, hp1, rfl⟩ := List.mem_map.1 hp
                obtain ⟨p2, _, rfl⟩ := List.mem_map.1 hp1
                dsimp only
                cases p2.2 <;> simp [decodeVal, stripVal]
        · exact h

theorem loadQueue_noConv {w : World} {f : File} {q : Nat} {arg : Option Nat} {u}
    (hd : Designates w q arg) (h : loadQueue w f arg = (u, .ok ())) :
    ∀ c ∈ commandsOf u q, NoConv c := by
  unfold loadQueue at h
  cases f with
  | doc l =>
    dsimp only at h
    rw [pickQueue_designates hd] at h
    have := loadLoop_noConv (l := l) (q := q) (w := emptyQueue w q) (by
      intro c hc
      rw [commandsOf_emptyQueue, if_pos rfl] at hc
      cases hc)
    dsimp only at h
    rw [h] at this
    exact this
  | _ => cases h

theorem loadLoop_objects {q : Nat} : ∀ {l : List JCmd} {w : World},
    (loadLoop w q l).1.objects = w.objects := by
  intro l
  induction l with
  | nil => intro w; rfl
  | cons j l ih =>
    intro w
    unfold loadLoop
    split
    · rfl
    · split
      · rfl
      · split
        · rw [ih]; rfl
        · rfl

theorem loadQueue_objects {w : World} {f : File} {q : Nat} {arg : Option Nat}
    (hd : Designates w q arg) : (loadQueue w f arg).1.objects = w.objects := by
  unfold loadQueue
  cases f with
  | doc l =>
    dsimp only
    rw [pickQueue_designates hd, loadLoop_objects]
    rfl
  | _ => rfl

theorem coherent_acts {P : Prog} : ∀ {as : List Act} {w : World}, RegistryCoherent w →
    RegistryCoherent (runActs P w as)
  | [], _, h => h
  | a :: as, w, h => coherent_acts (as := as) (w := (step P w a.op).1) (coherent_closed.step h)

/-- C15, exactly. The file saved after a session of successful actions on live objects creates every
object before using it just when none of the recorded values builds an object while saving, and each
number that is looked up while saving is that of an object created by an earlier command. -/
theorem saved_defines_first_iff (P : Prog) (hP : ProgOK P) (hc : PlainConversions P) (ij : Codec)
    (cs : Dict (String × String) Nat) (as : List Act)
    (hs : Succeeds P (World.start cs) as) (hl : LiveSession P (World.start cs) as)
    (fuel : Nat) (old file : File) (w' : World)
    (hsave : saveQueue P ij fuel (runActs P (World.start cs) as) none old = some (w', file, .ok ()))
    (hp : ∀ c ∈ commandsOf w' 0, ProperCmd P c)
    (w2 : World) (q2 : Nat) (u2 : Queue) (arg2 : Option Nat)
    (hq2 : w2.queues[q2]? = some u2) (hd2 : Designates w2 q2 arg2) (hr2 : u2.readonly = false) :
    ∃ w2', loadQueue w2 file arg2 = (w2', .ok ()) ∧ (DefinesFirst (commandsOf w2' q2) ↔
      (∀ c ∈ commandsOf (runActs P (World.start cs) as) 0, ∀ p ∈ c.params, ¬ CallsClass P p.2) ∧
        LooksBack P (commandsOf (runActs P (World.start cs) as) 0)) := by
  have hcoh : RegistryCoherent (runActs P (World.start cs) as) :=
    coherent_acts (by intro k r hk; cases hk)
  have hinv := defInv_session hP (defInv_start cs) hs hl
  have hlow := idsLow_session (as := as) hP (idsLow_start cs)
  generalize runActs P (World.start cs) as = w at *
  rcases hinv.on.target with ⟨ha, u, hu, _⟩ | ⟨hna, h0⟩
  · have hd : Designates w 0 none := Or.inr ⟨ha, Or.inl rfl⟩
    have hp' : ∀ u', w'.queues[0]? = some u' → ∀ c ∈ u'.commands, ProperCmd P c := by
      intro u' hu' c hc
      exact hp c (by simpa [commandsOf, hu'] using hc)
    obtain ⟨u', w2', h1, h2, h3, h4⟩ := save_load_any_partial P ij w w' 0 u none fuel old file hu hd
      hsave hp' w2 q2 u2 arg2 hq2 hd2 hr2
    obtain ⟨hg, hst⟩ := saveQueue_grows hu hd hsave hp'
    have hcu : commandsOf w 0 = u.commands := by simp [commandsOf, hu]
    refine ⟨w2', h3, saved_defines_iff hc hinv hlow hg (hcu ▸ h2) ?_ ?_ h4⟩
    · intro m r o hm ho
      obtain ⟨o', ho', hid⟩ := hcoh m r hm
      rw [ho] at ho'
      cases ho'
      exact hid
    intro hb
    have hw := hst (hcu ▸ hb)
    rw [hw, hu] at h1
    cases h1
    exact ⟨hcu.symm, hw⟩
  · -- nothing was recorded
    have hnil : commandsOf w 0 = [] := by
      unfold commandsOf
      rw [List.getElem?_eq_none (by omega)]
    have hlen : w.queues = [] := List.eq_nil_of_length_eq_zero h0.symm
    have hf : file = .doc [] := by
      unfold saveQueue pickQueue getQueue getQueue.activeOrNew at hsave
      rw [hna] at hsave
      simp only [newQueue, hlen] at hsave
      cases fuel with
      | zero => cases hsave
      | succ fuel =>
        simp only [dumpLoop, List.length_nil, List.nil_append, List.getElem?_cons_zero,
          List.getElem?_nil, encodeAll] at hsave
        cases hsave
        rfl
    subst hf
    refine ⟨emptyQueue w2 q2, ?_, ?_⟩
    · unfold loadQueue
      dsimp only
      rw [pickQueue_designates hd2]
      rfl
    · rw [hnil, commandsOf_emptyQueue, if_pos rfl]
      constructor
      · intro _
        refine ⟨fun c hc => (by cases hc), fun pre c post h => (by simp at h)⟩
      · intro _ pre c post n h
        simp at h

/-- A process without objects runs a queue only if the queue creates every object before using it. -/
theorem run_defines_first (P : Prog) (w w' : World) (q : Nat) (hno : w.objects = [])
    (hn : ∀ c ∈ commandsOf w q, NoConv c) (h : runQueue P w q = (w', .ok ())) :
    DefinesFirst (commandsOf w q) := by
  unfold runQueue at h
  cases hu : w.queues[q]? with
  | none => rw [hu] at h; cases h
  | some u =>
    rw [hu] at h
    dsimp only at h
    have hcu : commandsOf w q = u.commands := by simp [commandsOf, hu]
    rw [hcu] at hn ⊢
    cases hrun : runCmds P (setQueue w q (fun u => { u with readonly := true })) u.commands with
    | mk w1 res =>
      rw [hrun] at h
      cases res with
      | error e => cases h
      | ok _ =>
        intro pre c post n heq huse
        rcases runCmds_registry hn hrun pre c post n heq huse with ⟨r, hr⟩ | h'
        · rw [show (setQueue w q (fun u => { u with readonly := true })).objects = [] from hno] at hr
          cases hr
        · exact h'

/-- C15 and C62 fail for every session in which saving builds an object: no process without objects,
whatever its classes, can run the file. -/
theorem built_replay_fails (P : Prog) (hP : ProgOK P) (hc : PlainConversions P) (ij : Codec)
    (cs : Dict (String × String) Nat) (as : List Act)
    (hs : Succeeds P (World.start cs) as) (hl : LiveSession P (World.start cs) as)
    (fuel : Nat) (old file : File) (w' : World)
    (hsave : saveQueue P ij fuel (runActs P (World.start cs) as) none old = some (w', file, .ok ()))
    (hp : ∀ c ∈ commandsOf w' 0, ProperCmd P c)
    (c : Cmd) (hcm : c ∈ commandsOf (runActs P (World.start cs) as) 0) (p : String × Val)
    (hpm : p ∈ c.params) (hb : CallsClass P p.2)
    (P2 : Prog) (w2 : World) (q2 : Nat) (u2 : Queue) (arg2 : Option Nat) (hno : w2.objects = [])
    (hq2 : w2.queues[q2]? = some u2) (hd2 : Designates w2 q2 arg2) (hr2 : u2.readonly = false) :
    ∃ w2', loadQueue w2 file arg2 = (w2', .ok ()) ∧ (runQueue P2 w2' q2).2 ≠ .ok () := by
  obtain ⟨w2', h1, h2⟩ := saved_defines_first_iff P hP hc ij cs as hs hl fuel old file w' hsave hp
    w2 q2 u2 arg2 hq2 hd2 hr2
  refine ⟨w2', h1, ?_⟩
  intro hrun
  have hobj := loadQueue_objects (f := file) hd2
  rw [h1, hno] at hobj
  have := run_defines_first P2 w2' (runQueue P2 w2' q2).1 q2 hobj (loadQueue_noConv hd2 h1)
    (by rw [← hrun])
  exact (h2.1 this).1 c hcm p hpm hb

/-- The conversions of the example program meet the condition. -/
theorem demo_plain : PlainConversions demo := by
  intro f x g hf y hg
  simp only [demo] at hf
  split at hf
  · cases hf
  · cases hf
    revert hg
    cases x <;> intro hg <;> simp at hg <;> (try subst hg) <;> simp [Val.isObj]

/-- The session of `saved_defines_first_fails` meets the hypotheses: the float given for a `Foo` builds
one. -/
example : ∃ w' l,
    saveQueue demo (fun _ _ => none) 9 (runActs demo
      (World.start [(("float", "Foo"), 1), (("float", "int"), 0)])
      [.create "Foo" [.int 7] [], .call 0 "attach" [.float 5] []]) none .absent =
      some (w', .doc l, .ok ()) ∧
    commandsOf w' 0 = [⟨1, "Foo", "__init__", [("id", .oid 1), ("value", .int 7)]⟩,
      ⟨2, "Foo", "attach", [("id", .oid 1), ("other", .conv 1 (.float 5))]⟩,
      ⟨3, "Foo", "__init__", [("id", .oid 2), ("value", .conv 0 (.float 5))]⟩] :=
  ⟨_, _, rfl, rfl⟩

example : CallsClass demo (.conv 1 (.float 5)) := ⟨1, .float 5, "Foo", _, rfl, rfl⟩

/-- So its file cannot be run anywhere. -/
example (P2 : Prog) (w2 : World) (q2 : Nat) (u2 : Queue) (arg2 : Option Nat) (hno : w2.objects = [])
    (hq2 : w2.queues[q2]? = some u2) (hd2 : Designates w2 q2 arg2) (hr2 : u2.readonly = false) :
    ∃ file w2', (saveQueue demo (fun _ _ => none) 9 (runActs demo
      (World.start [(("float", "Foo"), 1), (("float", "int"), 0)])
      [.create "Foo" [.int 7] [], .call 0 "attach" [.float 5] []]) none .absent).map
        (fun r => r.2.1) = some file ∧
      loadQueue w2 file arg2 = (w2', .ok ()) ∧ (runQueue P2 w2' q2).2 ≠ .ok () := by
  have hproper : ∀ c ∈ [Cmd.mk 1 "Foo" "__init__" [("id", .oid 1), ("value", .int 7)],
      ⟨2, "Foo", "attach", [("id", .oid 1), ("other", .conv 1 (.float 5))]⟩,
      ⟨3, "Foo", "__init__", [("id", .oid 2), ("value", .conv 0 (.float 5))]⟩],
      ProperCmd demo c := by
    intro c hc
    simp only [List.mem_cons, List.not_mem_nil, or_false] at hc
    rcases hc with rfl | rfl | rfl
    all_goals
      refine ⟨by decide, by decide, by decide, ⟨_, rfl⟩, ?_⟩
      intro p hp b he
      simp only [List.mem_cons, List.not_mem_nil, or_false] at hp
      rcases hp with rfl | rfl <;> cases he
  obtain ⟨w2', h1, h2⟩ := built_replay_fails demo demo_ok demo_plain (fun _ _ => none)
    [(("float", "Foo"), 1), (("float", "int"), 0)]
    [.create "Foo" [.int 7] [], .call 0 "attach" [.float 5] []]
    (by decide) (by refine ⟨⟨by simp, by simp⟩, ⟨by simp, by simp⟩, trivial⟩) 9 .absent _ _ rfl
    hproper ⟨2, "Foo", "attach", [("id", .oid 1), ("other", .conv 1 (.float 5))]⟩
    (by exact List.mem_cons_of_mem _ List.mem_cons_self) ("other", .conv 1 (.float 5)) (by simp)
    ⟨1, .float 5, "Foo", _, rfl, rfl⟩ P2 w2 q2 u2 arg2 hno hq2 hd2 hr2
  exact ⟨_, w2', rfl, h1, h2⟩

/-- A session whose conversion builds nothing: the file defines first. -/
example : ∃ w' l,
    saveQueue demo (fun _ _ => none) 9 (runActs demo
      (World.start [(("float", "Foo"), 1), (("float", "int"), 0)])
      [.create "Foo" [.float 7] [], .create "Foo" [.int 8] [], .call 0 "attach" [.obj 1] []]) none
      .absent = some (w', .doc l, .ok ()) ∧
    commandsOf w' 0 = [⟨1, "Foo", "__init__", [("id", .oid 1), ("value", .conv 0 (.float 7))]⟩,
      ⟨2, "Foo", "__init__", [("id", .oid 2), ("value", .int 8)]⟩,
      ⟨3, "Foo", "attach", [("id", .oid 1), ("other(id)", .oid 2)]⟩] :=
  ⟨_, _, rfl, rfl⟩

/-! ### GSP -/

/-- GSP meets the conditions on programs. -/
theorem gsp_ok (A : ArrayInfo) : ProgOK (gspProg A) where
  wf := fun cls f sg hs => (gspProg_wf A cls f sg hs).1
  defaults := fun cls f sg hs => (gspProg_wf A cls f sg hs).2
  ctor := by
    intro cls
    have hrows : ∀ r ∈ gspRows, ∀ n, r.name = some n → r.func = "__init__" →
        hasChar '.' n = true ∨ n = "__init__" := by decide +kernel
    simp only [gspProg]
    cases hf : findRow gspRows cls "__init__" with
    | none => exact ⟨cls, by simp [meaning, show hasChar '.' "__init__" = false by decide]⟩
    | some r =>
      have hr := hrows r (findRow_mem hf)
      have hfn : r.func = "__init__" := by
        have := List.find?_some hf
        simp only [decide_eq_true_eq] at this
        exact this.2
      cases hn : r.name with
      | none =>
        refine ⟨cls, ?_⟩
        simp [hn, meaning, show hasChar '.' "__init__" = false by decide]
      | some n =>
        rcases hr n hn hfn with h | h
        · exact ⟨n, by simp [hn, meaning, h]⟩
        · subst h
          exact ⟨cls, by simp [hn, meaning, show hasChar '.' "__init__" = false by decide]⟩

theorem toColor_notObj {l : List Int} {y} (h : toColor l = .ok y) : y.isObj = false := by
  unfold toColor at h
  split at h <;> cases h <;> rfl

theorem gsp_plain (A : ArrayInfo) : PlainConversions (gspProg A) := by
  intro f x g hf y hg
  simp only [gspProg] at hf
  unfold apiConv at hf
  split at hf
  all_goals try (split at hf <;> cases hf; done)
  all_goals cases hf <;> dsimp only at hg <;> first
    | cases hg; done
    | (cases hg; rfl)
    | (split at hg <;> first
        | cases hg; done
        | (cases hg; rfl)
        | exact toColor_notObj hg
        | (split at hg <;> cases hg; rfl))

/-- No process without objects can run the file of a session in which an array that GSP does not
track was given for a buffer: the saved command refers to a buffer that the file creates only afterwards. -/
theorem gsp_array_session_fails (A : ArrayInfo) (ij : Codec) (as : List Act)
    (hs : Succeeds (gspProg A) (World.start allConverters) as)
    (hl : LiveSession (gspProg A) (World.start allConverters) as)
    (fuel : Nat) (old file : File) (w' : World)
    (hsave : saveQueue (gspProg A) ij fuel (runActs (gspProg A) (World.start allConverters) as) none
      old = some (w', file, .ok ()))
    (hp : ∀ c ∈ commandsOf w' 0, ProperCmd (gspProg A) c)
    (c : Cmd) (hcm : c ∈ commandsOf (runActs (gspProg A) (World.start allConverters) as) 0)
    (k : String) (x : Val) (hpm : (k, .conv 12 x) ∈ c.params) (hx : isTracked x = false)
    (P2 : Prog) (w2 : World) (q2 : Nat) (u2 : Queue) (arg2 : Option Nat) (hno : w2.objects = [])
    (hq2 : w2.queues[q2]? = some u2) (hd2 : Designates w2 q2 arg2) (hr2 : u2.readonly = false) :
    ∃ w2', loadQueue w2 file arg2 = (w2', .ok ()) ∧ (runQueue P2 w2' q2).2 ≠ .ok () := by
  refine built_replay_fails (gspProg A) (gsp_ok A) (gsp_plain A) ij allConverters as hs hl fuel old
    file w' hsave hp c hcm (k, .conv 12 x) hpm
    ⟨12, x, "Buffer", A.kwargs, rfl, by simp [gspProg, apiConv, hx]⟩ P2 w2 q2 u2 arg2 hno hq2 hd2 hr2

/-- The file saved after a session of the library creates every object before using it just when no
array was given for a buffer but those that GSP tracks, and every number of a canvas, and every array
that GSP tracks, stands for an object created by an earlier command. -/
theorem gsp_defines_first_iff (A : ArrayInfo) (ij : Codec) (cs : Dict (String × String) Nat) (as : List Act)
    (hs : Succeeds (gspProg A) (World.start cs) as)
    (hl : LiveSession (gspProg A) (World.start cs) as)
    (fuel : Nat) (old file : File) (w' : World)
    (hsave : saveQueue (gspProg A) ij fuel (runActs (gspProg A) (World.start cs) as) none
      old = some (w', file, .ok ()))
    (hp : ∀ c ∈ commandsOf w' 0, ProperCmd (gspProg A) c)
    (w2 : World) (q2 : Nat) (u2 : Queue) (arg2 : Option Nat)
    (hq2 : w2.queues[q2]? = some u2) (hd2 : Designates w2 q2 arg2) (hr2 : u2.readonly = false) :
    ∃ w2', loadQueue w2 file arg2 = (w2', .ok ()) ∧ (DefinesFirst (commandsOf w2' q2) ↔
      (∀ c ∈ commandsOf (runActs (gspProg A) (World.start cs) as) 0, ∀ k x, (k, Val.conv 12 x) ∈ c.params →
        isTracked x = true) ∧
      LooksBack (gspProg A) (commandsOf (runActs (gspProg A) (World.start cs) as) 0)) := by
  obtain ⟨w2', h1, h2⟩ := saved_defines_first_iff (gspProg A) (gsp_ok A) (gsp_plain A) ij cs as hs hl fuel
    old file w' hsave hp w2 q2 u2 arg2 hq2 hd2 hr2
  refine ⟨w2', h1, h2.trans (and_congr_left fun _ => forall_congr' fun c => forall_congr' fun _ => ?_)⟩
  constructor
  · intro h k x hx
    cases ht : isTracked x with
    | true => rfl
    | false => exact absurd ⟨12, x, "Buffer", A.kwargs, rfl, by simp [gspProg, apiConv, ht]⟩ (h _ hx)
  · rintro h ⟨k, v⟩ hpm ⟨f, x, cls, kw, hv, hf⟩
    dsimp only at hv
    subst hv
    have h12 : f = 12 := by
      simp only [gspProg] at hf
      unfold apiConv at hf
      split at hf <;> first
        | rfl
        | cases hf
    subst h12
    have := h k x hpm
    simp [gspProg, apiConv, this] at hf

/-- A session of the library with an array: `Pixels` is recorded with a conversion, and the file
refers to the buffer 4 before it is created. -/
example :
    let P := gspProg { count := fun _ => 2, dtype := fun _ => 0, content := fun _ => 0 }
    let as : List Act := [.create "Pixels" [.inst "ndarray" 3, .inst "Color" 0] [],
      .create "Canvas" [.int 4, .int 3, .float 1] [],
      .create "Viewport" [.obj 1, .int 0, .int 0, .int 4, .int 3, .inst "Color" 0] []]
    let w := runActs P (World.start allConverters) as
    Succeeds P (World.start allConverters) as ∧
    (commandsOf w 0).map (fun c => c.params.filter (fun p => p.1 = "positions")) =
      [[("positions", .conv 12 (.inst "ndarray" 3))], [], []] ∧
    (dumpQueue P (apiCodec (fun _ => "") (fun _ => "")) 9 w none).bind (fun r =>
      r.2.toOption.map (fun l => l.map (fun j => (j.method, j.params.map (fun ps =>
        ps.filter (fun p => p.1 = "id" ∨ p.1 = "positions(id)")))))) =
      some [(some "visual.Pixels", some [("id", .int 1), ("positions(id)", .int 4)]),
        (some "core.Canvas", some [("id", .int 2)]), (some "core.Viewport", some [("id", .int 3)]),
        (some "core.Buffer", some [("id", .int 4)])] := by
  decide +kernel

/-- With an array that GSP tracks, whose buffer was created with it, the file refers to that buffer. -/
example :
    let P := gspProg ⟨fun _ => 2, fun _ => 0, fun _ => 0, fun _ => "", fun _ => none,
      fun p => if p = 3 then some 1 else none⟩
    let as : List Act := [.create "Buffer" [.int 2, .inst "Float32DType" 0, .inst "memoryview" 0] [],
      .create "Pixels" [.inst "tracked" 3, .inst "Color" 0] []]
    let w := runActs P (World.start allConverters) as
    Succeeds P (World.start allConverters) as ∧
    (dumpQueue P (apiCodec (fun _ => "") (fun _ => "")) 9 w none).bind (fun r =>
      r.2.toOption.map (fun l => l.map (fun j => (j.method, j.params.map (fun ps =>
        ps.filter (fun p => p.1 = "id" ∨ p.1 = "positions(id)")))))) =
      some [(some "core.Buffer", some [("id", .int 1)]),
        (some "visual.Pixels", some [("id", .int 2), ("positions(id)", .int 1)])] := by
  decide +kernel

end Verif
