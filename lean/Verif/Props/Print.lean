import Verif.Lemmas.Print
import Verif.Props.Listing
import Verif.Props.SaveAny
/-! # C101: printed commands and queues -/

namespace Verif

/-- The full claim of C101: whatever is in a queue, recorded or loaded, can be printed. -/
def QueuesPrint : Prop :=
  ∀ (P : Prog) (cs : Dict (String × String) Nat) (ops : List Op) (name : String) (file : File)
    (w : World) (q : Nat) (u : Queue),
    (∀ cls f sg, P.sig cls f = some sg → sg.WF) →
    gspLoad (runOps P (World.start cs) ops) name (some "json") file = (w, .ok ()) →
    w.queues[q]? = some u → ∃ s, queueText w q = .ok s

/-- C101 fails: a file whose command has a text as id loads, and its queue cannot be printed. -/
theorem queues_print_fails : ¬ QueuesPrint := by
  intro h
  have := h { demo with sig := fun _ _ => none } [] [] "a.json"
    (.doc [⟨some "core.Canvas", 1, some [("id", .str "a")]⟩]) _ 0 _ (by intro _ _ _ h; cases h) rfl rfl
  obtain ⟨s, hs⟩ := this
  cases hs

/-- C101 (part). After any history of calls, queues, replays and changes of settings, every queue
can be printed, and so can every command, in both ways; `dump` prints one line for the command and
one for each of its parameters. -/
theorem recorded_print (P : Prog) (hP : ∀ cls f sg, P.sig cls f = some sg → sg.WF)
    (cs : Dict (String × String) Nat) (ops : List Op) (q : Nat) (u : Queue)
    (hq : (runOps P (World.start cs) ops).queues[q]? = some u) :
    (∃ s, queueText (runOps P (World.start cs) ops) q = .ok s) ∧
    ∀ c ∈ u.commands, (∃ s, cmdText c = .ok s) ∧
      ∀ w names, ∃ l, cmdDump w names c = .ok l ∧ l.length = 1 + c.params.length := by
  have hi : AllIds (runOps P (World.start cs) ops) :=
    (allIds_closed hP).runOps (by intro u hu; cases hu)
  have hc : ∀ c ∈ u.commands, PrintsNumber c := by
    intro c hc
    obtain ⟨n, hn⟩ := hi u (List.mem_of_getElem? hq) c hc
    exact ⟨_, n, hn, rfl⟩
  constructor
  · obtain ⟨ls, hls⟩ := mapM_isOk (fun c h => (cmdText_iff c).2 (hc c h))
    simp only [queueText, hq, hls]
    exact ⟨_, rfl⟩
  · intro c h
    refine ⟨(cmdText_iff c).2 (hc c h), ?_⟩
    intro w names
    obtain ⟨v, n, h1, h2⟩ := hc c h
    simp only [cmdDump, h1, h2]
    exact ⟨_, rfl, by simp [Nat.add_comm]⟩

/-- C101 (part). Any queue, whatever fills it, can be printed exactly when the id of each of its
commands is a number; otherwise printing raises and prints nothing. -/
theorem queue_prints_iff (w : World) (q : Nat) (u : Queue) (hq : w.queues[q]? = some u) :
    (∃ s, queueText w q = .ok s) ↔ ∀ c ∈ u.commands, PrintsNumber c := by
  simp only [queueText, hq]
  constructor
  · rintro ⟨s, hs⟩ c hc
    cases hm : u.commands.mapM cmdText with
    | error e => rw [hm] at hs; cases hs
    | ok ls =>
      have hf := mapM_ok_forall hm
      obtain ⟨i, hi, rfl⟩ := List.mem_iff_getElem.1 hc
      have hl : i < ls.length := by rw [← hf.length_eq]; exact hi
      exact (cmdText_iff _).1 ⟨ls[i], hf.get hi hl⟩
  · intro h
    obtain ⟨ls, hls⟩ := mapM_isOk (fun c hc => (cmdText_iff c).2 (h c hc))
    rw [hls]
    exact ⟨_, rfl⟩

/-- C101 (part). A queue that was saved and loaded again, in any process, can be printed, as
examples/common/launcher.py does with `--command_file_cycle`. -/
theorem saved_queue_prints (P : Prog) (ij : Codec) (w w' : World) (q : Nat) (u : Queue)
    (arg : Option Nat) (fuel : Nat) (old file : File)
    (hq : w.queues[q]? = some u) (hd : Designates w q arg)
    (hsave : saveQueue P ij fuel w arg old = some (w', file, .ok ()))
    (hp : ∀ u', w'.queues[q]? = some u' → ∀ c ∈ u'.commands, ProperCmd P c)
    (w2 : World) (q2 : Nat) (u2 : Queue) (arg2 : Option Nat)
    (hq2 : w2.queues[q2]? = some u2) (hd2 : Designates w2 q2 arg2) (hr2 : u2.readonly = false) :
    ∃ w2', loadQueue w2 file arg2 = (w2', .ok ()) ∧
      (∀ c ∈ commandsOf w2' q2, ∃ s, cmdText c = .ok s) ∧
      ∀ u3, w2'.queues[q2]? = some u3 → ∃ s, queueText w2' q2 = .ok s := by
  obtain ⟨u', w2', h1, _, h3, h4⟩ := save_load_any_partial P ij w w' q u arg fuel old file hq hd
    hsave hp w2 q2 u2 arg2 hq2 hd2 hr2
  have hn : ∀ c ∈ commandsOf w2' q2, PrintsNumber c := by
    intro c hc
    obtain ⟨i, hi, rfl⟩ := List.mem_iff_getElem.1 hc
    have hl : i < u'.commands.length := by rw [h4.length_eq]; exact hi
    obtain ⟨n, hn⟩ := (hp u' h1 _ (List.getElem_mem hl)).id
    exact ⟨_, n, savedParams_id (h4.get hl hi).params hn, rfl⟩
  refine ⟨w2', h3, fun c hc => (cmdText_iff c).2 (hn c hc), ?_⟩
  intro u3 hu3
  refine (queue_prints_iff w2' q2 u3 hu3).2 ?_
  intro c hc
  exact hn c (by rw [commandsOf, hu3]; exact hc)

/-- C101 (part). The text of a command tells which one it is: two commands with the same text have
the same number, the same class and the same object, and both create it or both call the same
method. Class names, as Python has them, contain no parenthesis. -/
theorem command_text_tells (c c' : Cmd) (s : List Char) (h : cmdText c = .ok s)
    (h' : cmdText c' = .ok s) (hp : '(' ∉ c.cls.toList) (hp' : '(' ∉ c'.cls.toList) :
    ReadsSame c c' :=
  cmdText_same h h' hp hp'

/-- C101 (part). What `dump` prints tells, in the same way, which command it is, and the names of its
parameters in order. Class names contain no parenthesis and no space, names of parameters no colon. -/
theorem command_dump_tells (w w' : World) (names names' : Nat → List Char) (c c' : Cmd)
    (ls : List (List Char)) (h : cmdDump w names c = .ok ls) (h' : cmdDump w' names' c' = .ok ls)
    (hp : '(' ∉ c.cls.toList ∧ ' ' ∉ c.cls.toList) (hp' : '(' ∉ c'.cls.toList ∧ ' ' ∉ c'.cls.toList)
    (hn : ∀ p ∈ c.params, ':' ∉ p.1.toList) (hn' : ∀ p ∈ c'.params, ':' ∉ p.1.toList) :
    ReadsSame c c' ∧ c.params.map (·.1) = c'.params.map (·.1) := by
  obtain ⟨h1, h2⟩ := cmdDump_same h h' hp hp'
  refine ⟨h1, ?_⟩
  generalize c.params = ps at h2 hn
  generalize c'.params = ps' at h2 hn'
  clear h h' h1
  induction ps generalizing ps' with
  | nil => cases ps' with
    | nil => rfl
    | cons p ps' => simp at h2
  | cons p ps ih => cases ps' with
    | nil => simp at h2
    | cons p' ps' =>
      simp only [List.map_cons, List.cons.injEq] at h2 ⊢
      exact ⟨dumpLine_cut h2.1 (hn p (by simp)) (hn' p' (by simp)),
        ih (fun q hq => hn q (by simp [hq])) ps' h2.2 (fun q hq => hn' q (by simp [hq]))⟩

/-- Command 7 creates a buffer of 3 items, the contents being converted when it is executed. -/
example : cmdDump (World.start []) (fun _ => "as_buffer".toList)
      ⟨7, "Buffer", "core.Buffer", [("id", .oid 2), ("count", .int 3), ("data", .conv 0 (.str "ab"))]⟩ =
    .ok ["#007: Creation of Buffer(id=2)".toList, "      | id: OID".toList, "      | count: int".toList,
      "      | data: str (→ as_buffer)".toList] := by decide +kernel

/-- C101 (part). The text of a queue tells its name, whether it is active, whether it can be
written, and its commands in order: two queues, in any two sessions, with the same text agree in
all of this. -/
theorem queue_text_tells (w w' : World) (q q' : Nat) (u u' : Queue) (s : List Char)
    (hq : w.queues[q]? = some u) (hq' : w'.queues[q']? = some u')
    (hn : '"' ∉ u.name.toList) (hn' : '"' ∉ u'.name.toList)
    (hp : ∀ c ∈ u.commands, PlainNames c) (hp' : ∀ c ∈ u'.commands, PlainNames c)
    (h : queueText w q = .ok s) (h' : queueText w' q' = .ok s) :
    u.name = u'.name ∧ (w.active = some q ↔ w'.active = some q') ∧ u.readonly = u'.readonly ∧
      List.Forall₂ ReadsSame u.commands u'.commands := by
  simp only [queueText, hq] at h
  simp only [queueText, hq'] at h'
  cases hm : u.commands.mapM cmdText with
  | error e => rw [hm] at h; cases h
  | ok ls =>
    cases hm' : u'.commands.mapM cmdText with
    | error e => rw [hm'] at h'; cases h'
    | ok ls' =>
      rw [hm] at h
      rw [hm'] at h'
      dsimp only at h h'
      have hf := mapM_ok_forall hm
      have hf' := mapM_ok_forall hm'
      obtain ⟨e1, e2, e3, _, e5⟩ := queueHead_inj hn hn'
        ((Except.ok.inj h).trans (Except.ok.inj h').symm)
      have hline : ∀ {v : Queue} {l : List (List Char)}, (∀ c ∈ v.commands, PlainNames c) →
          List.Forall₂ (fun a b => cmdText a = .ok b) v.commands l → ∀ s ∈ l, '\n' ∉ s := by
        intro v l hpl hfl s hs
        obtain ⟨i, hi, rfl⟩ := List.mem_iff_getElem.1 hs
        have hl : i < v.commands.length := by rw [hfl.length_eq]; exact hi
        exact newline_cmdText (hfl.get hl hi) (hpl _ (List.getElem_mem hl))
      have el := lines_inj (hline hp hf) (hline hp' hf') e5
      subst el
      refine ⟨e1, ?_, e3, ?_⟩
      · rw [Bool.eq_iff_iff] at e2
        simpa using e2
      · rw [List.forall₂_iff_get]
        have hlen := hf.length_eq.trans hf'.length_eq.symm
        refine ⟨hlen, ?_⟩
        intro i h1 h2
        have h3 : i < ls.length := by rw [← hf.length_eq]; exact h1
        exact cmdText_same (hf.get h1 h3) (hf'.get h2 h3)
          (hp _ (List.getElem_mem h1)).1 (hp' _ (List.getElem_mem h2)).1

/-- C101 (part). In `gsp` every command that creates an object is printed as a creation, and no
other is. -/
theorem gsp_creations_marked (A : ArrayInfo) (cls f : String) (sg : Sig)
    (hs : (gspProg A).sig cls f = some sg) (n : Nat) (ps : Dict String Val) :
    (Cmd.mk n cls (((gspProg A).override cls f).getD f) ps).Creation ↔ f = "__init__" := by
  have h : ∀ r ∈ gspRows, ((r.name.getD r.func) = "" ∨ '.' ∈ (r.name.getD r.func).toList) ↔
      r.func = "__init__" := by decide +kernel
  replace hs : (findRow gspRows cls f).map Row.sig = some sg := hs
  cases hr : findRow gspRows cls f with
  | none => rw [hr] at hs; cases hs
  | some r =>
    have hf := List.find?_some hr
    simp only [decide_eq_true_eq] at hf
    have := h r (findRow_mem hr)
    rw [hf.2] at this
    have e : (gspProg A).override cls f = r.name := by
      show (findRow gspRows cls f).bind Row.name = _
      rw [hr]
      rfl
    unfold Cmd.Creation
    dsimp only
    rw [e]
    exact this

/-- C101. For other programs this fails: a constructor decorated without a name is printed as a
call of `__init__`. -/
theorem creations_marked_fails : ¬ ∀ (P : Prog) (cls : String) (args : List Val)
    (c : Cmd), (∀ cls f sg, P.sig cls f = some sg → sg.WF) →
    commandsOf (step P (World.start []) (.create cls args [] false)).1 0 = [c] → c.Creation := by
  intro h
  have := h demo "Foo" [.int 1] _ demo_wf rfl
  revert this
  unfold Cmd.Creation
  decide

/-! ### The text format -/

/-- C101 (part). One recorded command in the text format, when the delayed conversions of its
values succeed and give no objects: `KeyError` exactly when a parameter refers to an object;
otherwise the same block as in the other format, one line per parameter. Nothing changes
in the session. -/
theorem text_command (P : Prog) (hP : Annotated P) (cs : Dict (String × String) Nat)
    (ops : List Op) (q : Nat) (u : Queue)
    (hq : (runOps P (World.start cs) ops).queues[q]? = some u) (c : Cmd) (hc : c ∈ u.commands)
    (hs : ∀ p ∈ c.params, ∃ s, shownAs P (runOps P (World.start cs) ops) p.2 = some s ∧
      ∀ n, s ≠ .objectId n) :
    ((∃ p ∈ c.params, ∃ name, p.1 = name ++ "(id)") →
      textCommand P (recordedAnnots P c) (runOps P (World.start cs) ops) c =
        (runOps P (World.start cs) ops, .error .keyError)) ∧
    ((¬ ∃ p ∈ c.params, ∃ name, p.1 = name ++ "(id)") →
      ∃ e, textCommand P (recordedAnnots P c) (runOps P (World.start cs) ops) c =
        (runOps P (World.start cs) ops, .ok e) ∧
        EntryOf P (runOps P (World.start cs) ops) c e) := by
  have hk : AllKeep P (runOps P (World.start cs) ops) :=
    (allKeep_closed hP).runOps (by intro u hu; cases hu)
  generalize runOps P (World.start cs) ops = w at *
  have hkc := hk u (List.mem_of_getElem? hq) c hc
  obtain ⟨e, h1, h2⟩ := listCommand_ok hP hkc (fun p hp => by
    obtain ⟨s, hs, _⟩ := hs p hp
    rw [hs]; rfl)
  obtain ⟨func, sg, k1, k2, k3⟩ := hkc
  have hann : recordedAnnots P c = some sg.annots := by
    unfold recordedAnnots
    rw [k2, (funcOf_name hP k1).1, k1]
    rfl
  have ht := textParams_eq (P := P) (w := w) (hP.wf _ _ _ k1) (ps := c.params) (acc := []) hs
    (fun p hp => by
      rcases k3 p hp with h | ⟨h, h'⟩
      · exact Or.inl h
      · exact Or.inr ⟨h, hP.all _ _ _ k1 _ h'⟩)
  have hiff : (c.params.any (fun p => endsWithId p.1) = true) ↔
      ∃ p ∈ c.params, ∃ name, p.1 = name ++ "(id)" := by
    rw [List.any_eq_true]
    constructor
    · rintro ⟨p, hp, he⟩
      obtain ⟨t, ht⟩ := List.isSuffixOf_iff_suffix.1 he
      refine ⟨p, hp, String.ofList t, ?_⟩
      apply String.toList_injective
      rw [← ht]
      simp
    · rintro ⟨p, hp, name, hn⟩
      refine ⟨p, hp, ?_⟩
      rw [hn]
      unfold endsWithId
      rw [List.isSuffixOf_iff_suffix]
      exact ⟨name.toList, by simp⟩
  constructor
  · intro h
    rw [if_pos (hiff.2 h)] at ht
    simp only [textCommand, hann, ht]
  · intro h
    rw [if_neg (fun h' => h (hiff.1 h'))] at ht
    refine ⟨e, ?_, h2⟩
    rw [← h1]
    simp only [textCommand, listCommand, hann, ht]
    rfl

/-! ### Examples -/

/-- The texts of the history `listed`. -/
example : (queueText (runOps demo (World.start [(("float", "int"), 0)]) listed) 0).map String.ofList =
    .ok ("CommandQueue(\"default\", active, read-write) : 5 command(s)\n" ++
      "  - Command #1: Canvas(id=1)\n" ++ "  - Command #2: Foo(id=2)/__init__(…)\n" ++
      "  - Command #3: Foo(id=3)/__init__(…)\n" ++ "  - Command #4: Foo(id=3)/set_value(…)\n" ++
      "  - Command #5: Foo(id=3)/set_next(…)\n") := by
  decide +kernel

example : (((commandsOf (runOps demo (World.start [(("float", "int"), 0)]) listed) 0)[1]?.map
    (fun c => cmdDump World.fresh (fun _ => "float_to_int".toList) c)).map
      (fun r => r.map (fun l => l.map String.ofList))) =
    some (.ok ["#002: Foo(id=2) → __init__(…)", "      | id: OID",
      "      | value: float (→ float_to_int)"]) := by
  decide +kernel

/-- The fifth command refers to an object: the text format raises `KeyError`, for the fourth it
works. -/
example :
    let w := runOps demo (World.start [(("float", "int"), 0)]) listed
    ((commandsOf w 0).map (fun c => (textCommand demo (recordedAnnots demo c) w c).2.toOption.isSome)) =
      [true, true, true, true, false] := by decide +kernel

end Verif
