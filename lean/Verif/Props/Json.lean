import Verif.Lemmas.Json
import Verif.Props.Recording
/-! # C11, C12, C17: saving and loading -/

namespace Verif

/-! ## C11 -/

/-- C11. Save a queue whose delayed conversions build no object, and load the file into any
writable queue of any process: one command is loaded per saved command, in the same order,
and stands for it (`SameCommand`: same class and method, same object id, same parameter
names, values equal up to their JSON form). The saving process is left unchanged. -/
theorem json_save_load (P : Prog) (ij : Codec) (w : World) (q : Nat) (u : Queue)
    (arg : Option Nat) (fuel : Nat) (old : File) (settled : Cmd → Cmd)
    (hq : w.queues[q]? = some u) (hd : Designates w q arg)
    (hs : ∀ c ∈ u.commands, Settles P w c (settled c))
    (hp : ∀ c ∈ u.commands, PlainCmd ij (settled c)) (hf : u.commands.length < fuel)
    (w2 : World) (q2 : Nat) (u2 : Queue) (arg2 : Option Nat)
    (hq2 : w2.queues[q2]? = some u2) (hd2 : Designates w2 q2 arg2) (hr2 : u2.readonly = false) :
    ∃ file w2', saveQueue P ij fuel w arg old = some (w, file, .ok ()) ∧
      loadQueue w2 file arg2 = (w2', .ok ()) ∧
      (commandsOf w2' q2).length = u.commands.length ∧
      ∀ (i : Nat) c, u.commands[i]? = some c →
        ∃ c', (commandsOf w2' q2)[i]? = some c' ∧ SameCommand ij (settled c) c' := by
  have hgood : ∀ j ∈ u.commands.map (fun c => jsonCmd ij w (settled c)), j.Good := by
    intro j hj
    obtain ⟨c, hc, rfl⟩ := List.mem_map.1 hj
    obtain ⟨js, h1, h2, h3⟩ := encodeParams_ok (w := w) (hp c hc).vals
    obtain ⟨n, hn⟩ := (hp c hc).id
    obtain ⟨x, hx, _⟩ := h3 _ _ hn
    refine ⟨_, _, rfl, rfl, ?_⟩
    rw [h1]
    simp [Except.toOption, dhas, hx]
  have hqe : (emptyQueue w2 q2).queues[q2]? = some (Queue.mk u2.name u2.readonly []) := by
    simp [emptyQueue, setQueue, List.getElem?_modify, hq2]
  obtain ⟨w2', a1, a2, _, _, _⟩ := loadLoop_good hgood hqe hr2
  refine ⟨_, w2', saveQueue_settle settled old hq hd hs hp hf, ?_, ?_, ?_⟩
  · unfold loadQueue
    dsimp only
    rw [pickQueue_designates hd2]
    exact a1
  · simp [commandsOf, a2]
  · intro i c hi
    have hc := List.mem_of_getElem? hi
    have hpc := hp c hc
    obtain ⟨js, h1, h2, h3⟩ := encodeParams_ok (w := w) hpc.vals
    have hparams : (loadedCmd ((emptyQueue w2 q2).cidCounter + 1 + i)
        (jsonCmd ij w (settled c))).params = js.map (fun p => (p.1, decodeVal p.2)) := by
      simp [loadedCmd, jsonCmd, h1, Except.toOption]
    have hget : ∀ k, dget (js.map (fun p => (p.1, decodeVal p.2))) k =
        (dget js k).map decodeVal := by
      intro k
      clear h1 h2 h3 hparams
      induction js with
      | nil => rfl
      | cons p js ih =>
        simp only [List.map_cons, dget]
        split
        · rfl
        · exact ih
    refine ⟨loadedCmd ((emptyQueue w2 q2).cidCounter + 1 + i) (jsonCmd ij w (settled c)),
      ?_, ?_, ?_, ?_, ?_⟩
    · simp [commandsOf, a2, hi]
    · exact meaning_jsonName hpc.name
    · obtain ⟨n, hn⟩ := hpc.id
      obtain ⟨j, hj, he⟩ := h3 _ _ hn
      unfold cmdId
      rw [hparams, hget, hj, hn]
      cases he
      rfl
    · rw [hparams]
      have : dkeys (js.map (fun p => (p.1, decodeVal p.2))) = dkeys js := by
        simp [dkeys, List.map_map, Function.comp_def]
      rw [this, h2]
    · intro k v hk
      obtain ⟨j, hj, he⟩ := h3 k v hk
      refine ⟨decodeVal j, by rw [hparams, hget, hj]; rfl, ?_⟩
      obtain ⟨j', he', hs'⟩ := encodeVal_ok (w := w) (hpc.vals (k, v) (dget_mem hk))
      rw [he] at he'
      cases he'
      exact hs'

/-- A session with a dotted class name, a reference and a list, saved and loaded. -/
example :
    let w := runOps demo World.fresh [.create "Canvas" [.int 4, .int 3] [] false,
      .create "Foo" [.int 1] [] false, .create "Foo" [.int 2] [] false,
      .call 1 "attach" [.obj 2] [] false]
    let ij : Codec := fun _ _ => none
    ∃ l, saveQueue demo ij 9 w none .absent = some (w, .doc l, .ok ()) ∧
      (commandsOf (loadQueue (runOps demo World.fresh [.queue none]) (.doc l) none).1 0) =
      [⟨1, "core.Canvas", "__init__", [("id", .int 1), ("width", .int 4), ("height", .int 3)]⟩,
       ⟨2, "Foo", "__init__", [("id", .int 2), ("value", .int 1)]⟩,
       ⟨3, "Foo", "__init__", [("id", .int 3), ("value", .int 2)]⟩,
       ⟨4, "Foo", "attach", [("id", .int 2), ("other(id)", .int 3)]⟩] :=
  ⟨_, rfl, rfl⟩

/-- The hypotheses of C11 hold of the commands of that session. -/
example : PlainCmd (fun _ _ => none)
    ⟨1, "Canvas", "core.Canvas", [("id", .oid 1), ("width", .int 4), ("height", .int 3)]⟩ where
  name := by decide
  keys := by decide
  id := ⟨1, rfl⟩
  vals := by
    intro p hp
    simp only [List.mem_cons, List.not_mem_nil, or_false] at hp
    rcases hp with rfl | rfl | rfl <;> exact trivial

/-! ## C12 -/

/-- The full claim of C12 for dump: the entries written are those of the given queue. -/
def DumpActsOnGiven (P : Prog) (ij : Codec) : Prop :=
  ∀ w q u fuel w' l, w.queues[q]? = some u →
    dumpQueue P ij fuel w (some q) = some (w', .ok l) → l.length = u.commands.length

/-- The full claim of C12 for load: the other queues are left alone. -/
def LoadActsOnGiven : Prop :=
  ∀ (w : World) (q q' : Nat) f, q < w.queues.length → q' ≠ q →
    commandsOf (loadQueue w f (some q)).1 q' = commandsOf w q'

/-- A session with a queue of one command, the active one, and an empty queue. -/
def twoQueues : World := runOps demo World.fresh
  [.queue (some "a"), .queue (some "b"), .create "Foo" [.int 1] [] false]

/-- C12 fails for dump: an empty queue is false in Python, the active queue is dumped. -/
theorem dump_acts_on_given_fails : ¬ DumpActsOnGiven demo (fun _ _ => none) := by
  intro h
  have := h twoQueues 0 ⟨"a", false, []⟩ 9
    twoQueues [⟨some "Foo/__init__", 1, some [("id", .int 1), ("value", .int 1)]⟩] rfl rfl
  revert this; decide

/-- C12 fails for load: given an empty queue, the active queue is emptied and filled. -/
theorem load_acts_on_given_fails : ¬ LoadActsOnGiven := by
  intro h
  have := h twoQueues 0 1 (.doc []) (by decide) (by decide)
  revert this; decide

/-- C12 (part), dump. A given queue that holds commands is the one whose commands are
written (see C11 for what is written), also when it is not the active one, and nothing
changes in the session. Missing: empty queues, unless active. -/
theorem dump_acts_on_given_partial (P : Prog) (ij : Codec) (w : World) (q : Nat) (u : Queue)
    (fuel : Nat) (settled : Cmd → Cmd) (hq : w.queues[q]? = some u)
    (hne : u.commands ≠ [] ∨ w.active = some q)
    (hs : ∀ c ∈ u.commands, Settles P w c (settled c))
    (hp : ∀ c ∈ u.commands, PlainCmd ij (settled c)) (hf : u.commands.length < fuel) :
    ∃ l, dumpQueue P ij fuel w (some q) = some (w, .ok l) ∧
      l.map JCmd.id = u.commands.map Cmd.cid := by
  have hd : Designates w q (some q) := by
    rcases hne with h | h
    · left; exact ⟨rfl, by simp [commandsOf, hq, h]⟩
    · right; exact ⟨h, Or.inr rfl⟩
  refine ⟨_, dumpQueue_settle settled hq hd hs hp hf, ?_⟩
  rw [List.map_map]
  apply List.map_congr_left
  intro c hc
  exact (hs c hc).1

/-- C12 (part), load. Whatever the file, loading into a given queue that holds commands, or
is the active one, leaves the other queues and the objects alone. -/
theorem load_acts_on_given_partial (w : World) (q : Nat) (f : File)
    (hne : commandsOf w q ≠ [] ∨ w.active = some q) :
    (∀ q', q' ≠ q → (loadQueue w f (some q)).1.queues[q']? = w.queues[q']?) ∧
    (loadQueue w f (some q)).1.heap = w.heap ∧
    (loadQueue w f (some q)).1.objects = w.objects := by
  have hd : Designates w q (some q) := by
    rcases hne with h | h
    · left; exact ⟨rfl, h⟩
    · right; exact ⟨h, Or.inr rfl⟩
  cases f with
  | doc cmds =>
    unfold loadQueue
    dsimp only
    rw [pickQueue_designates hd]
    obtain ⟨h1, h2⟩ := loadLoop_frame q cmds (emptyQueue w q)
    refine ⟨?_, h2.heap, h2.objects⟩
    intro q' hq'
    rw [h1 q' hq']
    simp only [emptyQueue, setQueue, List.getElem?_modify, if_neg (Ne.symm hq')]
    simp
  | _ => exact ⟨fun _ _ => rfl, rfl, rfl⟩

example : commandsOf twoQueues 1 ≠ [] ∧ twoQueues.active = some 1 := by decide

/-! ## C17 -/

/-- The full claim of C17. -/
def FailedLoadHarmless : Prop :=
  ∀ (w : World) name format f e, (gspLoad w name format f).2 = .error e →
    (gspLoad w name format f).1.objects = w.objects ∧
    ∀ q, commandsOf (gspLoad w name format f).1 q = commandsOf w q

/-- C17 fails: the registry and the active queue are emptied before anything is checked. -/
theorem failed_load_harmless_fails : ¬ FailedLoadHarmless := by
  intro h
  have := (h twoQueues "scene.xml" none .absent .valueError (by decide)).1
  revert this; decide

/-- Exactly what a load with an unknown format, or of a file that cannot be read, loses: the
registry and the commands of the active queue, always. -/
theorem failed_load_loses (w : World) (name : String) (format : Option String) (f : File)
    (hf : formatOf format name ≠ "json" ∨ ∀ l, f ≠ .doc l) :
    (∃ e, (gspLoad w name format f).2 = .error e) ∧
    (gspLoad w name format f).1.objects = [] ∧
    commandsOf (gspLoad w name format f).1 (activeIx w) = [] := by
  obtain ⟨h1, h2⟩ := gspLoad_prefix w
  unfold gspLoad
  dsimp only
  split
  · rename_i hj
    rcases hf with h | h
    · exact absurd hj h
    · cases f with
      | doc l => exact absurd rfl (h l)
      | _ => exact ⟨⟨_, rfl⟩, h1.objects, h2⟩
  · exact ⟨⟨_, rfl⟩, h1.objects, h2⟩

/-- C17 (part). What a failed load keeps: the objects themselves, the counters of ids, the
converters, the recording flags and all queues but the active one. Missing: the registry
and the active queue, see `failed_load_loses`. -/
theorem failed_load_harmless_partial (w : World) (name : String)
    (format : Option String) (f : File) :
    (gspLoad w name format f).1.heap = w.heap ∧
    (gspLoad w name format f).1.oidCounter = w.oidCounter ∧
    (gspLoad w name format f).1.converters = w.converters ∧
    (gspLoad w name format f).1.recording = w.recording ∧
    ∀ q, q ≠ activeIx w → commandsOf (gspLoad w name format f).1 q = commandsOf w q :=
  gspLoad_frame w name format f

/-- C17 (part). The loader below (`gsp.io.json.load`) leaves everything unchanged when the
file cannot be read or is no JSON document with commands. -/
theorem unreadable_file_harmless_partial (w : World) (f : File) (q : Option Nat)
    (hf : ∀ l, f ≠ .doc l) :
    (loadQueue w f q).1 = w ∧ ∃ e, (loadQueue w f q).2 = .error e := by
  cases f with
  | doc l => exact absurd rfl (hf l)
  | _ => exact ⟨rfl, _, rfl⟩

example : formatOf none "scene.xml" ≠ "json" ∧ formatOf none "a.b.json" = "json" ∧
    formatOf (some "json") "x" = "json" := by decide

/-! ## C51 -/

/-- The full claim of C51: a save that raises leaves the file as it was. -/
def FailedSaveKeepsFile (P : Prog) (ij : Codec) : Prop :=
  ∀ fuel w name format old w' f' e, gspSave P ij fuel w name format old = some (w', f', .error e) →
    f' = old

/-- C51 fails: a value that JSON cannot hold (here an instance without encoding) is found
after the file has been truncated. -/
theorem failed_save_keeps_file_fails : ∃ P : Prog, ¬ FailedSaveKeepsFile P (fun _ _ => none) := by
  refine ⟨demo, fun h => ?_⟩
  have := h 9 { World.fresh with
      queues := [⟨"q", false, [⟨1, "Foo", "set_value", [("id", .oid 1), ("value", .inst "Enum" 0)]⟩]⟩],
      active := some 0 } "a.json" none (.doc []) _ _ .typeError rfl
  revert this; decide

/-- C51 (part). A failed save keeps the file when the format is unknown or when a delayed
conversion raises; the only other outcome is a truncated file, and then all conversions had
succeeded. Missing: values that JSON refuses. -/
theorem failed_save_keeps_file_partial (P : Prog) (ij : Codec) (fuel : Nat) (w : World)
    (name : String) (format : Option String) (old : File) (w' : World) (f' : File) (e : Err)
    (h : gspSave P ij fuel w name format old = some (w', f', .error e)) :
    f' = old ∨ f' = .invalid ∧ formatOf format name = "json" ∧
      ∃ ps, dumpLoop P fuel (pickQueue w none).1 (pickQueue w none).2 0 [] = some (w', .ok ps) ∧
        encodeAll ij w' ps = .error e := by
  unfold gspSave at h
  split at h
  · rename_i hfmt
    unfold saveQueue at h
    split at h
    · simp at h
    · cases h; exact Or.inl rfl
    · rename_i ps hd
      split at h
      · rename_i he
        cases h
        exact Or.inr ⟨rfl, hfmt, ps, hd, he⟩
      · cases h
  · cases h; exact Or.inl rfl

example : gspSave demo (fun _ _ => none) 9 twoQueues "a.txt" none (.doc []) =
    some (twoQueues, .doc [], .error .valueError) := rfl

/-! ## Formats and broken files (C17, C51) -/

theorem formatOf_json_iff (format : Option String) (name : String) :
    formatOf format name = "json" ↔ IsJson format name := by
  have hsuf : suffixOf name = "json" ↔ ∃ stem : String, stem ≠ "" ∧ name = stem ++ ".json" := by
    constructor
    · intro h
      by_cases hd : '.' ∈ name.toList
      · obtain ⟨stem, ext, he, hx⟩ := exists_last_dot hd
        have hn : name = String.ofList (stem ++ '.' :: ext) := by
          rw [← he, String.ofList_toList]
        rw [hn, suffixOf_dot stem ext hx] at h
        split at h
        · exact absurd h (by decide)
        · rename_i hc
          rw [not_or] at hc
          have he : ext = "json".toList := by
            rw [← h, String.toList_ofList]
          refine ⟨String.ofList stem, ?_, ?_⟩
          · intro h0
            apply hc.2
            have := congrArg String.toList h0
            simpa using this
          · apply String.toList_inj.1
            rw [hn, he]
            simp
      · unfold suffixOf at h
        rw [splitChars_of_not_mem hd] at h
        exact absurd (show "" = "json" from h) (by decide)
    · rintro ⟨stem, hne, rfl⟩
      have : stem ++ ".json" = String.ofList (stem.toList ++ '.' :: "json".toList) := by
        apply String.toList_inj.1
        simp
      rw [this, suffixOf_dot _ _ (by decide), if_neg]
      · simp
      · intro h
        rcases h with h | h
        · exact absurd h (by decide)
        · apply hne
          apply String.toList_inj.1
          simpa using h
  unfold formatOf IsJson
  cases format with
  | none => simp [hsuf]
  | some f =>
    by_cases hf : f = ""
    · subst hf
      simp [hsuf]
    · simp [hf]

/-- C51. Saving: a file taken as JSON gets the commands of the active queue (C11), any other
is refused with `ValueError` and nothing is done. An explicit format wins over the name. -/
theorem save_format (P : Prog) (ij : Codec) (fuel : Nat) (w : World) (name : String)
    (format : Option String) (old : File) :
    (IsJson format name → gspSave P ij fuel w name format old =
      saveQueue P ij fuel w none old) ∧
    (¬ IsJson format name → gspSave P ij fuel w name format old =
      some (w, old, .error .valueError)) := by
  constructor
  · intro h
    unfold gspSave
    rw [if_pos ((formatOf_json_iff _ _).2 h)]
  · intro h
    unfold gspSave
    rw [if_neg (fun h' => h ((formatOf_json_iff _ _).1 h'))]

/-- C17. Loading: a file not taken as JSON is refused with `ValueError`; an error for another
reason means that it is taken as JSON. -/
theorem load_format (w : World) (name : String) (format : Option String) (f : File) :
    (¬ IsJson format name → (gspLoad w name format f).2 = .error .valueError) ∧
    (IsJson format name → (gspLoad w name format f).2 = (loadQueue (gspLoadStart w) f none).2) := by
  have hdef : gspLoad w name format f = if formatOf format name = "json" then
      loadQueue (gspLoadStart w) f none else (gspLoadStart w, .error .valueError) := rfl
  constructor
  · intro h
    rw [hdef, if_neg (fun h' => h ((formatOf_json_iff _ _).1 h'))]
  · intro h
    rw [hdef, if_pos ((formatOf_json_iff _ _).2 h)]

/-- C17. A file with a broken entry: exactly the commands before it are loaded, in order, and
the error is `KeyError` without method or parameters, `ValueError` without id. -/
theorem broken_file_loads_prefix (w : World) (q : Nat) (u : Queue) (arg : Option Nat)
    (hq : w.queues[q]? = some u) (hd : Designates w q arg) (hr : u.readonly = false)
    (good rest : List JCmd) (bad : JCmd) (hg : ∀ j ∈ good, j.Complete) (hb : ¬ bad.Complete) :
    (loadQueue w (.doc (good ++ bad :: rest)) arg).2 =
      .error (if bad.method = none ∨ bad.params = none then .keyError else .valueError) ∧
    commandsOf (loadQueue w (.doc (good ++ bad :: rest)) arg).1 q =
      good.mapIdx (fun i j => loadedCmd (w.cidCounter + 1 + i) j) := by
  have hiff : ∀ ps : Dict String JVal, dhas ps "id" = true ↔ "id" ∈ ps.map Prod.fst := by
    intro ps
    exact (dhas_iff _ _).trans (mem_dkeys _ _).symm
  have hgood : ∀ j ∈ good, j.Good := by
    intro j hj
    obtain ⟨h1, ps, h2, h3⟩ := hg j hj
    obtain ⟨m, hm⟩ := Option.isSome_iff_exists.1 h1
    exact ⟨m, ps, hm, h2, (hiff ps).2 h3⟩
  have hqe : (emptyQueue w q).queues[q]? = some (Queue.mk u.name u.readonly []) := by
    simp [emptyQueue, setQueue, List.getElem?_modify, hq]
  obtain ⟨w', a1, a2, _, _, _⟩ := loadLoop_good hgood hqe hr
  have hl : loadQueue w (.doc (good ++ bad :: rest)) arg = loadLoop w' q (bad :: rest) := by
    unfold loadQueue
    dsimp only
    rw [pickQueue_designates hd, loadLoop_append _ _ _ hgood, a1]
  have hcm : commandsOf w' q = good.mapIdx (fun i j => loadedCmd (w.cidCounter + 1 + i) j) := by
    simp only [commandsOf, a2]
    rfl
  rw [hl]
  unfold loadLoop
  cases h1 : bad.method with
  | none => exact ⟨by simp, hcm⟩
  | some m =>
    cases h2 : bad.params with
    | none => exact ⟨by simp, hcm⟩
    | some ps =>
      have : dhas ps "id" ≠ true := by
        intro h
        exact hb ⟨by simp [h1], ps, h2, (hiff ps).1 h⟩
      simp only [if_neg this]
      exact ⟨by simp, hcm⟩

/-- Two commands, then one without id. -/
example : let f := File.doc [⟨some "Foo/__init__", 1, some [("id", .int 1), ("value", .int 1)]⟩,
      ⟨some "Foo/__init__", 2, some [("id", .int 2), ("value", .int 1)]⟩,
      ⟨some "Foo/set_value", 3, some [("value", .int 1)]⟩,
      ⟨some "Foo/__init__", 4, some [("id", .int 5), ("value", .int 1)]⟩]
    (loadQueue twoQueues f none).2 = .error .valueError ∧
    (commandsOf (loadQueue twoQueues f none).1 1).length = 2 := by decide

example : IsJson none "a.b.json" ∧ ¬ IsJson (some "xml") "a.json" ∧ ¬ IsJson none ".json" := by
  refine ⟨Or.inr ⟨Or.inl rfl, "a.b", by decide, by decide⟩, ?_, ?_⟩
  · rw [← formatOf_json_iff]; decide
  · rw [← formatOf_json_iff]; decide

end Verif
