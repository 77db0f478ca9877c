import Verif.Lemmas.Listing
import Verif.Lemmas.Api
import Verif.Props.Define
/-! # C66: printing a session -/

namespace Verif

/-- The full claim of C66: after any history, the commands of a queue can be printed. One block
comes out per command, in order, with its name, its number and one line per parameter, and
printing changes nothing in the session. -/
def SessionsPrint : Prop :=
  ∀ (P : Prog), Annotated P → ∀ (cs : Dict (String × String) Nat) (ops : List Op) (q : Nat)
    (u : Queue), let w := runOps P (World.start cs) ops
    w.queues[q]? = some u → u.commands ≠ [] →
    ∃ fuel es w', ansiDump P (recordedAnnots P) fuel w (some q) = some (w', .ok es) ∧ w' = w ∧
      List.Forall₂ (EntryOf P w) u.commands es

/-- C66 (part). After any history of any program as Python programs are written, a queue prints
as one block per command, in order, with its class or method, its number and one line per
parameter with its declared types; printing leaves the whole session as it was. Missing: values
whose delayed conversion fails or builds an object (`shownAs`). -/
theorem listing_partial (P : Prog) (hP : Annotated P) (cs : Dict (String × String) Nat)
    (ops : List Op) (q : Nat) (u : Queue) (arg : Option Nat) (fuel : Nat)
    (hq : (runOps P (World.start cs) ops).queues[q]? = some u)
    (hd : Designates (runOps P (World.start cs) ops) q arg)
    (hs : ∀ c ∈ u.commands, ∀ p ∈ c.params,
      (shownAs P (runOps P (World.start cs) ops) p.2).isSome = true)
    (hf : u.commands.length < fuel) :
    ∃ es, ansiDump P (recordedAnnots P) fuel (runOps P (World.start cs) ops) arg =
        some (runOps P (World.start cs) ops, .ok es) ∧
      List.Forall₂ (EntryOf P (runOps P (World.start cs) ops)) u.commands es := by
  have hk : AllKeep P (runOps P (World.start cs) ops) :=
    (allKeep_closed hP).runOps (by intro u hu; cases hu)
  generalize runOps P (World.start cs) ops = w at *
  obtain ⟨es, h1, h2⟩ := listLoop_ok (P := P) (ann := recordedAnnots P) (R := EntryOf P w) hq
    (fun c hc => listCommand_ok hP (hk u (List.mem_of_getElem? hq) c hc) (hs c hc))
    u.commands.length 0 fuel [] rfl hf
  refine ⟨es, ?_, by simpa using h2⟩
  unfold ansiDump
  rw [pickQueue_designates hd]
  simpa using h1

theorem demo_annotated : Annotated demo := by
  refine ⟨?_, ?_, ?_, ?_⟩
  · exact demo_ok.wf
  · intro cls f sg hs
    simp only [demo, demoSig] at hs
    repeat' split at hs
    all_goals cases hs
    all_goals decide
  · intro cls f sg hs
    simp only [demo, demoSig] at hs
    repeat' split at hs
    all_goals cases hs
    all_goals subst_vars; decide
  · intro cls f n h
    simp only [demo] at h
    split at h
    · rename_i hc
      cases h
      exact Or.inr ⟨hc.2, by decide⟩
    · cases h

/-- A history of the example program: two objects, a value to convert, a reference. -/
def listed : List Op :=
  [.create "Canvas" [.int 4, .int 3] [] false, .create "Foo" [.float 7] [] false,
   .create "Foo" [.int 1] [] false, .call 2 "set_value" [] [("value", .int 5)] false,
   .call 2 "set_next" [.obj 1] [] false]

/-- Its listing, from the start with a converter from float to int. -/
example : (ansiDump demo (recordedAnnots demo) 9
      (runOps demo (World.start [(("float", "int"), 0)]) listed) none).map
        (fun r => r.2.toOption.map (fun l => l.map (fun e => (e.method, e.id, e.lines.length)))) =
    some (some [("core.Canvas", 1, 3), ("Foo/__init__", 2, 2), ("Foo/__init__", 3, 2),
      ("Foo/set_value", 4, 3), ("Foo/set_next", 5, 3)]) := by decide +kernel

example : (ansiDump demo (recordedAnnots demo) 9
      (runOps demo (World.start [(("float", "int"), 0)]) listed) none).bind
        (fun r => r.2.toOption.bind (fun l => l[1]?.map Entry.lines)) =
    some [⟨"OBJECT_ID", .value (.oid 2), "int"⟩, ⟨"VALUE", .converted (.int 7), "int"⟩] := by
  decide +kernel

example : (ansiDump demo (recordedAnnots demo) 9
      (runOps demo (World.start [(("float", "int"), 0)]) listed) none).bind
        (fun r => r.2.toOption.bind (fun l => l[4]?.map Entry.lines)) =
    some [⟨"OBJECT_ID", .value (.oid 3), "int"⟩, ⟨"NEXT_ID", .value (.oid 2), "Foo"⟩,
      ⟨"NEXT", .value .none, "Foo"⟩] := by
  decide +kernel

/-- Its values can all be shown. -/
example : ((runOps demo (World.start [(("float", "int"), 0)]) listed).queues.all (fun u =>
    u.commands.all (fun c => c.params.all (fun p =>
      (shownAs demo (runOps demo (World.start [(("float", "int"), 0)]) listed) p.2).isSome)))) =
    true := by decide +kernel

/-! ## The library -/

/-- All the functions of `gsp` are annotated. -/
theorem gsp_annotated (A : ArrayInfo) : Annotated (gspProg A) where
  wf cls f sg hs := (gspProg_wf A cls f sg hs).1
  all cls f sg hs := by
    have h : ∀ r ∈ gspRows, ∀ k ∈ r.sig.params, (dget r.sig.annots k).isSome = true := by
      decide +kernel
    replace hs : (findRow gspRows cls f).map Row.sig = some sg := hs
    cases hr : findRow gspRows cls f with
    | none => rw [hr] at hs; cases hs
    | some r => rw [hr] at hs; cases hs; exact h r (findRow_mem hr)
  plain cls f sg hs := by
    have h : ∀ r ∈ gspRows, '.' ∉ r.func.toList ∧ r.func.toList ≠ [] := by decide +kernel
    replace hs : (findRow gspRows cls f).map Row.sig = some sg := hs
    cases hr : findRow gspRows cls f with
    | none => rw [hr] at hs; cases hs
    | some r =>
      have hf := List.find?_some hr
      simp only [decide_eq_true_eq] at hf
      rw [← hf.2]
      exact h r (findRow_mem hr)
  name cls f n hn := by
    have h : ∀ r ∈ gspRows, ∀ n ∈ r.name, n = r.func ∨ r.func = "__init__" ∧ '.' ∈ n.toList := by
      decide +kernel
    replace hn : (findRow gspRows cls f).bind Row.name = some n := hn
    cases hr : findRow gspRows cls f with
    | none => rw [hr] at hn; cases hn
    | some r =>
      have hf := List.find?_some hr
      simp only [decide_eq_true_eq] at hf
      rw [hr] at hn
      rw [← hf.2]
      exact h r (findRow_mem hr) n hn

/-- C66 (part). Printing changes nothing, whatever comes out, when the recorded conversions
build no objects, as those of `import gsp` do. -/
theorem listing_changes_nothing_partial (P : Prog)
    (ann : Cmd → Option (Dict String (List String))) (w : World) (arg : Option Nat) (q fuel : Nat)
    (hd : Designates w q arg)
    (hs : ∀ c ∈ commandsOf w q, ∀ p ∈ c.params, ∀ f x, p.2 = .conv f x →
      ∀ cls kw, P.conv f x ≠ .make cls kw) (w' : World) (r : Except Err (List Entry))
    (h : ansiDump P ann fuel w arg = some (w', r)) : w' = w := by
  unfold ansiDump at h
  rw [pickQueue_designates hd] at h
  exact listLoop_same hs h

example : ∀ p ∈ gspConverters, ∀ v cls kw,
    apiConv { count := fun _ => 0, dtype := fun _ => 0, content := fun _ => 0 } p.2 v ≠ .make cls kw := by
  simp [gspConverters, apiConv]

/-- A scene built after `import gsp_matplotlib` with positions in a numpy array. -/
def arrayScene : List Op :=
  [.create "Pixels" [.inst "ndarray" 3, .inst "Color" 0] [] false]

/-- C66 fails: to print the array, its conversion builds a buffer. The buffer is recorded and
printed, and one more comes with each listing. -/
theorem listing_changes_nothing_fails :
    let P := gspProg { count := fun _ => 2, dtype := fun _ => 0, content := fun _ => 0 }
    let w := runOps P (World.start allConverters) arrayScene
    let first := ansiDump P (recordedAnnots P) 9 w none
    let second := first.bind (fun r => ansiDump P (recordedAnnots P) 9 r.1 none)
    let names := fun r : Option (World × Except Err (List Entry)) =>
      r.bind (fun r => r.2.toOption.map (fun l => l.map Entry.method))
    (commandsOf w 0).length = 1 ∧
    names first = some ["visual.Pixels", "core.Buffer"] ∧
    first.map (fun r => (commandsOf r.1 0).length) = some 2 ∧
    names second = some ["visual.Pixels", "core.Buffer", "core.Buffer"] := by
  decide +kernel

/-- C66 fails: a conversion that is only tried when printing may raise. -/
theorem sessions_print_fails : ¬ SessionsPrint := by
  intro h
  obtain ⟨fuel, es, w', h1, _⟩ := h demo demo_annotated [(("str", "int"), 0)]
    [.create "Foo" [.str "one"] [] false] 0 _ rfl (by decide)
  cases fuel with
  | zero => cases h1
  | succ fuel =>
    have h2 : (ansiDump demo (recordedAnnots demo) (fuel + 1)
        (runOps demo (World.start [(("str", "int"), 0)])
          [.create "Foo" [.str "one"] [] false]) (some 0)).map (fun r => r.2) =
        some (.error .typeError) := rfl
    rw [h1] at h2
    cases h2

/-! ## Loaded sessions -/

/-- C66 fails for loaded files: they keep no types. A queue filled by `load` prints exactly when
its commands have no parameters; `TypeError` is raised otherwise. -/
theorem loaded_listing_fails (P : Prog) (w : World) (hwr : w.Writable) (name : String)
    (format : Option String) (js : List JCmd) (w3 : World)
    (h : gspLoad w name format (.doc js) = (w3, .ok ())) (fuel : Nat) (hf : js.length < fuel) :
    if ∀ j ∈ js, ∀ ps ∈ j.params, ∀ p ∈ ps, p.1 = "id" then
      ∃ es, ansiDump P loadedAnnots fuel w3 none = some (w3, .ok es)
    else ansiDump P loadedAnnots fuel w3 none = some (w3, .error .typeError) := by
  obtain ⟨js', n, hjs, ha, _, _, hc⟩ := gspLoad_ok_commands hwr h
  cases hjs
  unfold ansiDump
  rw [pickQueue_designates (q := activeIx w) (Or.inr ⟨ha, Or.inl rfl⟩)]
  dsimp only
  cases hq : w3.queues[activeIx w]? with
  | none =>
    simp only [commandsOf, hq] at hc
    have hnil : js = [] := by
      cases js with
      | nil => rfl
      | cons j js => simp at hc
    subst hnil
    rw [if_pos (by intro j hj; cases hj)]
    obtain ⟨fuel, rfl⟩ : ∃ k, fuel = k + 1 := ⟨fuel - 1, by omega⟩
    refine ⟨[], ?_⟩
    unfold listLoop
    rw [hq]
  | some u =>
    have hu : u.commands = js.mapIdx (fun i j => loadedCmd (n + i) j) := by
      rw [← hc]; simp [commandsOf, hq]
    have hmem : ∀ c ∈ u.commands, ∃ j ∈ js, ∃ i, c = loadedCmd i j := by
      intro c hcm
      rw [hu, List.mem_mapIdx] at hcm
      obtain ⟨i, hi, rfl⟩ := hcm
      exact ⟨_, List.getElem_mem hi, _, rfl⟩
    have key := listLoop_none (P := P) hq ?_ u.commands.length 0 fuel [] rfl
      (by rw [hu]; simpa using hf)
    · have hiff : (∀ c ∈ u.commands.drop 0, ∀ p ∈ c.params, p.1 = "id") ↔
          ∀ j ∈ js, ∀ ps ∈ j.params, ∀ p ∈ ps, p.1 = "id" := by
        rw [List.drop_zero]
        constructor
        · intro hall j hj ps hps p hp
          obtain ⟨i, hi, rfl⟩ := List.getElem_of_mem hj
          have hcm : loadedCmd (n + i) js[i] ∈ u.commands := by
            rw [hu, List.mem_mapIdx]
            exact ⟨i, hi, rfl⟩
          refine hall _ hcm (p.1, decodeVal p.2) ?_
          rw [Option.mem_def] at hps
          simp only [loadedCmd, hps, Option.getD_some]
          exact List.mem_map_of_mem (f := fun p : String × JVal => (p.1, decodeVal p.2)) hp
        · intro hall c hcm p hp
          obtain ⟨j, hj, i, rfl⟩ := hmem c hcm
          simp only [loadedCmd] at hp
          obtain ⟨p', hp', rfl⟩ := List.mem_map.1 hp
          cases hps : j.params with
          | none => rw [hps] at hp'; cases hp'
          | some ps => rw [hps] at hp'; exact hall j hj ps hps p' hp'
      by_cases hall : ∀ j ∈ js, ∀ ps ∈ j.params, ∀ p ∈ ps, p.1 = "id"
      · rw [if_pos (hiff.2 hall)] at key
        rw [if_pos hall]
        exact key
      · rw [if_neg (fun h => hall (hiff.1 h))] at key
        rw [if_neg hall]
        exact key
    · intro c hcm p hp f x
      obtain ⟨j, hj, i, rfl⟩ := hmem c hcm
      simp only [loadedCmd] at hp
      obtain ⟨p', _, rfl⟩ := List.mem_map.1 hp
      dsimp only
      cases p'.2 <;> simp [decodeVal]

/-- A loaded file with a canvas. -/
example : (gspLoad (World.start []) "a.json" none (.doc [⟨some "core.Canvas", 1,
      some [("id", .int 1), ("width", .int 4)]⟩])).2 = .ok () ∧
    (World.start []).Writable := by
  exact ⟨rfl, Or.inl rfl⟩

/-! ## Files -/

/-- C66. A listing that fails leaves the file it was to be written to as it was; one that
succeeds writes all its blocks. -/
theorem failed_listing_keeps_file (P : Prog) (ann : Cmd → Option (Dict String (List String)))
    (fuel : Nat) (w : World) (arg : Option Nat) (old f' : Option (List Entry)) (w' : World)
    (r : Except Err Unit) (h : ansiSave P ann fuel w arg old = some (w', f', r)) :
    (∀ e, r = .error e → f' = old) ∧
      (r = .ok () → ∃ es, ansiDump P ann fuel w arg = some (w', .ok es) ∧ f' = some es) := by
  unfold ansiSave at h
  split at h
  · cases h
  · cases h
    exact ⟨fun _ _ => rfl, fun h => (by cases h)⟩
  · rename_i hd
    cases h
    exact ⟨fun e he => (by cases he), fun _ => ⟨_, hd, rfl⟩⟩

/-- C66 fails for the plain text format: it asks queues for attributes they do not have,
whatever the session. -/
theorem text_format_fails (w : World) (q : Option Nat) : textDump w q = .error .attributeError := by
  unfold textDump
  split
  · split
    · rw [if_neg (by decide)]
    · rw [if_neg (by decide)]
  · rw [if_neg (by decide)]

end Verif
