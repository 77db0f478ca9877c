import Verif.Lemmas.Api
import Verif.Lemmas.ApiFail
import Verif.Props.Deliver
import Verif.Props.Json
/-! # C64: which saved scenes the Matplotlib backend can run -/

namespace Verif

/-- The full claim of C64: a scene built with `gsp` and saved can be loaded and run by the
Matplotlib backend, in a process that records as any process does after its imports, as long
as Matplotlib itself raises nothing. -/
def SavedScenesRun : Prop :=
  ∀ (A : ArrayInfo) (text raw : Nat → String) (draw : Obj → String → Dict String Val → Option Err),
    (∀ o f b, draw o f b = none) → ∀ (as : List Act) (fuel : Nat) (file : File) (w' : World),
    Succeeds (gspProg A) (World.start gspConverters) as →
    gspSave (gspProg A) (apiCodec text raw) fuel
      (runActs (gspProg A) (World.start gspConverters) as) "scene.json" none .absent =
      some (w', file, .ok ()) →
    ∃ w3 q w4, gspLoad (World.start allConverters) "scene.json" none file = (w3, .ok ()) ∧
      w3.active = some q ∧ runQueue (mplProg A true draw) w3 q = (w4, .ok ())

/-- A scene of a buffer and segments: the ends of the lines are saved as a number. -/
def oneCap : List Act :=
  [.create "Buffer" [.int 2, .inst "Float32DType" 1, .none] [],
   .create "Segments" [.obj 0, .inst "LineCap" 1, .obj 0, .float 1] []]

/-- C64 fails: what is loaded for a member of `LineCap` is a number, which the constructor of
segments refuses. -/
theorem saved_scenes_run_fails : ¬ SavedScenesRun := by
  intro h
  obtain ⟨w3, q, w4, h1, h2, h3⟩ := h
    { count := fun _ => 0, dtype := fun _ => 0, content := fun _ => 0 } (fun _ => "float32")
    (fun _ => "AAAA") (fun _ _ _ => none) (fun _ _ _ => rfl) oneCap 9 _ _ ⟨rfl, rfl, trivial⟩ rfl
  cases h1
  cases h2
  have h4 := (congrArg (fun r => Except.toBool r.2) h3).trans (show _ = true from rfl)
  clear h3
  revert h4
  decide +kernel

/-- C64 (part). Take any scene built with `gsp`, in a process with or without the backend, whose
actions succeed and use only functions that the backend has (`portable`: canvases, viewports,
buffers, lists, the six visuals), with arguments that can be saved. Saving it succeeds; loading
the file in any process that does not record, with other objects and other converters, succeeds;
running it there with the Matplotlib backend succeeds, as long as Matplotlib itself raises
nothing (`draw`), and rebuilds every object under its id, with the same calls. Missing: recording
processes, transforms, `Data`, `Viewport.render`. -/
theorem saved_scenes_run_partial (A : ArrayInfo) (text raw : Nat → String)
    (draw : Obj → String → Dict String Val → Option Err) (hdraw : ∀ o f b, draw o f b = none)
    (cs : Dict (String × String) Nat) (hcs : cs = gspConverters ∨ cs = allConverters)
    (as : List Act) (hne : as ≠ [])
    (hok : Succeeds (gspProg A) (World.start cs) as)
    (hport : PortableSession portable (gspProg A) (World.start cs) as)
    (hsave : SavableSession (gspProg A) (apiCodec text raw) cs (World.start cs) as)
    (w2 : World) (hoff : w2.recording = false) (hrec : w2.objRecord = true) (hwr : w2.Writable)
    (name : String) (format : Option String) (hfmt : IsJson format name) (old : File) (fuel : Nat)
    (hfuel : as.length < fuel) :
    ∃ file w3 q w4 ref made,
      gspSave (gspProg A) (apiCodec text raw) fuel
        (runActs (gspProg A) (World.start cs) as) name format old =
        some (runActs (gspProg A) (World.start cs) as, file, .ok ()) ∧
      gspLoad w2 name format file = (w3, .ok ()) ∧ w3.active = some q ∧
      runQueue (mplProg A false draw) w3 q = (w4, .ok ()) ∧
      Rebuilt (gspProg A) (mplProg A false draw) cs (jsonVal (gspProg A) (apiCodec text raw))
        (runActs (gspProg A) (World.start cs) as) w2 w4 ref made := by
  have hses := portable_session (A := A) (text := text) (raw := raw) (cs2 := w2.converters)
    (on := false) (cs := cs) (by simpa [converterTables] using hcs) hdraw
    (fs := portable) (fun p h => ⟨h, fun h => by cases h⟩) (w := World.start cs)
    ⟨rfl, Or.inr ⟨rfl, rfl⟩⟩ rfl hok hport (fun h => by cases h) hsave
  have hses : ReplayableSession (gspProg A) (mplProg A false draw) cs w2.converters
      w2.recording jsonNames (jsonVal (gspProg A) (apiCodec text raw))
      (World.start cs) as := by rw [hoff]; exact hses
  exact save_load_run_partial (gspProg A) (mplProg A false draw) (apiCodec text raw)
    (gspProg_wf A) (mplProg_wf A false draw) cs as hne w2 hses hsave hrec hwr name format
    ((formatOf_json_iff format name).2 hfmt) old fuel hfuel

/-- C64 (part). The same in a process that records, as every process does after its imports,
for scenes without lists (`recording_backend_has_no_lists`) and without members of `LineCap`,
`LineStyle` and `LineJoin` (`recording_backend_refuses_numbers`): they can be saved, loaded,
checked again and run by the Matplotlib backend, whatever other arguments were accepted when they
were recorded. In particular the text that arrives for a dtype is accepted, and so are the texts
for buffer data, the lists for colours and the numbers for markers. -/
theorem saved_scenes_run_recording_partial (A : ArrayInfo) (text raw : Nat → String)
    (draw : Obj → String → Dict String Val → Option Err) (hdraw : ∀ o f b, draw o f b = none)
    (cs : Dict (String × String) Nat) (hcs : cs = gspConverters ∨ cs = allConverters)
    (as : List Act) (hne : as ≠ [])
    (hok : Succeeds (gspProg A) (World.start cs) as)
    (hport : PortableSession portableOn (gspProg A) (World.start cs) as)
    (hline : ∀ a ∈ as, ∀ v ∈ a.values, isLineMember v = false)
    (hsave : SavableSession (gspProg A) (apiCodec text raw) cs (World.start cs) as)
    (w2 : World) (hon : w2.recording = true) (hcs2 : w2.converters = allConverters)
    (hrec : w2.objRecord = true) (hwr : w2.Writable)
    (name : String) (format : Option String) (hfmt : IsJson format name) (old : File) (fuel : Nat)
    (hfuel : as.length < fuel) :
    ∃ file w3 q w4 ref made,
      gspSave (gspProg A) (apiCodec text raw) fuel
        (runActs (gspProg A) (World.start cs) as) name format old =
        some (runActs (gspProg A) (World.start cs) as, file, .ok ()) ∧
      gspLoad w2 name format file = (w3, .ok ()) ∧ w3.active = some q ∧
      runQueue (mplProg A true draw) w3 q = (w4, .ok ()) ∧
      Rebuilt (gspProg A) (mplProg A true draw) cs (jsonVal (gspProg A) (apiCodec text raw))
        (runActs (gspProg A) (World.start cs) as) w2 w4 ref made := by
  have hses := portable_session (A := A) (text := text) (raw := raw) (cs2 := w2.converters)
    (on := true) (cs := cs) (by simpa [converterTables] using hcs) hdraw (fs := portableOn)
    (fun p h => ⟨(portableOn_sub h).1, fun _ => ⟨h, hcs2⟩⟩)
    (w := World.start cs) ⟨rfl, Or.inr ⟨rfl, rfl⟩⟩ rfl hok hport (fun _ => hline) hsave
  have hses : ReplayableSession (gspProg A) (mplProg A true draw) cs w2.converters
      w2.recording jsonNames (jsonVal (gspProg A) (apiCodec text raw))
      (World.start cs) as := by rw [hon]; exact hses
  exact save_load_run_partial (gspProg A) (mplProg A true draw) (apiCodec text raw)
    (gspProg_wf A) (mplProg_wf A true draw) cs as hne w2 hses hsave hrec hwr name format
    ((formatOf_json_iff format name).2 hfmt) old fuel hfuel

/-- A scene with a canvas, a viewport, a buffer, points, markers and two calls of `render`. -/
def recordedScene : List Act :=
  [.create "Canvas" [.int 512, .int 512, .float 100] [],
   .create "Viewport" [.obj 0, .int 0, .int 0, .float 1, .float 1, .list [1, 1, 1, 1]] [],
   .create "Buffer" [.int 4, .inst "Float32DType" 1] [("data", .inst "memoryview" 7)],
   .create "Points" [.obj 2, .float 10, .tuple [0, 0, 0, 1], .list [1, 0, 0, 1], .obj 2] [],
   .create "Markers" [.obj 2, .inst "Marker" 3, .float 9, .none, .float 0, .obj 2,
     .list [0, 0, 0, 1], .float 1] [],
   .create "Paths" [.obj 2, .int 2, .list [0, 0, 0, 1], .float 1, .obj 2, .none, .obj 2] [],
   .call 2 "set_data" [.int 0, .inst "memoryview" 8] [],
   .call 3 "render" [.obj 1] [],
   .call 0 "render" [.str "out.png"] []]

/-- It meets the hypotheses, with the converters of either process. -/
theorem recordedScene_ok : ∀ cs ∈ [gspConverters, allConverters],
    Succeeds gsp0 (World.start cs) recordedScene ∧
    PortableSession portableOn gsp0 (World.start cs) recordedScene ∧
    (∀ a ∈ recordedScene, ∀ v ∈ a.values, isLineMember v = false) ∧
    SavableSession gsp0 (apiCodec (fun _ => "float32") (fun _ => "AAAA")) cs
      (World.start cs) recordedScene := by
  intro cs hcs
  simp only [List.mem_cons, List.not_mem_nil, or_false] at hcs
  rcases hcs with rfl | rfl
  · exact ⟨by decide +kernel, by decide +kernel, by decide +kernel,
      savableSessionB_sound (by decide +kernel)⟩
  · exact ⟨by decide +kernel, by decide +kernel, by decide +kernel,
      savableSessionB_sound (by decide +kernel)⟩

/-- A canvas with two viewports, whose colours are given as a list and as a tuple. -/
def canvasScene : List Act :=
  [.create "Canvas" [.int 512, .int 512, .float 100] [],
   .create "Viewport" [.obj 0, .int 0, .int 0, .float 1, .float 1, .list [1, 1, 1, 1]] [],
   .create "Viewport" [.obj 0, .int 0, .bool true, .int 8] [("height", .float 1),
     ("color", .tuple [1, 0, 0, 1])],
   .call 0 "render" [.str "out.png"] []]

example : Succeeds gsp0 (World.start gspConverters) canvasScene ∧
    PortableSession portableOn gsp0 (World.start gspConverters) canvasScene ∧
    SavableSession gsp0 (apiCodec (fun _ => "float32") (fun _ => "AAAA")) gspConverters
      (World.start gspConverters) canvasScene :=
  ⟨by decide +kernel, by decide +kernel, savableSessionB_sound (by decide +kernel)⟩

/-- A scene with a canvas, a viewport with a colour given as a list, a buffer, points, paths
with an integer as indices, and two calls of `render`. -/
def sampleScene : List Act :=
  [.create "Canvas" [.int 512, .int 512, .float 100] [],
   .create "Viewport" [.obj 0, .int 0, .int 0, .float 1, .float 1, .list [1, 1, 1, 1]] [],
   .create "Buffer" [.int 4, .inst "Float32DType" 1] [("data", .inst "memoryview" 7)],
   .create "Points" [.obj 2, .float 10, .tuple [0, 0, 0, 1], .list [1, 0, 0, 1], .float 1] [],
   .create "Paths" [.obj 2, .int 2, .list [0, 0, 0, 1], .float 1, .inst "LineStyle" 1,
      .inst "LineJoin" 1, .inst "LineCap" 1] [],
   .call 3 "render" [.obj 1] [],
   .call 0 "render" [.str "out.png"] []]

theorem sampleScene_ok : Succeeds gsp0 (World.start gspConverters) sampleScene ∧
    PortableSession portable gsp0 (World.start gspConverters) sampleScene ∧
    SavableSession gsp0 (apiCodec (fun _ => "float32") (fun _ => "AAAA")) gspConverters
      (World.start gspConverters) sampleScene :=
  ⟨by decide +kernel, by decide +kernel, savableSessionB_sound (by decide +kernel)⟩

/-- What the backend gets of it: the colours arrive as lists, the buffer data as text. -/
example : ∃ file w3 w4,
    gspSave gsp0 (apiCodec (fun _ => "float32") (fun _ => "AAAA")) 9
      (runActs gsp0 (World.start gspConverters) sampleScene) "scene.json" none .absent =
      some (runActs gsp0 (World.start gspConverters) sampleScene, file, .ok ()) ∧
    gspLoad { World.start allConverters with recording := false } "scene.json" none file =
      (w3, .ok ()) ∧
    runQueue (mplProg { count := fun _ => 0, dtype := fun _ => 0, content := fun _ => 0 } false (fun _ _ _ => none)) w3 0 =
      (w4, .ok ()) ∧
    w4.heap.map (fun o => (o.id, o.cls)) = [(1, "Canvas"), (2, "Viewport"), (3, "Buffer"),
      (4, "Points"), (5, "Paths")] ∧
    (w4.heap[2]?).map Obj.log = some [("__init__", [("count", .int 4), ("dtype", .str "float32"),
      ("data", .str "AAAA")])] ∧
    (w4.heap[3]?).map (fun o => o.log.drop 1) = some [("render", [("viewport", .obj 1),
      ("model", .none), ("view", .none), ("proj", .none)])] :=
  ⟨_, _, _, rfl, rfl, rfl, rfl, rfl, rfl⟩

/-! ### What cannot be run -/

/-- A file that creates an object of a class which the replaying program does not have can be
loaded, but never be run to its end, in no process. -/
theorem missing_class_never_runs (P : Prog) (w w3 : World) (hwr : w.Writable) (name : String)
    (format : Option String) (js : List JCmd) (hload : gspLoad w name format (.doc js) = (w3, .ok ()))
    (j : JCmd) (hj : j ∈ js) (m : String) (hm : j.method = some m) (hsl : '/' ∉ m.toList)
    (hres : P.resolve m = none) (q : Nat) (hq : w3.active = some q) :
    ∃ e, (runQueue P w3 q).2 = .error e := by
  obtain ⟨js', n, hjs, hact, _, _, hcmds⟩ := gspLoad_ok_commands hwr hload
  cases hjs
  rw [hact] at hq
  cases hq
  obtain ⟨i, hi, rfl⟩ := List.mem_iff_getElem.1 hj
  have hmem : loadedCmd (n + i) js[i] ∈ commandsOf w3 (activeIx w) := by
    rw [hcmds]
    exact List.mem_iff_getElem.2 ⟨i, by simpa using hi, by simp⟩
  have hsp : splitMethod m = (m, "__init__") := splitMethod_noSlash hsl
  have := runQueue_fails true_closed (fun _ _ _ _ => trivial) (P := P)
    (fun w' _ => execute_unresolved (P := P) (w := w') (c := loadedCmd (n + i) js[i])
      (by simp [loadedCmd, hm, hsp]) (by simpa [loadedCmd, hm, hsp] using hres)) trivial hmem
  cases h : (runQueue P w3 (activeIx w)).2 with
  | ok u => exact absurd h this
  | error e => exact ⟨e, rfl⟩

/-- The recorded names of the transforms and of `Data`. -/
def unportable : List String :=
  "core.Data" :: (gspTransform.filter (fun r => r.func = "__init__")).filterMap Row.name

/-- C64. A file with a transform or a `Data` object can be loaded, but never be run by the
Matplotlib backend. -/
theorem transforms_never_run (A : ArrayInfo) (on : Bool)
    (draw : Obj → String → Dict String Val → Option Err) (w w3 : World) (hwr : w.Writable)
    (name : String) (format : Option String) (js : List JCmd)
    (hload : gspLoad w name format (.doc js) = (w3, .ok ())) (j : JCmd) (hj : j ∈ js)
    (m : String) (hm : j.method = some m) (hu : m ∈ unportable) (q : Nat) (hq : w3.active = some q) :
    ∃ e, (runQueue (mplProg A on draw) w3 q).2 = .error e := by
  have key : ∀ m ∈ unportable, '/' ∉ m.toList ∧ dget mplPaths m = none := by decide +kernel
  exact missing_class_never_runs _ w w3 hwr name format js hload j hj m hm (key m hu).1
    (key m hu).2 q hq

/-- The names are those of 25 transforms and `Data`; a file with one is loaded. -/
example : unportable.length = 26 ∧ "transform.Colormap" ∈ unportable ∧
    ∃ w3, gspLoad (World.start allConverters) "scene.json" none
      (.doc [⟨some "transform.Out", 1, some [("id", .int 1), ("name", .null)]⟩]) = (w3, .ok ()) :=
  ⟨by decide +kernel, by decide +kernel, _, rfl⟩

/-- The parameters declared with a line enumeration: recorded name of the class, class,
parameter. -/
def lineParams : List (String × String × String) :=
  [("visual.Segments", "Segments", "line_caps"), ("visual.Paths", "Paths", "line_styles"),
   ("visual.Paths", "Paths", "line_joins"), ("visual.Paths", "Paths", "line_caps"),
   ("visual.Polygons", "Polygons", "line_styles"), ("visual.Polygons", "Polygons", "line_joins")]

/-- C64. A file with segments, paths or polygons whose line ends, styles or joins are a number (as
all saved members of these enumerations are) can be loaded, but never be run by the backend in a
process that records: no converter leads from numbers to these types. -/
theorem recording_backend_refuses_numbers (A : ArrayInfo) (on : Bool)
    (draw : Obj → String → Dict String Val → Option Err) (w w3 : World) (hwr : w.Writable)
    (hon : w.recording = true) (hcs : w.converters = allConverters)
    (name : String) (format : Option String) (js : List JCmd)
    (hload : gspLoad w name format (.doc js) = (w3, .ok ())) (j : JCmd) (hj : j ∈ js)
    (m cls k : String) (hlp : (m, cls, k) ∈ lineParams)
    (hm : j.method = some m) (ps : Dict String JVal) (hps : j.params = some ps)
    (hnd : (dkeys ps).Nodup) (hid : k ++ "(id)" ∉ dkeys ps) (n : Int)
    (hd : dget ps k = some (.int n)) (q : Nat) (hq : w3.active = some q) :
    ∃ e, (runQueue (mplProg A on draw) w3 q).2 = .error e := by
  have key : ∀ p ∈ lineParams, splitMethod p.1 = (p.1, "__init__") ∧
      dget mplPaths p.1 = some p.2.1 ∧ endsWithId p.2.2 = false ∧ p.2.2 ≠ "id" ∧
      (findRow mplRows p.2.1 "__init__").any (fun r =>
        (dget r.sig.annots p.2.2).any (fun l =>
          (candidates gsp0 allConverters "int" l).getLast? = none ∧
            l.any (fits gsp0 "int") = false)) = true := by decide +kernel
  obtain ⟨hsp, hpath, hke, hkid, hrow⟩ := key _ hlp
  simp only [Option.any_eq_true, decide_eq_true_eq] at hrow
  obtain ⟨r, hr, l, hl, href⟩ := hrow
  dsimp only at hsp hpath hke hkid hr hl
  obtain ⟨js', n0, hjs, hact, hr3, hc3, hcmds⟩ := gspLoad_ok_commands hwr hload
  cases hjs
  rw [hact] at hq
  cases hq
  obtain ⟨i, hi, rfl⟩ := List.mem_iff_getElem.1 hj
  have hmem : loadedCmd (n0 + i) js[i] ∈ commandsOf w3 (activeIx w) := by
    rw [hcmds]
    exact List.mem_iff_getElem.2 ⟨i, by simpa using hi, by simp⟩
  have hpm : (loadedCmd (n0 + i) js[i]).params = ps.map (fun p => (p.1, decodeVal p.2)) := by
    simp [loadedCmd, hps]
  have hex : ∀ w', w'.recording = true ∧ w'.converters = allConverters →
      (execute (mplProg A on draw) w' (loadedCmd (n0 + i) js[i])).2 ≠ .ok () := by
    intro w' ⟨hon', hcs'⟩
    have hsig : (mplProg A on draw).sig cls "__init__" = some r.sig := by
      show (findRow mplRows cls "__init__").map Row.sig = _
      rw [hr]; rfl
    refine execute_refused (mplProg_wf A on draw) (k := k) (v := .int n) (anns := l)
      (cls := cls) hon' (by simp [loadedCmd, hm, hsp]) ?_ hsig hke hkid
      ⟨fun _ h => Val.noConfusion h, fun _ _ h => Val.noConfusion h⟩ rfl ?_ ?_ hl ?_
    · show dget mplPaths (loadedCmd (n0 + i) js[i]).cls = some cls
      rw [show (loadedCmd (n0 + i) js[i]).cls = m by simp [loadedCmd, hm, hsp]]
      exact hpath
    · rw [hpm]
      exact List.mem_map.2 ⟨_, dget_mem hd, rfl⟩
    · rw [hpm]
      intro p hp ht
      obtain ⟨⟨k', x⟩, hp', rfl⟩ := List.mem_map.1 hp
      dsimp only at ht ⊢
      have hk : k' = k := by
        unfold target at ht
        split at ht
        · rename_i he
          have hk := dropId_suffix he
          rw [ht] at hk
          exact absurd (List.mem_map.2 ⟨_, hp', hk⟩) hid
        · exact ht
      subst hk
      have := dget_of_mem_nodup hnd hp'
      rw [hd] at this
      cases this
      rfl
    · rw [hcs']
      exact recordedAs_refused (c := "int") rfl href
  have := runQueue_fails (settings_closed allConverters) (fun _ _ _ h => h) hex
    ⟨hr3.trans hon, hc3.trans hcs⟩ hmem
  cases h : (runQueue (mplProg A on draw) w3 (activeIx w)).2 with
  | ok u => exact absurd h this
  | error e => exact ⟨e, rfl⟩

/-- A saved member of an enumeration is a number. -/
theorem saved_member_is_number (text raw : Nat → String) (w : World) (c : String) (p : Nat)
    (hc : c ∈ lineEnums) :
    encodeVal (apiCodec text raw) w (.inst c p) = .ok (.int p) := by
  simp only [lineEnums, List.mem_cons, List.not_mem_nil, or_false] at hc
  rcases hc with rfl | rfl | rfl <;> rfl

/-- A saved dtype is a text, whatever the dtype. -/
theorem saved_dtype_is_text (text raw : Nat → String) (w : World) (c : String) (p : Nat)
    (hc : isDtypeClass c = true) :
    encodeVal (apiCodec text raw) w (.inst c p) = .ok (.str (text p)) := by
  simp [encodeVal, apiCodec, hc]

/-- The file of a scene with one buffer and segments meets the hypotheses. -/
example : ∃ file w3, gspSave gsp0 (apiCodec (fun _ => "float32") (fun _ => "AAAA")) 9
    (runActs gsp0 (World.start gspConverters) oneCap) "scene.json" none .absent =
      some (runActs gsp0 (World.start gspConverters) oneCap, file, .ok ()) ∧
    file = .doc [⟨some "core.Buffer", 1, some [("id", .int 1), ("count", .int 2),
      ("dtype", .str "float32"), ("data", .null)]⟩,
      ⟨some "visual.Segments", 2, some [("id", .int 2), ("positions(id)", .int 1),
        ("line_caps", .int 1), ("line_colors(id)", .int 1), ("line_widths", .float 1)]⟩] ∧
    gspLoad (World.start allConverters) "scene.json" none file = (w3, .ok ()) :=
  ⟨_, _, rfl, rfl, rfl⟩

/-- C64. While it records, the backend cannot create lists at all, with any arguments. -/
theorem recording_backend_has_no_lists (A : ArrayInfo)
    (draw : Obj → String → Dict String Val → Option Err) (w : World) (args : List Val)
    (kwargs : Dict String Val) (nc : Bool) :
    ∃ e, (construct (mplProg A true draw) w "List" args kwargs nc).2 = .error e := by
  have hs : (mplProg A true draw).sig "List" "__init__" = some (Row.sig ⟨"List", "__init__",
    some "core.List", [req "data" ["Buffer"], req "itemsizes" ["Buffer", "int"]]⟩) := rfl
  unfold construct
  rw [hs]
  dsimp only
  cases hb : bindArgs (Row.sig ⟨"List", "__init__", some "core.List", [req "data" ["Buffer"],
    req "itemsizes" ["Buffer", "int"]]⟩) args kwargs with
  | error e => exact ⟨e, rfl⟩
  | ok b =>
    dsimp only
    have ho : (newObject w "List").1.heap[w.heap.length]? =
        some (Obj.mk (1 + (w.oidCounter : Int)) "List" [] (1 + (w.oidCounter : Int))) := by
      simp [newObject]
    simp only [newObject_ref, ho]
    exact ⟨.nameError, rfl⟩

/-- It can when it does not record. -/
example : (construct (mplProg { count := fun _ => 0, dtype := fun _ => 0, content := fun _ => 0 } false (fun _ _ _ => none))
    { World.start allConverters with recording := false } "List" [.obj 0, .int 3] [] false).2 =
      .ok 0 := rfl

/-- A colour given as a list is recorded with a conversion that is done when the session is
saved; it succeeds exactly for four components, which are then in the file. -/
theorem colour_list_saved (A : ArrayInfo) (text raw : Nat → String) (l : List Int) :
    ∃ u, recordedAs (gspProg A) gspConverters ["Color"] (.list l) = some u ∧
      (Savable (gspProg A) (apiCodec text raw) u ↔ l.length = 4) ∧
      (l.length = 4 → jsonVal (gspProg A) (apiCodec text raw) u = .list l) := by
  have hev : evaluated (gspProg A) (.conv 1 (.list l)) = (toColor l).toOption := rfl
  refine ⟨.conv 1 (.list l), ?_, ?_, ?_⟩
  · have : (candidates gsp0 gspConverters "list" ["Color"]).getLast? = some 1 := by decide +kernel
    unfold recordedAs
    rw [show (candidates (gspProg A) gspConverters (className (.list l)) ["Color"]).getLast? =
      some 1 from this]
  · constructor
    · rintro ⟨y, hy, _⟩
      rw [hev] at hy
      by_contra h
      simp [toColor, h, Except.toOption] at hy
    · intro h
      refine ⟨.inst "Color" (colorCode l), ?_, ?_⟩
      · rw [hev]; simp [toColor, h, Except.toOption]
      · simp [Encodable, color_saved]
  · intro h
    rw [jsonVal, hev]
    simp [toColor, h, Except.toOption, loadedValue, color_saved, decodeVal]

example : Savable gsp0 (apiCodec (fun _ => "") (fun _ => "")) (.conv 1 (.list [1, 0, 0, 1])) ∧
    ¬ Savable gsp0 (apiCodec (fun _ => "") (fun _ => "")) (.conv 1 (.list [1, 0, 0])) := by
  decide +kernel

/-- Paths and polygons are made only from positions with a length; integer indices must be
positive. -/
theorem paths_need_positive_indices (A : ArrayInfo) (w : World) (hrec : w.recording = true)
    (cls : String) (args : List Val) (kwargs : Dict String Val) (nc : Bool)
    (hkw : (dkeys kwargs).Nodup)
    (h : (step (gspProg A) w (.create cls args kwargs nc)).2 = .ok ()) :
    ∃ sg b, (gspProg A).sig cls "__init__" = some sg ∧ bindArgs sg args kwargs = .ok b ∧
      ∀ p, dget b "positions" = some p → hasLen p = true ∧
        ∀ n : Int, dget b "indices" = some (.int n) → 0 < n := by
  obtain ⟨sg, b, hs, hb, hr, _⟩ := create_ok_inv (gspProg_wf A) hkw hrec h
  refine ⟨sg, b, hs, hb, fun p hp => ?_⟩
  have hr : gspRaises _ "__init__" b = none := hr
  unfold gspRaises at hr
  split at hr
  · cases hr
  · rw [hp] at hr
    dsimp only at hr
    split at hr
    · rename_i hl
      refine ⟨hl, fun n hn => ?_⟩
      rw [hn] at hr
      simp only [Option.elim, indicesRaise, intValue] at hr
      split at hr
      · cases hr
      · split at hr
        · cases hr
        · omega
    · cases hr

example : ∃ e, (step gsp0 (runActs gsp0 (World.start gspConverters) sampleScene)
    (.create "Paths" [.obj 2, .int (-2), .list [0, 0, 0, 1], .float 1, .inst "LineStyle" 1,
      .inst "LineJoin" 1, .inst "LineCap" 1] [] false)).2 = .error e := ⟨_, rfl⟩

/-- Conversely the constructors of `gsp` accept positions that are an object, and indices that
are an object or equal to a positive integer (`True` is 1). -/
theorem paths_accept_indices (A : ArrayInfo) (o : Obj) (hm : o.cls ≠ "Measure") (b : Dict String Val)
    (x : Nat) (hp : dget b "positions" = some (.obj x)) (v : Val)
    (hi : dget b "indices" = some v) :
    ((∃ y, v = .obj y) ∨ v = .bool true ∨ (∃ n : Int, 0 < n ∧ (v = .int n ∨ v = .oid n)) ∨
      ∃ c p, v = .inst c p ∧ c ∈ enumClasses ∧ 0 < p) →
    (gspProg A).raises o "__init__" b = none := by
  intro h
  show gspRaises o "__init__" b = none
  unfold gspRaises
  rw [if_neg (by rintro ⟨h, _⟩; exact hm h), hp]
  dsimp only
  rw [if_pos (show hasLen (.obj x) = true from rfl), hi]
  show indicesRaise v = none
  rcases h with ⟨y, rfl⟩ | rfl | ⟨n, hn, rfl | rfl⟩ | ⟨c, p, rfl, hc, hp⟩
  · rfl
  · rfl
  · simp only [indicesRaise, intValue]
    rw [if_neg (by omega), if_neg (by omega)]
  · simp only [indicesRaise, intValue]
    rw [if_neg (by omega), if_neg (by omega)]
  · simp only [indicesRaise, intValue]
    rw [if_pos (by simpa using hc)]
    dsimp only
    rw [if_neg (by omega), if_neg (by omega)]

example : (step gsp0 (runActs gsp0 (World.start gspConverters) sampleScene)
    (.create "Paths" [.obj 2, .bool true, .list [0, 0, 0, 1], .float 1, .inst "LineStyle" 1,
      .inst "LineJoin" 1, .inst "LineCap" 1] [] false)).2 = .ok () := rfl

/-- C64. `Viewport.render`, which can be recorded, raises in the backend whatever its
arguments. -/
theorem viewport_render_never_runs (A : ArrayInfo) (on : Bool)
    (draw : Obj → String → Dict String Val → Option Err) (w : World) (r : Nat) (o : Obj)
    (ho : w.heap[r]? = some o) (hcls : o.cls = "Viewport") (args : List Val)
    (kwargs : Dict String Val) (nc : Bool) :
    ∃ e, (callMethod (mplProg A on draw) w r "render" args kwargs nc).2 = .error e := by
  have hs : (mplProg A on draw).sig o.cls "render" =
      some (Row.sig ⟨"Viewport", "render", none, [req "target" []]⟩) := by rw [hcls]; rfl
  unfold callMethod
  rw [ho]
  dsimp only
  rw [hs]
  dsimp only
  cases bindArgs (Row.sig ⟨"Viewport", "render", none, [req "target" []]⟩) args kwargs with
  | error e => exact ⟨e, rfl⟩
  | ok b =>
    have hr : (mplProg A on draw).raises o "render" b = some .typeError := by
      show mplRaises on draw o "render" b = _
      unfold mplRaises
      rw [if_pos ⟨hcls, rfl⟩]
    dsimp only
    rw [hr]
    exact ⟨_, rfl⟩

/-- The front end records it. -/
example : (step gsp0 (runActs gsp0 (World.start gspConverters) canvasScene)
    (.call 1 "render" [.str "out.png"] [] false)).2 = .ok () := rfl

end Verif
