import Verif.Lemmas.Handle
import Verif.Props.Launcher
import Verif.Props.Number
/-! # C81: buffers given by their arrays, canvases by their numbers -/

namespace Verif

/-- C81. In any session with the public classes, giving the arrays that GSP tracks for their buffers,
and numbers for canvases, changes neither the outcome of any action nor what saving does: the file and
the exception are the same, whatever the file held before. -/
theorem handles_save_alike (A : ArrayInfo) {as as' : List Act}
    (h : ByHandles A (gspProg A) (World.start allConverters) as as') (ij : Codec) (fuel : Nat)
    (name : String) (format : Option String) (old : File) :
    outcomes (gspProg A) (World.start allConverters) as' = outcomes (gspProg A) (World.start allConverters) as ∧
    (gspSave (gspProg A) ij fuel (runActs (gspProg A) (World.start allConverters) as') name format old).map
        Prod.snd =
      (gspSave (gspProg A) ij fuel (runActs (gspProg A) (World.start allConverters) as) name format old).map
        Prod.snd := by
  obtain ⟨h1, h2, h3⟩ := Alike.handles A (Alike.refl _ _) (numInv_start (List.mem_cons_of_mem _ List.mem_cons_self)) rfl h
  refine ⟨h1, ?_⟩
  unfold gspSave
  split
  · exact h2.saveQueue (gsp_byClass A) h3.coherent ij fuel old
  · rfl

/-- C81, C64. So a session in which tracked arrays and numbers were given is saved, loaded and run as
the session that gave the buffers and the canvases. -/
theorem handles_run_partial (A : ArrayInfo) (text raw : Nat → String)
    (draw : Obj → String → Dict String Val → Option Err) (hdraw : ∀ o f b, draw o f b = none)
    (as as' : List Act) (hne : as ≠ [])
    (hby : ByHandles A (gspProg A) (World.start allConverters) as as')
    (hok : Succeeds (gspProg A) (World.start allConverters) as)
    (hport : PortableSession portable (gspProg A) (World.start allConverters) as)
    (hsave : SavableSession (gspProg A) (apiCodec text raw) allConverters (World.start allConverters) as)
    (w2 : World) (hoff : w2.recording = false) (hrec : w2.objRecord = true) (hwr : w2.Writable)
    (name : String) (format : Option String) (hfmt : IsJson format name) (old : File) (fuel : Nat)
    (hfuel : as.length < fuel) :
    ∃ w' file w3 q w4 ref made,
      gspSave (gspProg A) (apiCodec text raw) fuel
        (runActs (gspProg A) (World.start allConverters) as') name format old = some (w', file, .ok ()) ∧
      gspLoad w2 name format file = (w3, .ok ()) ∧ w3.active = some q ∧
      runQueue (mplProg A false draw) w3 q = (w4, .ok ()) ∧
      Rebuilt (gspProg A) (mplProg A false draw) allConverters (jsonVal (gspProg A) (apiCodec text raw))
        (runActs (gspProg A) (World.start allConverters) as) w2 w4 ref made := by
  obtain ⟨file, w3, q, w4, ref, made, h1, h2⟩ := saved_scenes_run_partial A text raw draw hdraw allConverters
    (Or.inr rfl) as hne hok hport hsave w2 hoff hrec hwr name format hfmt old fuel hfuel
  have h := (handles_save_alike A hby (apiCodec text raw) fuel name format old).2
  rw [h1, Option.map_some, Option.map_eq_some_iff] at h
  obtain ⟨⟨w', file', res⟩, h3, h4⟩ := h
  cases h4
  exact ⟨w', file, w3, q, w4, ref, made, h3, h2⟩

/-- C81, C64, in a process that records. -/
theorem handles_run_recording_partial (A : ArrayInfo) (text raw : Nat → String)
    (draw : Obj → String → Dict String Val → Option Err) (hdraw : ∀ o f b, draw o f b = none)
    (as as' : List Act) (hne : as ≠ [])
    (hby : ByHandles A (gspProg A) (World.start allConverters) as as')
    (hok : Succeeds (gspProg A) (World.start allConverters) as)
    (hport : PortableSession portableOn (gspProg A) (World.start allConverters) as)
    (hline : ∀ a ∈ as, ∀ v ∈ a.values, isLineMember v = false)
    (hsave : SavableSession (gspProg A) (apiCodec text raw) allConverters (World.start allConverters) as)
    (w2 : World) (hon : w2.recording = true) (hcs2 : w2.converters = allConverters)
    (hrec : w2.objRecord = true) (hwr : w2.Writable)
    (name : String) (format : Option String) (hfmt : IsJson format name) (old : File) (fuel : Nat)
    (hfuel : as.length < fuel) :
    ∃ w' file w3 q w4 ref made,
      gspSave (gspProg A) (apiCodec text raw) fuel
        (runActs (gspProg A) (World.start allConverters) as') name format old = some (w', file, .ok ()) ∧
      gspLoad w2 name format file = (w3, .ok ()) ∧ w3.active = some q ∧
      runQueue (mplProg A true draw) w3 q = (w4, .ok ()) ∧
      Rebuilt (gspProg A) (mplProg A true draw) allConverters (jsonVal (gspProg A) (apiCodec text raw))
        (runActs (gspProg A) (World.start allConverters) as) w2 w4 ref made := by
  obtain ⟨file, w3, q, w4, ref, made, h1, h2⟩ := saved_scenes_run_recording_partial A text raw draw hdraw
    allConverters (Or.inr rfl) as hne hok hport hline hsave w2 hon hcs2 hrec hwr name format hfmt old fuel hfuel
  have h := (handles_save_alike A hby (apiCodec text raw) fuel name format old).2
  rw [h1, Option.map_some, Option.map_eq_some_iff] at h
  obtain ⟨⟨w', file', res⟩, h3, h4⟩ := h
  cases h4
  exact ⟨w', file, w3, q, w4, ref, made, h3, h2⟩

/-- C81, C72. The launcher can run an example again in which tracked arrays and numbers were given:
the cycle ends without error and rebuilds the objects that the session that gave the buffers and the
canvases has, next to those of the session itself (`w1` is the process once the file is written). -/
theorem handles_cycle_partial (A : ArrayInfo) (text raw : Nat → String)
    (draw : Obj → String → Dict String Val → Option Err) (hdraw : ∀ o f b, draw o f b = none)
    (as as' : List Act) (hne : as ≠ [])
    (hby : ByHandles A (gspProg A) (World.start allConverters) as as')
    (hok : Succeeds (gspProg A) (World.start allConverters) as)
    (hport : PortableSession portableOn (gspProg A) (World.start allConverters) as)
    (hline : ∀ a ∈ as, ∀ v ∈ a.values, isLineMember v = false)
    (hsave : SavableSession (gspProg A) (apiCodec text raw) allConverters (World.start allConverters) as)
    (base : String) (old : File) (fuel : Nat) (hfuel : as.length < fuel) :
    ∃ w1 file w4 ref made,
      launcherCommands (gspProg A) (mplProg A true draw) (apiCodec text raw) fuel
        (runActs (gspProg A) (World.start allConverters) as') base old false = some (w1, file, .ok ()) ∧
      launcherCommands (gspProg A) (mplProg A true draw) (apiCodec text raw) fuel
        (runActs (gspProg A) (World.start allConverters) as') base old true = some (w4, file, .ok ()) ∧
      Rebuilt (gspProg A) (mplProg A true draw) allConverters (jsonVal (gspProg A) (apiCodec text raw))
        (runActs (gspProg A) (World.start allConverters) as) w1 w4 ref made := by
  have hR := (recorder_closed allConverters).acts (P := gspProg A) (as := as')
    (recorder_start allConverters)
  obtain ⟨w1, file, _, _, _, _, _, h1, _⟩ := handles_run_recording_partial A text raw draw hdraw as as' hne hby
    hok hport hline hsave _ hR.on hR.table hR.keeps hR.open_ (base ++ ".commands.json") none
    (commands_json base) old fuel hfuel
  have hR1 : Recorder allConverters w1 := by
    have h1' := h1
    unfold gspSave at h1'
    rw [if_pos ((formatOf_json_iff none _).2 (commands_json base))] at h1'
    exact (recorder_closed allConverters).saveQueue hR h1'
  obtain ⟨w1', file', w3, q, w4, ref, made, h1', h2, h3, h4, h5⟩ := handles_run_recording_partial A text raw draw
    hdraw as as' hne hby hok hport hline hsave w1 hR1.on hR1.table hR1.keeps hR1.open_
    (base ++ ".commands.json") none (commands_json base) old fuel hfuel
  rw [h1] at h1'
  cases h1'
  obtain ⟨js, n, rfl, hact, _⟩ := gspLoad_ok_commands hR1.open_ h2
  have h2' := loadQueue_reset w1 js (base ++ ".commands.json") none
    ((formatOf_json_iff none _).2 (commands_json base))
  rw [h2] at h2'
  have hq : (pickQueue { w1 with objects := [] } none).2 = q := by
    rw [hact] at h3
    cases h3
    unfold pickQueue getQueue getQueue.activeOrNew activeIx
    dsimp only
    cases w1.active <;> rfl
  refine ⟨w1, .doc js, w4, ref, made, ?_, ?_, h5⟩
  · unfold launcherCommands
    rw [h1]
    rfl
  · unfold launcherCommands
    rw [h1]
    dsimp only
    rw [if_neg (by decide), h2']
    dsimp only
    rw [hq, h4]

/-- The array number 7 is followed by the third object of the session. -/
def handleInfo : ArrayInfo :=
  ⟨fun _ => 0, fun _ => 0, fun _ => 0, fun _ => "<f4::1", fun _ => some 0,
    fun p => if p = 7 then some 3 else none⟩

/-- The scene of C64, with the array for the buffer and a number for the canvas, but where a buffer is
rendered or filled. -/
def handleScene : List Act :=
  [.create "Canvas" [.int 512, .int 512, .float 100] [],
   .create "Viewport" [.oid 1, .int 0, .int 0, .float 1, .float 1, .list [1, 1, 1, 1]] [],
   .create "Buffer" [.int 4, .inst "Float32DType" 1] [("data", .inst "memoryview" 7)],
   .create "Points" [.inst "tracked" 7, .float 10, .tuple [0, 0, 0, 1], .list [1, 0, 0, 1], .obj 2] [],
   .create "Markers" [.obj 2, .inst "Marker" 3, .float 9, .none, .float 0, .inst "tracked" 7,
     .list [0, 0, 0, 1], .float 1] [],
   .create "Paths" [.inst "tracked" 7, .int 2, .list [0, 0, 0, 1], .float 1, .obj 2, .none,
     .inst "tracked" 7] [],
   .call 2 "set_data" [.int 0, .inst "memoryview" 8] [],
   .call 3 "render" [.obj 1] [],
   .call 0 "render" [.str "out.png"] []]

theorem handleScene_byHandles : ByHandles handleInfo (gspProg handleInfo) (World.start allConverters)
    recordedScene handleScene := by
  have same : ∀ (w : World) (sg : Sig) (k : String) (x : Val), LeadsTo handleInfo w sg k x x :=
    fun _ _ _ _ => Or.inl rfl
  refine ⟨⟨rfl, Or.inl ⟨rfl, rfl⟩⟩, ⟨rfl, Or.inr ⟨List.nodup_nil, _, rfl, rfl, ?_, .nil⟩⟩,
    ⟨rfl, Or.inl ⟨rfl, rfl⟩⟩, ⟨rfl, Or.inr ⟨List.nodup_nil, _, rfl, rfl, ?_, .nil⟩⟩,
    ⟨rfl, Or.inr ⟨List.nodup_nil, _, rfl, rfl, ?_, .nil⟩⟩, ⟨rfl, Or.inr ⟨List.nodup_nil, _, rfl, rfl, ?_, .nil⟩⟩,
    ⟨rfl, rfl, Or.inl ⟨rfl, rfl⟩⟩, ⟨rfl, rfl, Or.inl ⟨rfl, rfl⟩⟩, ⟨rfl, rfl, Or.inl ⟨rfl, rfl⟩⟩, trivial⟩
  · refine .cons ⟨rfl, Or.inr ⟨by decide +kernel, 0, _, _, rfl, rfl, by decide +kernel,
      Or.inl ⟨rfl, by decide +kernel⟩⟩⟩ ?_
    exact List.forall₂_same.2 (fun p _ => ⟨rfl, same _ _ _ _⟩)
  · refine .cons ⟨rfl, Or.inr ⟨by decide +kernel, 2, _, _, rfl, rfl, rfl,
      Or.inr ⟨by decide, 7, rfl, by decide +kernel⟩⟩⟩ ?_
    exact List.forall₂_same.2 (fun p _ => ⟨rfl, same _ _ _ _⟩)
  · refine .cons ⟨rfl, same _ _ _ _⟩ (.cons ⟨rfl, same _ _ _ _⟩ (.cons ⟨rfl, same _ _ _ _⟩
      (.cons ⟨rfl, same _ _ _ _⟩ (.cons ⟨rfl, same _ _ _ _⟩ (.cons ⟨rfl, Or.inr ⟨by decide +kernel, 2, _, _,
        rfl, rfl, rfl, Or.inr ⟨by decide, 7, rfl, by decide +kernel⟩⟩⟩ ?_)))))
    exact List.forall₂_same.2 (fun p _ => ⟨rfl, same _ _ _ _⟩)
  · refine .cons ⟨rfl, Or.inr ⟨by decide +kernel, 2, _, _, rfl, rfl, rfl,
      Or.inr ⟨by decide, 7, rfl, by decide +kernel⟩⟩⟩ (.cons ⟨rfl, same _ _ _ _⟩
        (.cons ⟨rfl, same _ _ _ _⟩ (.cons ⟨rfl, same _ _ _ _⟩ (.cons ⟨rfl, same _ _ _ _⟩
          (.cons ⟨rfl, same _ _ _ _⟩ (.cons ⟨rfl, Or.inr ⟨by decide +kernel, 2, _, _, rfl, rfl,
            rfl, Or.inr ⟨by decide, 7, rfl, by decide +kernel⟩⟩⟩ .nil))))))

/-- The scene with the buffers meets the other hypotheses. -/
example : recordedScene ≠ [] ∧ Succeeds (gspProg handleInfo) (World.start allConverters) recordedScene ∧
    PortableSession portableOn (gspProg handleInfo) (World.start allConverters) recordedScene ∧
    (∀ a ∈ recordedScene, ∀ v ∈ a.values, isLineMember v = false) ∧
    SavableSession (gspProg handleInfo) (apiCodec (fun _ => "float32") (fun _ => "AAAA")) allConverters
      (World.start allConverters) recordedScene :=
  ⟨by simp [recordedScene], by decide +kernel, by decide +kernel, by decide +kernel,
    savableSessionB_sound (by decide +kernel)⟩

/-- The restriction to parameters without a default cannot be dropped: a transform given its buffer is
saved with the buffer and with the default, a transform given the array with the buffer alone. -/
theorem handle_default_fails :
    let save := fun (b : Val) => (gspSave (gspProg handleInfo) (apiCodec (fun _ => "float32") (fun _ => "AAAA")) 9
      (runActs (gspProg handleInfo) (World.start allConverters)
        [.create "Canvas" [.int 1, .int 1, .float 1] [], .create "Canvas" [.int 1, .int 1, .float 1] [],
         .create "Buffer" [.int 4, .inst "Float32DType" 1] [("data", .inst "memoryview" 7)],
         .create "X" [b] []]) "a.json" none .absent).map (fun r => r.2.1)
    save (.obj 2) ≠ save (.inst "tracked" 7) := by
  decide +kernel

end Verif
