import Verif.Model.Launcher
import Verif.Props.Api
import Verif.Props.DefineIff
/-! # C72: examples that save their commands and run them again -/

namespace Verif

/-- `gsp.io.json.load` after the registry was emptied is `gsp.load`. -/
theorem loadQueue_reset (w : World) (js : List JCmd) (name : String) (format : Option String)
    (hfmt : formatOf format name = "json") :
    loadQueue { w with objects := [] } (.doc js) none = gspLoad w name format (.doc js) := by
  have hempty : ∀ (w : World) (q : Nat), emptyQueue (emptyQueue w q) q = emptyQueue w q := by
    intro w q
    unfold emptyQueue setQueue
    simp only [World.mk.injEq, true_and, and_true]
    apply List.ext_getElem?
    intro i
    simp only [List.getElem?_modify]
    cases w.queues[i]? <;> simp
    split
    · intro _; rfl
    · intro h; contradiction
  unfold gspLoad
  simp only [hfmt, if_true]
  unfold loadQueue
  dsimp only
  obtain ⟨heap, objects, oidc, objr, cidc, recd, queues, insts, active, convs⟩ := w
  cases active with
  | none =>
    have := hempty (getQueue ⟨heap, [], oidc, objr, cidc, recd, queues, insts, none, convs⟩ none).1
      queues.length
    exact (congrArg (fun w => loadLoop w queues.length js) this).symm
  | some q =>
    have := hempty ⟨heap, [], oidc, objr, cidc, recd, queues, insts, some q, convs⟩ q
    exact (congrArg (fun w => loadLoop w q js) this).symm

/-- What holds in a process that records with the converters `cs` into a writable queue. -/
structure Recorder (cs : Dict (String × String) Nat) (w : World) : Prop where
  on : w.recording = true
  keeps : w.objRecord = true
  table : w.converters = cs
  open_ : w.Writable

theorem recorder_closed (cs : Dict (String × String) Nat) : CallClosed (Recorder cs) where
  newObj := fun w cls h => ⟨h.on, h.keeps, h.table, h.open_⟩
  log := by
    intro w r m b h
    unfold logCall
    split
    · exact h
    · exact ⟨h.on, h.keeps, h.table, h.open_⟩
  getq := by
    intro w h
    unfold getQueue getQueue.activeOrNew
    cases ha : w.active with
    | some q => exact h
    | none =>
      refine ⟨h.on, h.keeps, h.table, Or.inr ⟨w.queues.length, ⟨"default", false, []⟩, rfl, ?_, rfl⟩⟩
      simp [newQueue]
  push := by
    intro w q u cls meth ps h ha hq hr
    refine ⟨h.on, h.keeps, h.table, Or.inr ⟨q, ?_, ha, ?_, ?_⟩⟩
    · exact (u.push ⟨w.cidCounter + 1, cls, meth, stripObjs w ps⟩).1
    · simp [pushCmd, setQueue, hq]
    · simp [Queue.push, hr]

/-- The first queue is active and writable. -/
theorem first_closed : CallClosed (fun w => w.active = some 0 ∧
    ∃ u, w.queues[0]? = some u ∧ u.readonly = false) where
  newObj := fun w cls h => h
  log := by
    intro w r m b h
    unfold logCall
    split <;> exact h
  getq := by
    intro w h
    unfold getQueue getQueue.activeOrNew
    rw [h.1]
    exact h
  push := by
    intro w q u cls meth ps h ha hq hr
    obtain ⟨h0, u0, h1, h2⟩ := h
    rw [h0] at ha
    cases ha
    refine ⟨h0, (u.push ⟨w.cidCounter + 1, cls, meth, stripObjs w ps⟩).1, ?_, ?_⟩
    · simp [pushCmd, setQueue, hq]
    · simp [Queue.push, hr]

theorem CallClosed.acts {I : World → Prop} (H : CallClosed I) {P : Prog} : ∀ {as : List Act} {w : World},
    I w → I (runActs P w as) := by
  intro as
  induction as with
  | nil => intro w h; exact h
  | cons a as ih =>
    intro w h
    apply ih
    cases a with
    | create cls args kwargs =>
      show I (Verif.step P w (.create cls args kwargs false)).1
      unfold Verif.step
      have hc := H.construct (P := P) (cls := cls) (args := args) (kwargs := kwargs) (nc := false) h
      dsimp only
      split <;> (rename_i heq; rw [heq] at hc; exact hc)
    | call r f args kwargs => exact H.callMethod h

theorem CallClosed.dumpLoop {I : World → Prop} (H : CallClosed I) {P : Prog} {q : Nat} :
    ∀ {fuel i : Nat} {w w' : World} {acc res}, I w →
    Verif.dumpLoop P fuel w q i acc = some (w', res) → I w' := by
  intro fuel
  induction fuel with
  | zero => intro i w w' acc res _ h; cases h
  | succ fuel ih =>
    intro i w w' acc res h heq
    unfold Verif.dumpLoop at heq
    split at heq
    · cases heq; exact h
    · rename_i c _
      have hd := H.dumpCommand (P := P) (c := c) h
      split at heq
      · rename_i hc; rw [hc] at hd; cases heq; exact hd
      · rename_i hc; rw [hc] at hd; exact ih hd heq

theorem CallClosed.saveQueue {I : World → Prop} (H : CallClosed I) {P : Prog} {ij fuel w old w' f res}
    (h : I w) (heq : Verif.saveQueue P ij fuel w none old = some (w', f, res)) : I w' := by
  unfold Verif.saveQueue at heq
  have h1 : I (pickQueue w none).1 := H.getq w h
  split at heq
  · cases heq
  · rename_i hd; cases heq; exact H.dumpLoop h1 hd
  · rename_i hd
    have := H.dumpLoop h1 hd
    split at heq <;> (cases heq; exact this)

theorem recorder_start (cs : Dict (String × String) Nat) : Recorder cs (World.start cs) :=
  ⟨rfl, rfl, rfl, Or.inl rfl⟩

theorem commands_json (base : String) : IsJson none (base ++ ".commands.json") := by
  refine Or.inr ⟨Or.inl rfl, base ++ ".commands", ?_, ?_⟩
  · intro h
    have := congrArg String.length h
    simp only [String.length_append] at this
    have h9 : ".commands".length = 9 := by decide
    have h0 : "".length = 0 := by decide
    omega
  · rw [String.append_assoc]
    have : ".commands" ++ ".json" = ".commands.json" := by decide
    rw [this]

/-- The full claim of C72: an example whose session is built without errors and saved can be run
again in the same process with `--command_file_cycle`. -/
def LauncherCycles : Prop :=
  ∀ (A : ArrayInfo) (text raw : Nat → String) (draw : Obj → String → Dict String Val → Option Err),
    (∀ o f b, draw o f b = none) → ∀ (as : List Act) (fuel : Nat) (base : String) (old file : File)
      (w' : World),
    Succeeds (gspProg A) (World.start allConverters) as →
    launcherCommands (gspProg A) (mplProg A true draw) (apiCodec text raw) fuel
      (runActs (gspProg A) (World.start allConverters) as) base old false =
      some (w', file, .ok ()) →
    ∃ w4, launcherCommands (gspProg A) (mplProg A true draw) (apiCodec text raw) fuel
      (runActs (gspProg A) (World.start allConverters) as) base old true = some (w4, file, .ok ())

/-- An example with an array. -/
def cycledScene : List Act := [.create "Pixels" [.inst "ndarray" 3, .inst "Color" 0] []]

/-- C72 fails: the buffer of an array is created in the file after the command that uses it. -/
theorem launcher_cycle_fails : ¬ LauncherCycles := by
  intro h
  obtain ⟨w4, h1⟩ := h { count := fun _ => 2, dtype := fun _ => 0, content := fun _ => 0 }
    (fun _ => "float32") (fun _ => "AAAA") (fun _ _ _ => none) (fun _ _ _ => rfl) cycledScene 9
    "pixels" .absent _ _ ⟨rfl, trivial⟩ rfl
  have h2 := (congrArg (fun r => r.map (fun r => Except.toBool r.2.2)) h1).trans
    (show _ = some true from rfl)
  clear h1
  revert h2
  decide +kernel

/-- C72 (part). An example that uses the functions the backend has, other than `List`, with
arguments that can be saved and no members of the line enumerations, can be saved and run again:
the cycle ends without error, and every object of the session is again registered under its id, of
the same class, with the same calls; the objects of the session itself are left as they were.
Missing: arrays (`launcher_arrays_fails`), lists, line enumerations, transforms. -/
theorem launcher_cycle_partial (A : ArrayInfo) (text raw : Nat → String)
    (draw : Obj → String → Dict String Val → Option Err) (hdraw : ∀ o f b, draw o f b = none)
    (as : List Act) (hne : as ≠ [])
    (hok : Succeeds (gspProg A) (World.start allConverters) as)
    (hport : PortableSession portableOn (gspProg A) (World.start allConverters) as)
    (hline : ∀ a ∈ as, ∀ v ∈ a.values, isLineMember v = false)
    (hsave : SavableSession (gspProg A) (apiCodec text raw) allConverters
      (World.start allConverters) as)
    (base : String) (old : File) (fuel : Nat) (hfuel : as.length < fuel) :
    ∃ file w4 ref made,
      launcherCommands (gspProg A) (mplProg A true draw) (apiCodec text raw) fuel
        (runActs (gspProg A) (World.start allConverters) as) base old true =
        some (w4, file, .ok ()) ∧
      Rebuilt (gspProg A) (mplProg A true draw) allConverters
        (jsonVal (gspProg A) (apiCodec text raw))
        (runActs (gspProg A) (World.start allConverters) as)
        (runActs (gspProg A) (World.start allConverters) as) w4 ref made := by
  have hR := (recorder_closed allConverters).acts (P := gspProg A) (as := as)
    (recorder_start allConverters)
  obtain ⟨file, w3, q, w4, ref, made, h1, h2, h3, h4, h5⟩ :=
    saved_scenes_run_recording_partial A text raw draw hdraw allConverters (Or.inr rfl) as hne hok
      hport hline hsave _ hR.on hR.table hR.keeps hR.open_ (base ++ ".commands.json") none
      (commands_json base) old fuel hfuel
  generalize runActs (gspProg A) (World.start allConverters) as = w at *
  obtain ⟨js, n, rfl, hact, _⟩ := gspLoad_ok_commands hR.open_ h2
  have h2' := loadQueue_reset w js (base ++ ".commands.json") none
    ((formatOf_json_iff none _).2 (commands_json base))
  rw [h2] at h2'
  have hq : (pickQueue { w with objects := [] } none).2 = q := by
    rw [hact] at h3
    cases h3
    unfold pickQueue getQueue getQueue.activeOrNew activeIx
    dsimp only
    cases w.active <;> rfl
  refine ⟨.doc js, w4, ref, made, ?_, h5⟩
  unfold launcherCommands
  rw [h1]
  dsimp only
  rw [if_neg (by decide), h2']
  dsimp only
  rw [hq, h4]

/-- The scene of C64 meets the hypotheses. -/
example : recordedScene ≠ [] ∧ Succeeds gsp0 (World.start allConverters) recordedScene ∧
    PortableSession portableOn gsp0 (World.start allConverters) recordedScene ∧
    (∀ a ∈ recordedScene, ∀ v ∈ a.values, isLineMember v = false) ∧
    SavableSession gsp0 (apiCodec (fun _ => "float32") (fun _ => "AAAA")) allConverters
      (World.start allConverters) recordedScene :=
  ⟨by simp [recordedScene], recordedScene_ok allConverters (by simp)⟩

/-- C72. Whatever the backend, the cycle of an example in which an array that GSP does not track was given
for a buffer raises, once the session has been saved. -/
theorem launcher_arrays_fails (A : ArrayInfo) (P2 : Prog) (ij : Codec) (as : List Act)
    (hs : Succeeds (gspProg A) (World.start allConverters) as)
    (hl : LiveSession (gspProg A) (World.start allConverters) as)
    (fuel : Nat) (base : String) (old file : File) (w' : World)
    (hsave : launcherCommands (gspProg A) P2 ij fuel
      (runActs (gspProg A) (World.start allConverters) as) base old false = some (w', file, .ok ()))
    (hp : ∀ c ∈ commandsOf w' 0, ProperCmd (gspProg A) c)
    (c : Cmd) (hcm : c ∈ commandsOf (runActs (gspProg A) (World.start allConverters) as) 0)
    (k : String) (x : Val) (hpm : (k, .conv 12 x) ∈ c.params) (hx : isTracked x = false) :
    ∃ w4 e, launcherCommands (gspProg A) P2 ij fuel
      (runActs (gspProg A) (World.start allConverters) as) base old true =
      some (w4, file, .error e) := by
  have hfmt : formatOf none (base ++ ".commands.json") = "json" :=
    (formatOf_json_iff none _).2 (commands_json base)
  have hsv : gspSave (gspProg A) ij fuel (runActs (gspProg A) (World.start allConverters) as)
      (base ++ ".commands.json") none old = some (w', file, .ok ()) := by
    unfold launcherCommands at hsave
    split at hsave
    · cases hsave
    · cases hsave
    · rename_i heq
      rw [if_pos rfl] at hsave
      cases hsave
      exact heq
  have hsq : saveQueue (gspProg A) ij fuel (runActs (gspProg A) (World.start allConverters) as)
      none old = some (w', file, .ok ()) := by
    unfold gspSave at hsv
    rw [if_pos hfmt] at hsv
    exact hsv
  have hq0 : w'.active = some 0 ∧ ∃ u, w'.queues[0]? = some u ∧ u.readonly = false := by
    have hinv := defInv_session (gsp_ok A) (defInv_start allConverters) hs hl
    rcases hinv.on.target with h | ⟨_, h0⟩
    · exact first_closed.saveQueue h hsq
    · unfold commandsOf at hcm
      rw [List.getElem?_eq_none (by omega)] at hcm
      cases hcm
  obtain ⟨ha, u, hu, hr⟩ := hq0
  obtain ⟨w2', h1, h2⟩ := gsp_array_session_fails A ij as hs hl fuel old file w' hsq hp c hcm k x hpm
    hx P2 { w' with objects := [] } 0 u none rfl hu (Or.inr ⟨ha, Or.inl rfl⟩) hr
  unfold launcherCommands
  rw [hsv]
  dsimp only
  rw [if_neg (by decide), h1]
  dsimp only
  have hpick : (pickQueue { w' with objects := [] } none).2 = 0 := by
    unfold pickQueue getQueue getQueue.activeOrNew
    dsimp only
    rw [ha]
  rw [hpick]
  generalize runQueue P2 w2' 0 = r at *
  obtain ⟨w4, res⟩ := r
  cases res with
  | ok _ => exact absurd rfl h2
  | error e => exact ⟨w4, e, rfl⟩

/-- The example with an array is saved; then the cycle stops with a `KeyError`. -/
example :
    let P := gspProg { count := fun _ => 2, dtype := fun _ => 0, content := fun _ => 0 }
    let P2 := mplProg { count := fun _ => 2, dtype := fun _ => 0, content := fun _ => 0 } true
      (fun _ _ _ => none)
    let w := runActs P (World.start allConverters) cycledScene
    let c := apiCodec (fun _ => "float32") (fun _ => "AAAA")
    ((commandsOf w 0).map (fun c => c.params.filter (fun p => p.1 = "positions")) =
      [[("positions", .conv 12 (.inst "ndarray" 3))]]) ∧
    (launcherCommands P P2 c 9 w "pixels" .absent false).map (fun r => r.2.2.toBool) = some true ∧
    (launcherCommands P P2 c 9 w "pixels" .absent true).map (fun r =>
      match r.2.2 with | .ok _ => none | .error e => some e) = some (some .keyError) := by
  decide +kernel

end Verif
