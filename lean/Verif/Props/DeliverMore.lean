import Verif.Props.Api
/-! # C62: empty sessions and optional references -/

namespace Verif

/-- C62. A session in which nothing happened: saving makes the default queue and writes a file without
commands, which any process loads and runs without a change to its objects. -/
theorem save_load_run_empty (P P2 : Prog) (ij : Codec) (cs : Dict (String × String) Nat) (w2 : World)
    (hwr : w2.Writable) (name : String) (format : Option String) (hfmt : formatOf format name = "json")
    (old : File) (fuel : Nat) (hfuel : 0 < fuel) :
    ∃ ws w3 q w4, gspSave P ij fuel (World.start cs) name format old = some (ws, .doc [], .ok ()) ∧
      ws.heap = [] ∧ commandsOf ws 0 = [] ∧
      gspLoad w2 name format (.doc []) = (w3, .ok ()) ∧ w3.active = some q ∧ commandsOf w3 q = [] ∧
      runQueue P2 w3 q = (w4, .ok ()) ∧ w4.heap = w2.heap := by
  obtain ⟨n, rfl⟩ : ∃ n, fuel = n + 1 := ⟨fuel - 1, by omega⟩
  obtain ⟨hls, _⟩ := gspLoad_prefix w2
  obtain ⟨u3, hu3, hr3⟩ := gspLoadStart_queue hwr
  have hqe : (emptyQueue (gspLoadStart w2) (activeIx w2)).queues[activeIx w2]? =
      some (Queue.mk u3.name u3.readonly []) := by
    simp [emptyQueue, setQueue, hu3]
  have hload : gspLoad w2 name format (.doc []) =
      (emptyQueue (gspLoadStart w2) (activeIx w2), .ok ()) := by
    have hdef : gspLoad w2 name format (.doc []) = if formatOf format name = "json" then
      loadQueue (gspLoadStart w2) (.doc []) none else (gspLoadStart w2, .error .valueError) := rfl
    rw [hdef, if_pos hfmt]
    unfold loadQueue
    dsimp only
    rw [pickQueue_designates (q := activeIx w2) (Or.inr ⟨hls.active, Or.inl rfl⟩)]
    rfl
  have hfr := gspLoad_frame w2 name format (.doc [])
  rw [hload] at hfr
  have hrun : ∃ w4, runQueue P2 (emptyQueue (gspLoadStart w2) (activeIx w2)) (activeIx w2) = (w4, .ok ()) ∧
      w4.heap = (emptyQueue (gspLoadStart w2) (activeIx w2)).heap := by
    unfold runQueue
    rw [hqe]
    exact ⟨_, rfl, rfl⟩
  obtain ⟨w4, h1, h2⟩ := hrun
  refine ⟨(getQueue (World.start cs) none).1, _, activeIx w2, w4, ?_, ?_, ?_, hload, hls.active, ?_, h1, ?_⟩
  · unfold gspSave
    rw [if_pos hfmt]
    rfl
  · rfl
  · rfl
  · simp [commandsOf, hqe]
  · rw [h2]; exact hfr.1

example : (gspSave gsp0 (apiCodec (fun _ => "") (fun _ => "")) 9 (World.start gspConverters) "a.json" none
    .absent).map (·.2.1) = some (.doc []) := by decide +kernel

/-- The part of C62 on references: in the rebuilt session an argument that is an object is one again. -/
def SavedReferencesKept (P P2 : Prog) (ij : Codec) (cs cs2 : Dict (String × String) Nat) : Prop :=
  ∀ (as : List Act) (fuel : Nat) (ws w3 w4 : World) (file : File) (q : Nat),
    Succeeds P (World.start cs) as →
    gspSave P ij fuel (runActs P (World.start cs) as) "a.json" none .absent = some (ws, file, .ok ()) →
    gspLoad (World.start cs2) "a.json" none file = (w3, .ok ()) → w3.active = some q →
    runQueue P2 w3 q = (w4, .ok ()) →
    ∀ (r : Nat) o f b k x, (runActs P (World.start cs) as).heap[r]? = some o → (f, b) ∈ o.log →
      dget b k = some (.obj x) →
      ∃ y o' b' z, dget w4.objects o.id = some y ∧ w4.heap[y]? = some o' ∧ (f, b') ∈ o'.log ∧
        dget b' k = some (.obj z)

/-- Two transforms, the second on the first. -/
def chained : List Act :=
  [.create "Transform" [] [], .create "Transform" [.obj 0] []]

/-- C62 fails for `gsp` itself: an object given for an optional parameter is recorded together with the
default of the parameter, which then takes its place. -/
theorem optional_object_fails :
    ¬ SavedReferencesKept gsp0 gsp0 (fun _ _ => none) gspConverters gspConverters := by
  intro h
  obtain ⟨w, hw⟩ : ∃ w, w = runActs gsp0 (World.start gspConverters) chained := ⟨_, rfl⟩
  have := h chained 9 w _ _ _ 0 (by decide +kernel) (by rw [hw]; rfl) rfl rfl rfl 1
    ⟨2, "Transform", [("__init__", [("base", .obj 0), ("next", .none), ("buffer", .none)])], 2⟩
    "__init__" _ "base" 0 rfl List.mem_cons_self rfl
  obtain ⟨y, o', b', z, h1, h2, h3, h4⟩ := this
  have h1 : some 1 = some y := h1
  cases h1
  have h2 : some (Obj.mk 2 "Transform"
    [("__init__", [("base", .none), ("next", .none), ("buffer", .none)])] 2) = some o' := h2
  cases h2
  rcases List.mem_cons.1 h3 with h3 | h3
  · cases h3
    have h4 : some Val.none = some (Val.obj z) := h4
    cases h4
  · cases h3

end Verif
