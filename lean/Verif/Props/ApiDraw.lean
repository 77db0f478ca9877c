import Verif.Props.Api
import Verif.Lemmas.Body
/-! # C64: what a replay by the Matplotlib backend can raise -/

namespace Verif

theorem Delivered.withRaises {P : Prog} {ρ : Obj → String → Dict String Val → Option Err}
    {t : Val → Val} {ref : List Nat} {made : List (Nat × String × Dict String Val)} {u v : Val}
    (h : Delivered P t ref made u v) : Delivered (P.withRaises ρ) t ref made u v := by
  cases h with
  | object h => exact .object h
  | value h h' => exact .value h h'
  | converted h hv hf hg => exact .converted h hv hf hg
  | built h hv hf hb hm => exact .built h hv hf hb hm

theorem DeliveredArgs.withRaises {P P2 : Prog} {ρ : Obj → String → Dict String Val → Option Err}
    {cs : Dict (String × String) Nat} {t : Val → Val} {ref : List Nat}
    {made : List (Nat × String × Dict String Val)} {cls f : String} {b b' : Dict String Val}
    (h : DeliveredArgs P P2 cs t ref made cls f b b') :
    DeliveredArgs P (P2.withRaises ρ) cs t ref made cls f b b' := by
  obtain ⟨sg, h1, h2, h3⟩ := h
  refine ⟨sg, h1, h2, fun k v hk => ?_⟩
  obtain ⟨u, v', h4, h5, h6⟩ := h3 k v hk
  exact ⟨u, v', h4, h5, h6.withRaises⟩

theorem Rebuilt.withRaises {P P2 : Prog} {ρ : Obj → String → Dict String Val → Option Err}
    {cs : Dict (String × String) Nat} {t : Val → Val} {w w2 w2' : World} {ref : List Nat}
    {made : List (Nat × String × Dict String Val)} (h : Rebuilt P P2 cs t w w2 w2' ref made) :
    Rebuilt P (P2.withRaises ρ) cs t w w2 w2' ref made :=
  { h with
    copy := fun r o hr => by
      obtain ⟨y, o', h1, h2, h3, h4⟩ := h.copy r o hr
      exact ⟨y, o', h1, h2, h3, h4.id, h4.cls,
        h4.log.imp (fun _ _ he => ⟨he.1, he.2.withRaises⟩)⟩ }

/-- The backend with nothing raised by Matplotlib, with the exceptions of Matplotlib. -/
theorem mplProg_withRaises (A : ArrayInfo) (on : Bool)
    (draw : Obj → String → Dict String Val → Option Err) :
    (mplProg A on (fun _ _ _ => none)).withRaises (mplRaises on draw) = mplProg A on draw := rfl

theorem mplRaises_or (A : ArrayInfo) (on : Bool)
    (draw : Obj → String → Dict String Val → Option Err) :
    RaisesOr (fun e => ∃ o f b, draw o f b = some e) (mplRaises on draw)
      (mplProg A on (fun _ _ _ => none)) := by
  intro o f b
  show mplRaises on draw o f b = mplRaises on (fun _ _ _ => none) o f b ∨ _
  unfold mplRaises
  split
  · exact .inl rfl
  · split
    · exact .inl rfl
    · cases gspRaises o f b with
      | some e => exact .inl rfl
      | none =>
        cases axisRaise o f b with
        | some e => exact .inl rfl
        | none =>
          cases capsRaise o f with
          | some e => exact .inl rfl
          | none =>
            dsimp only
            cases hd : draw o f b with
            | none => exact .inl rfl
            | some e => exact .inr ⟨e, rfl, o, f, b, hd⟩

/-- C64 (part), whatever Matplotlib raises: the replay of a saved scene in a process that does not
record either succeeds and rebuilds the scene, or stops with an exception that Matplotlib (or numpy)
raised for the call of some function of some object; GSP adds no exception of its own. The scenes are
those of `saved_scenes_run_partial`. -/
theorem replay_raises_drawing_only_partial (A : ArrayInfo) (text raw : Nat → String)
    (draw : Obj → String → Dict String Val → Option Err)
    (cs : Dict (String × String) Nat) (hcs : cs = gspConverters ∨ cs = allConverters)
    (as : List Act) (hne : as ≠ [])
    (hok : Succeeds (gspProg A) (World.start cs) as)
    (hport : PortableSession portable (gspProg A) (World.start cs) as)
    (hsave : SavableSession (gspProg A) (apiCodec text raw) cs (World.start cs) as)
    (w2 : World) (hoff : w2.recording = false) (hrec : w2.objRecord = true) (hwr : w2.Writable)
    (name : String) (format : Option String) (hfmt : IsJson format name) (old : File) (fuel : Nat)
    (hfuel : as.length < fuel) :
    ∃ file w3 q,
      gspSave (gspProg A) (apiCodec text raw) fuel
        (runActs (gspProg A) (World.start cs) as) name format old =
        some (runActs (gspProg A) (World.start cs) as, file, .ok ()) ∧
      gspLoad w2 name format file = (w3, .ok ()) ∧ w3.active = some q ∧
      ((∃ w4 ref made, runQueue (mplProg A false draw) w3 q = (w4, .ok ()) ∧
        Rebuilt (gspProg A) (mplProg A false draw) cs (jsonVal (gspProg A) (apiCodec text raw))
          (runActs (gspProg A) (World.start cs) as) w2 w4 ref made) ∨
      ∃ e o f b, (runQueue (mplProg A false draw) w3 q).2 = .error e ∧ draw o f b = some e) := by
  obtain ⟨file, w3, q, w4, ref, made, h1, h2, h3, h4, h5⟩ := saved_scenes_run_partial A text raw
    (fun _ _ _ => none) (fun _ _ _ => rfl) cs hcs as hne hok hport hsave w2 hoff hrec hwr name format
    hfmt old fuel hfuel
  refine ⟨file, w3, q, h1, h2, h3, ?_⟩
  rw [← mplProg_withRaises]
  rcases runQueue_or (mplRaises_or A false draw) w3 q with h | ⟨e, he, o, f, b, hd⟩
  · exact .inl ⟨w4, ref, made, h.trans h4, h5.withRaises⟩
  · exact .inr ⟨e, o, f, b, he, hd⟩

/-- C64 (part). The same in a process that records, for the scenes of
`saved_scenes_run_recording_partial`. -/
theorem replay_raises_drawing_only_recording_partial (A : ArrayInfo) (text raw : Nat → String)
    (draw : Obj → String → Dict String Val → Option Err)
    (cs : Dict (String × String) Nat) (hcs : cs = gspConverters ∨ cs = allConverters)
    (as : List Act) (hne : as ≠ [])
    (hok : Succeeds (gspProg A) (World.start cs) as)
    (hport : PortableSession portableOn (gspProg A) (World.start cs) as)
    (hline : ∀ a ∈ as, ∀ v ∈ a.values, isLineMember v = false)
    (hsave : SavableSession (gspProg A) (apiCodec text raw) cs (World.start cs) as)
    (w2 : World) (hon : w2.recording = true) (hcs2 : w2.converters = allConverters)
    (hrec : w2.objRecord = true) (hwr : w2.Writable)
    (name : String) (format : Option String) (hfmt : IsJson format name) (old : File) (fuel : Nat)
    (hfuel : as.length < fuel) :
    ∃ file w3 q,
      gspSave (gspProg A) (apiCodec text raw) fuel
        (runActs (gspProg A) (World.start cs) as) name format old =
        some (runActs (gspProg A) (World.start cs) as, file, .ok ()) ∧
      gspLoad w2 name format file = (w3, .ok ()) ∧ w3.active = some q ∧
      ((∃ w4 ref made, runQueue (mplProg A true draw) w3 q = (w4, .ok ()) ∧
        Rebuilt (gspProg A) (mplProg A true draw) cs (jsonVal (gspProg A) (apiCodec text raw))
          (runActs (gspProg A) (World.start cs) as) w2 w4 ref made) ∨
      ∃ e o f b, (runQueue (mplProg A true draw) w3 q).2 = .error e ∧ draw o f b = some e) := by
  obtain ⟨file, w3, q, w4, ref, made, h1, h2, h3, h4, h5⟩ := saved_scenes_run_recording_partial A text
    raw (fun _ _ _ => none) (fun _ _ _ => rfl) cs hcs as hne hok hport hline hsave w2 hon hcs2 hrec hwr
    name format hfmt old fuel hfuel
  refine ⟨file, w3, q, h1, h2, h3, ?_⟩
  rw [← mplProg_withRaises]
  rcases runQueue_or (mplRaises_or A true draw) w3 q with h | ⟨e, he, o, f, b, hd⟩
  · exact .inl ⟨w4, ref, made, h.trans h4, h5.withRaises⟩
  · exact .inr ⟨e, o, f, b, he, hd⟩

/-- `recordedScene` meets the hypotheses; if drawing points raises (say Matplotlib refuses the sizes), the
replay stops there with that exception. -/
example : ∃ file w3,
    gspSave gsp0 (apiCodec (fun _ => "float32") (fun _ => "AAAA")) 10
      (runActs gsp0 (World.start gspConverters) recordedScene) "scene.json" none .absent =
      some (runActs gsp0 (World.start gspConverters) recordedScene, file, .ok ()) ∧
    gspLoad (World.start allConverters) "scene.json" none file = (w3, .ok ()) ∧
    (runQueue (mplProg { count := fun _ => 0, dtype := fun _ => 0, content := fun _ => 0 } true
      (fun o f _ => if o.cls = "Points" ∧ f = "render" then some .valueError else none)) w3 0).2 =
      .error .valueError :=
  ⟨_, _, rfl, rfl, by decide +kernel⟩

/-! ### Markers with an axis -/

/-- C64. The backend makes no markers with an axis from positions that are a GSP object, with or without
recording. -/
theorem markers_axis_refused (A : ArrayInfo) (on : Bool)
    (draw : Obj → String → Dict String Val → Option Err) (w : World) (args : List Val)
    (kwargs : Dict String Val) (nc : Bool)
    (hax : ∀ sg b, (mplProg A on draw).sig "Markers" "__init__" = some sg →
      bindArgs sg args kwargs = .ok b →
      (∃ r, dget b "positions" = some (.obj r)) ∧ ∃ v, dget b "axis" = some v ∧ v ≠ .none) :
    ∃ e, (construct (mplProg A on draw) w "Markers" args kwargs nc).2 = .error e := by
  unfold construct
  cases hs : (mplProg A on draw).sig "Markers" "__init__" with
  | none => exact ⟨_, rfl⟩
  | some sg =>
    dsimp only
    cases hb : bindArgs sg args kwargs with
    | error e => exact ⟨e, rfl⟩
    | ok b =>
      obtain ⟨⟨r, hr⟩, v, hv, hvn⟩ := hax sg b hs hb
      dsimp only
      have ho : (newObject w "Markers").1.heap[w.heap.length]? =
          some (Obj.mk (1 + (w.oidCounter : Int)) "Markers" [] (1 + (w.oidCounter : Int))) := by
        simp [newObject]
      simp only [newObject_ref, ho]
      have hraise : ∃ e, (mplProg A on draw).raises
          (Obj.mk (1 + (w.oidCounter : Int)) "Markers" [] (1 + (w.oidCounter : Int))) "__init__" b =
          some e := by
        show ∃ e, mplRaises on draw
          (Obj.mk (1 + (w.oidCounter : Int)) "Markers" [] (1 + (w.oidCounter : Int))) "__init__" b = some e
        unfold mplRaises
        rw [if_neg (by simp), if_neg (by simp)]
        cases gspRaises (Obj.mk (1 + (w.oidCounter : Int)) "Markers" [] (1 + (w.oidCounter : Int)))
            "__init__" b with
        | some e => exact ⟨e, rfl⟩
        | none =>
          dsimp only
          unfold axisRaise
          rw [if_pos ⟨rfl, rfl⟩, hr, hv]
          cases v with
          | none => exact absurd rfl hvn
          | _ => exact ⟨_, rfl⟩
      obtain ⟨e, he⟩ := hraise
      rw [he]
      exact ⟨e, rfl⟩

/-- C64. A file with markers whose positions are an object of the scene (as all saved positions are) and
that have an axis can be loaded, but never be run by the Matplotlib backend, in no process. -/
theorem markers_axis_never_run (A : ArrayInfo) (on : Bool)
    (draw : Obj → String → Dict String Val → Option Err) (w w3 : World) (hwr : w.Writable)
    (name : String) (format : Option String) (js : List JCmd)
    (hload : gspLoad w name format (.doc js) = (w3, .ok ())) (j : JCmd) (hj : j ∈ js)
    (hm : j.method = some "visual.Markers") (ps : Dict String JVal) (hps : j.params = some ps)
    (hnd : (dkeys ps).Nodup) (hpos : "positions(id)" ∈ dkeys ps) (hpos' : "positions" ∉ dkeys ps)
    (hax : (∃ x, dget ps "axis" = some x ∧ x ≠ .null ∧ "axis(id)" ∉ dkeys ps) ∨
      ("axis(id)" ∈ dkeys ps ∧ "axis" ∉ dkeys ps)) (q : Nat) (hq : w3.active = some q) :
    ∃ e, (runQueue (mplProg A on draw) w3 q).2 = .error e := by
  obtain ⟨js', n0, hjs, hact, _, _, hcmds⟩ := gspLoad_ok_commands hwr hload
  cases hjs
  rw [hact] at hq
  cases hq
  obtain ⟨i, hi, rfl⟩ := List.mem_iff_getElem.1 hj
  have hmem : loadedCmd (n0 + i) js[i] ∈ commandsOf w3 (activeIx w) := by
    rw [hcmds]
    exact List.mem_iff_getElem.2 ⟨i, by simpa using hi, by simp⟩
  have hpm : (loadedCmd (n0 + i) js[i]).params = ps.map (fun p => (p.1, decodeVal p.2)) := by
    simp [loadedCmd, hps]
  have hsp : splitMethod "visual.Markers" = ("visual.Markers", "__init__") := by decide +kernel
  -- a reference
  have hobj : ∀ k : String, endsWithId k = false → k ++ "(id)" ∈ dkeys ps → k ∉ dkeys ps →
      k ++ "(id)" ≠ "id" → ∀ w' w'' out,
      resolveParams (mplProg A on draw) w' (ddel (loadedCmd (n0 + i) js[i]).params "id") [] =
        (w'', .ok out) → ∃ r, dget out k = some (.obj r) := by
    intro k hke hk hk' hid w' w'' out hres
    refine resolveParams_object hres ?_ (Or.inr ?_)
    · intro p hp ht
      have hp := (List.mem_filter.1 hp).1
      rw [hpm] at hp
      obtain ⟨p', hp', rfl⟩ := List.mem_map.1 hp
      dsimp only at ht ⊢
      by_contra he
      have : p'.1 = k := by simpa [target, he] using ht
      exact hk' (this ▸ List.mem_map.2 ⟨p', hp', rfl⟩)
    · obtain ⟨p', hp', hpk⟩ := List.mem_map.1 hk
      refine ⟨(p'.1, decodeVal p'.2), List.mem_filter.2 ⟨?_, ?_⟩, ?_⟩
      · rw [hpm]; exact List.mem_map.2 ⟨p', hp', rfl⟩
      · dsimp only
        rw [hpk]
        simpa using hid
      · dsimp only
        rw [hpk]
        have : endsWithId (k ++ "(id)") = true := by
          simp [endsWithId]
        simp [target, this, dropId_append]
  have hex : ∀ w', True → (execute (mplProg A on draw) w' (loadedCmd (n0 + i) js[i])).2 ≠ .ok () := by
    intro w' _
    refine execute_body (cls := "Markers") (by simp [loadedCmd, hm, hsp]) ?_ ?_
    · show dget mplPaths (loadedCmd (n0 + i) js[i]).cls = some "Markers"
      rw [show (loadedCmd (n0 + i) js[i]).cls = "visual.Markers" by simp [loadedCmd, hm, hsp]]
      decide +kernel
    · intro w1 w2 out hres
      apply markers_axis_refused
      intro sg b hs hb
      have hB := bindArgs_ok hb
      have hpar : "positions" ∈ sg.params ∧ "axis" ∈ sg.params := by
        have : (mplProg A on draw).sig "Markers" "__init__" =
          (findRow mplRows "Markers" "__init__").map Row.sig := rfl
        rw [this] at hs
        have key : ((findRow mplRows "Markers" "__init__").map Row.sig).any
          (fun sg => decide ("positions" ∈ sg.params ∧ "axis" ∈ sg.params)) = true := by
          decide +kernel
        rw [hs] at key
        simpa using key
      have hval : ∀ k ∈ sg.params, ∀ x, dget out k = some x → dget b k = some x := by
        intro k hk x hx
        obtain ⟨v', hv'⟩ := (mem_dkeys _ _).1 (show k ∈ dkeys b by rw [hB.keys]; exact hk)
        have hseen := hB.vals _ (dget_mem hv')
        simp only [seenArg, givenArg, List.zip_nil_right, dget, Option.none_or, hx,
          Option.some_or, Option.some.injEq] at hseen
        rw [hv', hseen]
      constructor
      · obtain ⟨r, hr⟩ := hobj "positions" (by decide +kernel) hpos hpos' (by decide +kernel) _ _ _ hres
        exact ⟨r, hval _ hpar.1 _ hr⟩
      · rcases hax with ⟨x, hx, hxn, hno⟩ | ⟨hyes, hno⟩
        · have hdec : decodeVal x ≠ .none := by
            cases x with
            | null => exact absurd rfl hxn
            | _ => intro h; cases h
          have := resolveParams_keeps (k := "axis") (v := decodeVal x) (by decide +kernel)
            ⟨(by intro n h; cases x <;> cases h), (by intro f y h; cases x <;> cases h)⟩ hres ?_ (Or.inr ?_)
          · exact ⟨_, hval _ hpar.2 _ this, hdec⟩
          · intro p hp ht
            have hp := (List.mem_filter.1 hp).1
            rw [hpm] at hp
            obtain ⟨⟨k', y⟩, hp', rfl⟩ := List.mem_map.1 hp
            dsimp only at ht ⊢
            have hk : k' = "axis" := by
              unfold target at ht
              split at ht
              · rename_i he
                have hk := dropId_suffix he
                rw [ht] at hk
                exact absurd (List.mem_map.2 ⟨_, hp', hk⟩) hno
              · exact ht
            subst hk
            have := dget_of_mem_nodup hnd hp'
            rw [hx] at this
            cases this
            rfl
          · refine List.mem_filter.2 ⟨?_, by simp⟩
            rw [hpm]
            exact List.mem_map.2 ⟨_, dget_mem hx, rfl⟩
        · obtain ⟨r, hr⟩ := hobj "axis" (by decide +kernel) hyes hno (by decide +kernel) _ _ _ hres
          exact ⟨_, hval _ hpar.2 _ hr, fun h => Val.noConfusion h⟩
  have := runQueue_fails true_closed (fun _ _ _ _ => trivial) hex trivial hmem
  cases h : (runQueue (mplProg A on draw) w3 (activeIx w)).2 with
  | ok u => exact absurd h this
  | error e => exact ⟨e, rfl⟩

/-- A scene of a buffer and markers that face the direction of their positions
(examples/markers-3d.py). -/
def facingScene : List Act :=
  [.create "Buffer" [.int 2, .inst "Float32DType" 1, .none] [],
   .create "Markers" [.obj 0, .inst "Marker" 3, .float 9, .obj 0, .float 0, .obj 0,
     .list [0, 0, 0, 1], .float 1] []]

/-- The front end records and saves it; its file meets the hypotheses. -/
example : ∃ file w3 a b, Succeeds gsp0 (World.start gspConverters) facingScene ∧
    gspSave gsp0 (apiCodec (fun _ => "float32") (fun _ => "AAAA")) 9
      (runActs gsp0 (World.start gspConverters) facingScene) "scene.json" none .absent =
      some (runActs gsp0 (World.start gspConverters) facingScene, file, .ok ()) ∧
    file = .doc [a, b] ∧ b.method = some "visual.Markers" ∧
    (b.params.map dkeys) = some ["id", "positions(id)", "types", "sizes", "axis(id)", "angles",
      "fill_colors(id)", "line_colors", "line_widths"] ∧
    gspLoad (World.start allConverters) "scene.json" none file = (w3, .ok ()) :=
  ⟨_, _, _, _, by decide +kernel, rfl, rfl, rfl, rfl, rfl⟩

/-! ### The caps of paths -/

/-- C64. Paths that were made with caps that are a GSP object, a list, a tuple, a text or `None` cannot be
drawn by the backend: they are never found among the members of `LineCap`. -/
theorem paths_caps_refused (A : ArrayInfo) (on : Bool)
    (draw : Obj → String → Dict String Val → Option Err) (w : World) (r : Nat) (o : Obj)
    (ho : w.heap[r]? = some o) (hcls : o.cls = "Paths") (b0 : Dict String Val)
    (hb0 : dget o.log "__init__" = some b0) (v : Val) (hv : dget b0 "line_caps" = some v)
    (hcap : (∃ x, v = .obj x) ∨ (∃ l, v = .list l) ∨ (∃ l, v = .tuple l) ∨ (∃ s, v = .str s) ∨ v = .none)
    (args : List Val) (kwargs : Dict String Val) (nc : Bool) :
    ∃ e, (callMethod (mplProg A on draw) w r "render" args kwargs nc).2 = .error e := by
  have hraise : ∀ b, ∃ e, mplRaises on draw o "render" b = some e := by
    intro b
    unfold mplRaises
    rw [if_neg (by rw [hcls]; simp), if_neg (by rw [hcls]; simp)]
    cases gspRaises o "render" b with
    | some e => exact ⟨e, rfl⟩
    | none =>
      dsimp only
      cases axisRaise o "render" b with
      | some e => exact ⟨e, rfl⟩
      | none =>
        have : ∃ e, capsRaise o "render" = some e := by
          unfold capsRaise
          rw [if_pos ⟨hcls, rfl⟩, hb0]
          simp only [Option.bind_some, hv]
          rcases hcap with ⟨x, rfl⟩ | ⟨l, rfl⟩ | ⟨l, rfl⟩ | ⟨s, rfl⟩ | rfl <;> exact ⟨_, rfl⟩
        obtain ⟨e, he⟩ := this
        dsimp only
        rw [he]
        exact ⟨e, rfl⟩
  unfold callMethod
  rw [ho]
  dsimp only
  cases (mplProg A on draw).sig o.cls "render" with
  | none => exact ⟨_, rfl⟩
  | some sg =>
    dsimp only
    cases bindArgs sg args kwargs with
    | error e => exact ⟨e, rfl⟩
    | ok b =>
      obtain ⟨e, he⟩ := hraise b
      dsimp only
      rw [show (mplProg A on draw).raises o "render" b = some e from he]
      exact ⟨e, rfl⟩

/-- `recordedScene` with its paths drawn (their caps are a buffer): it is recorded and saved, and the
replay fails at the last command. -/
example : ∃ file w3,
    Succeeds gsp0 (World.start gspConverters) (recordedScene ++ [.call 5 "render" [.obj 1] []]) ∧
    gspSave gsp0 (apiCodec (fun _ => "float32") (fun _ => "AAAA")) 11
      (runActs gsp0 (World.start gspConverters) (recordedScene ++ [.call 5 "render" [.obj 1] []]))
        "scene.json" none .absent =
      some (runActs gsp0 (World.start gspConverters) (recordedScene ++ [.call 5 "render" [.obj 1] []]),
        file, .ok ()) ∧
    gspLoad (World.start allConverters) "scene.json" none file = (w3, .ok ()) ∧
    (runQueue (mplProg { count := fun _ => 0, dtype := fun _ => 0, content := fun _ => 0 } true
      (fun _ _ _ => none)) w3 0).2 = .error .typeError :=
  ⟨_, _, by decide +kernel, rfl, rfl, by decide +kernel⟩

end Verif
