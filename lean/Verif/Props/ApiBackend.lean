import Verif.Props.Api
/-! # C64: scenes recorded by the backend itself -/

namespace Verif

/-- Every entry of a command ends up under the parameter it speaks about. -/
theorem resolveParams_target {P : Prog} {t : String} : ∀ {ps : Dict String Val} {w w' : World}
    {acc out : Dict String Val}, resolveParams P w ps acc = (w', .ok out) →
    (t ∈ dkeys acc ∨ ∃ p ∈ ps, target p.1 = t ∧ ∀ n, p.2 ≠ .oid n) → t ∈ dkeys out := by
  intro ps
  induction ps with
  | nil =>
    intro w w' acc out h ht
    unfold resolveParams at h
    cases h
    rcases ht with ht | ⟨p, hp, _⟩
    · exact ht
    · cases hp
  | cons p ps ih =>
    obtain ⟨k, v⟩ := p
    intro w w' acc out h ht
    have hkeep : ∀ key u, t ∈ dkeys acc → t ∈ dkeys (dset acc key u) := by
      intro key u h
      obtain ⟨x, hx⟩ := (mem_dkeys _ _).1 h
      rw [mem_dkeys]
      by_cases hk : key = t
      · exact ⟨u, by rw [hk, dget_dset_self]⟩
      · exact ⟨x, by rw [dget_dset_ne _ _ hk]; exact hx⟩
    have hset : ∀ (a : Dict String Val) u, t ∈ dkeys (dset a t u) := fun a u =>
      (mem_dkeys _ _).2 ⟨u, dget_dset_self _ _ _⟩
    unfold resolveParams at h
    split at h
    · rename_i he
      have hstep : ∀ u, t ∈ dkeys (dset acc (dropId k) u) ∨
          ∃ q ∈ ps, target q.1 = t ∧ ∀ n, q.2 ≠ .oid n := by
        intro u
        rcases ht with ht | ⟨q, hq, hqt, hqn⟩
        · exact Or.inl (hkeep _ _ ht)
        · rcases List.mem_cons.1 hq with rfl | hq
          · left
            have : dropId k = t := by simpa [target, he] using hqt
            rw [this]
            exact hset _ _
          · exact Or.inr ⟨q, hq, hqt, hqn⟩
      split at h
      · split at h
        · exact ih h (hstep _)
        · cases h
      · split at h
        · exact ih h (hstep _)
        · cases h
      · cases h
    · rename_i he
      have hstep : ∀ u, t ∈ dkeys (dset acc k u) ∨
          ∃ q ∈ ps, target q.1 = t ∧ ∀ n, q.2 ≠ .oid n := by
        intro u
        rcases ht with ht | ⟨q, hq, hqt, hqn⟩
        · exact Or.inl (hkeep _ _ ht)
        · rcases List.mem_cons.1 hq with rfl | hq
          · left
            have : k = t := by simpa [target, he] using hqt
            rw [this]
            exact hset _ _
          · exact Or.inr ⟨q, hq, hqt, hqn⟩
      split at h
      · rename_i n
        split at h
        · refine ih h ?_
          rcases ht with ht | ⟨q, hq, hqt, hqn⟩
          · exact Or.inl ht
          · rcases List.mem_cons.1 hq with rfl | hq
            · exact absurd rfl (hqn n)
            · exact Or.inr ⟨q, hq, hqt, hqn⟩
        · cases h
      · split at h
        · exact ih h (hstep _)
        · cases h
      · exact ih h (hstep _)

/-- A creation with a parameter the class does not have. -/
theorem execute_unknown {P : Prog} {w : World} {c : Cmd} {cls : String} {sg : Sig} {p : String × Val}
    (hm : c.meth = "__init__") (hr : P.resolve c.cls = some cls)
    (hs : P.sig cls "__init__" = some sg) (hp : p ∈ c.params) (hpi : p.1 ≠ "id")
    (hpn : ∀ n, p.2 ≠ .oid n) (ht : target p.1 ∉ sg.params) : (execute P w c).2 ≠ .ok () := by
  intro h
  unfold execute at h
  split at h
  · cases h
  · split at h
    · cases h
    · split at h
      · cases h
      · rename_i w' ps hres
        have hmem : target p.1 ∈ dkeys ps := resolveParams_target hres
          (Or.inr ⟨p, List.mem_filter.2 ⟨hp, by simpa using hpi⟩, rfl, hpn⟩)
        split at h
        · split at h <;> cases h
        · rw [hr] at h
          dsimp only at h
          have : construct P w' cls [] ps false = (w', .error .typeError) := by
            unfold construct
            rw [hs]
            dsimp only
            cases hb : bindArgs sg [] ps with
            | error e =>
              dsimp only
              unfold bindArgs at hb
              rw [if_neg (by simp)] at hb
              split at hb
              · cases hb; rfl
              · rename_i hk
                dsimp only at hb
                generalize (List.mapM (m := Option) _ sg.params) = m at hb
                cases m <;> simp at hb
                rw [← hb]
            | ok b =>
              have := (bindArgs_ok hb).known _ hmem
              exact absurd (by simpa using this) ht
          rw [this] at h
          cases h

/-- A file that creates an object with a parameter which its class does not have can be loaded, but
never be run to its end, in no process. -/
theorem unknown_parameter_never_runs (P : Prog) (w w3 : World) (hwr : w.Writable) (name : String)
    (format : Option String) (js : List JCmd)
    (hload : gspLoad w name format (.doc js) = (w3, .ok ())) (j : JCmd) (hj : j ∈ js)
    (m cls : String) (hm : j.method = some m) (hsl : '/' ∉ m.toList) (hres : P.resolve m = some cls)
    (sg : Sig) (hs : P.sig cls "__init__" = some sg) (ps : Dict String JVal)
    (hps : j.params = some ps) (k : String) (hk : k ∈ dkeys ps) (hki : k ≠ "id")
    (hkp : ∀ p ∈ sg.params, k ≠ p ∧ k ≠ p ++ "(id)") (q : Nat) (hq : w3.active = some q) :
    ∃ e, (runQueue P w3 q).2 = .error e := by
  obtain ⟨js', n, hjs, hact, _, _, hcmds⟩ := gspLoad_ok_commands hwr hload
  cases hjs
  rw [hact] at hq
  cases hq
  obtain ⟨i, hi, rfl⟩ := List.mem_iff_getElem.1 hj
  have hmem : loadedCmd (n + i) js[i] ∈ commandsOf w3 (activeIx w) := by
    rw [hcmds]
    exact List.mem_iff_getElem.2 ⟨i, by simpa using hi, by simp⟩
  have hsp : splitMethod m = (m, "__init__") := splitMethod_noSlash hsl
  have hpm : (loadedCmd (n + i) js[i]).params = ps.map (fun p => (p.1, decodeVal p.2)) := by
    simp [loadedCmd, hps]
  obtain ⟨v, hv⟩ := (mem_dkeys _ _).1 hk
  have ht : target k ∉ sg.params := by
    intro hmem
    obtain ⟨h1, h2⟩ := hkp _ hmem
    unfold target at h1 h2
    split at h2
    · rename_i he
      exact h2 (dropId_suffix he)
    · rename_i he
      rw [if_neg he] at h1
      exact h1 rfl
  have := runQueue_fails true_closed (fun _ _ _ _ => trivial) (P := P)
    (fun w' _ => execute_unknown (P := P) (w := w') (c := loadedCmd (n + i) js[i]) (cls := cls)
      (p := (k, decodeVal v)) (by simp [loadedCmd, hm, hsp])
      (by simpa [loadedCmd, hm, hsp] using hres) hs
      (by rw [hpm]; exact List.mem_map.2 ⟨_, dget_mem hv, rfl⟩) hki
      (by intro n; cases v <;> simp [decodeVal]) ht) trivial hmem
  cases h : (runQueue P w3 (activeIx w)).2 with
  | ok u => exact absurd h this
  | error e => exact ⟨e, rfl⟩

/-- C64 fails for scenes built with the classes of the backend: creating segments, whatever the
arguments, is recorded as the creation of points, with a parameter points do not have. -/
theorem backend_segments_fails (A : ArrayInfo) (on : Bool)
    (draw : Obj → String → Dict String Val → Option Err) (w : World) (hv : w.ActiveValid)
    (hrec : w.recording = true) (hw : activeWritable w = true) (args : List Val)
    (kwargs : Dict String Val) (hkw : (dkeys kwargs).Nodup)
    (hlive : ∀ v ∈ args ++ kwargs.map Prod.snd, ∀ x, v = .obj x → x < w.heap.length)
    (h : (step (mplProg A on draw) w (.create "Segments" args kwargs false)).2 = .ok ()) :
    ∃ c, commandsOf (step (mplProg A on draw) w (.create "Segments" args kwargs false)).1
        (activeIx w) = commandsOf w (activeIx w) ++ [c] ∧
      methodString c.cls c.meth = "visual.Points" ∧
      ("line_caps" ∈ dkeys c.params ∨ "line_caps(id)" ∈ dkeys c.params) := by
  obtain ⟨sg, b, hs, hb, hr, hrb⟩ := create_ok_inv (mplProg_wf A on draw) hkw hrec h
  obtain ⟨w', hc, _, hcmd⟩ := construct_form (nc := false) hs (mplProg_wf A on draw) hkw hb hr
    (fun _ => hrb)
  have hsg : sg = Row.sig ⟨"Segments", "__init__", some "visual.Points",
      [req "positions" (itemTypes []), req "line_caps" (itemTypes ["LineCap"]),
      req "line_colors" (itemTypes ["Color"]), req "line_widths" (itemTypes ["float"])]⟩ := by
    have : (mplProg A on draw).sig "Segments" "__init__" = some (Row.sig ⟨"Segments", "__init__",
      some "visual.Points", [req "positions" (itemTypes []), req "line_caps" (itemTypes ["LineCap"]),
      req "line_colors" (itemTypes ["Color"]), req "line_widths" (itemTypes ["float"])]⟩) := rfl
    rw [this] at hs
    exact (Option.some.inj hs).symm
  have hB := bindArgs_ok hb
  have hcmd := hcmd hv (by
    intro k x hx
    have := hB.vals _ (dget_mem hx)
    unfold seenArg givenArg at this
    have hdef : dget sg.defaults k = none := by rw [hsg]; rfl
    rw [hdef] at this
    cases h1 : dget (sg.params.zip args) k with
    | some v =>
      rw [h1] at this
      simp at this
      exact hlive v (List.mem_append_left _ (List.of_mem_zip (dget_mem h1)).2) x this
    | none =>
      rw [h1] at this
      simp at this
      exact hlive _ (List.mem_append_right _ (List.mem_map.2 ⟨_, dget_mem this, rfl⟩)) x rfl) hrec
    (activeIx w)
  simp only [hw, and_self, if_true] at hcmd
  have hst : (step (mplProg A on draw) w (.create "Segments" args kwargs false)).1 = w' := by
    simp only [step, hc]
  rw [hst]
  refine ⟨_, hcmd, ?_, ?_⟩
  · show methodString "Segments" "visual.Points" = "visual.Points"
    decide +kernel
  · have hwf := (mplProg_wf A on draw _ _ _ hs).1
    have hk : "line_caps" ∈ sg.params := by rw [hsg]; decide
    have hproj := proj_collect hwf (args := args) hkw
      (fun k hk => List.mem_of_mem_drop (hB.known k hk)) (1 + (w.oidCounter : Int)) hk
    have hne : proj "line_caps" (collect sg (1 + (w.oidCounter : Int)) args kwargs) ≠ [] := by
      obtain ⟨v, hv⟩ := (mem_dkeys _ _).1 (show "line_caps" ∈ dkeys b by rw [hB.keys]; exact hk)
      have hseen := hB.vals _ (dget_mem hv)
      have hdef : dget sg.defaults "line_caps" = none := by rw [hsg]; rfl
      unfold seenArg givenArg at hseen
      rw [hdef] at hseen hproj
      rw [hproj]
      cases h1 : dget (sg.params.zip args) "line_caps" with
      | some v' =>
        cases h2 : dget kwargs "line_caps" with
        | none => simp
        | some u =>
          simp only [step2]
          split
          · simp
          · intro h0
            have := dget_dset_self ([(keyFor "line_caps" v', v')] : Dict String Val)
              (keyFor "line_caps" u) u
            rw [h0] at this
            cases this
      | none =>
        rw [h1] at hseen
        simp at hseen
        simp [hseen, step2, dhas, dget, dset]
    obtain ⟨p, hp⟩ := List.exists_mem_of_ne_nil _ hne
    obtain ⟨hp1, hp2⟩ := List.mem_filter.1 hp
    have hp2 : target p.1 = "line_caps" := by simpa using hp2
    have hkey : p.1 ∈ dkeys ((collect sg (1 + (w.oidCounter : Int)) args kwargs).map
        (fun p => (p.1, stripVal w (formVal (mplProg A on draw) w.converters sg.annots p.1 p.2)))) := by
      simp only [dkeys, List.map_map]
      exact List.mem_map.2 ⟨p, hp1, rfl⟩
    unfold target at hp2
    split at hp2
    · rename_i he
      have := dropId_suffix he
      rw [hp2] at this
      right
      have h2 : p.1 = "line_caps(id)" := by rw [this]; decide
      exact h2 ▸ hkey
    · left
      exact hp2 ▸ hkey

/-- A scene of the backend with segments. -/
def segmentsScene : List Act :=
  [.create "Buffer" [.int 2, .inst "Float32DType" 1, .none] [],
   .create "Segments" [.obj 0, .inst "LineCap" 1, .inst "Color" 5, .float 1] []]

/-- It is saved and loaded, and then running it raises in the backend as it does in `gsp`. -/
example :
    let A : ArrayInfo := { count := fun _ => 2, dtype := fun _ => 0, content := fun _ => 0 }
    let P := mplProg A true (fun _ _ _ => none)
    ∃ file w3, gspSave P (apiCodec (fun _ => "float32") (fun _ => "AAAA")) 9
        (runActs P (World.start allConverters) segmentsScene) "scene.json" none .absent =
          some (runActs P (World.start allConverters) segmentsScene, file, .ok ()) ∧
      gspLoad { World.start allConverters with recording := false } "scene.json" none file =
        (w3, .ok ()) ∧
      (runQueue (mplProg A false (fun _ _ _ => none)) w3 0).2 = .error .typeError ∧
      (runQueue (gspProg A) w3 0).2 = .error .typeError :=
  ⟨_, _, rfl, rfl, rfl, rfl⟩

end Verif
