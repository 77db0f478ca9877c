import Verif.Lemmas.Written
import Verif.Lemmas.Replayable
/-! What a saved session is when it is loaded in another process -/

namespace Verif

theorem save_load_sent {P P2 : Prog} {ij : Codec} (hP : P.SigsWF) (hP2 : P2.SigsWF)
    {cs : Dict (String × String) Nat} {as : List Act} (hne : as ≠ []) {w2 : World}
    (hses : ReplayableSession P P2 cs w2.converters w2.recording jsonNames (jsonVal P ij)
      (World.start cs) as)
    (hsave : SavableSession P ij cs (World.start cs) as)
    (hrec : w2.objRecord = true) (hwr : w2.Writable)
    {name : String} {format : Option String} (hfmt : formatOf format name = "json")
    (old : File) {fuel : Nat} (hfuel : as.length < fuel) :
    ∃ file w3 q u,
      gspSave P ij fuel (runActs P (World.start cs) as) name format old =
        some (runActs P (World.start cs) as, file, .ok ()) ∧
      gspLoad w2 name format file = (w3, .ok ()) ∧ w3.active = some q ∧
      w3.queues[q]? = some u ∧ List.Forall₂ (SentAs jsonNames (jsonVal P ij))
        (commandsOf (runActs P (World.start cs) as) 0) u.commands ∧
      w3.objRecord = true ∧ w3.heap = w2.heap ∧
      w3.recording = w2.recording ∧ w3.converters = w2.converters := by
  have hinv : RecInv 0 (World.start cs) := ⟨rfl, Or.inr ⟨rfl, rfl⟩⟩
  replace hsave := savable_session hP rfl hinv hses hsave (by intro c hc; cases hc)
  have hoid : ∀ n, jsonVal P ij (.oid n) = .oid n ∨ jsonVal P ij (.oid n) = .int n :=
    fun n => Or.inr rfl
  obtain ⟨l, h1, h2, hwk, hri, hll, _⟩ := simD_session hP hP2 hoid (simD_start cs w2 hrec)
    hinv hses
  have h0 : commandsOf (World.start cs) 0 = [] := rfl
  rw [h0, List.nil_append] at h1
  generalize hw : runActs P (World.start cs) as = w at *
  have hlne : l ≠ [] := by
    rintro rfl
    exact hne (List.eq_nil_of_length_eq_zero hll.symm)
  have hu : ∃ u, w.queues[0]? = some u ∧ u.commands = l ∧ w.active = some 0 := by
    rcases hri.target with ⟨ha, u, hu, _⟩ | ⟨_, hz⟩
    · exact ⟨u, hu, by simpa [commandsOf, hu] using h1, ha⟩
    · have hq0 : w.queues = [] := List.eq_nil_of_length_eq_zero hz.symm
      rw [commandsOf, hq0] at h1
      exact absurd h1.symm hlne
  obtain ⟨u, hu, hul, hact⟩ := hu
  rw [h1] at hsave
  have hs : ∀ c ∈ u.commands, Settles P w c (settledCmd P c) := by
    rw [hul]
    exact fun c hc => settles_settledCmd (hsave c hc).2
  have hp : ∀ c ∈ u.commands, PlainCmd ij (settledCmd P c) := by
    rw [hul]
    intro c hc
    obtain ⟨k1, n, k2⟩ := hwk c hc
    have hke : dkeys (settledCmd P c).params = dkeys c.params := by
      simp [settledCmd, dkeys, Function.comp_def]
    refine ⟨(hsave c hc).1, by rw [hke]; exact k1, ⟨n, ?_⟩, ?_⟩
    · have := dget_mapKey (fun _ v => (evaluated P v).getD v) c.params "id"
      show dget (c.params.map _) "id" = _
      rw [this, k2]
      rfl
    · intro p hp
      obtain ⟨p', hp', rfl⟩ := List.mem_map.1 hp
      obtain ⟨y, e1, e2⟩ := (hsave c hc).2 p' hp'
      dsimp only
      rw [e1]
      exact e2
  have hsv := saveQueue_settle (P := P) (ij := ij) (arg := none) (fuel := fuel) (settledCmd P) old hu
    (Or.inr ⟨hact, Or.inl rfl⟩) hs hp (by rw [hul, hll]; exact hfuel)
  rw [hul] at hsv hs hp
  generalize hjs : l.map (fun c => jsonCmd ij w (settledCmd P c)) = js at hsv
  have hgood : ∀ j ∈ js, j.Good := by
    intro j hj
    rw [← hjs] at hj
    obtain ⟨c, hc, rfl⟩ := List.mem_map.1 hj
    obtain ⟨js', e1, e2, e3⟩ := encodeParams_ok (w := w) (hp c hc).vals
    obtain ⟨n, hn⟩ := (hp c hc).id
    obtain ⟨x, hx, _⟩ := e3 _ _ hn
    refine ⟨_, _, rfl, rfl, ?_⟩
    rw [e1]
    simp [Except.toOption, dhas, hx]
  -- loading
  obtain ⟨hls, _⟩ := gspLoad_prefix w2
  obtain ⟨u3, hu3, hr3⟩ := gspLoadStart_queue hwr
  have hqe : (emptyQueue (gspLoadStart w2) (activeIx w2)).queues[activeIx w2]? =
      some (Queue.mk u3.name u3.readonly []) := by
    simp [emptyQueue, setQueue, hu3]
  obtain ⟨w3, a1, a2, _, _, a5⟩ := loadLoop_good hgood hqe hr3
  have hload : gspLoad w2 name format (.doc js) = (w3, .ok ()) := by
    have hdef : gspLoad w2 name format (.doc js) = if formatOf format name = "json" then
      loadQueue (gspLoadStart w2) (.doc js) none else (gspLoadStart w2, .error .valueError) := rfl
    rw [hdef, if_pos hfmt]
    unfold loadQueue
    dsimp only
    rw [pickQueue_designates (q := activeIx w2) (Or.inr ⟨hls.active, Or.inl rfl⟩)]
    exact a1
  have hfr := gspLoad_frame w2 name format (.doc js)
  rw [hload] at hfr
  obtain ⟨f1, f2, f3, f4, _⟩ := hfr
  dsimp only at f1 f2 f3 f4
  have hor : w3.objRecord = true := by
    rw [a5.objRecord]
    show (gspLoadStart w2).objRecord = true
    rw [gspLoadStart_objRecord, hrec]
  have hsent : List.Forall₂ (SentAs jsonNames (jsonVal P ij)) l
      (js.mapIdx (fun i j =>
        loadedCmd ((emptyQueue (gspLoadStart w2) (activeIx w2)).cidCounter + 1 + i) j)) := by
    rw [List.forall₂_iff_get]
    refine ⟨by simp [← hjs], ?_⟩
    intro i hi hi2
    have hc : l[i] ∈ l := List.getElem_mem hi
    have := sentAs_loaded (w := w)
      ((emptyQueue (gspLoadStart w2) (activeIx w2)).cidCounter + 1 + i) (hsave _ hc).1 (hsave _ hc).2
    simpa [← hjs] using this
  refine ⟨.doc js, w3, activeIx w2, _, ?_, hload, ?_, a2, by rw [h1]; simpa using hsent, hor,
    f1, f4, f3⟩
  · unfold gspSave
    rw [if_pos hfmt, hsv]
  · rw [a5.active]
    exact hls.active

end Verif
