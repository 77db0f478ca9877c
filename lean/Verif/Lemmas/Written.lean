import Verif.Lemmas.Transfer
/-! What the commands of a session hold -/

namespace Verif

/-- The parameters of a command are ids and recorded arguments. -/
theorem savable_params {P : Prog} {ij : Codec} {w : World} {cls f sg args kwargs b} (hP : P.SigsWF)
    (hs : P.sig cls f = some sg) (selfId : Int) (hkw : (dkeys kwargs).Nodup)
    (hb : bindArgs sg args kwargs = .ok b)
    (hlive : ∀ k x, dget b k = some (.obj x) → x < w.heap.length)
    (hrec : ∀ k v, dget b k = some v → ∃ u, recordedArg P w.converters sg k v = some u)
    (hsv : SavableArgs P ij w.converters cls f args kwargs) :
    ∀ p ∈ (collect sg selfId args kwargs).map (fun p =>
      (p.1, stripVal w (formVal P w.converters sg.annots p.1 p.2))), Savable P ij p.2 := by
  obtain ⟨hwf, hdef⟩ := hP _ _ _ hs
  have hid : ∀ n, Savable P ij (.oid n) := fun n => ⟨.oid n, rfl, trivial⟩
  have hkept : ∀ k v, dget b k = some v → (keptArg sg k v).isObj = false →
      Savable P ij (stripVal w (formVal P w.converters sg.annots k (keptArg sg k v))) := by
    intro k v hv hno
    obtain ⟨u, hu⟩ := hrec k v hv
    obtain ⟨h1, h2⟩ := formVal_recorded hu hno
    rw [h1, stripVal_nonobj w h2]
    exact hsv sg b hs hb k v u hv hu h2
  have hobj : ∀ k v key, dget b k = some v → v.isObj = true →
      Savable P ij (stripVal w (formVal P w.converters sg.annots key v)) := by
    intro k v key hv hvo
    cases v <;> simp [Val.isObj] at hvo
    rename_i x
    obtain ⟨o, ho⟩ : ∃ o, w.heap[x]? = some o :=
      ⟨_, List.getElem?_eq_getElem (hlive k x hv)⟩
    simp only [formVal, Val.isObj, if_true, stripVal, ho]
    exact hid _
  intro p hp
  obtain ⟨e, he, rfl⟩ := List.mem_map.1 hp
  dsimp only
  rcases collect_entry hwf hdef selfId hkw hb he with rfl | ⟨k, v, hk, hv, hm⟩
  · simp only [formVal, Val.isObj, Bool.false_eq_true, if_false, annots_id hwf (Or.inr rfl), stripVal]
    exact hid _
  · unfold entriesOf at hm
    cases hvo : v.isObj with
    | true =>
      rw [hvo] at hm
      simp only [if_true] at hm
      cases hd : dget sg.defaults k with
      | none =>
        rw [hd] at hm
        simp only [List.mem_singleton] at hm
        subst hm
        exact hobj k v _ hv hvo
      | some d =>
        rw [hd] at hm
        simp only [List.mem_cons, List.not_mem_nil, or_false] at hm
        rcases hm with rfl | rfl
        · exact hobj k v _ hv hvo
        · have hk : keptArg sg k v = d := by simp [keptArg, hvo, hd]
          have := hkept k v hv (by rw [hk]; exact hdef _ (dget_mem hd))
          rwa [hk] at this
    | false =>
      rw [hvo] at hm
      simp only [Bool.false_eq_true, if_false, List.mem_singleton] at hm
      subst hm
      have hk : keptArg sg k v = v := by simp [keptArg, hvo]
      have := hkept k v hv (by rw [hk]; exact hvo)
      rwa [hk] at this

theorem savable_act {P P2 : Prog} {ij : Codec} {cs cs2 on nm t q w a} (hP : P.SigsWF)
    (hcs : w.converters = cs) (hrec : RecInv q w) (hcl : Replayable P P2 cs cs2 on nm t w a)
    (hsv : SavableAct P ij cs w a) :
    ∃ c, commandsOf (step P w a.op).1 q = commandsOf w q ++ [c] ∧
      RecInv q (step P w a.op).1 ∧ (step P w a.op).1.converters = cs ∧
      NameOK c.cls c.meth ∧ ∀ p ∈ c.params, Savable P ij p.2 := by
  subst hcs
  cases a with
  | create cls args kwargs =>
    obtain ⟨sg, sg2, b, hs, hs2, hag, hkw, hb, hlive, hsend, hr, htol, hnm, hres⟩ := hcl
    have hrcd : Recordable P w.converters sg b := by
      intro k v hv
      obtain ⟨u, hu, _⟩ := hsend k v hv
      exact ⟨u, hu⟩
    obtain ⟨w', h1, hcore, h2⟩ := construct_form (nc := false) hs hP hkw hb hr (fun _ => hrcd)
    have hstep : step P w (Act.create cls args kwargs).op = (w', .ok ()) := by
      simp only [Act.op, step, h1]
    have hq := h2 hrec.activeValid hlive hrec.on q
    rw [if_pos ⟨rfl, hrec.writable, hrec.activeIx.symm⟩] at hq
    rw [hstep]
    refine ⟨_, hq, ?_, ?_, hsv.1, savable_params hP hs _ hkw hb hlive hrcd hsv.2⟩
    · have hfin := (recInv_closed q).construct (P := P) (cls := cls) (args := args)
        (kwargs := kwargs) (nc := false) hrec
      rw [h1] at hfin
      exact hfin
    · rw [hcore.converters]; rfl
  | call r f args kwargs =>
    obtain ⟨o, sg, sg2, b, ho, hs, hs2, hag, hkw, hb, hlive, hsend, hr, htol, hnm, hdot, hinit⟩ := hcl
    have hrcd : Recordable P w.converters sg b := by
      intro k v hv
      obtain ⟨u, hu, _⟩ := hsend k v hv
      exact ⟨u, hu⟩
    obtain ⟨w', h1, hcore, h2⟩ := callMethod_form (nc := false) ho hs hP hkw hb hr (fun _ => hrcd)
    have hstep : step P w (Act.call r f args kwargs).op = (w', .ok ()) := by
      simp only [Act.op, step, h1]
    have hq := h2 hrec.activeValid hrec.on q
    rw [if_pos ⟨rfl, hrec.writable, hrec.activeIx.symm⟩] at hq
    rw [hstep]
    refine ⟨_, hq, ?_, ?_, (hsv o ho).1, savable_params hP hs _ hkw hb hlive hrcd (hsv o ho).2⟩
    · have hfin := (recInv_closed q).callMethod (P := P) (r := r) (f := f) (args := args)
        (kwargs := kwargs) (nc := false) hrec
      rw [h1] at hfin
      exact hfin
    · rw [hcore.converters, logCall_conv]

theorem savable_session {P P2 : Prog} {ij : Codec} {cs cs2 on nm t q} (hP : P.SigsWF) :
    ∀ {as w}, w.converters = cs → RecInv q w → ReplayableSession P P2 cs cs2 on nm t w as →
    SavableSession P ij cs w as →
    (∀ c ∈ commandsOf w q, NameOK c.cls c.meth ∧ ∀ p ∈ c.params, Savable P ij p.2) →
    ∀ c ∈ commandsOf (runActs P w as) q, NameOK c.cls c.meth ∧ ∀ p ∈ c.params, Savable P ij p.2 := by
  intro as
  induction as with
  | nil => intro w _ _ _ _ h; exact h
  | cons a as ih =>
    intro w hcs hrec hcl hsv h
    obtain ⟨c, h1, h2, h3, h4⟩ := savable_act hP hcs hrec hcl.1 hsv.1
    apply ih h3 h2 hcl.2 hsv.2
    rw [h1]
    intro c' hc'
    rcases List.mem_append.1 hc' with h' | h'
    · exact h c' h'
    · rw [List.mem_singleton.1 h']; exact h4

end Verif
