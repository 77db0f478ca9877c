import Verif.Spec.Transfer
import Verif.Lemmas.Py
/-! A test for replayable sessions, used by the examples: bodies that never raise -/

namespace Verif

def passesB (P : Prog) (cs : Dict (String × String) Nat) (on : Bool) (anns : Option (List String))
    (v : Val) : Bool :=
  !on || match anns with
    | none => true
    | some l => (recordedAs P cs l v).isSome

theorem passesB_sound {P cs on anns v} (h : passesB P cs on anns v = true) :
    Passes P cs on anns v := by
  rintro rfl l rfl
  simp only [passesB, Bool.not_true, Bool.false_or] at h
  intro h'
  rw [h'] at h
  simp at h

def buildsB (P : Prog) (cs : Dict (String × String) Nat) (on : Bool) (cls : String)
    (kw : Dict String Val) : Bool :=
  match P.sig cls "__init__" with
  | none => false
  | some sg => decide (dkeys kw).Nodup && match bindArgs sg [] kw with
    | .error _ => false
    | .ok b => b.all (fun p => !p.2.isObj && passesB P cs on (dget sg.annots p.1) p.2)

theorem buildsB_sound {P cs on cls kw} (hr : ∀ o f b, P.raises o f b = none)
    (h : buildsB P cs on cls kw = true) : Builds P cs on cls kw := by
  unfold buildsB at h
  cases hs : P.sig cls "__init__" with
  | none => rw [hs] at h; simp at h
  | some sg =>
    rw [hs] at h
    simp only [Bool.and_eq_true, decide_eq_true_eq] at h
    cases hb : bindArgs sg [] kw with
    | error e => rw [hb] at h; simp at h
    | ok b =>
      rw [hb] at h
      refine ⟨sg, b, hs, h.1, hb, ?_, fun _ _ => hr _ _ _⟩
      intro k v hv
      have := (List.all_eq_true.1 h.2) _ (dget_mem hv)
      simp only [Bool.and_eq_true, Bool.not_eq_eq_eq_not, Bool.not_true] at this
      exact ⟨this.1, passesB_sound this.2⟩

def arrivesB (P : Prog) (cs : Dict (String × String) Nat) (on : Bool)
    (anns : Option (List String)) : Val → Bool
  | .obj _ => false
  | .oid _ => false
  | .conv f x =>
    match P.conv f x with
    | .pure g => match g x with
      | .ok v' => !v'.isObj && passesB P cs on anns v'
      | .error _ => false
    | .make cls kw => buildsB P cs on cls (kw x)
    | .look _ => false
  | v => passesB P cs on anns v

theorem arrivesB_sound {P cs on anns v} (hr : ∀ o f b, P.raises o f b = none)
    (h : arrivesB P cs on anns v = true) : Arrives P cs on anns v := by
  cases v with
  | obj r => simp [arrivesB] at h
  | oid n => simp [arrivesB] at h
  | conv f x =>
    simp only [arrivesB] at h
    simp only [Arrives]
    cases hc : P.conv f x with
    | pure g =>
      rw [hc] at h
      dsimp only at h ⊢
      cases hg : g x with
      | error e => rw [hg] at h; simp at h
      | ok v' =>
        rw [hg] at h
        simp only [Bool.and_eq_true, Bool.not_eq_eq_eq_not, Bool.not_true] at h
        exact ⟨v', rfl, h.1, passesB_sound h.2⟩
    | make cls kw =>
      rw [hc] at h
      exact buildsB_sound hr h
    | look key => rw [hc] at h; simp at h
  | _ => exact passesB_sound h

def sendableB (P P2 : Prog) (cs cs2 : Dict (String × String) Nat) (on : Bool) (t : Val → Val)
    (sg sg2 : Sig) (b : Dict String Val) : Bool :=
  b.all (fun p => match recordedArg P cs sg p.1 p.2 with
    | none => false
    | some u => u.isObj || arrivesB P2 cs2 on (dget sg2.annots p.1) (t u))

theorem sendableB_sound {P P2 cs cs2 on t sg sg2 b} (hr : ∀ o f b, P2.raises o f b = none)
    (h : sendableB P P2 cs cs2 on t sg sg2 b = true) : Sendable P P2 cs cs2 on t sg sg2 b := by
  intro k v hv
  have := (List.all_eq_true.1 h) _ (dget_mem hv)
  dsimp only at this
  cases hu : recordedArg P cs sg k v with
  | none => rw [hu] at this; simp at this
  | some u =>
    rw [hu] at this
    refine ⟨u, rfl, fun hno => ?_⟩
    simp only [hno, Bool.false_or] at this
    exact arrivesB_sound hr this

def sigsAgreeB (P2 : Prog) (cs2 : Dict (String × String) Nat) (on : Bool) (sg sg2 : Sig) : Bool :=
  decide (∀ k ∈ sg2.params, k ∈ sg.params) && decide (∀ k ∈ sg.params, k ∈ sg2.params) &&
    sg2.defaults.all (fun p => passesB P2 cs2 on (dget sg2.annots p.1) p.2)

theorem sigsAgreeB_sound {P2 cs2 on sg sg2} (h : sigsAgreeB P2 cs2 on sg sg2 = true) :
    SigsAgree P2 cs2 on sg sg2 := by
  simp only [sigsAgreeB, Bool.and_eq_true, decide_eq_true_eq] at h
  refine ⟨fun k => ⟨h.1.1 k, h.1.2 k⟩, ?_⟩
  intro k d hd
  exact passesB_sound ((List.all_eq_true.1 h.2) _ (dget_mem hd))

def argsB (P P2 : Prog) (cs cs2 : Dict (String × String) Nat) (on : Bool) (t : Val → Val)
    (n : Nat) (cls f : String) (args : List Val) (kwargs : Dict String Val) : Bool :=
  match P.sig cls f, P2.sig cls f with
  | some sg, some sg2 => sigsAgreeB P2 cs2 on sg sg2 && decide (dkeys kwargs).Nodup &&
    match bindArgs sg args kwargs with
    | .error _ => false
    | .ok b => b.all (fun p => match p.2 with | .obj x => decide (x < n) | _ => true) &&
        sendableB P P2 cs cs2 on t sg sg2 b
  | _, _ => false

theorem argsB_sound {P P2 cs cs2 on t n cls f args kwargs} (hr : ∀ o f b, P2.raises o f b = none)
    (h : argsB P P2 cs cs2 on t n cls f args kwargs = true) :
    ∃ sg sg2 b, P.sig cls f = some sg ∧ P2.sig cls f = some sg2 ∧ SigsAgree P2 cs2 on sg sg2 ∧
      (dkeys kwargs).Nodup ∧ bindArgs sg args kwargs = .ok b ∧
      (∀ k x, dget b k = some (.obj x) → x < n) ∧ Sendable P P2 cs cs2 on t sg sg2 b := by
  unfold argsB at h
  split at h
  · rename_i sg sg2 hs hs2
    simp only [Bool.and_eq_true, decide_eq_true_eq] at h
    cases hb : bindArgs sg args kwargs with
    | error e => rw [hb] at h; simp at h
    | ok b =>
      rw [hb] at h
      simp only [Bool.and_eq_true] at h
      refine ⟨sg, sg2, b, hs, hs2, sigsAgreeB_sound h.1.1, h.1.2, hb, ?_, sendableB_sound hr h.2.2⟩
      intro k x hx
      have := (List.all_eq_true.1 h.2.1) _ (dget_mem hx)
      simpa using this
  · simp at h

def replayableB (P P2 : Prog) (cs cs2 : Dict (String × String) Nat) (on : Bool)
    (nm : String × String → String × String) (t : Val → Val) (w : World) : Act → Bool
  | .create cls args kwargs => argsB P P2 cs cs2 on t w.heap.length cls "__init__" args kwargs &&
      decide ((nm (cls, (P.override cls "__init__").getD "__init__")).2 = "__init__") &&
      decide (P2.resolve (nm (cls, (P.override cls "__init__").getD "__init__")).1 = some cls)
  | .call r f args kwargs =>
    match w.heap[r]? with
    | none => false
    | some o => argsB P P2 cs cs2 on t w.heap.length o.cls f args kwargs &&
      decide ((nm (o.cls, (P.override o.cls f).getD f)).2 = f) &&
      decide (hasChar '.' f = false) && decide (f ≠ "__init__")

def replayableSessionB (P P2 : Prog) (cs cs2 : Dict (String × String) Nat) (on : Bool)
    (nm : String × String → String × String) (t : Val → Val) : World → List Act → Bool
  | _, [] => true
  | w, a :: as => replayableB P P2 cs cs2 on nm t w a &&
      replayableSessionB P P2 cs cs2 on nm t (step P w a.op).1 as

theorem replayableB_sound {P P2 cs cs2 on nm t w a} (hr : ∀ o f b, P.raises o f b = none)
    (hr2 : ∀ o f b, P2.raises o f b = none) (h : replayableB P P2 cs cs2 on nm t w a = true) :
    Replayable P P2 cs cs2 on nm t w a := by
  cases a with
  | create cls args kwargs =>
    simp only [replayableB, Bool.and_eq_true, decide_eq_true_eq] at h
    obtain ⟨sg, sg2, b, h1, h2, h3, h4, h5, h6, h7⟩ := argsB_sound hr2 h.1.1
    exact ⟨sg, sg2, b, h1, h2, h3, h4, h5, h6, h7, hr _ _ _, fun _ _ _ _ _ _ _ => hr2 _ _ _, h.1.2, h.2⟩
  | call r f args kwargs =>
    simp only [replayableB] at h
    cases ho : w.heap[r]? with
    | none => rw [ho] at h; simp at h
    | some o =>
      rw [ho] at h
      simp only [Bool.and_eq_true, decide_eq_true_eq] at h
      obtain ⟨sg, sg2, b, h1, h2, h3, h4, h5, h6, h7⟩ := argsB_sound hr2 h.1.1.1
      exact ⟨o, sg, sg2, b, ho, h1, h2, h3, h4, h5, h6, h7, hr _ _ _,
        fun _ _ _ _ _ _ _ => hr2 _ _ _, h.1.1.2, h.1.2, h.2⟩

theorem replayableSessionB_sound {P P2 cs cs2 on nm t} (hr : ∀ o f b, P.raises o f b = none)
    (hr2 : ∀ o f b, P2.raises o f b = none) : ∀ {as w},
    replayableSessionB P P2 cs cs2 on nm t w as = true →
    ReplayableSession P P2 cs cs2 on nm t w as
  | [], _, _ => trivial
  | a :: as, w, h => by
    simp only [replayableSessionB, Bool.and_eq_true] at h
    exact ⟨replayableB_sound hr hr2 h.1, replayableSessionB_sound hr hr2 h.2⟩

def savableArgsB (P : Prog) (ij : Codec) (cs : Dict (String × String) Nat) (cls f : String)
    (args : List Val) (kwargs : Dict String Val) : Bool :=
  match P.sig cls f with
  | none => true
  | some sg => match bindArgs sg args kwargs with
    | .error _ => true
    | .ok b => b.all (fun p => match recordedArg P cs sg p.1 p.2 with
      | none => true
      | some u => u.isObj || decide (Savable P ij u))

theorem savableArgsB_sound {P ij cs cls f args kwargs}
    (h : savableArgsB P ij cs cls f args kwargs = true) :
    SavableArgs P ij cs cls f args kwargs := by
  intro sg b hs hb k v u hv hu hno
  simp only [savableArgsB, hs, hb] at h
  have := (List.all_eq_true.1 h) _ (dget_mem hv)
  simpa [hu, hno] using this

def savableSessionB (P : Prog) (ij : Codec) (cs : Dict (String × String) Nat) :
    World → List Act → Bool
  | _, [] => true
  | w, a :: as => (match a with
      | .create cls args kwargs => decide (NameOK cls ((P.override cls "__init__").getD "__init__")) &&
          savableArgsB P ij cs cls "__init__" args kwargs
      | .call r f args kwargs => match w.heap[r]? with
        | none => true
        | some o => decide (NameOK o.cls ((P.override o.cls f).getD f)) &&
            savableArgsB P ij cs o.cls f args kwargs) &&
      savableSessionB P ij cs (step P w a.op).1 as

theorem savableSessionB_sound {P ij cs} : ∀ {as w}, savableSessionB P ij cs w as = true →
    SavableSession P ij cs w as
  | [], _, _ => trivial
  | a :: as, w, h => by
    simp only [savableSessionB, Bool.and_eq_true] at h
    refine ⟨?_, savableSessionB_sound h.2⟩
    cases a with
    | create cls args kwargs =>
      have h := h.1
      simp only [Bool.and_eq_true, decide_eq_true_eq] at h
      exact ⟨h.1, savableArgsB_sound h.2⟩
    | call r f args kwargs =>
      intro o ho
      have h := h.1
      simp only [ho, Bool.and_eq_true, decide_eq_true_eq] at h
      exact ⟨h.1, savableArgsB_sound h.2⟩

end Verif
