import Verif.Spec.Scene
import Verif.Lemmas.Py
/-! Boolean tests of the hypotheses of the replay theorems, used in the examples only. -/

namespace Verif

def takenB (P : Prog) (w : World) (v : Val) (anns : List String) : Bool :=
  (anns.any (fun ann => matchesType P (paramType P (typeName w v)) ann) ||
    (anns ≠ [] && paramType P (typeName w v) = "NoneType")) &&
  anns.all (fun ann => (P.mro (typeName w v)).all (fun base =>
    (getConverterType P w.converters base ann).isNone))

theorem takenB_sound {P w v anns} (h : takenB P w v anns = true) : TakenAsIs P w v anns := by
  unfold takenB at h
  simp only [Bool.and_eq_true, Bool.or_eq_true, List.any_eq_true, List.all_eq_true,
    decide_eq_true_eq, Option.isNone_iff_eq_none] at h
  exact h

def Val.isOidOrConv : Val → Bool
  | .oid _ => true
  | .conv _ _ => true
  | _ => false

def cleanArgsB (P : Prog) (t : Val → Val) (w : World) (sg : Sig) (args : List Val)
    (kwargs : Dict String Val) : Bool :=
  decide ((dkeys kwargs).Nodup) &&
  (sg.params ++ dkeys kwargs ++ dkeys sg.defaults).all (fun k =>
    (match givenArg sg args kwargs k with
     | some v => !v.isObj || (dget sg.defaults k).isNone
     | none => true) &&
    (match seenArg sg args kwargs k with
     | some (.obj x) => decide (x < w.heap.length)
     | some v => !v.isOidOrConv && decide (t v = v) &&
        (match dget sg.annots k with | some anns => takenB P w v anns | none => true)
     | none => true))

theorem mem_of_given {sg : Sig} {args kwargs k v} (h : givenArg sg args kwargs k = some v) :
    k ∈ sg.params ++ dkeys kwargs ++ dkeys sg.defaults := by
  unfold givenArg at h
  rw [Option.or_eq_some_iff] at h
  rcases h with h | ⟨_, h⟩
  · have := (List.of_mem_zip (a := k) (b := v) (dget_mem h)).1
    simp [this]
  · have := (mem_dkeys _ _).2 ⟨v, h⟩
    simp [this]

theorem mem_of_seen {sg : Sig} {args kwargs k v} (h : seenArg sg args kwargs k = some v) :
    k ∈ sg.params ++ dkeys kwargs ++ dkeys sg.defaults := by
  unfold seenArg at h
  rw [Option.or_eq_some_iff] at h
  rcases h with h | ⟨_, h⟩
  · exact mem_of_given h
  · have := (mem_dkeys _ _).2 ⟨v, h⟩
    simp [this]

theorem cleanArgsB_sound {P t w sg args kwargs bound} (hwf : sg.WF)
    (hb : bindArgs sg args kwargs = .ok bound) (h : cleanArgsB P t w sg args kwargs = true) :
    CleanArgs P w sg args kwargs bound ∧
      ∀ k v, seenArg sg args kwargs k = some v → v.isObj = false → t v = v := by
  unfold cleanArgsB at h
  rw [Bool.and_eq_true, decide_eq_true_eq, List.all_eq_true] at h
  obtain ⟨hnd, h⟩ := h
  have key : ∀ k v, seenArg sg args kwargs k = some v → v.isObj = false →
      v.isOidOrConv = false ∧ t v = v ∧
        ∀ anns, dget sg.annots k = some anns → TakenAsIs P w v anns := by
    intro k v hs hv
    have := (Bool.and_eq_true _ _ ▸ h k (mem_of_seen hs)).2
    rw [hs] at this
    have h' : (!v.isOidOrConv && decide (t v = v) &&
        (match dget sg.annots k with | some anns => takenB P w v anns | none => true)) = true := by
      cases v <;> first | exact this | simp [Val.isObj] at hv
    rw [Bool.and_eq_true, Bool.and_eq_true, Bool.not_eq_true', decide_eq_true_eq] at h'
    refine ⟨h'.1.1, h'.1.2, ?_⟩
    intro anns ha
    have h2 := h'.2
    rw [ha] at h2
    exact takenB_sound h2
  refine ⟨⟨hwf, hnd, hb, ⟨?_, ?_⟩, ?_⟩, fun k v hs hv => (key k v hs hv).2.1⟩
  · intro k v hg hv
    have := (Bool.and_eq_true _ _ ▸ h k (mem_of_given hg)).1
    rw [hg] at this
    simpa [hv] using this
  · intro k v hs hv
    obtain ⟨h1, _, h3⟩ := key k v hs hv
    refine ⟨?_, ?_, h3⟩
    · rintro n rfl; simp [Val.isOidOrConv] at h1
    · rintro f x rfl; simp [Val.isOidOrConv] at h1
  · intro k x hs
    have := (Bool.and_eq_true _ _ ▸ h k (mem_of_seen hs)).2
    rw [hs] at this
    simpa using this

/-- A test of `Clean`. -/
def cleanB (P : Prog) (nm : String × String → String × String) (t : Val → Val) (w : World) :
    Act → Bool
  | .create cls args kwargs =>
    match P.sig cls "__init__" with
    | none => false
    | some sg =>
      match bindArgs sg args kwargs with
      | .error _ => false
      | .ok bound =>
        cleanArgsB P t w sg args kwargs &&
        decide (P.raises (Obj.mk (1 + (w.oidCounter : Int)) cls [] (1 + (w.oidCounter : Int)))
          "__init__" bound = none) &&
        decide ((nm (cls, (P.override cls "__init__").getD "__init__")).2 = "__init__") &&
        decide (P.resolve (nm (cls, (P.override cls "__init__").getD "__init__")).1 = some cls)
  | .call r f args kwargs =>
    match w.heap[r]? with
    | none => false
    | some o =>
      match P.sig o.cls f with
      | none => false
      | some sg =>
        match bindArgs sg args kwargs with
        | .error _ => false
        | .ok bound =>
          cleanArgsB P t w sg args kwargs && decide (P.raises o f bound = none) &&
          decide ((nm (o.cls, (P.override o.cls f).getD f)).2 = f) &&
          !hasChar '.' f && decide (f ≠ "__init__")

theorem cleanB_sound {P nm t w a} (hwf : ∀ cls f sg, P.sig cls f = some sg → sg.WF)
    (h : cleanB P nm t w a = true) : Clean P nm t w a := by
  cases a with
  | create cls args kwargs =>
    simp only [cleanB] at h
    split at h
    · cases h
    · rename_i sg hs
      split at h
      · cases h
      · rename_i bound hb
        simp only [Bool.and_eq_true, decide_eq_true_eq] at h
        obtain ⟨⟨⟨h1, h2⟩, h3⟩, h4⟩ := h
        obtain ⟨h5, h6⟩ := cleanArgsB_sound (hwf _ _ _ hs) hb h1
        exact ⟨sg, bound, hs, h5, h6, h2, h3, h4⟩
  | call r f args kwargs =>
    simp only [cleanB] at h
    split at h
    · cases h
    · rename_i o ho
      split at h
      · cases h
      · rename_i sg hs
        split at h
        · cases h
        · rename_i bound hb
          simp only [Bool.and_eq_true, decide_eq_true_eq, Bool.not_eq_true'] at h
          obtain ⟨⟨⟨⟨h1, h2⟩, h3⟩, h4⟩, h7⟩ := h
          obtain ⟨h5, h6⟩ := cleanArgsB_sound (hwf _ _ _ hs) hb h1
          exact ⟨o, sg, bound, ho, hs, h5, h6, h2, h3, h4, h7⟩

def cleanSessionB (P : Prog) (nm : String × String → String × String) (t : Val → Val) :
    World → List Act → Bool
  | _, [] => true
  | w, a :: as => cleanB P nm t w a && cleanSessionB P nm t (step P w a.op).1 as

theorem cleanSessionB_sound {P nm t} (hwf : ∀ cls f sg, P.sig cls f = some sg → sg.WF) :
    ∀ {as w}, cleanSessionB P nm t w as = true → CleanSession P nm t w as := by
  intro as
  induction as with
  | nil => intro w _; exact trivial
  | cons a as ih =>
    intro w h
    unfold cleanSessionB at h
    rw [Bool.and_eq_true] at h
    exact ⟨cleanB_sound hwf h.1, ih h.2⟩

end Verif
