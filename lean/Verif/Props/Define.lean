import Verif.Lemmas.Define
import Verif.Props.Json
/-! # C15: a saved file defines every object before using it -/

namespace Verif

/-- The full claim of C15: after a session of successful actions, the commands of the saved
file create every object before using it. (The file is read through `load`, see C11.) -/
def SavedDefinesFirst (P : Prog) (ij : Codec) : Prop :=
  ∀ cs as fuel w' l, Succeeds P (World.start cs) as → LiveSession P (World.start cs) as →
    dumpQueue P ij fuel (runActs P (World.start cs) as) none = some (w', .ok l) →
    DefinesFirst (commandsOf (loadQueue World.fresh (.doc l) none).1 0)

/-- C15 fails: the buffer built from an array while saving is created after the command that
refers to it. Here converter 1 builds a `Foo` from a float. -/
theorem saved_defines_first_fails : ¬ SavedDefinesFirst demo (fun _ _ => none) := by
  intro h
  have := h [(("float", "Foo"), 1), (("float", "int"), 0)]
    [.create "Foo" [.int 7] [], .call 0 "attach" [.float 5] []] 9 _ _
    (by decide) (by refine ⟨⟨by simp, by simp⟩, ⟨by simp, by simp⟩, trivial⟩) rfl
  obtain ⟨c', hc', hcr⟩ := this
    [⟨1, "Foo", "__init__", [("id", .int 1), ("value", .int 7)]⟩]
    ⟨2, "Foo", "attach", [("id", .int 1), ("other(id)", .int 2)]⟩
    [⟨3, "Foo", "__init__", [("id", .int 2), ("value", .int 5)]⟩] 2 rfl
    (Or.inl ⟨("other(id)", .int 2), by simp, by decide, rfl⟩)
  simp only [List.mem_singleton] at hc'
  subst hc'
  exact absurd hcr.2 (by decide)

/-- C15 (part). In memory, the commands recorded by a session of successful actions on live
objects always create every object before using it; delayed conversions included. -/
theorem recorded_defines_first_partial (P : Prog) (hP : ProgOK P)
    (cs : Dict (String × String) Nat) (as : List Act)
    (hs : Succeeds P (World.start cs) as) (hl : LiveSession P (World.start cs) as) :
    DefinesFirst (commandsOf (runActs P (World.start cs) as) 0) ∧
    ∀ o ∈ (runActs P (World.start cs) as).heap,
      ∃ c ∈ commandsOf (runActs P (World.start cs) as) 0, Creates c o.id := by
  have h := defInv_session hP (defInv_start cs) hs hl
  refine ⟨h.first, ?_⟩
  intro o ho
  obtain ⟨r, hr⟩ := List.getElem?_of_mem ho
  exact h.all r o hr

theorem settles_self {P : Prog} {ij : Codec} {w : World} {c : Cmd} (h : PlainCmd ij c) :
    Settles P w c c := by
  refine ⟨rfl, rfl, rfl, ?_⟩
  have : c.params.mapM (settle P w) = some (c.params.map id) := by
    apply mapM_option_of_forall
    intro p hp
    have := h.vals p hp
    obtain ⟨k, v⟩ := p
    cases v <;> first | rfl | exact absurd this id
  rw [this, List.map_id]

/-- C15 (part). When the session holds no delayed conversion, the saved file, wherever it is
loaded, creates every object before using it. Missing: delayed conversions that build
objects. -/
theorem saved_defines_first_partial (P : Prog) (hP : ProgOK P) (ij : Codec)
    (cs : Dict (String × String) Nat) (as : List Act)
    (hs : Succeeds P (World.start cs) as) (hl : LiveSession P (World.start cs) as)
    (hne : commandsOf (runActs P (World.start cs) as) 0 ≠ [])
    (hp : ∀ c ∈ commandsOf (runActs P (World.start cs) as) 0, PlainCmd ij c) (fuel : Nat)
    (hf : (commandsOf (runActs P (World.start cs) as) 0).length < fuel) (old : File)
    (w2 : World) (q2 : Nat) (u2 : Queue) (arg2 : Option Nat)
    (hq2 : w2.queues[q2]? = some u2) (hd2 : Designates w2 q2 arg2) (hr2 : u2.readonly = false) :
    ∃ file w2', saveQueue P ij fuel (runActs P (World.start cs) as) none old =
        some (runActs P (World.start cs) as, file, .ok ()) ∧
      loadQueue w2 file arg2 = (w2', .ok ()) ∧ DefinesFirst (commandsOf w2' q2) := by
  have hinv := defInv_session hP (defInv_start cs) hs hl
  generalize runActs P (World.start cs) as = w at *
  rcases hinv.on.target with ⟨ha, u, hu, _⟩ | ⟨_, h0⟩
  · have hcu : commandsOf w 0 = u.commands := by simp [commandsOf, hu]
    obtain ⟨file, w2', h1, h2, h3, h4⟩ := json_save_load P ij w 0 u none fuel old id hu
      (Or.inr ⟨ha, Or.inl rfl⟩) (fun c hc => settles_self (hp c (hcu ▸ hc)))
      (fun c hc => hp c (hcu ▸ hc)) (hcu ▸ hf) w2 q2 u2 arg2 hq2 hd2 hr2
    refine ⟨file, w2', h1, h2, ?_⟩
    exact hinv.first.transfer (by rw [h3, hcu]) (by rw [hcu]; exact h4)
      (fun c hc => (hp c hc).keys) hinv.refs
  · exfalso
    apply hne
    unfold commandsOf
    rw [List.getElem?_eq_none (by omega)]

/-- The example program meets the conditions on programs. -/
theorem demo_ok : ProgOK demo where
  wf := demo_wf
  defaults := by
    intro cls f sg h
    simp only [demo, demoSig] at h
    split at h
    · split at h
      · cases h; simp
      · split at h
        · cases h; simp [Val.isObj]
        · split at h
          · cases h; simp [Val.isObj]
          · split at h
            · cases h; simp
            · cases h
    · split at h
      · split at h
        · cases h; simp
        · cases h
      · cases h
  ctor := by
    intro cls
    simp only [demo]
    split
    · exact ⟨"core.Canvas", by simp [meaning, show hasChar '.' "core.Canvas" = true by decide]⟩
    · exact ⟨cls, by simp [meaning, show hasChar '.' "__init__" = false by decide]⟩

/-- A session with a dotted class, a reference by position and a method call meets the
hypotheses. -/
example : Succeeds demo (World.start [])
      [.create "Canvas" [.int 4, .int 3] [], .create "Foo" [.int 1] [],
       .create "Foo" [.int 2] [], .call 1 "attach" [.obj 2] []] ∧
    LiveSession demo (World.start [])
      [.create "Canvas" [.int 4, .int 3] [], .create "Foo" [.int 1] [],
       .create "Foo" [.int 2] [], .call 1 "attach" [.obj 2] []] := by
  refine ⟨by decide, ⟨by simp, by simp⟩, ⟨by simp, by simp⟩, ⟨by simp, by simp⟩, ⟨?_, by simp⟩,
    trivial⟩
  intro x hx
  simp only [List.mem_singleton, Val.obj.injEq] at hx
  subst hx
  decide

end Verif
