import Verif.Lemmas.Deliver
import Verif.Lemmas.Json
import Verif.Spec.Transfer
/-! Lemmas about the transfer of sessions -/

namespace Verif

/-- The initial worlds. -/
theorem simD_start {P P2 : Prog} {t} (cs : Dict (String × String) Nat) (w2 : World)
    (hrec : w2.objRecord = true) : SimD P P2 cs w2.converters w2.recording t w2.heap.length
      w2.heap [] [] (World.start cs) w2 := by
  refine ⟨?_, rfl, Nat.zero_le _, hrec, rfl, rfl, rfl, rfl, by simp, by simp, by simp, ?_, by simp,
    by simp, by simp⟩
  · intro r o ho; simp [World.start, World.fresh] at ho
  · intro r o ho; simp [World.start, World.fresh] at ho

theorem SimD.rebuilt {P P2 : Prog} {cs cs2 on t ref made w w2 w2'}
    (h : SimD P P2 cs cs2 on t w2.heap.length w2.heap ref made w w2') :
    Rebuilt P P2 cs t w w2 w2' ref made :=
  ⟨h.old, by rw [h.len2, h.len], fun y hy => (h.range y hy).1, ⟨h.len, h.sorted⟩, h.obj, h.nodup,
   h.mades⟩

theorem encodeParams_eq {ij : Codec} {w : World} : ∀ {ps : Dict String Val},
    (∀ p ∈ ps, Encodable ij p.2) → ∃ js, encodeParams ij w ps = .ok js ∧
      js.map (fun p => (p.1, decodeVal p.2)) = ps.map (fun p => (p.1, loadedValue ij p.2))
  | [], _ => ⟨[], rfl, rfl⟩
  | (k, v) :: ps, h => by
    obtain ⟨js, h1, h2⟩ := encodeParams_eq (w := w) (ps := ps) (fun p hp => h p (by simp [hp]))
    have hv : Encodable ij v := h (k, v) (by simp)
    have : ∃ j, encodeVal ij w v = .ok j ∧ decodeVal j = loadedValue ij v := by
      cases v with
      | inst c p =>
        obtain ⟨j, hj⟩ := Option.isSome_iff_exists.1 (show (ij c p).isSome = true from hv)
        exact ⟨j, by simp [encodeVal, hj], by simp [loadedValue, hj]⟩
      | obj r => exact absurd hv id
      | conv f x => exact absurd hv id
      | _ => exact ⟨_, rfl, rfl⟩
    obtain ⟨j, h3, h4⟩ := this
    exact ⟨(k, j) :: js, by simp [encodeParams, h3, h1], by simp [h2, h4]⟩

/-- The command that is saved for a recorded one. -/
def settledCmd (P : Prog) (c : Cmd) : Cmd :=
  { c with params := c.params.map (fun p => (p.1, (evaluated P p.2).getD p.2)) }

theorem settles_settledCmd {P : Prog} {ij : Codec} {w : World} {c : Cmd}
    (h : ∀ p ∈ c.params, Savable P ij p.2) : Settles P w c (settledCmd P c) := by
  refine ⟨rfl, rfl, rfl, ?_⟩
  show c.params.mapM (settle P w) = some (c.params.map _)
  have key : ∀ ps : Dict String Val, (∀ p ∈ ps, Savable P ij p.2) →
      ps.mapM (settle P w) = some (ps.map (fun p => (p.1, (evaluated P p.2).getD p.2))) := by
    intro ps hps
    induction ps with
    | nil => rfl
    | cons p ps ih =>
      obtain ⟨y, h1, h2⟩ := hps p (by simp)
      have hst : settle P w p = some (p.1, y) := by
        unfold settle
        rw [h1]
        cases y with
        | obj r => exact absurd h2 id
        | _ => rfl
      rw [List.mapM_cons, hst, ih (fun p hp => hps p (by simp [hp]))]
      simp [h1]
  exact key _ h

theorem sentAs_loaded {P : Prog} {ij : Codec} {w : World} {c : Cmd} (n : Nat)
    (hn : NameOK c.cls c.meth) (h : ∀ p ∈ c.params, Savable P ij p.2) :
    SentAs jsonNames (jsonVal P ij) c (loadedCmd n (jsonCmd ij w (settledCmd P c))) := by
  have hv : ∀ p ∈ (settledCmd P c).params, Encodable ij p.2 := by
    intro p hp
    obtain ⟨p', hp', rfl⟩ := List.mem_map.1 hp
    obtain ⟨y, h1, h2⟩ := h p' hp'
    dsimp only
    rw [h1]
    exact h2
  obtain ⟨js, h1, h2⟩ := encodeParams_eq (w := w) hv
  have hnm : jsonNames (c.cls, c.meth) = jsonName (c.cls, c.meth) := (jsonName_eq hn).symm
  refine ⟨?_, ?_, ?_⟩
  · rw [hnm]; rfl
  · rw [hnm]; rfl
  · show (((encodeParams ij w (settledCmd P c).params).toOption).getD []).map _ = _
    rw [h1]
    show js.map _ = _
    rw [h2]
    simp [settledCmd, jsonVal, List.map_map, Function.comp_def]

theorem gspLoadStart_objRecord (w : World) : (gspLoadStart w).objRecord = w.objRecord := by
  obtain ⟨heap, objects, oidc, objr, cidc, recd, queues, insts, active, convs⟩ := w
  cases active <;> rfl

theorem gspLoadStart_queue {w : World} (h : w.Writable) :
    ∃ u, (gspLoadStart w).queues[activeIx w]? = some u ∧ u.readonly = false := by
  obtain ⟨heap, objects, oidc, objr, cidc, recd, queues, insts, active, convs⟩ := w
  rcases h with h | ⟨q, u, h, hq, hr⟩
  · cases h
    refine ⟨⟨"default", false, []⟩, ?_, rfl⟩
    show (((queues ++ [Queue.mk "default" false []]).modify queues.length
      (fun u => { u with commands := [] })))[queues.length]? = _
    rw [List.getElem?_modify]
    simp
  · cases h
    refine ⟨⟨u.name, u.readonly, []⟩, ?_, hr⟩
    show ((queues.modify q (fun u => { u with commands := [] })))[q]? = _
    rw [List.getElem?_modify, show queues[q]? = some u from hq]
    simp

end Verif
