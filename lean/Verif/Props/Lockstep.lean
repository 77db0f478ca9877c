import Verif.Lemmas.Lockstep
import Verif.Lemmas.SavedSent
import Verif.Props.Api
/-! # C100: a replay goes through the states of the session, one command after the other -/

namespace Verif

/-- C100 (part). Take a session that starts with actions `done` that can be replayed, whatever
follows (`rest`: actions that fail, or that the replaying process cannot repeat). Send its commands
to a queue of any process and run the queue. The commands of `done` come first, one for each action,
all of them succeed, and after the `k`-th the process holds exactly what the session held after its
`k`-th action. If the command that comes next raises, running the queue raises this
exception and the process is left as this command leaves it: nothing that comes later is executed.
Missing: what cannot be replayed at all (`replay_rebuilds_fails`). -/
theorem replay_in_step_partial (P P2 : Prog) (nm : String × String → String × String)
    (t : Val → Val) (hP : P.SigsWF) (hP2 : P2.SigsWF)
    (hoid : ∀ n, t (.oid n) = .oid n ∨ t (.oid n) = .int n)
    (cs : Dict (String × String) Nat) (done rest : List Act) (w2 : World)
    (hses : ReplayableSession P P2 cs w2.converters w2.recording nm t (World.start cs) done)
    (q : Nat) (u : Queue) (hq : w2.queues[q]? = some u)
    (hsent : List.Forall₂ (SentAs nm t)
      (commandsOf (runActs P (World.start cs) (done ++ rest)) 0) u.commands)
    (hrec : w2.objRecord = true) :
    ∃ st ref made, InStep P P2 cs t done w2 (u.commands.take done.length) st ref made ∧
      (∀ k ≤ done.length, runCmds P2 (st 0) (u.commands.take k) = (st k, .ok ())) ∧
      ∀ c w' e, u.commands[done.length]? = some c →
        execute P2 (st done.length) c = (w', .error e) → runQueue P2 w2 q = (w', .error e) := by
  have hsim : SimD P P2 cs w2.converters w2.recording t w2.heap.length w2.heap [] []
      (World.start cs) (setQueue w2 q (fun u => { u with readonly := true })) :=
    (simD_start cs w2 hrec).congr2 ⟨rfl, rfl, rfl, rfl, rfl, rfl⟩
  have hinv : RecInv 0 (World.start cs) := ⟨rfl, Or.inr ⟨rfl, rfl⟩⟩
  obtain ⟨l, h1, _, _, _, hll, _⟩ := simD_session hP hP2 hoid hsim hinv hses
  have hpre : l <+: commandsOf (runActs P (World.start cs) (done ++ rest)) 0 := by
    have h : commandsOf (runActs P (World.start cs) done) 0 <+: _ :=
      runActs_commands (P := P) (q := 0) (as := rest)
    rw [h1] at h
    have e : runActs P (World.start cs) (done ++ rest) =
        runActs P (runActs P (World.start cs) done) rest := by simp [runActs]
    rw [e]
    exact h
  obtain ⟨l2, hl2⟩ := hpre
  rw [← hl2] at hsent
  have hf : List.Forall₂ (SentAs nm t) l (u.commands.take done.length) := by
    have := List.forall₂_take done.length hsent
    rwa [List.take_append_of_le_length (by omega), List.take_of_length_le (by omega)] at this
  obtain ⟨st, rf, md, e1, e2, e3, e4, e5, e6⟩ := simD_states hP hP2 hoid hsim hinv hses l h1 _ hf
  have hlen : (u.commands.take done.length).length = done.length := by
    rw [← hf.length_eq]; exact hll
  have hpart : ∀ k ≤ done.length, runCmds P2 (st 0) (u.commands.take k) = (st k, .ok ()) := by
    intro k hk
    have hk' : (u.commands.take k).length = k := by
      rw [List.length_take] at hlen ⊢
      omega
    have := runCmds_states (P2 := P2) (st := st) (l := u.commands.take k) (n := 0) (by
      intro j c hj
      rw [Nat.zero_add]
      refine e4 j c ?_
      have hlt : j < k := by
        have := (List.getElem?_eq_some_iff.1 hj).1
        omega
      rw [List.getElem?_take] at hj ⊢
      rw [if_pos hlt] at hj
      rw [if_pos (by omega)]
      exact hj)
    rw [Nat.zero_add, hk'] at this
    exact this
  refine ⟨st, rf, md, ⟨hlen, ?_, e4, ?_, e6, ?_⟩, hpart, ?_⟩
  · rw [e1]
    exact ⟨rfl, e2, e3⟩
  · intro k hk
    exact (e5 k hk).rebuilt
  · intro k hk i o ho
    have hc : (u.commands.take done.length)[k]? =
        some ((u.commands.take done.length)[k]'(by omega)) := List.getElem?_eq_getElem _
    have := (logs_closed i o.cls o.log).execute (P := P2)
      (c := (u.commands.take done.length)[k]'(by omega)) ⟨o, ho, rfl, List.prefix_rfl⟩
    rw [e4 k _ hc] at this
    exact this
  · intro c w' e hc he
    have hd : u.commands.drop done.length = c :: u.commands.drop (done.length + 1) := by
      obtain ⟨hlt, rfl⟩ := List.getElem?_eq_some_iff.1 hc
      exact List.drop_eq_getElem_cons hlt
    have hrun : runCmds P2 (setQueue w2 q (fun u => { u with readonly := true })) u.commands =
        (w', .error e) := by
      rw [← e1]
      conv_lhs => rw [← List.take_append_drop done.length u.commands]
      rw [runCmds_append, hpart _ le_rfl]
      simp only [hd, runCmds, he]
    simp only [runQueue, hq, hrun]

/-- C100 (part). The same for a session that is saved to a JSON file and loaded in another
process: the active queue of this process, after loading, goes through the states of the
session. -/
theorem saved_replay_in_step_partial (P P2 : Prog) (ij : Codec) (hP : P.SigsWF) (hP2 : P2.SigsWF)
    (cs : Dict (String × String) Nat)
    (as : List Act) (hne : as ≠ []) (w2 : World)
    (hses : ReplayableSession P P2 cs w2.converters w2.recording jsonNames (jsonVal P ij)
      (World.start cs) as)
    (hsave : SavableSession P ij cs (World.start cs) as)
    (hrec : w2.objRecord = true) (hwr : w2.Writable)
    (name : String) (format : Option String) (hfmt : formatOf format name = "json")
    (old : File) (fuel : Nat) (hfuel : as.length < fuel) :
    ∃ file w3 q u st ref made,
      gspSave P ij fuel (runActs P (World.start cs) as) name format old =
        some (runActs P (World.start cs) as, file, .ok ()) ∧
      gspLoad w2 name format file = (w3, .ok ()) ∧ w3.active = some q ∧
      w3.queues[q]? = some u ∧ w3.heap = w2.heap ∧
      InStep P P2 cs (jsonVal P ij) as w3 u.commands st ref made := by
  have hoid : ∀ n, jsonVal P ij (.oid n) = .oid n ∨ jsonVal P ij (.oid n) = .int n :=
    fun n => Or.inr rfl
  obtain ⟨file, w3, q, u, h1, h2, h3, h4, h5, h6, f1, f3, f4⟩ :=
    save_load_sent hP hP2 hne hses hsave hrec hwr hfmt old hfuel
  rw [← f3, ← f4] at hses
  obtain ⟨st, ref, made, g, _, _⟩ := replay_in_step_partial P P2 jsonNames (jsonVal P ij)
    hP hP2 hoid cs as [] w3 hses q u h4 (by rw [List.append_nil]; exact h5) h6
  have hsim := simD_start (P := P) (P2 := P2) (t := jsonVal P ij) cs w3 h6
  obtain ⟨l, e1, _, _, _, e2, _⟩ := simD_session hP hP2 hoid hsim
    (q := 0) ⟨rfl, Or.inr ⟨rfl, rfl⟩⟩ hses
  have hlen : u.commands.length = as.length := by
    rw [← h5.length_eq, e1]
    exact e2
  rw [List.take_of_length_le (by omega)] at g
  exact ⟨file, w3, q, u, st, ref, made, h1, h2, h3, h4, f1, g⟩

/-- C100 (part). For `gsp` and the Matplotlib backend: the backend, given a saved scene that is
portable, goes through the states of the scene. -/
theorem saved_scenes_in_step_partial (A : ArrayInfo) (text raw : Nat → String)
    (draw : Obj → String → Dict String Val → Option Err) (hdraw : ∀ o f b, draw o f b = none)
    (cs : Dict (String × String) Nat) (hcs : cs = gspConverters ∨ cs = allConverters)
    (as : List Act) (hne : as ≠ [])
    (hok : Succeeds (gspProg A) (World.start cs) as)
    (hport : PortableSession portable (gspProg A) (World.start cs) as)
    (hsave : SavableSession (gspProg A) (apiCodec text raw) cs (World.start cs) as)
    (w2 : World) (hoff : w2.recording = false) (hrec : w2.objRecord = true) (hwr : w2.Writable)
    (name : String) (format : Option String) (hfmt : IsJson format name) (old : File) (fuel : Nat)
    (hfuel : as.length < fuel) :
    ∃ file w3 q u st ref made,
      gspSave (gspProg A) (apiCodec text raw) fuel
        (runActs (gspProg A) (World.start cs) as) name format old =
        some (runActs (gspProg A) (World.start cs) as, file, .ok ()) ∧
      gspLoad w2 name format file = (w3, .ok ()) ∧ w3.active = some q ∧
      w3.queues[q]? = some u ∧ w3.heap = w2.heap ∧
      InStep (gspProg A) (mplProg A false draw) cs (jsonVal (gspProg A) (apiCodec text raw)) as w3
        u.commands st ref made := by
  have hses := portable_session (A := A) (text := text) (raw := raw) (cs2 := w2.converters)
    (on := false) (cs := cs) (by simpa [converterTables] using hcs) hdraw
    (fs := portable) (fun p h => ⟨h, fun h => by cases h⟩) (w := World.start cs)
    ⟨rfl, Or.inr ⟨rfl, rfl⟩⟩ rfl hok hport (fun h => by cases h) hsave
  have hses : ReplayableSession (gspProg A) (mplProg A false draw) cs w2.converters
      w2.recording jsonNames (jsonVal (gspProg A) (apiCodec text raw))
      (World.start cs) as := by rw [hoff]; exact hses
  exact saved_replay_in_step_partial (gspProg A) (mplProg A false draw) (apiCodec text raw)
    (gspProg_wf A) (mplProg_wf A false draw) cs as hne w2 hses hsave hrec hwr name format
    ((formatOf_json_iff format name).2 hfmt) old fuel hfuel

/-! ### Examples -/

/-- The states a replay goes through. -/
def statesOf (P2 : Prog) : World → List Cmd → List World
  | w, [] => [w]
  | w, c :: cs => w :: statesOf P2 (execute P2 w c).1 cs

/-- The calls received by the objects. -/
def actCalls (w : World) : List (String × List String) :=
  w.heap.map (fun o => (o.cls, o.log.map (·.1)))

/-- Two objects, a call with a converted argument and a call with a reference. -/
def twoFoos : List Act :=
  [.create "Foo" [.float 4] [], .create "Foo" [.float 1] [],
   .call 1 "set_value" [] [("value", .float 5)], .call 0 "attach" [.obj 1] []]

/-- This session and its replay in a backend, state by state: `set_value` comes before `attach`. -/
example :
    let cs := [(("float", "int"), 0)]
    let w := runActs front (World.start cs) twoFoos
    (statesOf back (World.start cs) (commandsOf w 0)).map actCalls =
      [[], [("Foo", ["__init__"])], [("Foo", ["__init__"]), ("Foo", ["__init__"])],
       [("Foo", ["__init__"]), ("Foo", ["__init__", "set_value"])],
       [("Foo", ["__init__", "attach"]), ("Foo", ["__init__", "set_value"])]] ∧
    (List.range 5).map (fun k => actCalls (runActs front (World.start cs) (twoFoos.take k))) =
      (statesOf back (World.start cs) (commandsOf w 0)).map actCalls ∧
    ReplayableSession front back cs cs true id id (World.start cs) twoFoos :=
  ⟨rfl, rfl, replayableSessionB_sound (fun _ _ _ => rfl) (fun _ _ _ => rfl) (by decide +kernel)⟩

/-- A backend that refuses `set_value`. -/
def refusing : Prog := { back with
  raises := fun _ f _ => if f = "set_value" then some .valueError else none }

/-- The replay stops at the third command, holding what the session held after two actions; the
fourth is not executed. -/
example :
    let cs := [(("float", "int"), 0)]
    let w := runActs front (World.start cs) twoFoos
    let w2 : World := { World.start cs with queues := [⟨"q", false, commandsOf w 0⟩] }
    (runQueue refusing w2 0).2 = .error .valueError ∧
    actCalls (runQueue refusing w2 0).1 = actCalls (runActs front (World.start cs) (twoFoos.take 2)) :=
  ⟨rfl, rfl⟩

/-- The first two actions of that session meet the hypothesis on `done`. -/
example : ReplayableSession front refusing [(("float", "int"), 0)] [(("float", "int"), 0)] true id id
    (World.start [(("float", "int"), 0)]) (twoFoos.take 2) := by
  have h : ReplayableSession front back [(("float", "int"), 0)] [(("float", "int"), 0)] true id id
      (World.start [(("float", "int"), 0)]) (twoFoos.take 2) :=
    replayableSessionB_sound (fun _ _ _ => rfl) (fun _ _ _ => rfl) (by decide +kernel)
  obtain ⟨⟨s1, s2, b, h1, h2, h3, h4, h5, h6, h7, h8, _, h10⟩,
    ⟨s1', s2', b', k1, k2, k3, k4, k5, k6, k7, k8, _, k10⟩, _⟩ := h
  exact ⟨⟨s1, s2, b, h1, h2, h3, h4, h5, h6, h7, h8, fun _ _ _ _ _ _ _ => rfl, h10⟩,
    ⟨s1', s2', b', k1, k2, k3, k4, k5, k6, k7, k8, fun _ _ _ _ _ _ _ => rfl, k10⟩, trivial⟩

end Verif
