import Verif.Lemmas.SaveAny
import Verif.Spec.Session
/-! # C11: every file that is saved -/

namespace Verif

theorem savedParams_id {P : Prog} {ij : Codec} {s w : World} {ps ps' : Dict String Val} {m : Int}
    (h : List.Forall₂ (SavedParam P ij s w) ps ps') (hid : dget ps "id" = some (.oid m)) :
    dget ps' "id" = some (.int m) := by
  induction h with
  | nil => cases hid
  | @cons p p' ps ps' hp _ ih =>
    have hne : ∀ k : String, k ++ "(id)" ≠ "id" := by
      intro k hk
      have := congrArg (fun s => s.toList.length) hk
      simp only [String.toList_append, List.length_append] at this
      have h4 : "(id)".toList.length = 4 := by decide
      have h2 : "id".toList.length = 2 := by decide
      omega
    cases hp with
    | value k v x v' he hx hs =>
      simp only [dget] at hid ⊢
      split
      · rename_i hk
        rw [if_pos hk] at hid
        cases hid
        cases he
        rw [show v' = .int m from hs]
      · rename_i hk
        rw [if_neg hk] at hid
        exact ih hid
    | object k v r o he ho =>
      simp only [dget] at hid ⊢
      rw [if_neg (hne k)]
      split at hid
      · cases hid
        cases he
      · exact ih hid
    | built k f x cls kw r o sg b hf hs hb hn ho hc hl =>
      simp only [dget] at hid ⊢
      rw [if_neg (hne k)]
      split at hid
      · cases hid
      · exact ih hid
    | looked k f x key m' r o hf hk hr ho =>
      simp only [dget] at hid ⊢
      rw [if_neg (hne k)]
      split at hid
      · cases hid
      · exact ih hid

/-- C11 (part). Whenever a queue is saved, with conversions of any kind, the file loads in every
process, and has one command for each command the queue then holds, in the same order, that stands
for it (`SavedCommand`). The queue then holds the commands it held before, followed by those of the
objects built while saving. Missing: parameters given both as an object and as a value, see
`save_load_overlap_fails`. -/
theorem save_load_any_partial (P : Prog) (ij : Codec) (w w' : World) (q : Nat) (u : Queue)
    (arg : Option Nat) (fuel : Nat) (old file : File)
    (hq : w.queues[q]? = some u) (hd : Designates w q arg)
    (hsave : saveQueue P ij fuel w arg old = some (w', file, .ok ()))
    (hp : ∀ u', w'.queues[q]? = some u' → ∀ c ∈ u'.commands, ProperCmd P c)
    (w2 : World) (q2 : Nat) (u2 : Queue) (arg2 : Option Nat)
    (hq2 : w2.queues[q2]? = some u2) (hd2 : Designates w2 q2 arg2) (hr2 : u2.readonly = false) :
    ∃ u' w2', w'.queues[q]? = some u' ∧ u.commands <+: u'.commands ∧
      loadQueue w2 file arg2 = (w2', .ok ()) ∧
      List.Forall₂ (SavedCommand P ij w w') u'.commands (commandsOf w2' q2) := by
  unfold saveQueue at hsave
  rw [pickQueue_designates hd] at hsave
  dsimp only at hsave
  cases hdl : dumpLoop P fuel w q 0 [] with
  | none => rw [hdl] at hsave; cases hsave
  | some r =>
    obtain ⟨w1, res⟩ := r
    rw [hdl] at hsave
    cases res with
    | error e => cases hsave
    | ok ps =>
      dsimp only at hsave
      cases hen : encodeAll ij w1 ps with
      | error e => rw [hen] at hsave; cases hsave
      | ok l =>
        rw [hen] at hsave
        simp only [Option.some.injEq, Prod.mk.injEq, and_true] at hsave
        obtain ⟨rfl, rfl⟩ := hsave
        obtain ⟨hg, out, u', hu', hout, hf⟩ := dumpLoop_any (Since.refl w) hq hdl hp
        simp only [List.nil_append] at hout
        subst hout
        rw [List.drop_zero] at hf
        have hpre : u.commands <+: u'.commands := by
          obtain ⟨x, hx, h⟩ := hg.queue u hq
          rw [hu'] at hx
          cases hx
          exact h
        -- every entry stands for its command
        have hall : List.Forall₂ (fun c j => j.Good ∧ ∀ cid,
            SavedCommand P ij w w1 c (loadedCmd cid j)) u'.commands l := by
          have hpc := hp u' hu'
          have he := encodeAll_any hen
          clear hpre hu' hdl hen
          generalize u'.commands = cs at hf hpc
          induction hf generalizing l with
          | nil => cases he; exact .nil
          | @cons c p cs ps hcp _ ih =>
            cases he with
            | cons hj he =>
              refine .cons ?_ (ih _ he (fun c hc => hpc c (List.mem_cons_of_mem _ hc)))
              obtain ⟨js, rfl, hjs⟩ := hj
              have hc := hpc c List.mem_cons_self
              have hjs' := encodeParams_any hjs
              have hps : List.Forall₂ (SavedParam P ij w w1) c.params
                  (js.map (fun p => (p.1, decodeVal p.2))) := by
                have hby := hc.bytes
                have h1 := hcp.params
                clear hjs
                generalize c.params = cp at h1 hby
                generalize p.params = pp at h1 hjs'
                induction h1 generalizing js with
                | nil => cases hjs'; exact .nil
                | cons hd _ ih2 =>
                  cases hjs' with
                  | cons hb hjs' =>
                    exact .cons (savedParam_of hd hb (hby _ List.mem_cons_self))
                      (ih2 _ (fun p hp => hby p (List.mem_cons_of_mem _ hp)) hjs')
              obtain ⟨n, hn⟩ := hc.id
              have hid := savedParams_id hps hn
              refine ⟨⟨_, js, rfl, rfl, ?_⟩, ?_⟩
              · have hm := (mem_dkeys _ _).2 ⟨_, hid⟩
                have : "id" ∈ dkeys js := by
                  simpa [dkeys, List.map_map, Function.comp_def] using hm
                obtain ⟨x, hx⟩ := (mem_dkeys _ _).1 this
                simp [dhas, hx]
              · intro cid
                refine ⟨?_, ?_, hps⟩
                · simp only [loadedCmd, Option.getD_some, hcp.method]
                  exact meaning_jsonName hc.name
                · simp only [cmdId, loadedCmd, Option.getD_some, hid, hn]
                  rfl
        have hgood : ∀ j ∈ l, j.Good := by
          intro j hj
          clear hp hpre hu' hdl hen hf
          generalize u'.commands = cs at hall
          induction hall with
          | nil => cases hj
          | cons h _ ih =>
            rcases List.mem_cons.1 hj with rfl | hj
            · exact h.1
            · exact ih hj
        have hqe : (emptyQueue w2 q2).queues[q2]? = some (Queue.mk u2.name u2.readonly []) := by
          simp [emptyQueue, setQueue, List.getElem?_modify, hq2]
        obtain ⟨w2', a1, a2, _, _, _⟩ := loadLoop_good hgood hqe hr2
        refine ⟨u', w2', hu', hpre, ?_, ?_⟩
        · unfold loadQueue
          dsimp only
          rw [pickQueue_designates hd2]
          exact a1
        · have hcm : commandsOf w2' q2 =
              l.mapIdx (fun i j => loadedCmd ((emptyQueue w2 q2).cidCounter + 1 + i) j) := by
            simp [commandsOf, a2]
          rw [hcm, List.forall₂_iff_get]
          refine ⟨by simpa using hall.length_eq, ?_⟩
          intro i h1 h2
          have := (List.forall₂_iff_get.1 hall).2 i h1 (by simpa using h2)
          simpa using this.2 _

/-- The session of `saved_defines_first_fails` (C15): a float is given for a `Foo`, and the `Foo` is
built while saving. -/
example :
    let w := runOps demo World.fresh [.register "float" "Foo" 1, .register "float" "int" 0,
      .create "Foo" [.int 7] [] false, .call 0 "attach" [.float 5] [] false]
    ∃ w' l, saveQueue demo (fun _ _ => none) 9 w none .absent = some (w', .doc l, .ok ()) ∧
      commandsOf w 0 = [⟨1, "Foo", "__init__", [("id", .oid 1), ("value", .int 7)]⟩,
        ⟨2, "Foo", "attach", [("id", .oid 1), ("other", .conv 1 (.float 5))]⟩] ∧
      (commandsOf w' 0).length = 3 ∧
      commandsOf (loadQueue World.fresh (.doc l) none).1 0 =
        [⟨1, "Foo", "__init__", [("id", .int 1), ("value", .int 7)]⟩,
         ⟨2, "Foo", "attach", [("id", .int 1), ("other(id)", .int 2)]⟩,
         ⟨3, "Foo", "__init__", [("id", .int 2), ("value", .int 5)]⟩] :=
  ⟨_, _, rfl, rfl, rfl, rfl⟩

/-- A command with a conversion is proper. -/
example : ProperCmd demo ⟨2, "Foo", "attach", [("id", .oid 1), ("other", .conv 1 (.float 5))]⟩ where
  name := by decide
  keys := by decide
  apart := by decide
  id := ⟨1, rfl⟩
  bytes := by
    intro p hp b he
    simp only [List.mem_cons, List.not_mem_nil, or_false] at hp
    rcases hp with rfl | rfl <;> cases he

/-- The example program, with a number as the default of an object parameter. -/
def overlapProg : Prog where
  sig := fun c f => if c = "Foo" ∧ f = "set_next" then
      some ⟨["next"], [("next", .float 5)], [("next", ["Foo"])]⟩
    else demoSig c f
  override := demo.override
  mro := demo.mro
  metaBases := demo.metaBases
  raises := demo.raises
  conv := demo.conv
  resolve := demo.resolve

/-- C11 fails when a parameter that has a default to be converted is given an object: the file has
the object built from the default in its place. Here the object given has the id 2. -/
theorem save_load_overlap_fails :
    let w := runOps overlapProg World.fresh [.register "float" "Foo" 1, .register "float" "int" 0,
      .create "Foo" [.int 7] [] false, .create "Foo" [.int 8] [] false,
      .call 0 "set_next" [.obj 1] [] false]
    ∃ w' l, saveQueue overlapProg (fun _ _ => none) 9 w none .absent = some (w', .doc l, .ok ()) ∧
      (commandsOf w 0)[2]? = some ⟨3, "Foo", "set_next",
        [("id", .oid 1), ("next(id)", .oid 2), ("next", .conv 1 (.float 5))]⟩ ∧
      (commandsOf (loadQueue World.fresh (.doc l) none).1 0)[2]? =
        some ⟨3, "Foo", "set_next", [("id", .int 1), ("next(id)", .int 3)]⟩ :=
  ⟨_, _, rfl, rfl, rfl⟩

end Verif
