import Verif.Lemmas.Transfer
import Verif.Lemmas.SaveAny
import Verif.Lemmas.Creation
import Verif.Spec.Lockstep
/-! Lemmas about replays seen command by command -/

namespace Verif

/-- The calls an object has received are never forgotten. -/
theorem logs_closed (i : Nat) (cls : String) (l : List (String × Dict String Val)) :
    ExecClosed (fun w => ∃ o', w.heap[i]? = some o' ∧ o'.cls = cls ∧ l <+: o'.log) where
  newObj := fun w c h => by
    obtain ⟨o', h1, h2⟩ := h
    refine ⟨o', ?_, h2⟩
    simp only [newObject]
    rw [List.getElem?_append_left (List.getElem?_eq_some_iff.1 h1).1]
    exact h1
  log := fun w r m b h => by
    obtain ⟨o', h1, h2, h3⟩ := h
    cases hr : w.heap[r]? with
    | none => simp only [logCall, hr]; exact ⟨o', h1, h2, h3⟩
    | some x =>
      rw [logCall_eq hr]
      by_cases hir : r = i
      · subst hir
        rw [h1] at hr
        cases hr
        exact ⟨_, List.getElem?_set_self (List.getElem?_eq_some_iff.1 h1).1, h2,
          h3.trans (List.prefix_append _ _)⟩
      · exact ⟨o', by rw [List.getElem?_set_ne hir]; exact h1, h2, h3⟩
  getq := fun w h => by rw [getQueue_none_heap]; exact h
  push := fun w q u cls meth ps h _ _ _ => h
  replay := fun w r oid h _ => by
    obtain ⟨o', h1, h2, h3⟩ := h
    cases hr : w.heap[r]? with
    | none => simp only [setId, hr]; exact ⟨o', h1, h2, h3⟩
    | some x =>
      simp only [setId, hr]
      by_cases hir : r = i
      · subst hir
        rw [h1] at hr
        cases hr
        exact ⟨_, List.getElem?_set_self (List.getElem?_eq_some_iff.1 h1).1, h2, h3⟩
      · exact ⟨o', by rw [List.getElem?_set_ne hir]; exact h1, h2, h3⟩

/-- The states of a replay. -/
theorem simD_states {P P2 : Prog} {cs cs2 on nm t base H0 q} (hP : P.SigsWF)
    (hP2 : P2.SigsWF) (hoid : ∀ n, t (.oid n) = .oid n ∨ t (.oid n) = .int n) :
    ∀ {as ref made w w2}, SimD P P2 cs cs2 on t base H0 ref made w w2 → RecInv q w →
    ReplayableSession P P2 cs cs2 on nm t w as →
    ∀ l, commandsOf (runActs P w as) q = commandsOf w q ++ l →
      ∀ l', List.Forall₂ (SentAs nm t) l l' →
      ∃ (st : Nat → World) (rf : Nat → List Nat) (md : Nat → List (Nat × String × Dict String Val)),
        st 0 = w2 ∧ rf 0 = ref ∧ md 0 = made ∧
        (∀ k c, l'[k]? = some c → execute P2 (st k) c = (st (k + 1), .ok ())) ∧
        (∀ k ≤ as.length, SimD P P2 cs cs2 on t base H0 (rf k) (md k) (runActs P w (as.take k)) (st k)) ∧
        ∀ k < as.length, rf k <+: rf (k + 1) ∧ md k <+: md (k + 1) := by
  intro as
  induction as with
  | nil =>
    intro ref made w w2 hsim hrec _ l hl l' hl'
    have : l = [] := by
      have h : commandsOf w q ++ [] = commandsOf w q ++ l := by simpa [runActs] using hl
      exact (List.append_cancel_left h).symm
    subst this
    cases hl'
    exact ⟨fun _ => w2, fun _ => ref, fun _ => made, rfl, rfl, rfl, by simp,
      fun k _ => by simpa [runActs] using hsim, by simp⟩
  | cons a as ih =>
    intro ref made w w2 hsim hrec hcl l hl l' hl'
    obtain ⟨c, hq, hok, hrec', hwk, he⟩ := simD_act hP hP2 hoid hsim hrec hcl.1
    obtain ⟨c0, hc0⟩ : ∃ c0, SentAs nm t c c0 := ⟨c.sent nm t, rfl, rfl, rfl⟩
    obtain ⟨w20, ref0, made0, _, _, hsim0⟩ := he c0 hc0
    obtain ⟨l1, hl1, _⟩ := simD_session hP hP2 hoid hsim0 hrec' hcl.2
    have hlc : l = c :: l1 := by
      have h : commandsOf w q ++ (c :: l1) = commandsOf w q ++ l := by
        rw [← hl]
        show _ = commandsOf (runActs P (step P w a.op).1 as) q
        rw [hl1, hq]
        simp
      exact (List.append_cancel_left h).symm
    subst hlc
    cases hl' with
    | @cons _ c' _ l'' h1 h2 =>
      obtain ⟨w2', ref', made', g1, g0, g2⟩ := he c' h1
      obtain ⟨st, rf, md, e1, e2, e3, e4, e5, e6⟩ := ih g2 hrec' hcl.2 l1 hl1 l'' h2
      refine ⟨fun k => Nat.casesOn k w2 st, fun k => Nat.casesOn k ref rf,
        fun k => Nat.casesOn k made md, rfl, rfl, rfl, ?_, ?_, ?_⟩
      · rintro (_ | k) d hd
        · simp only [List.getElem?_cons_zero, Option.some.injEq] at hd
          subst hd
          show execute P2 w2 c' = (st 0, _)
          rw [e1]
          exact g1
        · exact e4 k d hd
      · rintro (_ | k) hk
        · exact hsim
        · exact e5 k (by simpa using hk)
      · rintro (_ | k) hk
        · show ref <+: rf 0 ∧ made <+: md 0
          rw [e2, e3]
          exact g0
        · exact e6 k (by simpa using hk)

/-- The first commands of a replay lead to the state after them. -/
theorem runCmds_states {P2 : Prog} {st : Nat → World} : ∀ {l : List Cmd} {n : Nat},
    (∀ k c, l[k]? = some c → execute P2 (st (n + k)) c = (st (n + k + 1), .ok ())) →
    runCmds P2 (st n) l = (st (n + l.length), .ok ())
  | [], n, _ => rfl
  | c :: l, n, h => by
    have h0 := h 0 c rfl
    have ih := runCmds_states (P2 := P2) (st := st) (l := l) (n := n + 1) (fun k d hd => by
      have := h (k + 1) d hd
      rw [show n + 1 + k = n + (k + 1) by omega]
      exact this)
    have h0' : execute P2 (st n) c = (st (n + 1), .ok ()) := h0
    simp only [runCmds, h0', ih, List.length_cons]
    rw [show n + 1 + l.length = n + (l.length + 1) by omega]

/-- Actions only add commands. -/
theorem runActs_commands {P : Prog} {q : Nat} : ∀ {as : List Act} {w : World},
    commandsOf w q <+: commandsOf (runActs P w as) q
  | [], w => List.prefix_rfl
  | a :: as, w => by
    have h := runActs_commands (P := P) (q := q) (as := as) (w := (step P w a.op).1)
    refine List.IsPrefix.trans ?_ h
    cases hq : w.queues[q]? with
    | none => simp [commandsOf, hq]
    | some u =>
      have hI : ∃ u', w.queues[q]? = some u' ∧ u.commands <+: u'.commands :=
        ⟨u, hq, List.prefix_rfl⟩
      obtain ⟨u', h1, h2⟩ : ∃ u', (step P w a.op).1.queues[q]? = some u' ∧
          u.commands <+: u'.commands := by
        cases a with
        | create cls args kwargs =>
          have := (queue_closed q u.commands).construct (P := P) (cls := cls) (args := args)
            (kwargs := kwargs) (nc := false) hI
          simp only [Act.op, step]
          split <;> simp_all
        | call r f args kwargs =>
          have := (queue_closed q u.commands).callMethod (P := P) (r := r) (f := f) (args := args)
            (kwargs := kwargs) (nc := false) hI
          simp only [Act.op, step]
          exact this
      simpa [commandsOf, hq, h1] using h2

end Verif
