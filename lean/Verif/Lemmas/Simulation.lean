import Verif.Spec.Scene
import Verif.Lemmas.Recorded
/-! Simulation of a recorded session by its replay. -/

namespace Verif

/-- Recording is on and goes to queue `q`. -/
structure RecInv (q : Nat) (w : World) : Prop where
  on : w.recording = true
  target : (w.active = some q ∧ ∃ u, w.queues[q]? = some u ∧ u.readonly = false) ∨
    (w.active = none ∧ q = w.queues.length)

theorem RecInv.activeValid {q w} (h : RecInv q w) : w.ActiveValid := by
  intro q' hq'
  rcases h.target with ⟨h1, u, h2, _⟩ | ⟨h1, _⟩
  · rw [h1] at hq'; cases hq'; exact (List.getElem?_eq_some_iff.1 h2).1
  · rw [h1] at hq'; cases hq'

theorem RecInv.activeIx {q w} (h : RecInv q w) : activeIx w = q := by
  rcases h.target with ⟨h1, _⟩ | ⟨h1, h2⟩
  · simp [Verif.activeIx, h1]
  · simp [Verif.activeIx, h1, h2]

theorem RecInv.writable {q w} (h : RecInv q w) : activeWritable w = true := by
  unfold activeWritable
  rw [h.activeIx]
  rcases h.target with ⟨_, u, h2, h3⟩ | ⟨_, h2⟩
  · simp [h2, h3]
  · simp [h2]

theorem recInv_closed (q : Nat) : CallClosed (RecInv q) where
  newObj := by
    intro w cls h
    exact ⟨h.on, h.target⟩
  log := by
    intro w r m b h
    unfold logCall
    split
    · exact h
    · exact ⟨h.on, h.target⟩
  getq := by
    intro w h
    rcases h.target with ⟨h1, u, h2, h3⟩ | ⟨h1, h2⟩
    · rw [getQueue_none_of_active h1]; exact h
    · simp only [getQueue, getQueue.activeOrNew, h1, newQueue]
      exact ⟨h.on, Or.inl ⟨by simp [h2], ⟨_, by simp [h2]; rfl, rfl⟩⟩⟩
  push := by
    intro w q' u cls meth ps h ha hu hr
    unfold pushCmd setQueue
    refine ⟨h.on, Or.inl ?_⟩
    rcases h.target with ⟨h1, u1, h2, h3⟩ | ⟨h1, _⟩
    · rw [h1] at ha; cases ha
      refine ⟨h1, ?_⟩
      simp only [List.getElem?_modify, if_true, h2, Option.map_some]
      refine ⟨_, rfl, ?_⟩
      simp [Queue.push, h3]
    · rw [h1] at ha; cases ha

/-- The recorded world and the world of the replay. -/
structure Sim (base d : Nat) (H0 : List Obj) (w w2 : World) : Prop where
  ids : ∀ (r : Nat) o, w.heap[r]? = some o → o.id = 1 + (r : Int)
  cnt : w.oidCounter = w.heap.length
  cnt2 : w2.oidCounter = w.oidCounter + d
  len2 : w2.heap.length = base + w.heap.length
  rec2 : w2.objRecord = true
  conv : w2.converters = w.converters
  reg : ∀ (r : Nat) o, w.heap[r]? = some o → dget w2.objects o.id = some (base + r)
  obj : ∀ (r : Nat) o, w.heap[r]? = some o → w2.heap[base + r]? = some (shiftObj base d o)
  old : w2.heap.take base = H0

theorem Sim.relink {base d H0 w w2} (h : Sim base d H0 w w2) {v : Val}
    (hv : ∀ x, v = .obj x → x < w.heap.length) : relink w w2 v = shiftVal base v := by
  cases v <;> try rfl
  rename_i x
  have hx := hv x rfl
  have he : w.heap[x]? = some w.heap[x] := List.getElem?_eq_getElem hx
  simp only [Verif.relink, he, h.reg x _ he, shiftVal]

theorem Sim.relinkArgs {P : Prog} {base d H0 w w2} (h : Sim base d H0 w w2) {sg args kwargs bound}
    (hc : CleanArgs P w sg args kwargs bound) :
    bound.map (fun p => (p.1, Verif.relink w w2 p.2)) = shiftArgs base bound := by
  unfold shiftArgs
  apply List.map_congr_left
  intro p hp
  rw [h.relink]
  intro x hx
  have := (bindArgs_ok hc.bind).vals p hp
  exact hc.live p.1 x (hx ▸ this)

theorem Sim.transports {P : Prog} {base d H0 w w2} (h : Sim base d H0 w w2) {t : Val → Val}
    {sg args kwargs bound} (hc : CleanArgs P w sg args kwargs bound)
    (ht : ∀ k v, seenArg sg args kwargs k = some v → v.isObj = false → t v = v)
    (hoid : ∀ n, t (.oid n) = .oid n ∨ t (.oid n) = .int n) :
    Transports w w2 (fun v => t (stripVal w v)) sg args kwargs where
  plain := by
    intro k v hs hv
    refine ⟨?_, (hc.plain.plain k v hs hv).1, (hc.plain.plain k v hs hv).2.1⟩
    rw [stripVal_nonobj w hv]
    exact ht k v hs hv
  refs := by
    intro k x hs
    have hx := hc.live k x hs
    have he : w.heap[x]? = some w.heap[x] := List.getElem?_eq_getElem hx
    refine ⟨_, _, he, h.reg x _ he, ?_⟩
    simp only [stripVal, he]
    exact hoid _

theorem idOf_of {t : Val → Val} (hoid : ∀ n, t (.oid n) = .oid n ∨ t (.oid n) = .int n) (n : Int) :
    idOf (t (.oid n)) = some n := by
  rcases hoid n with h | h <;> rw [h] <;> rfl

theorem Sim.congr2 {base d H0 w w2 w2'} (h : Sim base d H0 w w2) (hc : SameCore w2 w2') :
    Sim base d H0 w w2' :=
  ⟨h.ids, h.cnt, hc.oidCounter.trans h.cnt2, by rw [hc.heap]; exact h.len2,
   hc.objRecord.trans h.rec2, hc.converters.trans h.conv,
   fun r o ho => by rw [hc.objects]; exact h.reg r o ho,
   fun r o ho => by rw [hc.heap]; exact h.obj r o ho, by rw [hc.heap]; exact h.old⟩

theorem Sim.congr1 {base d H0 w w' w2} (h : Sim base d H0 w w2) (hc : SameCore w w') :
    Sim base d H0 w' w2 :=
  ⟨fun r o ho => h.ids r o (by rw [← hc.heap]; exact ho),
   by rw [hc.oidCounter, hc.heap]; exact h.cnt, by rw [hc.oidCounter]; exact h.cnt2,
   by rw [hc.heap]; exact h.len2, h.rec2, by rw [hc.converters]; exact h.conv,
   fun r o ho => h.reg r o (by rw [← hc.heap]; exact ho),
   fun r o ho => h.obj r o (by rw [← hc.heap]; exact ho), h.old⟩

/-- One action. -/
theorem sim_act {P : Prog} {nm t base d H0 q w w2 a}
    (hoid : ∀ n, t (.oid n) = .oid n ∨ t (.oid n) = .int n) (hpeek : NoPeek P base d)
    (hsim : Sim base d H0 w w2) (hrec : RecInv q w) (hcl : Clean P nm t w a) :
    ∃ c w2', commandsOf (step P w a.op).1 q = commandsOf w q ++ [c] ∧
      (step P w a.op).2 = .ok () ∧
      execute P w2 (c.sent nm t) = (w2', .ok ()) ∧
      Sim base d H0 (step P w a.op).1 w2' ∧ RecInv q (step P w a.op).1 := by
  cases a with
  | create cls args kwargs =>
    obtain ⟨sg, bound, hs, hca, ht, hr, hnm, hres⟩ := hcl
    obtain ⟨w', h1, hcore, h2⟩ := construct_plain (nc := false) hs hca.wf hca.nodup hca.bind hr
      hca.plain hrec.activeValid hca.live
    have hstep : step P w (Act.create cls args kwargs).op = (w', .ok ()) := by
      simp only [Act.op, step, h1]
    have hq := h2 hrec.on q
    rw [if_pos ⟨rfl, hrec.writable, hrec.activeIx.symm⟩] at hq
    rw [hstep]
    have hraise2 : P.raises (Obj.mk (1 + (w2.oidCounter : Int)) cls [] (1 + (w2.oidCounter : Int)))
        "__init__" (bound.map (fun p => (p.1, relink w w2 p.2))) = none := by
      rw [hsim.relinkArgs hca, ← hr]
      have := (hpeek (Obj.mk (1 + (w.oidCounter : Int)) cls [] (1 + (w.oidCounter : Int)))
        "__init__" bound).2
      rw [← this]
      congr 1
      simp only [shiftObj, shiftLog, List.map_nil, Obj.mk.injEq, true_and]
      rw [hsim.cnt2]
      constructor <;> omega
    obtain ⟨w2', he, hheap, hcnt, hor, hcv, hob⟩ := execute_create (P := P) (w := w) (w2 := w2)
      (t := fun v => t (stripVal w v)) (selfId := 1 + (w.oidCounter : Int))
      (c := Cmd.sent nm t (Cmd.mk (w.cidCounter + 1) cls
        ((P.override cls "__init__").getD "__init__")
        ((collect sg (1 + (w.oidCounter : Int)) args kwargs).map
          (fun p => (p.1, stripVal w p.2)))))
      (cls := cls) hca.wf hca.nodup hca.bind (hca.plain.congr hsim.conv)
      (hsim.transports hca ht hoid) (idOf_of hoid _)
      (by simp only [Cmd.sent, List.map_map]; rfl) hnm hres hs hraise2
    refine ⟨_, w2', hq, rfl, he, ?_, ?_⟩
    · have hb2 : w2'.heap = w2.heap ++ [Obj.mk (1 + (w.oidCounter : Int)) cls
          [("__init__", shiftArgs base bound)] (1 + (w2.oidCounter : Int))] := by
        rw [hheap, hsim.relinkArgs hca]
      have hw1 : ∀ (r : Nat) o, w'.heap[r]? = some o → w.heap[r]? = some o ∨
          (r = w.heap.length ∧ o = Obj.mk (1 + (w.oidCounter : Int)) cls [("__init__", bound)]
            (1 + (w.oidCounter : Int))) := by
        intro r o ho
        rw [hcore.heap] at ho
        rcases Nat.lt_trichotomy r w.heap.length with h | h | h
        · left; rwa [List.getElem?_append_left h] at ho
        · right; subst h; simp at ho; exact ⟨rfl, ho.symm⟩
        · rw [List.getElem?_eq_none (by simp; omega)] at ho; cases ho
      have hlen : w'.heap.length = w.heap.length + 1 := by rw [hcore.heap]; simp
      have hcw : w'.oidCounter = w.oidCounter + 1 := by rw [hcore.oidCounter]; rfl
      refine ⟨?_, ?_, ?_, ?_, ?_, ?_, ?_, ?_, ?_⟩
      · intro r o ho
        rcases hw1 r o ho with h | ⟨rfl, rfl⟩
        · exact hsim.ids r o h
        · show (1 : Int) + _ = _; rw [hsim.cnt]
      · rw [hcw, hlen, hsim.cnt]
      · rw [hcnt, hcw, hsim.cnt2]; omega
      · rw [hb2, hlen]; simp [hsim.len2]; omega
      · rw [hor]; exact hsim.rec2
      · rw [hcv, hsim.conv, hcore.converters]; rfl
      · intro r o ho
        rw [hob hsim.rec2]
        rcases hw1 r o ho with h | ⟨rfl, rfl⟩
        · have hlt := (List.getElem?_eq_some_iff.1 h).1
          have hid := hsim.ids r o h
          have hcn := hsim.cnt
          have hcn2 := hsim.cnt2
          rw [if_neg (by rw [hid, hcn]; omega), if_neg (by rw [hid, hcn2, hcn]; push_cast; omega)]
          exact hsim.reg r o h
        · rw [if_pos rfl, hsim.len2]
      · intro r o ho
        rw [hb2]
        rcases hw1 r o ho with h | ⟨rfl, rfl⟩
        · have hlt := (List.getElem?_eq_some_iff.1 h).1
          rw [List.getElem?_append_left (by rw [hsim.len2]; omega)]
          exact hsim.obj r o h
        · rw [← hsim.len2]
          simp only [List.getElem?_append_right (Nat.le_refl _), Nat.sub_self,
            List.getElem?_cons_zero, shiftObj, shiftLog, List.map_cons, List.map_nil,
            Option.some.injEq, Obj.mk.injEq, true_and]
          rw [hsim.cnt2]; push_cast; omega
      · rw [hb2, List.take_append_of_le_length (by rw [hsim.len2]; omega)]
        exact hsim.old
    · have hfin := (recInv_closed q).construct (P := P) (cls := cls) (args := args)
        (kwargs := kwargs) (nc := false) hrec
      rw [h1] at hfin
      exact hfin
  | call r f args kwargs =>
    obtain ⟨o, sg, bound, ho, hs, hca, ht, hr, hnm, hdot, hinit⟩ := hcl
    obtain ⟨w', h1, hcore, h2⟩ := callMethod_plain (nc := false) ho hs hca.wf hca.nodup hca.bind hr
      hca.plain hrec.activeValid
    have hstep : step P w (Act.call r f args kwargs).op = (w', .ok ()) := by
      simp only [Act.op, step, h1]
    have hq := h2 hrec.on q
    rw [if_pos ⟨rfl, hrec.writable, hrec.activeIx.symm⟩] at hq
    rw [hstep]
    have hlt := (List.getElem?_eq_some_iff.1 ho).1
    generalize hcdef : Cmd.sent nm t (Cmd.mk (w.cidCounter + 1) o.cls
      ((P.override o.cls f).getD f)
      ((collect sg o.id args kwargs).map (fun p => (p.1, stripVal w p.2)))) = c
    have hcm : c.meth = f := by rw [← hcdef]; exact hnm
    have hraise2 : P.raises (shiftObj base d o) c.meth
        (bound.map (fun p => (p.1, relink w w2 p.2))) = none := by
      rw [hsim.relinkArgs hca, hcm, (hpeek o f bound).1]
      exact hr
    obtain ⟨w2', he, hcore2⟩ := execute_call (P := P) (w := w) (w2 := w2)
      (t := fun v => t (stripVal w v)) (selfId := o.id) (c := c) (r2 := base + r)
      (o2 := shiftObj base d o) hca.wf hca.nodup hca.bind (hca.plain.congr hsim.conv)
      (hsim.transports hca ht hoid) (idOf_of hoid _)
      (by rw [← hcdef]; simp only [Cmd.sent, List.map_map]; rfl)
      (by rw [hcm]; exact hdot) (by rw [hcm]; exact hinit) (hsim.reg r o ho) (hsim.obj r o ho)
      (by rw [hcm]; exact hs) hraise2
    refine ⟨_, w2', hq, rfl, hcdef ▸ he, ?_, ?_⟩
    · apply Sim.congr1 _ hcore
      apply Sim.congr2 _ hcore2
      rw [logCall_eq ho, logCall_eq (hsim.obj r o ho), hsim.relinkArgs hca, hcm]
      have hw1 : ∀ (r' : Nat) o', (w.heap.set r { o with log := o.log ++ [(f, bound)] })[r']? = some o' →
          (r' ≠ r ∧ w.heap[r']? = some o') ∨
          (r' = r ∧ o' = { o with log := o.log ++ [(f, bound)] }) := by
        intro r' o' h'
        by_cases hrr : r = r'
        · right; subst hrr
          rw [List.getElem?_set_self hlt] at h'
          exact ⟨rfl, (Option.some.inj h').symm⟩
        · left; rw [List.getElem?_set_ne hrr] at h'; exact ⟨Ne.symm hrr, h'⟩
      refine ⟨?_, ?_, hsim.cnt2, ?_, hsim.rec2, hsim.conv, ?_, ?_, ?_⟩
      · intro r' o' h'
        rcases hw1 r' o' h' with ⟨_, h⟩ | ⟨rfl, rfl⟩
        · exact hsim.ids r' o' h
        · exact hsim.ids r' o ho
      · show w.oidCounter = _; rw [hsim.cnt]; simp
      · show (List.set _ _ _).length = base + (List.set _ _ _).length
        simp [hsim.len2]
      · intro r' o' h'
        rcases hw1 r' o' h' with ⟨_, h⟩ | ⟨rfl, rfl⟩
        · exact hsim.reg r' o' h
        · exact hsim.reg r' o ho
      · intro r' o' h'
        rcases hw1 r' o' h' with ⟨hne, h⟩ | ⟨rfl, rfl⟩
        · show (List.set _ _ _)[base + r']? = _
          rw [List.getElem?_set_ne (by omega)]
          exact hsim.obj r' o' h
        · show (List.set _ _ _)[base + r']? = _
          rw [List.getElem?_set_self (by rw [hsim.len2]; omega)]
          simp [shiftObj, shiftLog]
      · show (List.set _ _ _).take base = H0
        rw [List.take_set_of_le (by omega)]
        exact hsim.old
    · have hfin := (recInv_closed q).callMethod (P := P) (r := r) (f := f) (args := args)
        (kwargs := kwargs) (nc := false) hrec
      rw [h1] at hfin
      exact hfin

/-- A whole session. -/
theorem sim_session {P : Prog} {nm t base d H0 q}
    (hoid : ∀ n, t (.oid n) = .oid n ∨ t (.oid n) = .int n) (hpeek : NoPeek P base d) :
    ∀ {as w w2}, Sim base d H0 w w2 → RecInv q w → CleanSession P nm t w as →
    ∃ cs w2', commandsOf (runActs P w as) q = commandsOf w q ++ cs ∧
      runCmds P w2 (cs.map (Cmd.sent nm t)) = (w2', .ok ()) ∧
      Sim base d H0 (runActs P w as) w2' := by
  intro as
  induction as with
  | nil => intro w w2 hsim _ _; exact ⟨[], w2, by simp [runActs], rfl, hsim⟩
  | cons a as ih =>
    intro w w2 hsim hrec hcl
    obtain ⟨c, w2', hq, _, he, hsim', hrec'⟩ := sim_act hoid hpeek hsim hrec hcl.1
    obtain ⟨cs, w2'', hq', he', hsim''⟩ := ih hsim' hrec' hcl.2
    refine ⟨c :: cs, w2'', ?_, ?_, hsim''⟩
    · show commandsOf (runActs P (step P w a.op).1 as) q = _
      rw [hq', hq]; simp
    · simp only [List.map_cons, runCmds, he, he']

end Verif
