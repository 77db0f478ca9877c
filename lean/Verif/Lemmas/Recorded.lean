import Verif.Lemmas.Execute
/-! The command recorded for a plain call. -/

namespace Verif

/-- `stripObjs` on one value. -/
def stripVal (w : World) : Val → Val
  | .obj r => match w.heap[r]? with | some o => .oid o.id | none => .obj r
  | v => v

theorem stripObjs_eq (w : World) (ps : Dict String Val) :
    stripObjs w ps = ps.map (fun p => (p.1, stripVal w p.2)) := by
  unfold stripObjs
  apply List.map_congr_left
  intro p _
  cases p.2 <;> rfl

theorem stripVal_nonobj (w : World) {v : Val} (h : v.isObj = false) : stripVal w v = v := by
  cases v <;> simp [Val.isObj] at h <;> rfl

theorem stripVal_logCall (w : World) (r f b) (v : Val) :
    stripVal (logCall w r f b) v = stripVal w v := by
  cases v <;> try rfl
  rename_i x
  unfold logCall
  cases h : w.heap[r]? with
  | none => rfl
  | some o =>
    have hlt := (List.getElem?_eq_some_iff.1 h).1
    simp only [stripVal]
    by_cases hx : r = x
    · subst hx; rw [h, List.getElem?_set_self hlt]
    · rw [List.getElem?_set_ne hx]

/-- Transport inside a process, when the object arguments exist. -/
theorem transports_strip {P : Prog} {w w2 : World} {sg args kwargs}
    (hp : PlainArgs P w sg args kwargs)
    (hrefs : ∀ k x, seenArg sg args kwargs k = some (.obj x) →
      ∃ o y, w.heap[x]? = some o ∧ dget w2.objects o.id = some y) :
    Transports w w2 (stripVal w) sg args kwargs where
  plain := fun k v hs hv => ⟨stripVal_nonobj w hv, (hp.plain k v hs hv).1, (hp.plain k v hs hv).2.1⟩
  refs := by
    intro k x hs
    obtain ⟨o, y, h1, h2⟩ := hrefs k x hs
    exact ⟨o, y, h1, h2, Or.inl (by simp [stripVal, h1])⟩

theorem logCall_eq {w : World} {r : Nat} {o : Obj} (h : w.heap[r]? = some o) (f b) :
    logCall w r f b = { w with heap := w.heap.set r { o with log := o.log ++ [(f, b)] } } := by
  simp only [logCall, h]

theorem PlainArgs.logCall {P : Prog} {w : World} {sg args kwargs}
    (h : PlainArgs P w sg args kwargs) (r f b) : PlainArgs P (logCall w r f b) sg args kwargs :=
  h.congr (by unfold Verif.logCall; split <;> rfl)

/-- A plain call, if not rejected by binding or body, is accepted; its command. -/
theorem callMethod_plain {P : Prog} {w : World} {r f args kwargs nc o sg bound}
    (ho : w.heap[r]? = some o) (hs : P.sig o.cls f = some sg) (hwf : sg.WF)
    (hkw : (dkeys kwargs).Nodup) (hb : bindArgs sg args kwargs = .ok bound)
    (hr : P.raises o f bound = none) (hp : PlainArgs P w sg args kwargs) (hval : w.ActiveValid) :
    ∃ w', callMethod P w r f args kwargs nc = (w', .ok ()) ∧
      SameCore (logCall w r f bound) w' ∧
      (w.recording = true → ∀ q, commandsOf w' q = commandsOf w q ++
        if nc = false ∧ activeWritable w = true ∧ q = activeIx w then
          [{ cid := w.cidCounter + 1, cls := o.cls, meth := (P.override o.cls f).getD f,
             params := (collect sg o.id args kwargs).map (fun p => (p.1, stripVal w p.2)) }]
        else []) := by
  have hw1 := logCall_eq ho f bound
  have hlt := (List.getElem?_eq_some_iff.1 ho).1
  have ho1 : (logCall w r f bound).heap[r]? = some { o with log := o.log ++ [(f, bound)] } := by
    rw [hw1]; simp [hlt]
  have hchk := (hp.logCall r f bound).check hwf hkw hb o.id
  have hcm : callMethod P w r f args kwargs nc =
      recordCall P (logCall w r f bound) r f sg args kwargs nc := by
    simp only [callMethod, ho, hs, hb, hr]
  have hres := recordCall_ok_of_check (f := f) (nc := nc) ho1 hchk
  refine ⟨(recordCall P (logCall w r f bound) r f sg args kwargs nc).1, ?_,
    recordCall_sameCore .., ?_⟩
  · rw [hcm]; exact Prod.ext rfl hres
  · intro hrec q
    have hv1 : (logCall w r f bound).ActiveValid := by rw [hw1]; exact hval
    obtain ⟨ps, h1, h2⟩ := recordCall_commands (P := P) (f := f) (sg := sg) (args := args)
      (kwargs := kwargs) (nc := nc) hv1 ho1
      (w' := (recordCall P (logCall w r f bound) r f sg args kwargs nc).1)
      (res := (recordCall P (logCall w r f bound) r f sg args kwargs nc).2) rfl
    have hrec1 : (logCall w r f bound).recording = true := by rw [hw1]; exact hrec
    have hps := h1 hres hrec1
    rw [hchk] at hps
    cases hps
    rw [h2 q, commandsOf_logCall]
    have hcid : (logCall w r f bound).cidCounter = w.cidCounter := by rw [hw1]
    have haw : activeWritable (logCall w r f bound) = activeWritable w := by rw [hw1]; rfl
    have hai : activeIx (logCall w r f bound) = activeIx w := by rw [hw1]; rfl
    rw [hcid, hrec1, haw, hai, hres, stripObjs_eq]
    simp only [stripVal_logCall, true_and]

/-- Same for a creation. -/
theorem construct_plain {P : Prog} {w : World} {cls args kwargs nc sg bound}
    (hs : P.sig cls "__init__" = some sg) (hwf : sg.WF)
    (hkw : (dkeys kwargs).Nodup) (hb : bindArgs sg args kwargs = .ok bound)
    (hr : P.raises (Obj.mk (1 + (w.oidCounter : Int)) cls [] (1 + (w.oidCounter : Int)))
      "__init__" bound = none) (hp : PlainArgs P w sg args kwargs) (hval : w.ActiveValid)
    (hlive : ∀ k x, seenArg sg args kwargs k = some (.obj x) → x < w.heap.length) :
    ∃ w', construct P w cls args kwargs nc = (w', .ok w.heap.length) ∧
      SameCore { (newObject w cls).1 with heap := w.heap ++
        [Obj.mk (1 + (w.oidCounter : Int)) cls [("__init__", bound)] (1 + (w.oidCounter : Int))] }
        w' ∧
      (w.recording = true → ∀ q, commandsOf w' q = commandsOf w q ++
        if nc = false ∧ activeWritable w = true ∧ q = activeIx w then
          [{ cid := w.cidCounter + 1, cls := cls,
             meth := (P.override cls "__init__").getD "__init__",
             params := (collect sg (1 + (w.oidCounter : Int)) args kwargs).map
               (fun p => (p.1, stripVal w p.2)) }]
        else []) := by
  have ho : (newObject w cls).1.heap[w.heap.length]? =
      some (Obj.mk (1 + (w.oidCounter : Int)) cls [] (1 + (w.oidCounter : Int))) := by
    simp [newObject]
  have hlog : logCall (newObject w cls).1 w.heap.length "__init__" bound =
      { (newObject w cls).1 with heap := w.heap ++ [Obj.mk (1 + (w.oidCounter : Int)) cls
        [("__init__", bound)] (1 + (w.oidCounter : Int))] } := by
    simp only [logCall, ho]
    simp [newObject]
  rw [← hlog]
  generalize hW : logCall (newObject w cls).1 w.heap.length "__init__" bound = W at hlog
  have hWo : W.heap[w.heap.length]? = some (Obj.mk (1 + (w.oidCounter : Int)) cls
        [("__init__", bound)] (1 + (w.oidCounter : Int))) := by rw [hlog]; simp
  have hp1 : PlainArgs P W sg args kwargs := hp.congr (by rw [hlog]; rfl)
  have hchk := hp1.check hwf hkw hb (1 + (w.oidCounter : Int))
  have hres := recordCall_ok_of_check (f := "__init__") (nc := nc) hWo hchk
  refine ⟨(recordCall P W w.heap.length "__init__" sg args kwargs nc).1, ?_,
    recordCall_sameCore .., ?_⟩
  · simp only [construct, hs, hb, newObject_ref, ho, hr, hW]
    generalize recordCall P W w.heap.length "__init__" sg args kwargs nc = rc at hres
    obtain ⟨W2, res⟩ := rc
    dsimp only at hres
    subst hres
    rfl
  · intro hrec q
    have hv1 : W.ActiveValid := by rw [hlog]; exact hval
    obtain ⟨ps, h1, h2⟩ := recordCall_commands (P := P) (f := "__init__") (sg := sg)
      (args := args) (kwargs := kwargs) (nc := nc) hv1 hWo
      (w' := (recordCall P W w.heap.length "__init__" sg args kwargs nc).1)
      (res := (recordCall P W w.heap.length "__init__" sg args kwargs nc).2) rfl
    have hrec1 : W.recording = true := by rw [hlog]; exact hrec
    have hps := h1 hres hrec1
    rw [hchk] at hps
    cases hps
    have hcid : W.cidCounter = w.cidCounter := by rw [hlog]; rfl
    have haw : activeWritable W = activeWritable w := by rw [hlog]; rfl
    have hai : activeIx W = activeIx w := by rw [hlog]; rfl
    have hco : commandsOf W q = commandsOf w q := by rw [hlog]; rfl
    have hmap : (collect sg (1 + (w.oidCounter : Int)) args kwargs).map
        (fun p => (p.1, stripVal W p.2)) =
        (collect sg (1 + (w.oidCounter : Int)) args kwargs).map
        (fun p => (p.1, stripVal w p.2)) := by
      apply List.map_congr_left
      intro p hp'
      congr 1
      cases hv : p.2 with
      | obj x =>
        have hx : x < w.heap.length := by
          have hB := bindArgs_ok hb
          have hpk : p.1 ∈ dkeys (collect sg (1 + (w.oidCounter : Int)) args kwargs) :=
            List.mem_map_of_mem (f := Prod.fst) hp'
          rcases collect_keys hwf _ (fun k h => List.mem_of_mem_drop (hB.known k h)) p.1 hpk
            with h | h
          · have hid := dget_collect_id hwf (args := args) (1 + (w.oidCounter : Int))
              (fun k h => List.mem_of_mem_drop (hB.known k h))
            have := dget_of_mem_nodup (k := p.1) (v := p.2) (nodup_collect _) hp'
            rw [h, hid, hv] at this
            simp at this
          · have hpr : p ∈ proj (target p.1) (collect sg (1 + (w.oidCounter : Int)) args kwargs) := by
              simp [proj, hp']
            rw [proj_collect_single hwf _ hkw hB.known hp.optional h] at hpr
            cases hsn : seenArg sg args kwargs (target p.1) with
            | none => rw [hsn] at hpr; simp at hpr
            | some v =>
              rw [hsn] at hpr
              simp only [List.mem_singleton] at hpr
              have : v = .obj x := by rw [← hv, hpr]
              exact hlive _ x (this ▸ hsn)
        simp only [stripVal, hlog]
        rw [List.getElem?_append_left hx]
      | _ => rfl
    rw [h2 q, hcid, haw, hai, hres, hco, hrec1, stripObjs_eq, hmap]
    simp only [true_and]

end Verif
