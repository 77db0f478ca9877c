import Verif.Spec.Listing
import Verif.Spec.Transfer
import Verif.Spec.Deliver
import Verif.Lemmas.Define
import Verif.Lemmas.Json

/-! Two runs of the same actions, one of them in a process with earlier objects. -/

namespace Verif

/-! ### Arguments -/

theorem shiftVal_nonobj {base : Nat} {v : Val} (h : v.isObj = false) : shiftVal base v = v := by
  cases v <;> first | rfl | cases h

theorem isObj_shiftVal (base : Nat) (v : Val) : (shiftVal base v).isObj = v.isObj := by
  cases v <;> rfl

theorem keyFor_shiftVal (base : Nat) (k : String) (v : Val) : keyFor k (shiftVal base v) = keyFor k v := by
  unfold keyFor
  rw [isObj_shiftVal]

theorem shiftArgs_plain {base : Nat} {d : Dict String Val} (h : ∀ p ∈ d, p.2.isObj = false) :
    shiftArgs base d = d := by
  unfold shiftArgs
  conv => rhs; rw [← List.map_id d]
  apply List.map_congr_left
  intro p hp
  rw [shiftVal_nonobj (h p hp)]
  rfl

theorem dget_shiftArgs (base : Nat) (d : Dict String Val) (k : String) :
    dget (shiftArgs base d) k = (dget d k).map (shiftVal base) := dget_map_snd _ _ _

theorem dhas_shiftArgs (base : Nat) (d : Dict String Val) (k : String) :
    dhas (shiftArgs base d) k = dhas d k := by
  unfold dhas
  rw [dget_shiftArgs]
  cases dget d k <;> rfl

theorem dset_shiftArgs (base : Nat) (d : Dict String Val) (k : String) (v : Val) :
    dset (shiftArgs base d) k (shiftVal base v) = shiftArgs base (dset d k v) := by
  induction d with
  | nil => rfl
  | cons e d ih =>
    obtain ⟨k', v'⟩ := e
    simp only [shiftArgs, List.map_cons, dset]
    split
    · rfl
    · simp only [List.map_cons]
      exact congrArg _ ih

theorem zip_shift (base : Nat) (ks : List String) (args : List Val) :
    ks.zip (args.map (shiftVal base)) = shiftArgs base (ks.zip args) := by
  induction ks generalizing args with
  | nil => rfl
  | cons k ks ih =>
    cases args with
    | nil => rfl
    | cons a args =>
      simp only [List.map_cons, List.zip_cons_cons, shiftArgs]
      exact congrArg _ (ih args)

theorem mapM_shift {base : Nat} {f g : String → Option (String × Val)} {l : List String}
    (h : ∀ k, f k = (g k).map (fun p => (p.1, shiftVal base p.2))) :
    l.mapM f = (l.mapM g).map (shiftArgs base) := by
  induction l with
  | nil => rfl
  | cons k l ih =>
    simp only [List.mapM_cons, h, ih]
    cases g k with
    | none => rfl
    | some p =>
      cases hl : l.mapM g with
      | none => rfl
      | some ps => rfl

theorem bindArgs_shift {sg : Sig} (hd : ∀ p ∈ sg.defaults, p.2.isObj = false) (base : Nat)
    (args : List Val) (kwargs : Dict String Val) :
    bindArgs sg (args.map (shiftVal base)) (shiftArgs base kwargs) =
      (bindArgs sg args kwargs).map (shiftArgs base) := by
  unfold bindArgs
  rw [List.length_map]
  have hany : (shiftArgs base kwargs).any
      (fun p => !(sg.params.drop args.length).contains p.1) =
      kwargs.any (fun p => !(sg.params.drop args.length).contains p.1) := by
    unfold shiftArgs
    rw [List.any_map]
    rfl
  rw [hany]
  split
  · rfl
  · split
    · rfl
    · dsimp only
      rw [mapM_shift (base := base) (g := fun k =>
        match dget (sg.params.zip args) k with
        | some v => some (k, v)
        | none => match dget kwargs k with
          | some v => some (k, v)
          | none => (dget sg.defaults k).map (fun v => (k, v)))]
      · generalize List.mapM (m := Option) _ sg.params = o
        cases o <;> rfl
      · intro k
        rw [zip_shift, dget_shiftArgs, dget_shiftArgs]
        cases dget (sg.params.zip args) k with
        | some v => rfl
        | none =>
          dsimp only [Option.map_none]
          cases dget kwargs k with
          | some v => rfl
          | none =>
            dsimp only [Option.map_none]
            cases hk : dget sg.defaults k with
            | none => rfl
            | some v =>
              have hv := hd (k, v) (dget_mem hk)
              simp [shiftVal_nonobj hv]

theorem collectPos_shift (base : Nat) (selfId : Int) (ks : List String) (args : List Val) :
    collectPos selfId ks (args.map (shiftVal base)) = shiftArgs base (collectPos selfId ks args) := by
  unfold collectPos
  rw [zip_shift]
  generalize ks.zip args = l
  have h0 : ∀ d : Dict String Val, (shiftArgs base l).foldl
      (fun d p => dset d (keyFor p.1 p.2) p.2) (shiftArgs base d) =
      shiftArgs base (l.foldl (fun d p => dset d (keyFor p.1 p.2) p.2) d) := by
    induction l with
    | nil => intro d; rfl
    | cons e l ih =>
      intro d
      have := ih (dset d (keyFor e.1 e.2) e.2)
      rw [← dset_shiftArgs, ← keyFor_shiftVal base] at this
      simp only [List.foldl_cons]
      rw [keyFor_shiftVal] at this
      rw [← this]
      simp only [shiftArgs, List.map_cons, List.foldl_cons, keyFor_shiftVal]
  exact h0 [("id", .oid selfId)]

theorem collectMissing_shift (base : Nat) (d more : Dict String Val) :
    collectMissing (shiftArgs base d) (shiftArgs base more) =
      shiftArgs base (collectMissing d more) := by
  unfold collectMissing
  induction more generalizing d with
  | nil => rfl
  | cons e l ih =>
    have hstep : (if dhas (shiftArgs base d) e.1 then shiftArgs base d
        else dset (shiftArgs base d) (keyFor e.1 (shiftVal base e.2)) (shiftVal base e.2)) =
        shiftArgs base (if dhas d e.1 then d else dset d (keyFor e.1 e.2) e.2) := by
      rw [dhas_shiftArgs, keyFor_shiftVal, dset_shiftArgs]
      split <;> rfl
    have := ih (if dhas d e.1 then d else dset d (keyFor e.1 e.2) e.2)
    simp only [List.foldl_cons]
    rw [← this, ← hstep]
    rfl

theorem collect_shift {sg : Sig} (hd : ∀ p ∈ sg.defaults, p.2.isObj = false) (base : Nat)
    (selfId : Int) (args : List Val) (kwargs : Dict String Val) :
    collect sg selfId (args.map (shiftVal base)) (shiftArgs base kwargs) =
      shiftArgs base (collect sg selfId args kwargs) := by
  unfold collect
  rw [collectPos_shift, collectMissing_shift]
  conv => lhs; rw [← shiftArgs_plain (base := base) hd]
  exact collectMissing_shift _ _ _

theorem searchConv_isObj {P : Prog} {cs bases ann} {v : Val} {st : Bool × Val}
    (hs : st.2.isObj = false) : (searchConv P cs bases ann v st).2.isObj = false := by
  unfold searchConv
  induction bases generalizing st with
  | nil => exact hs
  | cons b bases ih =>
    simp only [List.foldl_cons]
    apply ih
    split
    · rfl
    · exact hs

theorem checkLoop_isObj {P : Prog} {cs pt bases} {v : Val} {anns} {st : Bool × Val}
    (hv : v.isObj = false) (hs : st.2.isObj = false) :
    (checkLoop P cs pt bases v anns st).2.isObj = false := by
  induction anns generalizing st with
  | nil => exact hs
  | cons a anns ih =>
    unfold checkLoop
    split
    · exact hs
    · split
      · exact hs
      · exact ih (searchConv_isObj hs)

/-! ### Twins -/

/-- The active queue, as it is or as it will be created, holds `cs` and accepts commands. -/
def ActiveOK (w : World) (cs : List Cmd) : Prop :=
  (w.active = none ∧ cs = []) ∨
    ∃ q u, w.active = some q ∧ w.queues[q]? = some u ∧ u.readonly = false ∧ u.commands = cs

/-- `w2` is `w` with `base` other objects before its own; other queues may differ. -/
structure Twin (base : Nat) (w w2 : World) : Prop where
  len : w2.heap.length = base + w.heap.length
  heap : ∀ r : Nat, w2.heap[base + r]? = (w.heap[r]?).map (shiftObj base 0)
  oid : w2.oidCounter = w.oidCounter
  cid : w2.cidCounter = w.cidCounter
  recd : w2.recording = w.recording
  objRec : w2.objRecord = w.objRecord
  conv : w2.converters = w.converters
  reg : ∀ k, dget w2.objects k = (dget w.objects k).map (base + ·)
  act : ∃ cs, ActiveOK w cs ∧ ActiveOK w2 cs ∧ ∀ c ∈ cs, ∀ p ∈ c.params, p.2.isObj = false

theorem getQueue_activeOK {w : World} {cs} (h : ActiveOK w cs) :
    ∃ u, (getQueue w none).1.active = some (getQueue w none).2 ∧
      (getQueue w none).1.queues[(getQueue w none).2]? = some u ∧ u.readonly = false ∧
      u.commands = cs := by
  rcases h with ⟨h1, rfl⟩ | ⟨q, u, h1, h2, h3, h4⟩
  · simp only [getQueue, getQueue.activeOrNew, h1, newQueue]
    exact ⟨⟨"default", false, []⟩, trivial, by simp, rfl, rfl⟩
  · rw [getQueue_none_of_active h1]
    exact ⟨u, h1, h2, h3, h4⟩

theorem Twin.getQueue {base w w2} (h : Twin base w w2) :
    Twin base (getQueue w none).1 (getQueue w2 none).1 := by
  obtain ⟨cs, h1, h2, h3⟩ := h.act
  obtain ⟨u, a1, a2, a3, a4⟩ := getQueue_activeOK h1
  obtain ⟨u2, b1, b2, b3, b4⟩ := getQueue_activeOK h2
  have hs : ∀ w : World, (Verif.getQueue w none).1.heap = w.heap ∧
      (Verif.getQueue w none).1.oidCounter = w.oidCounter ∧
      (Verif.getQueue w none).1.cidCounter = w.cidCounter ∧
      (Verif.getQueue w none).1.recording = w.recording ∧
      (Verif.getQueue w none).1.objRecord = w.objRecord ∧
      (Verif.getQueue w none).1.converters = w.converters ∧
      (Verif.getQueue w none).1.objects = w.objects := by
    intro w
    simp only [Verif.getQueue, getQueue.activeOrNew]
    split
    · exact ⟨rfl, rfl, rfl, rfl, rfl, rfl, rfl⟩
    · exact ⟨rfl, rfl, rfl, rfl, rfl, rfl, rfl⟩
  obtain ⟨s1, s2, s3, s4, s5, s6, s7⟩ := hs w
  obtain ⟨t1, t2, t3, t4, t5, t6, t7⟩ := hs w2
  exact ⟨by rw [s1, t1]; exact h.len, by rw [s1, t1]; exact h.heap, by rw [s2, t2]; exact h.oid,
    by rw [s3, t3]; exact h.cid, by rw [s4, t4]; exact h.recd, by rw [s5, t5]; exact h.objRec,
    by rw [s6, t6]; exact h.conv, by rw [s7, t7]; exact h.reg,
    cs, Or.inr ⟨_, u, a1, a2, a3, a4⟩, Or.inr ⟨_, u2, b1, b2, b3, b4⟩, h3⟩

theorem checkParam_shift {P : Prog} {base w w2} (h : Twin base w w2)
    {annots : Dict String (List String)} {k : String} {v : Val}
    (hv : v.isObj = true → dget annots k = none) :
    checkParam P w2 annots k (shiftVal base v) =
      (checkParam P w annots k v).map (shiftVal base) := by
  cases hb : v.isObj with
  | true =>
    unfold checkParam
    rw [hv hb]
    rfl
  | false =>
    have ht : typeName w2 v = typeName w v := by cases v <;> first | rfl | cases hb
    rw [shiftVal_nonobj hb]
    unfold checkParam
    cases ha : dget annots k with
    | none => simp [Except.map, shiftVal_nonobj hb]
    | some anns =>
      dsimp only
      rw [ht, h.conv]
      have hr : (checkLoop P w.converters (paramType P (typeName w v)) (P.mro (typeName w v)) v
          anns (false, v)).2.isObj = false := checkLoop_isObj hb hb
      generalize checkLoop P w.converters (paramType P (typeName w v)) (P.mro (typeName w v)) v
          anns (false, v) = r at hr
      obtain ⟨b, y⟩ := r
      cases b
      · rfl
      · simp only [Except.map, shiftVal_nonobj hr]

theorem checkParams_shift {P : Prog} {base w w2} (h : Twin base w w2)
    {annots : Dict String (List String)} : ∀ {ps : Dict String Val},
    (∀ p ∈ ps, p.2.isObj = true → dget annots p.1 = none) →
    checkParams P w2 annots (shiftArgs base ps) =
      (checkParams P w annots ps).map (shiftArgs base)
  | [], _ => rfl
  | (k, v) :: ps, hv => by
    have h1 := checkParam_shift (P := P) h (hv (k, v) (by simp))
    have h2 := checkParams_shift (P := P) h (ps := ps) (fun p hp => hv p (List.mem_cons_of_mem _ hp))
    simp only [shiftArgs, List.map_cons, checkParams]
    rw [h1]
    cases checkParam P w annots k v with
    | error e => rfl
    | ok y =>
      simp only [Except.map]
      have h2' : checkParams P w2 annots (List.map (fun p => (p.1, shiftVal base p.2)) ps) =
        (checkParams P w annots ps).map (shiftArgs base) := h2
      rw [h2']
      cases checkParams P w annots ps <;> rfl

theorem stripObjs_shift {base w w2} (h : Twin base w w2) {ps : Dict String Val}
    (hl : ∀ p ∈ ps, ∀ x, p.2 = .obj x → x < w.heap.length) :
    stripObjs w2 (shiftArgs base ps) = stripObjs w ps := by
  unfold stripObjs shiftArgs
  rw [List.map_map]
  apply List.map_congr_left
  intro p hp
  obtain ⟨k, v⟩ := p
  cases v with
  | obj x =>
    have hx := hl _ hp x rfl
    simp only [Function.comp, shiftVal, h.heap, List.getElem?_eq_getElem hx, Option.map_some,
      shiftObj]
  | _ => rfl

theorem stripObjs_isObj {w : World} {ps : Dict String Val}
    (hl : ∀ p ∈ ps, ∀ x, p.2 = .obj x → x < w.heap.length) :
    ∀ p ∈ stripObjs w ps, p.2.isObj = false := by
  intro p hp
  unfold stripObjs at hp
  obtain ⟨⟨k, v⟩, hq, rfl⟩ := List.mem_map.1 hp
  cases v with
  | obj x =>
    have hx := hl _ hq x rfl
    simp only [List.getElem?_eq_getElem hx]
    rfl
  | _ => rfl

theorem collect_live {sg : Sig} (hd : ∀ p ∈ sg.defaults, p.2.isObj = false) {w : World}
    {selfId args kwargs} (hl : LiveArgs w args kwargs) {p}
    (hp : p ∈ collect sg selfId args kwargs) {x} (hx : p.2 = .obj x) : x < w.heap.length := by
  rcases collect_mem hp with rfl | ⟨k, v, rfl, h⟩
  · cases hx
  · dsimp only at hx
    subst hx
    rcases h with ⟨_, h⟩ | h | h
    · exact hl.1 x h
    · exact hl.2 _ h x rfl
    · have := hd _ h
      cases this

theorem collect_obj_key {sg : Sig} (hwf : sg.WF) {selfId args kwargs p}
    (hp : p ∈ collect sg selfId args kwargs) (ho : p.2.isObj = true) :
    dget sg.annots p.1 = none := by
  rcases collect_mem hp with rfl | ⟨k, v, rfl, h⟩
  · cases ho
  · dsimp only at ho ⊢
    rw [keyFor_obj ho]
    cases hg : dget sg.annots (k ++ "(id)") with
    | none => rfl
    | some a =>
      have hm := (mem_dkeys _ _).2 ⟨a, hg⟩
      rcases hwf.annots _ hm with h' | h'
      · have h1 := hwf.ident _ h'
        rw [endsWithId_append] at h1
        cases h1
      · have h1 := endsWithId_append k
        rw [h'] at h1
        exact absurd h1 (by decide)

theorem Twin.push {base w w2} (h : Twin base w w2) {q q2 u u2 cls m} {ps : Dict String Val}
    (hq : w.active = some q) (hu : w.queues[q]? = some u) (hr : u.readonly = false)
    (hq2 : w2.active = some q2) (hu2 : w2.queues[q2]? = some u2) (hr2 : u2.readonly = false)
    (hl : ∀ p ∈ ps, ∀ x, p.2 = .obj x → x < w.heap.length) :
    Twin base (pushCmd w q cls m ps) (pushCmd w2 q2 cls m (shiftArgs base ps)) := by
  obtain ⟨cs, h1, h2, h3⟩ := h.act
  have hcs : u.commands = cs := by
    rcases h1 with ⟨h1, _⟩ | ⟨q', u', a1, a2, _, a4⟩
    · rw [hq] at h1; cases h1
    · rw [hq] at a1; cases a1; rw [hu] at a2; cases a2; exact a4
  have hcs2 : u2.commands = cs := by
    rcases h2 with ⟨h2, _⟩ | ⟨q', u', a1, a2, _, a4⟩
    · rw [hq2] at h2; cases h2
    · rw [hq2] at a1; cases a1; rw [hu2] at a2; cases a2; exact a4
  refine ⟨h.len, h.heap, h.oid, ?_, h.recd, h.objRec, h.conv, h.reg,
    cs ++ [⟨w.cidCounter + 1, cls, m, stripObjs w ps⟩], ?_, ?_, ?_⟩
  · simp only [pushCmd, setQueue, h.cid]
  · refine Or.inr ⟨q, ⟨u.name, false, cs ++ [⟨w.cidCounter + 1, cls, m, stripObjs w ps⟩]⟩, hq, ?_, rfl, rfl⟩
    simp [pushCmd, setQueue, hu, Queue.push, hr, hcs]
  · refine Or.inr ⟨q2, ⟨u2.name, false, cs ++ [⟨w.cidCounter + 1, cls, m, stripObjs w ps⟩]⟩, hq2, ?_, rfl, rfl⟩
    simp [pushCmd, setQueue, hu2, Queue.push, hr2, hcs2, h.cid, stripObjs_shift h hl]
  · intro c hc
    rcases List.mem_append.1 hc with hc | hc
    · exact h3 c hc
    · rw [List.mem_singleton] at hc
      subst hc
      exact stripObjs_isObj hl

theorem checkParams_live {P : Prog} {w : World} {annots} {ps ps' : Dict String Val}
    (hc : checkParams P w annots ps = .ok ps') (ha : ∀ p ∈ ps, p.2.isObj = true → dget annots p.1 = none)
    (hl : ∀ p ∈ ps, ∀ x, p.2 = .obj x → x < w.heap.length) :
    ∀ p ∈ ps', ∀ x, p.2 = .obj x → x < w.heap.length := by
  intro p hp x hx
  obtain ⟨v, h1, h2⟩ := checkParams_mem hc p hp
  cases hb : v.isObj with
  | true =>
    have hn := ha _ h1 hb
    unfold checkParam at h2
    dsimp only at hn
    rw [hn] at h2
    cases h2
    exact hl _ h1 x hx
  | false =>
    unfold checkParam at h2
    split at h2
    · cases h2; rw [hx] at hb; cases hb
    · dsimp only at h2
      have hr := checkLoop_isObj (P := P) (cs := w.converters) (pt := paramType P (typeName w v))
        (bases := P.mro (typeName w v)) (anns := ‹_›) (st := (false, v)) hb hb
      split at h2
      · rename_i heq
        rw [heq] at hr
        cases h2
        dsimp only at hr
        rw [hx] at hr
        cases hr
      · cases h2

/-- The outcomes agree and the worlds remain twins. -/
def TwinRes {α : Type} (base : Nat) (f : α → α) (r r2 : World × Except Err α) : Prop :=
  r2.2 = r.2.map f ∧ Twin base r.1 r2.1

theorem Twin.recordCall {P : Prog} (hP : P.SigsWF) {base w w2} (h : Twin base w w2) {r f sg cls args kwargs nc}
    (hs : P.sig cls f = some sg) (hl : LiveArgs w args kwargs) :
    TwinRes base id (recordCall P w r f sg args kwargs nc)
      (recordCall P w2 (base + r) f sg (args.map (shiftVal base)) (shiftArgs base kwargs) nc) := by
  obtain ⟨hwf, hdef⟩ := hP _ _ _ hs
  unfold Verif.recordCall
  rw [h.recd]
  split
  · exact ⟨rfl, h⟩
  · have hq := h.getQueue
    obtain ⟨cs, h1, h2, h3⟩ := h.act
    obtain ⟨u, a1, a2, a3, a4⟩ := getQueue_activeOK h1
    obtain ⟨u2, b1, b2, b3, b4⟩ := getQueue_activeOK h2
    have hlen : (Verif.getQueue w none).1.heap = w.heap := getQueue_none_heap w
    dsimp only
    generalize (Verif.getQueue w none).1 = v at *
    generalize (Verif.getQueue w2 none).1 = v2 at *
    generalize (Verif.getQueue w none).2 = q at *
    generalize (Verif.getQueue w2 none).2 = q2 at *
    rw [hq.heap]
    cases ho : v.heap[r]? with
    | none => exact ⟨rfl, hq⟩
    | some o =>
      simp only [Option.map_some]
      have hid : (shiftObj base 0 o).id = o.id := rfl
      have hcls : (shiftObj base 0 o).cls = o.cls := rfl
      have hlv : LiveArgs v args kwargs := by
        unfold LiveArgs; rw [hlen]; exact hl
      rw [hid, hcls, collect_shift hdef, checkParams_shift hq (fun p hp => collect_obj_key hwf hp)]
      cases hc : checkParams P v sg.annots (collect sg o.id args kwargs) with
      | error e => exact ⟨rfl, hq⟩
      | ok ps =>
        simp only [Except.map, a2, b2, a3, b3]
        cases nc with
        | true => exact ⟨rfl, hq⟩
        | false =>
          simp only [Bool.not_false, Bool.and_self, if_true]
          refine ⟨rfl, hq.push a1 a2 a3 b1 b2 b3 ?_⟩
          exact checkParams_live hc (fun p hp => collect_obj_key hwf hp)
            (fun p hp x hx => collect_live hdef hlv hp hx)

theorem Twin.logCall {base w w2} (h : Twin base w w2) (r : Nat) (f : String) (b : Dict String Val) :
    Twin base (logCall w r f b) (logCall w2 (base + r) f (shiftArgs base b)) := by
  unfold Verif.logCall
  rw [h.heap]
  cases ho : w.heap[r]? with
  | none => exact h
  | some o =>
    simp only [Option.map_some]
    refine ⟨by simp [h.len], ?_, h.oid, h.cid, h.recd, h.objRec, h.conv, h.reg, h.act⟩
    intro r'
    dsimp only
    by_cases hr : r' = r
    · subst hr
      have hlt : r' < w.heap.length := (List.getElem?_eq_some_iff.1 ho).1
      rw [List.getElem?_set_self (by rw [h.len]; omega), List.getElem?_set_self hlt]
      simp [shiftObj, shiftLog]
    · rw [List.getElem?_set_ne (by omega), List.getElem?_set_ne (by omega), h.heap]

theorem Twin.newObject {base w w2} (h : Twin base w w2) (cls : String) :
    Twin base (newObject w cls).1 (newObject w2 cls).1 ∧
      (newObject w2 cls).2 = base + (newObject w cls).2 := by
  refine ⟨⟨?_, ?_, ?_, h.cid, h.recd, h.objRec, h.conv, ?_, h.act⟩, h.len⟩
  · simp [Verif.newObject, h.len]; omega
  · intro r
    simp only [Verif.newObject, h.oid]
    by_cases hr : r < w.heap.length
    · rw [List.getElem?_append_left (by rw [h.len]; omega), List.getElem?_append_left hr, h.heap]
    · rw [List.getElem?_append_right (by rw [h.len]; omega),
        List.getElem?_append_right (by omega), h.len]
      have : base + r - (base + w.heap.length) = r - w.heap.length := by omega
      rw [this]
      by_cases h0 : r - w.heap.length = 0
      · rw [h0]; simp [shiftObj, shiftLog]
      · rw [List.getElem?_eq_none (by simp; omega)]; rfl
  · simp [Verif.newObject, h.oid]
  · intro k
    simp only [Verif.newObject, h.oid, h.objRec]
    split
    · by_cases hk : k = 1 + (w.oidCounter : Int)
      · subst hk
        rw [dget_dset_self, dget_dset_self, h.len]
        rfl
      · rw [dget_dset_ne _ _ (Ne.symm hk), dget_dset_ne _ _ (Ne.symm hk), h.reg]
    · exact h.reg k

theorem LiveArgs.mono {w w' : World} {args kwargs} (h : LiveArgs w args kwargs)
    (hl : w.heap.length ≤ w'.heap.length) : LiveArgs w' args kwargs :=
  ⟨fun x hx => Nat.lt_of_lt_of_le (h.1 x hx) hl,
   fun p hp x hx => Nat.lt_of_lt_of_le (h.2 p hp x hx) hl⟩

theorem logCall_heap_length (w : World) (r f b) : (logCall w r f b).heap.length = w.heap.length := by
  unfold logCall; split <;> simp

theorem Twin.callMethod {P : Prog} (hP : P.SigsWF) {base w w2} (hpk : NoPeek P base 0)
    (h : Twin base w w2) {r f args kwargs nc} (hl : LiveArgs w args kwargs) :
    TwinRes base id (callMethod P w r f args kwargs nc)
      (callMethod P w2 (base + r) f (args.map (shiftVal base)) (shiftArgs base kwargs) nc) := by
  unfold Verif.callMethod
  rw [h.heap]
  cases ho : w.heap[r]? with
  | none => exact ⟨rfl, h⟩
  | some o =>
    simp only [Option.map_some]
    have hcls : (shiftObj base 0 o).cls = o.cls := rfl
    rw [hcls]
    cases hs : P.sig o.cls f with
    | none => exact ⟨rfl, h⟩
    | some sg =>
      dsimp only
      rw [bindArgs_shift (hP _ _ _ hs).2]
      cases hb : bindArgs sg args kwargs with
      | error e => exact ⟨rfl, h⟩
      | ok b =>
        simp only [Except.map, (hpk o f b).1]
        cases P.raises o f b with
        | some e => exact ⟨rfl, h⟩
        | none =>
          exact (h.logCall r f b).recordCall hP hs
            (hl.mono (Nat.le_of_eq (logCall_heap_length _ _ _ _).symm))

theorem Twin.construct {P : Prog} (hP : P.SigsWF) {base w w2} (hpk : NoPeek P base 0)
    (h : Twin base w w2) {cls args kwargs nc} (hl : LiveArgs w args kwargs) :
    TwinRes base (base + ·) (construct P w cls args kwargs nc)
      (construct P w2 cls (args.map (shiftVal base)) (shiftArgs base kwargs) nc) := by
  unfold Verif.construct
  cases hs : P.sig cls "__init__" with
  | none => exact ⟨rfl, h⟩
  | some sg =>
    dsimp only
    rw [bindArgs_shift (hP _ _ _ hs).2]
    cases hb : bindArgs sg args kwargs with
    | error e => exact ⟨rfl, h⟩
    | ok b =>
      simp only [Except.map]
      obtain ⟨hn, hr⟩ := h.newObject cls
      have hle : w.heap.length ≤ (Verif.newObject w cls).1.heap.length := by simp [Verif.newObject]
      rw [hr, hn.heap]
      generalize (Verif.newObject w cls).1 = v at *
      generalize (Verif.newObject w2 cls).1 = v2 at *
      generalize (Verif.newObject w cls).2 = r at *
      cases ho : v.heap[r]? with
      | none => exact ⟨rfl, hn⟩
      | some o =>
        simp only [Option.map_some, (hpk o "__init__" b).1]
        cases P.raises o "__init__" b with
        | some e => exact ⟨rfl, hn⟩
        | none =>
          dsimp only
          have key := (hn.logCall r "__init__" b).recordCall hP (r := r) (nc := nc) hs
            (hl.mono (Nat.le_trans hle (Nat.le_of_eq (logCall_heap_length _ _ _ _).symm)))
          obtain ⟨k1, k2⟩ := key
          generalize Verif.recordCall P (Verif.logCall v r "__init__" b) r "__init__" sg args kwargs nc
            = x at k1 k2 ⊢
          generalize Verif.recordCall P (Verif.logCall v2 (base + r) "__init__" (shiftArgs base b)) _ _ _ _ _ _
            = x2 at k1 k2 ⊢
          obtain ⟨x, rx⟩ := x
          obtain ⟨x2, rx2⟩ := x2
          dsimp only at k1 k2
          subst k1
          cases rx with
          | error e => exact ⟨rfl, k2⟩
          | ok u => exact ⟨rfl, k2⟩

/-! ### Actions -/

theorem Twin.step {P : Prog} (hP : P.SigsWF) {base w w2} (hpk : NoPeek P base 0)
    (h : Twin base w w2) {a : Act}
    (hl : match a with
      | .create _ args kwargs => LiveArgs w args kwargs
      | .call _ _ args kwargs => LiveArgs w args kwargs) :
    TwinRes base id (Verif.step P w a.op) (Verif.step P w2 (a.shift base).op) := by
  cases a with
  | create cls args kwargs =>
    have key := h.construct hP hpk (cls := cls) (nc := false) hl
    simp only [Act.op, Act.shift, Verif.step]
    obtain ⟨k1, k2⟩ := key
    generalize Verif.construct P w cls args kwargs false = x at k1 k2 ⊢
    generalize Verif.construct P w2 cls _ _ false = x2 at k1 k2 ⊢
    obtain ⟨x, rx⟩ := x
    obtain ⟨x2, rx2⟩ := x2
    dsimp only at k1 k2
    subst k1
    cases rx with
    | error e => exact ⟨rfl, k2⟩
    | ok u => exact ⟨rfl, k2⟩
  | call r f args kwargs => exact h.callMethod hP hpk hl

theorem Twin.acts {P : Prog} (hP : P.SigsWF) {base} (hpk : NoPeek P base 0) :
    ∀ {as : List Act} {w w2}, Twin base w w2 → LiveSession P w as →
      outcomes P w2 (as.map (Act.shift base)) = outcomes P w as ∧
        Twin base (runActs P w as) (runActs P w2 (as.map (Act.shift base)))
  | [], _, _, h, _ => ⟨rfl, h⟩
  | a :: as, w, w2, h, hl => by
    obtain ⟨k1, k2⟩ := h.step hP hpk hl.1
    obtain ⟨i1, i2⟩ := Twin.acts hP hpk k2 hl.2
    refine ⟨?_, i2⟩
    simp only [List.map_cons, outcomes, i1, k1]
    congr 1
    cases (Verif.step P w a.op).2 <;> rfl

/-! ### Printing -/

/-- Both active queues exist. -/
structure Twins (base : Nat) (q q2 : Nat) (w w2 : World) : Prop extends Twin base w w2 where
  at1 : w.active = some q
  at2 : w2.active = some q2

theorem Twins.both {base q q2 w w2} (h : Twins base q q2 w w2) :
    ∃ u u2, w.queues[q]? = some u ∧ w2.queues[q2]? = some u2 ∧ u2.commands = u.commands ∧
      ∀ c ∈ u.commands, ∀ p ∈ c.params, p.2.isObj = false := by
  obtain ⟨cs, h1, h2, h3⟩ := h.act
  rcases h1 with ⟨h1, _⟩ | ⟨q', u', a1, a2, _, a4⟩
  · rw [h.at1] at h1; cases h1
  · rw [h.at1] at a1; cases a1
    rcases h2 with ⟨h2, _⟩ | ⟨q2', u2', b1, b2, _, b4⟩
    · rw [h.at2] at h2; cases h2
    · rw [h.at2] at b1; cases b1
      exact ⟨u', u2', a2, b2, b4.trans a4.symm, a4 ▸ h3⟩

theorem activeIs_closed (q : Nat) : CallClosed (fun w => w.active = some q) where
  newObj _ _ h := h
  log w r m b h := by unfold Verif.logCall; split <;> exact h
  getq w h := by rw [getQueue_none_of_active h]; exact h
  push _ _ _ _ _ _ h _ _ _ := h

theorem Twins.callConv {P : Prog} (hP : P.SigsWF) (hc : PlainConvs P) {base q q2 w w2}
    (hpk : NoPeek P base 0) (h : Twins base q q2 w w2) (f : Nat) (v : Val) :
    (Verif.callConv P w2 f v).2 = (Verif.callConv P w f v).2.map (shiftVal base) ∧
      Twins base q q2 (Verif.callConv P w f v).1 (Verif.callConv P w2 f v).1 := by
  have c1 : (Verif.callConv P w f v).1.active = some q := (activeIs_closed q).callConv h.at1
  have c2 : (Verif.callConv P w2 f v).1.active = some q2 := (activeIs_closed q2).callConv h.at2
  have key : (Verif.callConv P w2 f v).2 = (Verif.callConv P w f v).2.map (shiftVal base) ∧
      Twin base (Verif.callConv P w f v).1 (Verif.callConv P w2 f v).1 := by
    unfold Verif.callConv
    cases hf : P.conv f v with
    | pure g =>
      dsimp only
      refine ⟨?_, h.toTwin⟩
      cases hg : g v with
      | error e => rfl
      | ok y => simp only [Except.map, shiftVal_nonobj ((hc f v).1 g hf y hg)]
    | look key =>
      dsimp only
      have hreg : (key v).bind (dget w2.objects) =
          ((key v).bind (dget w.objects)).map (base + ·) := by
        cases key v with
        | none => rfl
        | some m => exact h.reg m
      rw [hreg]
      cases (key v).bind (dget w.objects) with
      | none => exact ⟨rfl, h.toTwin⟩
      | some r => exact ⟨rfl, h.toTwin⟩
    | make cls kw =>
      dsimp only
      have hp := (hc f v).2 cls kw hf
      have hl : LiveArgs w [] (kw v) := by
        refine ⟨fun x hx => (by cases hx), fun p hpm x hx => ?_⟩
        have := hp p hpm
        rw [hx] at this
        cases this
      have key := h.toTwin.construct hP hpk (cls := cls) (nc := false) hl
      rw [shiftArgs_plain hp, List.map_nil] at key
      obtain ⟨k1, k2⟩ := key
      generalize Verif.construct P w cls [] (kw v) false = x at k1 k2 ⊢
      generalize Verif.construct P w2 cls [] (kw v) false = x2 at k1 k2 ⊢
      obtain ⟨x, rx⟩ := x
      obtain ⟨x2, rx2⟩ := x2
      dsimp only at k1 k2
      subst k1
      cases rx with
      | error e => exact ⟨rfl, k2⟩
      | ok u => exact ⟨rfl, k2⟩
  exact ⟨key.1, ⟨key.2, c1, c2⟩⟩

section
variable {P : Prog} (hP : P.SigsWF) (hc : PlainConvs P) {base q q2 : Nat} (hpk : NoPeek P base 0)
include hP hc hpk

theorem Twins.showValue {w w2} (h : Twins base q q2 w w2) {v : Val} (hv : v.isObj = false) :
    (showValue P w2 v).2 = (showValue P w v).2 ∧
      Twins base q q2 (showValue P w v).1 (showValue P w2 v).1 := by
  cases v with
  | conv f x =>
    obtain ⟨k1, k2⟩ := h.callConv hP hc hpk f x
    simp only [Verif.showValue]
    generalize Verif.callConv P w f x = x at k1 k2 ⊢
    generalize Verif.callConv P w2 f _ = x2 at k1 k2 ⊢
    obtain ⟨x, rx⟩ := x
    obtain ⟨x2, rx2⟩ := x2
    dsimp only at k1 k2
    subst k1
    cases rx with
    | error e => exact ⟨rfl, k2⟩
    | ok y =>
      cases y with
      | obj r =>
        simp only [Except.map, shiftVal, k2.heap]
        cases x.heap[r]? with
        | none => exact ⟨rfl, k2⟩
        | some o => exact ⟨rfl, k2⟩
      | _ => exact ⟨rfl, k2⟩
  | _ => exact ⟨rfl, h⟩

theorem Twins.listParams {ann} : ∀ {ps : Dict String Val} {w w2} {acc : List Line},
    Twins base q q2 w w2 → (∀ p ∈ ps, p.2.isObj = false) →
    (listParams P ann w2 ps acc).2 = (listParams P ann w ps acc).2 ∧
      Twins base q q2 (listParams P ann w ps acc).1 (listParams P ann w2 ps acc).1
  | [], _, _, _, h, _ => ⟨rfl, h⟩
  | (k, v) :: ps, w, w2, acc, h, hv => by
    obtain ⟨k1, k2⟩ := h.showValue hP hc hpk (hv (k, v) (by simp))
    simp only [Verif.listParams]
    dsimp only at k1 k2
    generalize Verif.showValue P w v = x at k1 k2 ⊢
    generalize Verif.showValue P w2 v = x2 at k1 k2 ⊢
    obtain ⟨x, rx⟩ := x
    obtain ⟨x2, rx2⟩ := x2
    dsimp only at k1 k2
    subst k1
    cases rx2 with
    | error e => exact ⟨rfl, k2⟩
    | ok s =>
      dsimp only
      cases listParam ann k s with
      | error e => exact ⟨rfl, k2⟩
      | ok l => exact Twins.listParams k2 (fun p hp => hv p (List.mem_cons_of_mem _ hp))

theorem Twins.listCommand {ann} {c : Cmd} {w w2} (h : Twins base q q2 w w2)
    (hv : ∀ p ∈ c.params, p.2.isObj = false) :
    (listCommand P ann w2 c).2 = (listCommand P ann w c).2 ∧
      Twins base q q2 (listCommand P ann w c).1 (listCommand P ann w2 c).1 := by
  obtain ⟨k1, k2⟩ := Twins.listParams hP hc hpk (ann := ann) (acc := []) h hv
  unfold Verif.listCommand
  generalize Verif.listParams P ann w c.params [] = x at k1 k2 ⊢
  generalize Verif.listParams P ann w2 c.params [] = x2 at k1 k2 ⊢
  obtain ⟨x, rx⟩ := x
  obtain ⟨x2, rx2⟩ := x2
  dsimp only at k1 k2
  subst k1
  cases rx2 <;> exact ⟨rfl, k2⟩

/-- Results of loops over queues. -/
def TwinLoop {α : Type} (base q q2 : Nat) (r r2 : Option (World × Except Err α)) : Prop :=
  match r, r2 with
  | none, none => True
  | some r, some r2 => r2.2 = r.2 ∧ Twins base q q2 r.1 r2.1
  | _, _ => False

theorem Twins.listLoop {ann} : ∀ {fuel w w2 i acc}, Twins base q q2 w w2 →
    TwinLoop base q q2 (listLoop P ann fuel w q i acc) (listLoop P ann fuel w2 q2 i acc)
  | 0, _, _, _, _, _ => trivial
  | fuel + 1, w, w2, i, acc, h => by
    unfold Verif.listLoop
    obtain ⟨u, u2, hu, hu2, he, hpl⟩ := h.both
    rw [hu, hu2]
    dsimp only
    rw [he]
    cases hci : u.commands[i]? with
    | none => exact ⟨rfl, h⟩
    | some c =>
      obtain ⟨k1, k2⟩ := Twins.listCommand hP hc hpk (ann := ann c) h (hpl c (List.mem_of_getElem? hci))
      dsimp only
      generalize Verif.listCommand P (ann c) w c = x at k1 k2 ⊢
      generalize Verif.listCommand P (ann c) w2 c = x2 at k1 k2 ⊢
      obtain ⟨x, rx⟩ := x
      obtain ⟨x2, rx2⟩ := x2
      dsimp only at k1 k2
      subst k1
      cases rx2 with
      | error e => exact ⟨rfl, k2⟩
      | ok e => exact Twins.listLoop k2

/-- The dictionary of a payload holds no object. -/
theorem Twins.dumpParams : ∀ {ps : Dict String Val} {w w2} {acc : Dict String Val},
    Twins base q q2 w w2 → (∀ p ∈ ps, p.2.isObj = false) → (∀ p ∈ acc, p.2.isObj = false) →
    (dumpParams P w2 ps acc).2 = (dumpParams P w ps acc).2 ∧
      Twins base q q2 (dumpParams P w ps acc).1 (dumpParams P w2 ps acc).1 ∧
      ∀ d, (dumpParams P w ps acc).2 = .ok d → ∀ p ∈ d, p.2.isObj = false
  | [], _, _, _, h, _, ha => ⟨rfl, h, fun d hd => by cases hd; exact ha⟩
  | (k, v) :: ps, w, w2, acc, h, hv, ha => by
    have hset : ∀ k y, y.isObj = false → ∀ p ∈ dset acc k y, p.2.isObj = false := by
      intro k y hy p hp
      rcases mem_dset hp with rfl | h'
      · exact hy
      · exact ha p h'
    have hrest : ∀ p ∈ ps, p.2.isObj = false := fun p hp => hv p (List.mem_cons_of_mem _ hp)
    have hv1 := hv (k, v) (by simp)
    dsimp only at hv1
    cases v with
    | conv f x =>
      obtain ⟨k1, k2⟩ := h.callConv hP hc hpk f x
      simp only [Verif.dumpParams, callIfCallable]
      generalize Verif.callConv P w f x = x at k1 k2 ⊢
      generalize Verif.callConv P w2 f _ = x2 at k1 k2 ⊢
      obtain ⟨x, rx⟩ := x
      obtain ⟨x2, rx2⟩ := x2
      dsimp only at k1 k2
      subst k1
      cases rx with
      | error e => exact ⟨rfl, k2, fun d hd => by cases hd⟩
      | ok y =>
        cases y with
        | obj r =>
          simp only [Except.map, shiftVal, k2.heap]
          cases x.heap[r]? with
          | none => exact ⟨rfl, k2, fun d hd => by cases hd⟩
          | some o => exact Twins.dumpParams k2 hrest (hset _ _ rfl)
        | _ => exact Twins.dumpParams k2 hrest (hset _ _ rfl)
    | obj r => cases hv1
    | _ =>
      simp only [Verif.dumpParams, callIfCallable]
      exact Twins.dumpParams h hrest (hset _ _ rfl)

theorem Twins.dumpLoop : ∀ {fuel w w2 i} {acc : List Payload}, Twins base q q2 w w2 →
    (∀ e ∈ acc, ∀ p ∈ e.params, p.2.isObj = false) →
    TwinLoop base q q2 (dumpLoop P fuel w q i acc) (dumpLoop P fuel w2 q2 i acc) ∧
      ∀ x l, dumpLoop P fuel w q i acc = some (x, .ok l) →
        ∀ e ∈ l, ∀ p ∈ e.params, p.2.isObj = false
  | 0, _, _, _, _, _, _ => ⟨trivial, fun x l h => by cases h⟩
  | fuel + 1, w, w2, i, acc, h, ha => by
    unfold Verif.dumpLoop
    obtain ⟨u, u2, hu, hu2, he, hpl⟩ := h.both
    rw [hu, hu2]
    dsimp only
    rw [he]
    cases hci : u.commands[i]? with
    | none => exact ⟨⟨rfl, h⟩, fun x l hl => by cases hl; exact ha⟩
    | some c =>
      obtain ⟨k1, k2, k3⟩ := Twins.dumpParams hP hc hpk (acc := []) h (hpl c (List.mem_of_getElem? hci))
        (fun p hp => by cases hp)
      dsimp only [dumpCommand]
      generalize Verif.dumpParams P w c.params [] = x at k1 k2 k3 ⊢
      generalize Verif.dumpParams P w2 c.params [] = x2 at k1 k2 ⊢
      obtain ⟨x, rx⟩ := x
      obtain ⟨x2, rx2⟩ := x2
      dsimp only at k1 k2 k3
      subst k1
      cases rx2 with
      | error e => exact ⟨⟨rfl, k2⟩, fun x l hl => by cases hl⟩
      | ok d =>
        refine Twins.dumpLoop k2 ?_
        intro e he
        rcases List.mem_append.1 he with he | he
        · exact ha e he
        · rw [List.mem_singleton] at he
          subst he
          exact k3 d rfl

omit hP hc hpk in
theorem encodeParams_plain {ij : Codec} {w w2 : World} : ∀ {d : Dict String Val},
    (∀ p ∈ d, p.2.isObj = false) → encodeParams ij w2 d = encodeParams ij w d
  | [], _ => rfl
  | (k, v) :: d, h => by
    have h1 : encodeVal ij w2 v = encodeVal ij w v := by
      have := h (k, v) (by simp)
      dsimp only at this
      cases v <;> first | rfl | cases this
    simp only [encodeParams, h1, encodeParams_plain (w := w) (w2 := w2)
      (fun p hp => h p (List.mem_cons_of_mem _ hp))]

omit hP hc hpk in
theorem encodeAll_noObj {ij : Codec} {w w2 : World} : ∀ {l : List Payload},
    (∀ e ∈ l, ∀ p ∈ e.params, p.2.isObj = false) → encodeAll ij w2 l = encodeAll ij w l
  | [], _ => rfl
  | e :: l, h => by
    simp only [encodeAll, encodeParams_plain (w := w) (w2 := w2) (h e (by simp)),
      encodeAll_noObj (w := w) (w2 := w2) (fun e he => h e (List.mem_cons_of_mem _ he))]

theorem Twins.dumpQueue {ij : Codec} {fuel w w2} (h : Twins base q q2 w w2) :
    TwinLoop base q q2 (dumpQueue P ij fuel w none) (dumpQueue P ij fuel w2 none) := by
  unfold Verif.dumpQueue pickQueue
  dsimp only
  rw [getQueue_none_of_active h.at1, getQueue_none_of_active h.at2]
  dsimp only
  obtain ⟨k1, k2⟩ := Twins.dumpLoop hP hc hpk (fuel := fuel) (i := 0) (acc := []) h
    (fun e he => by cases he)
  generalize Verif.dumpLoop P fuel w q 0 [] = x at k1 k2 ⊢
  generalize Verif.dumpLoop P fuel w2 q2 0 [] = x2 at k1 ⊢
  rcases x with _ | ⟨x, rx⟩ <;> rcases x2 with _ | ⟨x2, rx2⟩
  · trivial
  · exact k1.elim
  · exact k1.elim
  · obtain ⟨k1, k3⟩ := k1
    dsimp only at k1 k3
    subst k1
    cases rx2 with
    | error e => exact ⟨rfl, k3⟩
    | ok l => exact ⟨encodeAll_noObj (k2 x l rfl), k3⟩

theorem Twins.ansiDump {ann fuel w w2} (h : Twins base q q2 w w2) :
    TwinLoop base q q2 (ansiDump P ann fuel w none) (ansiDump P ann fuel w2 none) := by
  unfold Verif.ansiDump pickQueue
  dsimp only
  rw [getQueue_none_of_active h.at1, getQueue_none_of_active h.at2]
  exact Twins.listLoop hP hc hpk h

theorem Twins.mkdocsDump {ij : Codec} {fuel w w2} (h : Twins base q q2 w w2) (ansi json : Bool) :
    TwinLoop base q q2 (mkdocsDump P ij fuel w ansi json) (mkdocsDump P ij fuel w2 ansi json) := by
  have hj : ∀ {x x2} (r : Option (List Entry)), Twins base q q2 x x2 →
      TwinLoop base q q2
        (match Verif.dumpQueue P ij fuel x none with
          | none => none
          | some (w'', .error e) => some (w'', .error e)
          | some (w'', .ok j) => some (w'', .ok (r, some j)))
        (match Verif.dumpQueue P ij fuel x2 none with
          | none => none
          | some (w'', .error e) => some (w'', .error e)
          | some (w'', .ok j) => some (w'', .ok (r, some j))) := by
    intro x x2 r hx
    have k := Twins.dumpQueue hP hc hpk (ij := ij) (fuel := fuel) hx
    generalize Verif.dumpQueue P ij fuel x none = y at k ⊢
    generalize Verif.dumpQueue P ij fuel x2 none = y2 at k ⊢
    rcases y with _ | ⟨y, ry⟩ <;> rcases y2 with _ | ⟨y2, ry2⟩
    · trivial
    · exact k.elim
    · exact k.elim
    · obtain ⟨k1, k3⟩ := k
      dsimp only at k1 k3
      subst k1
      cases ry2 <;> exact ⟨rfl, k3⟩
  unfold Verif.mkdocsDump
  cases ansi with
  | true =>
    simp only [if_true]
    have k := Twins.ansiDump hP hc hpk (ann := recordedAnnots P) (fuel := fuel) h
    generalize Verif.ansiDump P (recordedAnnots P) fuel w none = y at k ⊢
    generalize Verif.ansiDump P (recordedAnnots P) fuel w2 none = y2 at k ⊢
    rcases y with _ | ⟨y, ry⟩ <;> rcases y2 with _ | ⟨y2, ry2⟩
    · trivial
    · exact k.elim
    · exact k.elim
    · obtain ⟨k1, k3⟩ := k
      dsimp only at k1 k3
      subst k1
      cases ry2 with
      | error e => exact ⟨rfl, k3⟩
      | ok l =>
        cases json with
        | true => exact hj _ k3
        | false => exact ⟨rfl, k3⟩
  | false =>
    cases json with
    | true => exact hj _ h
    | false => exact ⟨rfl, h⟩

end

/-! ### The start of an example -/

/-- The first look at the active queue creates it. -/
theorem mkdocsDump_getQueue (P : Prog) (ij : Codec) (fuel : Nat) (w : World) (ansi json : Bool) :
    (mkdocsDump P ij fuel w ansi json).map Prod.snd =
      (mkdocsDump P ij fuel (getQueue w none).1 ansi json).map Prod.snd := by
  have hg : getQueue (getQueue w none).1 none = getQueue w none := by
    rw [getQueue_none_of_active (getQueue_none_active w)]
  have ha : ∀ ann, ansiDump P ann fuel (getQueue w none).1 none = ansiDump P ann fuel w none := by
    intro ann
    unfold ansiDump pickQueue
    dsimp only
    rw [hg]
  have hd : dumpQueue P ij fuel (getQueue w none).1 none = dumpQueue P ij fuel w none := by
    unfold dumpQueue pickQueue
    dsimp only
    rw [hg]
  unfold mkdocsDump
  rw [ha, hd]
  cases ansi <;> cases json <;> rfl

theorem twin_enter {w : World} (hw : w.Writable) : Twin w.heap.length w.alone (mkdocsEnter w) := by
  have hs : (getQueue w none).1.heap = w.heap ∧
      (getQueue w none).1.recording = w.recording ∧
      (getQueue w none).1.objRecord = w.objRecord ∧
      (getQueue w none).1.converters = w.converters := by
    simp only [Verif.getQueue, getQueue.activeOrNew]
    split
    · exact ⟨rfl, rfl, rfl, rfl⟩
    · exact ⟨rfl, rfl, rfl, rfl⟩
  obtain ⟨s1, s2, s3, s4⟩ := hs
  refine ⟨?_, ?_, rfl, rfl, ?_, ?_, ?_, fun _ => rfl, [], Or.inl ⟨rfl, rfl⟩, ?_, fun c hc => by cases hc⟩
  · simp [mkdocsEnter, emptyQueue, setQueue, World.alone, World.start, World.fresh, s1]
  · intro r
    simp only [mkdocsEnter, emptyQueue, setQueue, World.alone, World.start, World.fresh, s1]
    rw [List.getElem?_eq_none (by omega)]
    simp
  · simp [mkdocsEnter, emptyQueue, setQueue, World.alone, s2]
  · simp [mkdocsEnter, emptyQueue, setQueue, World.alone, s3]
  · simp [mkdocsEnter, emptyQueue, setQueue, World.alone, World.start, s4]
  · refine Or.inr ?_
    rcases hw with h | ⟨q, u, h1, h2, h3⟩
    · simp only [mkdocsEnter, Verif.getQueue, getQueue.activeOrNew, h, newQueue, emptyQueue, setQueue]
      exact ⟨_, ⟨"default", false, []⟩, rfl, by simp [List.getElem?_modify], rfl, rfl⟩
    · unfold mkdocsEnter
      rw [getQueue_none_of_active h1]
      exact ⟨q, ⟨u.name, u.readonly, []⟩, h1, by simp [emptyQueue, setQueue, h2], h3, rfl⟩

end Verif
