import Verif.Spec.Number
import Verif.Lemmas.Registry
import Verif.Lemmas.Collect
import Verif.Lemmas.Json
import Verif.Lemmas.Api
/-! Two sessions that differ in how canvases are given. -/

namespace Verif

/-! ### Worlds that save alike -/

/-- The second parameter is the first one, or the number of the object it refers to, to be looked
up. -/
def ParamAlike (P : Prog) (objs : Dict Int Nat) (p p' : String × Val) : Prop :=
  p' = p ∨ ∃ k f v key m, p = (k ++ "(id)", .oid m) ∧ p' = (k, .conv f v) ∧
    P.conv f v = .look key ∧ key v = some m ∧ (dget objs m).isSome = true

structure CmdAlike (P : Prog) (objs : Dict Int Nat) (c c' : Cmd) : Prop where
  cid : c'.cid = c.cid
  cls : c'.cls = c.cls
  meth : c'.meth = c.meth
  params : List.Forall₂ (ParamAlike P objs) c.params c'.params

structure QueueAlike (P : Prog) (objs : Dict Int Nat) (u u' : Queue) : Prop where
  name : u'.name = u.name
  readonly : u'.readonly = u.readonly
  commands : List.Forall₂ (CmdAlike P objs) u.commands u'.commands

/-- What matters of an object here. -/
def silhouette (o : Obj) : Int × String × Int := (o.id, o.cls, o.born)

/-- The worlds differ in the calls that the objects have seen, and in the way in which commands
refer to objects. -/
structure Alike (P : Prog) (w w' : World) : Prop where
  heap : w'.heap.map silhouette = w.heap.map silhouette
  objects : w'.objects = w.objects
  oid : w'.oidCounter = w.oidCounter
  cid : w'.cidCounter = w.cidCounter
  objRecord : w'.objRecord = w.objRecord
  recording : w'.recording = w.recording
  active : w'.active = w.active
  converters : w'.converters = w.converters
  queues : List.Forall₂ (QueueAlike P w.objects) w.queues w'.queues

section
variable {P : Prog} {w w' : World}

theorem Alike.length (h : Alike P w w') : w'.heap.length = w.heap.length := by
  have := congrArg List.length h.heap
  simpa using this

theorem Alike.at (h : Alike P w w') (r : Nat) :
    (w'.heap[r]?).map silhouette = (w.heap[r]?).map silhouette := by
  rw [← List.getElem?_map, ← List.getElem?_map, h.heap]

theorem Alike.gone (h : Alike P w w') {r : Nat} (hr : w.heap[r]? = none) : w'.heap[r]? = none := by
  have := h.at r
  rw [hr] at this
  simpa using this

theorem Alike.there (h : Alike P w w') {r : Nat} {o} (hr : w.heap[r]? = some o) :
    ∃ o', w'.heap[r]? = some o' ∧ o'.id = o.id ∧ o'.cls = o.cls ∧ o'.born = o.born := by
  have := h.at r
  rw [hr] at this
  cases ho : w'.heap[r]? with
  | none => rw [ho] at this; cases this
  | some o' =>
    rw [ho] at this
    simp only [Option.map_some, Option.some.injEq, silhouette, Prod.mk.injEq] at this
    exact ⟨o', rfl, this.1, this.2.1, this.2.2⟩

end

theorem ParamAlike.mono {P : Prog} {objs objs' : Dict Int Nat}
    (ho : ∀ m, (dget objs m).isSome = true → (dget objs' m).isSome = true) {p p'}
    (h : ParamAlike P objs p p') : ParamAlike P objs' p p' := by
  rcases h with h | ⟨k, f, v, key, m, h1, h2, h3, h4, h5⟩
  · exact Or.inl h
  · exact Or.inr ⟨k, f, v, key, m, h1, h2, h3, h4, ho m h5⟩

theorem CmdAlike.mono {P : Prog} {objs objs' : Dict Int Nat}
    (ho : ∀ m, (dget objs m).isSome = true → (dget objs' m).isSome = true) {c c'}
    (h : CmdAlike P objs c c') : CmdAlike P objs' c c' :=
  ⟨h.cid, h.cls, h.meth, h.params.imp (fun _ _ => ParamAlike.mono ho)⟩

theorem QueueAlike.mono {P : Prog} {objs objs' : Dict Int Nat}
    (ho : ∀ m, (dget objs m).isSome = true → (dget objs' m).isSome = true) {u u'}
    (h : QueueAlike P objs u u') : QueueAlike P objs' u u' :=
  ⟨h.name, h.readonly, h.commands.imp (fun _ _ => CmdAlike.mono ho)⟩

theorem ParamAlike.refl (P : Prog) (objs : Dict Int Nat) (p) : ParamAlike P objs p p := Or.inl rfl

theorem paramsAlike_refl (P : Prog) (objs : Dict Int Nat) (ps : Dict String Val) :
    List.Forall₂ (ParamAlike P objs) ps ps :=
  List.forall₂_same.2 (fun p _ => ParamAlike.refl P objs p)

theorem Alike.refl (P : Prog) (w : World) : Alike P w w :=
  ⟨rfl, rfl, rfl, rfl, rfl, rfl, rfl, rfl, List.forall₂_same.2 (fun _ _ => ⟨rfl, rfl,
    List.forall₂_same.2 (fun _ _ => ⟨rfl, rfl, rfl, paramsAlike_refl P _ _⟩)⟩)⟩

theorem forall₂_get {α β : Type} {R : α → β → Prop} {l : List α} {l' : List β}
    (h : List.Forall₂ R l l') (i : Nat) :
    (l[i]? = none ∧ l'[i]? = none) ∨ ∃ a b, l[i]? = some a ∧ l'[i]? = some b ∧ R a b := by
  induction h generalizing i with
  | nil => exact Or.inl ⟨rfl, rfl⟩
  | cons hd _ ih =>
    cases i with
    | zero => exact Or.inr ⟨_, _, rfl, rfl, hd⟩
    | succ i => simpa using ih i

theorem forall₂_modify {α β : Type} {R : α → β → Prop} {l : List α} {l' : List β}
    {f : α → α} {g : β → β} (h : List.Forall₂ R l l') (hfg : ∀ a b, R a b → R (f a) (g b)) (i : Nat) :
    List.Forall₂ R (l.modify i f) (l'.modify i g) := by
  induction h generalizing i with
  | nil => cases i <;> exact List.Forall₂.nil
  | cons hd tl ih =>
    cases i with
    | zero => exact List.Forall₂.cons (hfg _ _ hd) tl
    | succ i => exact List.Forall₂.cons hd (ih i)

theorem forall₂_snoc {α β : Type} {R : α → β → Prop} {l : List α} {l' : List β}
    (h : List.Forall₂ R l l') {a b} (hab : R a b) : List.Forall₂ R (l ++ [a]) (l' ++ [b]) :=
  List.rel_append h (List.Forall₂.cons hab List.Forall₂.nil)

theorem Alike.getQueue {P : Prog} {w w' : World} (h : Alike P w w') :
    Alike P (getQueue w none).1 (getQueue w' none).1 ∧
      (getQueue w' none).2 = (getQueue w none).2 := by
  simp only [Verif.getQueue, getQueue.activeOrNew, h.active]
  cases hw : w.active with
  | some q => exact ⟨h, rfl⟩
  | none =>
    simp only [newQueue]
    have hlen : w'.queues.length = w.queues.length := h.queues.length_eq.symm
    exact ⟨⟨h.heap, h.objects, h.oid, h.cid, h.objRecord, h.recording, by simp [hlen], h.converters,
      forall₂_snoc h.queues ⟨rfl, rfl, List.Forall₂.nil⟩⟩, hlen⟩

theorem Alike.newObject {P : Prog} {w w' : World} (h : Alike P w w') (cls : String) :
    Alike P (newObject w cls).1 (newObject w' cls).1 ∧
      (newObject w' cls).2 = (newObject w cls).2 := by
  refine ⟨⟨?_, ?_, ?_, h.cid, h.objRecord, h.recording, h.active, h.converters, ?_⟩, h.length⟩
  · simp only [Verif.newObject, List.map_append, h.heap, h.oid]
  · simp only [Verif.newObject, h.length, h.oid, h.objRecord, h.objects]
  · simp only [Verif.newObject, h.oid]
  · refine h.queues.imp (fun _ _ => QueueAlike.mono ?_)
    intro m hm
    simp only [Verif.newObject]
    split
    · by_cases hk : (1 : Int) + w.oidCounter = m
      · subst hk; rw [dget_dset_self]; rfl
      · rw [dget_dset_ne _ _ hk]; exact hm
    · exact hm

theorem Alike.logCall {P : Prog} {w w' : World} (h : Alike P w w') (r : Nat) (f : String)
    (b b' : Dict String Val) : Alike P (logCall w r f b) (logCall w' r f b') := by
  have key : ∀ (x : World) b, (Verif.logCall x r f b).heap.map silhouette = x.heap.map silhouette ∧
      (Verif.logCall x r f b) = { x with heap := (Verif.logCall x r f b).heap } := by
    intro x b
    unfold Verif.logCall
    cases ho : x.heap[r]? with
    | none => exact ⟨rfl, rfl⟩
    | some o =>
      refine ⟨?_, rfl⟩
      dsimp only
      apply List.ext_getElem?
      intro i
      simp only [List.getElem?_map, List.getElem?_set]
      by_cases hi : r = i
      · subst hi
        rw [ho]
        simp [(List.getElem?_eq_some_iff.1 ho).1, silhouette]
      · simp [hi]
  obtain ⟨a1, a2⟩ := key w b
  obtain ⟨b1, b2⟩ := key w' b'
  generalize (Verif.logCall w r f b).heap = x at a1 a2
  generalize (Verif.logCall w' r f b').heap = x' at b1 b2
  rw [a2, b2]
  exact ⟨by rw [a1, b1]; exact h.heap, h.objects, h.oid, h.cid, h.objRecord, h.recording, h.active,
    h.converters, h.queues⟩

theorem Alike.stripObjs {P : Prog} {w w' : World} (h : Alike P w w') (ps : Dict String Val) :
    stripObjs w' ps = stripObjs w ps := by
  unfold Verif.stripObjs
  apply List.map_congr_left
  intro p _
  cases hp : p.2 with
  | obj r =>
    cases hr : w.heap[r]? with
    | none => simp only [h.gone hr, hr]
    | some o =>
      obtain ⟨o', ho', hid, _⟩ := h.there hr
      simp only [ho', hr, hid]
  | _ => rfl

theorem Alike.pushCmd {P : Prog} {w w' : World} (h : Alike P w w') (q : Nat) (cls m : String)
    {ps ps' : Dict String Val}
    (hp : List.Forall₂ (ParamAlike P w.objects) (Verif.stripObjs w ps) (Verif.stripObjs w' ps')) :
    Alike P (pushCmd w q cls m ps) (pushCmd w' q cls m ps') := by
  refine ⟨h.heap, h.objects, h.oid, ?_, h.objRecord, h.recording, h.active, h.converters, ?_⟩
  · simp only [Verif.pushCmd, setQueue, h.cid]
  · simp only [Verif.pushCmd, setQueue, h.cid]
    refine forall₂_modify h.queues ?_ q
    intro u u' hu
    unfold Queue.push
    rw [hu.readonly]
    cases u.readonly with
    | true => exact hu
    | false =>
      exact ⟨hu.name, rfl, forall₂_snoc hu.commands ⟨rfl, rfl, rfl, hp⟩⟩

theorem Alike.typeName {P : Prog} {w w' : World} (h : Alike P w w') (v : Val) :
    typeName w' v = typeName w v := by
  cases v with
  | obj r =>
    cases hr : w.heap[r]? with
    | none => simp only [Verif.typeName, h.gone hr, hr]
    | some o =>
      obtain ⟨o', ho', _, hc, _⟩ := h.there hr
      simp only [Verif.typeName, ho', hr, hc]
  | _ => rfl

theorem Alike.checkParam {P : Prog} {w w' : World} (h : Alike P w w')
    (annots : Dict String (List String)) (k : String) (v : Val) :
    checkParam P w' annots k v = checkParam P w annots k v := by
  unfold Verif.checkParam
  rw [h.typeName, h.converters]

theorem Alike.checkParams {P : Prog} {w w' : World} (h : Alike P w w')
    (annots : Dict String (List String)) : ∀ ps : Dict String Val,
    checkParams P w' annots ps = checkParams P w annots ps
  | [] => rfl
  | (k, v) :: ps => by
    unfold Verif.checkParams
    rw [h.checkParam, h.checkParams annots ps]

/-- The checked parameters of two calls are alike, or both are refused for the same reason. -/
def CheckedAlike (P : Prog) (w w' : World) : Except Err (Dict String Val) →
    Except Err (Dict String Val) → Prop
  | .ok ps, .ok ps' =>
    List.Forall₂ (ParamAlike P w.objects) (Verif.stripObjs w ps) (Verif.stripObjs w' ps')
  | .error e, .error e' => e' = e
  | _, _ => False

/-- The outcomes agree and the worlds remain alike. -/
def AlikeRes (P : Prog) {α : Type} (x x' : World × Except Err α) : Prop :=
  x'.2 = x.2 ∧ Alike P x.1 x'.1

theorem Alike.recordCall {P : Prog} {w w' : World} (h : Alike P w w') {r f sg args kwargs args' kwargs' nc}
    (hc : ∀ x x' id, Alike P x x' → x.heap = w.heap → x.objects = w.objects →
      x.converters = w.converters →
      CheckedAlike P x x' (Verif.checkParams P x sg.annots (collect sg id args kwargs))
        (Verif.checkParams P x' sg.annots (collect sg id args' kwargs'))) :
    AlikeRes P (recordCall P w r f sg args kwargs nc) (recordCall P w' r f sg args' kwargs' nc) := by
  unfold Verif.recordCall
  rw [h.recording]
  split
  · exact ⟨rfl, h⟩
  · obtain ⟨hq, hq2⟩ := h.getQueue
    have hc' := fun id => hc _ _ id hq (getQueue_none_heap w)
      (by unfold Verif.getQueue getQueue.activeOrNew; dsimp only; split <;> rfl) (by
        unfold Verif.getQueue getQueue.activeOrNew; dsimp only; split <;> rfl)
    dsimp only
    rw [hq2]
    generalize (Verif.getQueue w none).1 = v at *
    generalize (Verif.getQueue w' none).1 = v' at *
    generalize (Verif.getQueue w none).2 = q at *
    cases ho : v.heap[r]? with
    | none => rw [hq.gone ho]; exact ⟨rfl, hq⟩
    | some o =>
      obtain ⟨o', ho', hid, hcls, _⟩ := hq.there ho
      rw [ho']
      dsimp only
      rw [hid, hcls]
      have hch := hc' o.id
      cases hcp : Verif.checkParams P v sg.annots (collect sg o.id args kwargs) with
      | error e =>
        rw [hcp] at hch
        cases hcp' : Verif.checkParams P v' sg.annots (collect sg o.id args' kwargs') with
        | error e' => rw [hcp'] at hch; cases hch; exact ⟨rfl, hq⟩
        | ok ps' => rw [hcp'] at hch; exact hch.elim
      | ok ps =>
        rw [hcp] at hch
        cases hcp' : Verif.checkParams P v' sg.annots (collect sg o.id args' kwargs') with
        | error e' => rw [hcp'] at hch; exact hch.elim
        | ok ps' =>
          rw [hcp'] at hch
          dsimp only
          rcases forall₂_get hq.queues q with ⟨h1, h2⟩ | ⟨u, u', h1, h2, h3⟩
          · rw [h1, h2]; exact ⟨rfl, hq⟩
          · rw [h1, h2]
            dsimp only
            rw [h3.readonly]
            split
            · exact ⟨rfl, hq.pushCmd q _ _ hch⟩
            · exact ⟨rfl, hq⟩

theorem checkedAlike_same {P : Prog} {x x' : World} (h : Alike P x x')
    (annots : Dict String (List String)) (d : Dict String Val) :
    CheckedAlike P x x' (Verif.checkParams P x annots d) (Verif.checkParams P x' annots d) := by
  rw [h.checkParams]
  cases Verif.checkParams P x annots d with
  | error e => rfl
  | ok ps =>
    show List.Forall₂ _ _ _
    rw [h.stripObjs]
    exact paramsAlike_refl _ _ _

/-- Whether a body raises depends on the class of the object and the arguments. -/
def ByClass (P : Prog) : Prop := ∀ o o' f b, o'.cls = o.cls → P.raises o' f b = P.raises o f b

theorem Alike.callMethod {P : Prog} (hP : ByClass P) {w w' : World} (h : Alike P w w')
    {r f args kwargs nc} :
    AlikeRes P (callMethod P w r f args kwargs nc) (callMethod P w' r f args kwargs nc) := by
  unfold Verif.callMethod
  cases ho : w.heap[r]? with
  | none => rw [h.gone ho]; exact ⟨rfl, h⟩
  | some o =>
    obtain ⟨o', ho', _, hcls, _⟩ := h.there ho
    rw [ho']
    dsimp only
    rw [hcls]
    cases hs : P.sig o.cls f with
    | none => exact ⟨rfl, h⟩
    | some sg =>
      dsimp only
      cases hb : bindArgs sg args kwargs with
      | error e => exact ⟨rfl, h⟩
      | ok b =>
        dsimp only
        rw [hP o o' f b hcls]
        cases P.raises o f b with
        | some e => exact ⟨rfl, h⟩
        | none =>
          exact (h.logCall r f b b).recordCall (fun x x' id hx _ _ _ => checkedAlike_same hx _ _)

theorem Alike.constructWith {P : Prog} (hP : ByClass P) {w w' : World} (h : Alike P w w')
    {cls args kwargs args' kwargs' nc}
    (hb : ∀ sg, P.sig cls "__init__" = some sg →
      (∃ e, bindArgs sg args kwargs = .error e ∧ bindArgs sg args' kwargs' = .error e) ∨
      ∃ b b', bindArgs sg args kwargs = .ok b ∧ bindArgs sg args' kwargs' = .ok b' ∧
        (∀ o, o.cls = cls → P.raises o "__init__" b' = P.raises o "__init__" b) ∧
        ∀ x x' id, Alike P x x' → (∀ m, (dget w.objects m).isSome = true → (dget x.objects m).isSome = true) →
          (∀ (r : Nat) (o : Obj), w.heap[r]? = some o → ∃ o' : Obj, x.heap[r]? = some o' ∧ o'.id = o.id) →
          x.converters = w.converters →
          CheckedAlike P x x' (Verif.checkParams P x sg.annots (collect sg id args kwargs))
            (Verif.checkParams P x' sg.annots (collect sg id args' kwargs'))) :
    AlikeRes P (construct P w cls args kwargs nc) (construct P w' cls args' kwargs' nc) := by
  unfold Verif.construct
  cases hs : P.sig cls "__init__" with
  | none => exact ⟨rfl, h⟩
  | some sg =>
    dsimp only
    rcases hb sg hs with ⟨e, h1, h2⟩ | ⟨b, b', h1, h2, h3, h4⟩
    · rw [h1, h2]; exact ⟨rfl, h⟩
    · rw [h1, h2]
      dsimp only
      obtain ⟨hn, hr⟩ := h.newObject cls
      rw [hr]
      have hobj : ∀ m, (dget w.objects m).isSome = true →
          (dget (Verif.newObject w cls).1.objects m).isSome = true := by
        intro m hm
        simp only [Verif.newObject]
        split
        · by_cases hk : (1 : Int) + w.oidCounter = m
          · subst hk; rw [dget_dset_self]; rfl
          · rw [dget_dset_ne _ _ hk]; exact hm
        · exact hm
      have hheap : ∀ (r : Nat) (o : Obj), w.heap[r]? = some o → (Verif.newObject w cls).1.heap[r]? = some o := by
        intro r o hro
        simp only [Verif.newObject]
        rw [List.getElem?_append_left (List.getElem?_eq_some_iff.1 hro).1, hro]
      have hconv : (Verif.newObject w cls).1.converters = w.converters := rfl
      have hcl : ∀ o, (Verif.newObject w cls).1.heap[(Verif.newObject w cls).2]? = some o →
          o.cls = cls := by
        intro o ho
        simp only [Verif.newObject, List.getElem?_append_right (Nat.le_refl _), Nat.sub_self,
          List.getElem?_cons_zero, Option.some.injEq] at ho
        rw [← ho]
      generalize (Verif.newObject w cls).1 = v at *
      generalize (Verif.newObject w' cls).1 = v' at *
      generalize (Verif.newObject w cls).2 = r at *
      cases ho : v.heap[r]? with
      | none => rw [hn.gone ho]; exact ⟨rfl, hn⟩
      | some o =>
        obtain ⟨o', ho', _, hcls, _⟩ := hn.there ho
        rw [ho']
        dsimp only
        rw [hP o o' _ b' hcls, h3 o (hcl o ho)]
        cases P.raises o "__init__" b with
        | some e => exact ⟨rfl, hn⟩
        | none =>
          have key := (hn.logCall r "__init__" b b').recordCall (r := r) (f := "__init__") (sg := sg)
            (args := args) (kwargs := kwargs) (args' := args') (kwargs' := kwargs') (nc := nc) (by
              intro x x' id hx hxh hxo hxc
              refine h4 x x' id hx ?_ ?_ ?_
              · intro m hm
                rw [hxo]
                have : (Verif.logCall v r "__init__" b).objects = v.objects := by
                  unfold Verif.logCall; split <;> rfl
                rw [this]
                exact hobj m hm
              · intro i oi hi
                have hi' := hheap i oi hi
                rw [hxh]
                unfold Verif.logCall
                rw [ho]
                dsimp only
                by_cases hri : r = i
                · subst hri
                  rw [ho] at hi'
                  cases hi'
                  exact ⟨_, List.getElem?_set_self (List.getElem?_eq_some_iff.1 ho).1, rfl⟩
                · exact ⟨oi, by rw [List.getElem?_set_ne hri]; exact hi', rfl⟩
              · rw [hxc]
                have : (Verif.logCall v r "__init__" b).converters = v.converters := by
                  unfold Verif.logCall; split <;> rfl
                rw [this, hconv])
          obtain ⟨k1, k2⟩ := key
          dsimp only
          generalize Verif.recordCall P (Verif.logCall v r "__init__" b) r "__init__" sg args kwargs nc
            = x at k1 k2 ⊢
          generalize Verif.recordCall P (Verif.logCall v' r "__init__" b') r "__init__" sg args' kwargs' nc
            = x' at k1 k2 ⊢
          obtain ⟨x, rx⟩ := x
          obtain ⟨x', rx'⟩ := x'
          dsimp only at k1 k2
          subst k1
          cases rx' with
          | error e => exact ⟨rfl, k2⟩
          | ok u => exact ⟨rfl, k2⟩

theorem Alike.construct {P : Prog} (hP : ByClass P) {w w' : World} (h : Alike P w w')
    {cls args kwargs nc} :
    AlikeRes P (construct P w cls args kwargs nc) (construct P w' cls args kwargs nc) := by
  refine h.constructWith hP (fun sg _ => ?_)
  cases hb : bindArgs sg args kwargs with
  | error e => exact Or.inl ⟨e, rfl, rfl⟩
  | ok b => exact Or.inr ⟨b, b, rfl, rfl, fun _ _ => rfl, fun x x' id hx _ _ _ => checkedAlike_same hx _ _⟩

theorem Alike.callConv {P : Prog} (hP : ByClass P) {w w' : World} (h : Alike P w w') (f : Nat) (v : Val) :
    AlikeRes P (callConv P w f v) (callConv P w' f v) := by
  unfold Verif.callConv
  cases hf : P.conv f v with
  | pure g => exact ⟨rfl, h⟩
  | look key =>
    dsimp only
    rw [h.objects]
    cases (key v).bind (dget w.objects) <;> exact ⟨rfl, h⟩
  | make cls kw =>
    have key := h.construct hP (cls := cls) (args := []) (kwargs := kw v) (nc := false)
    obtain ⟨k1, k2⟩ := key
    dsimp only
    generalize Verif.construct P w cls [] (kw v) false = x at k1 k2 ⊢
    generalize Verif.construct P w' cls [] (kw v) false = x' at k1 k2 ⊢
    obtain ⟨x, rx⟩ := x
    obtain ⟨x', rx'⟩ := x'
    dsimp only at k1 k2
    subst k1
    cases rx' with
    | error e => exact ⟨rfl, k2⟩
    | ok u => exact ⟨rfl, k2⟩

/-! ### Saving -/

theorem registered_closed (m : Int) : CallClosed (fun w => (dget w.objects m).isSome = true) where
  newObj := by
    intro w cls hm
    simp only [newObject]
    split
    · by_cases hk : (1 : Int) + w.oidCounter = m
      · subst hk; rw [dget_dset_self]; rfl
      · rw [dget_dset_ne _ _ hk]; exact hm
    · exact hm
  log := by intro w r m' b h; unfold logCall; split <;> exact h
  getq := by
    intro w h
    unfold getQueue getQueue.activeOrNew
    dsimp only
    split <;> exact h
  push := by intro w q u cls meth ps h _ _ _; exact h

theorem Alike.dumpParams {P : Prog} (hP : ByClass P) :
    ∀ {ps ps' : Dict String Val} {w w' : World} {acc : Dict String Val}, Alike P w w' →
      RegistryCoherent w → List.Forall₂ (ParamAlike P w.objects) ps ps' →
      AlikeRes P (dumpParams P w ps acc) (dumpParams P w' ps' acc) ∧
        RegistryCoherent (dumpParams P w ps acc).1
  | [], [], _, _, _, h, hco, _ => ⟨⟨rfl, h⟩, hco⟩
  | [], _ :: _, _, _, _, _, _, hp => by cases hp
  | _ :: _, [], _, _, _, _, _, hp => by cases hp
  | (k, v) :: ps, p' :: ps', w, w', acc, h, hco, hp => by
    obtain ⟨hd, tl⟩ := List.forall₂_cons.1 hp
    rcases hd with rfl | ⟨k0, f, v0, key, m, h1, rfl, h3, h4, h5⟩
    · -- the same parameter
      have hcall : AlikeRes P (callIfCallable P w v) (callIfCallable P w' v) ∧
          RegistryCoherent (callIfCallable P w v).1 ∧
          (∀ m, (dget w.objects m).isSome = true →
            (dget (callIfCallable P w v).1.objects m).isSome = true) := by
        cases v with
        | conv f x =>
          refine ⟨h.callConv hP f x, coherent_closed.toCallClosed.callConv hco, ?_⟩
          intro m hm
          exact (registered_closed m).callConv hm
        | _ => exact ⟨⟨rfl, h⟩, hco, fun _ hm => hm⟩
      obtain ⟨⟨c1, c2⟩, c3, c4⟩ := hcall
      unfold Verif.dumpParams
      generalize callIfCallable P w v = x at c1 c2 c3 c4 ⊢
      generalize callIfCallable P w' v = x' at c1 c2 ⊢
      obtain ⟨x, rx⟩ := x
      obtain ⟨x', rx'⟩ := x'
      dsimp only at c1 c2 c3 c4
      subst c1
      have tl' := tl.imp (fun _ _ => ParamAlike.mono c4)
      cases rx' with
      | error e => exact ⟨⟨rfl, c2⟩, c3⟩
      | ok y =>
        cases y with
        | obj r =>
          dsimp only
          cases hr : x.heap[r]? with
          | none => rw [c2.gone hr]; exact ⟨⟨rfl, c2⟩, c3⟩
          | some o =>
            obtain ⟨o', ho', hid, _⟩ := c2.there hr
            rw [ho']
            dsimp only
            rw [hid]
            exact Alike.dumpParams hP c2 c3 tl'
        | _ => exact Alike.dumpParams hP c2 c3 tl'
    · -- a number that is looked up
      cases h1
      obtain ⟨r, hr⟩ := Option.isSome_iff_exists.1 h5
      obtain ⟨o, ho, hid⟩ := hco m r hr
      obtain ⟨o', ho', hid', _⟩ := h.there ho
      unfold Verif.dumpParams
      have hl : Verif.callConv P w' f v0 = (w', .ok (.obj r)) := by
        unfold Verif.callConv
        rw [h3]
        dsimp only
        rw [h.objects, h4, Option.bind_some, hr]
      simp only [callIfCallable, hl, ho', hid', hid]
      exact Alike.dumpParams hP h hco tl
theorem Alike.dumpLoop {P : Prog} (hP : ByClass P) : ∀ {fuel : Nat} {w w' : World} {q i : Nat}
    {acc : List Payload}, Alike P w w' → RegistryCoherent w →
    match dumpLoop P fuel w q i acc, dumpLoop P fuel w' q i acc with
    | none, none => True
    | some x, some x' => AlikeRes P x x'
    | _, _ => False
  | 0, _, _, _, _, _, _, _ => trivial
  | fuel + 1, w, w', q, i, acc, h, hco => by
    unfold Verif.dumpLoop
    rcases forall₂_get h.queues q with ⟨h1, h2⟩ | ⟨u, u', h1, h2, h3⟩
    · rw [h1, h2]; exact ⟨rfl, h⟩
    · rw [h1, h2]
      dsimp only
      rcases forall₂_get h3.commands i with ⟨g1, g2⟩ | ⟨c, c', g1, g2, g3⟩
      · rw [g1, g2]; exact ⟨rfl, h⟩
      · rw [g1, g2]
        dsimp only
        obtain ⟨⟨k1, k2⟩, k3⟩ := Alike.dumpParams hP (acc := []) h hco g3.params
        unfold dumpCommand
        rw [g3.cid, g3.cls, g3.meth]
        generalize Verif.dumpParams P w c.params [] = x at k1 k2 k3 ⊢
        generalize Verif.dumpParams P w' c'.params [] = x' at k1 k2 ⊢
        obtain ⟨x, rx⟩ := x
        obtain ⟨x', rx'⟩ := x'
        dsimp only at k1 k2 k3
        subst k1
        cases rx' with
        | error e => exact ⟨rfl, k2⟩
        | ok ps => exact Alike.dumpLoop hP k2 k3

theorem Alike.encodeVal {P : Prog} {w w' : World} (h : Alike P w w') (ij : Codec) (v : Val) :
    encodeVal ij w' v = encodeVal ij w v := by
  cases v with
  | obj r =>
    cases hr : w.heap[r]? with
    | none => simp only [Verif.encodeVal, h.gone hr, hr]
    | some o =>
      obtain ⟨o', ho', hid, _⟩ := h.there hr
      simp only [Verif.encodeVal, ho', hr, hid]
  | _ => rfl

theorem Alike.encodeParams {P : Prog} {w w' : World} (h : Alike P w w') (ij : Codec) :
    ∀ ps : Dict String Val, encodeParams ij w' ps = encodeParams ij w ps
  | [] => rfl
  | (k, v) :: ps => by
    unfold Verif.encodeParams
    rw [h.encodeVal, h.encodeParams ij ps]

theorem Alike.encodeAll {P : Prog} {w w' : World} (h : Alike P w w') (ij : Codec) :
    ∀ ps : List Payload, encodeAll ij w' ps = encodeAll ij w ps
  | [] => rfl
  | p :: ps => by
    unfold Verif.encodeAll
    rw [h.encodeParams, h.encodeAll ij ps]

theorem Alike.saveQueue {P : Prog} (hP : ByClass P) {w w' : World} (h : Alike P w w')
    (hco : RegistryCoherent w) (ij : Codec) (fuel : Nat) (old : File) :
    (saveQueue P ij fuel w' none old).map Prod.snd = (saveQueue P ij fuel w none old).map Prod.snd := by
  unfold Verif.saveQueue pickQueue
  dsimp only
  obtain ⟨h1, h2⟩ := h.getQueue
  rw [h2]
  have hco' : RegistryCoherent (Verif.getQueue w none).1 := coherent_closed.toCallClosed.getq w hco
  have key := Alike.dumpLoop hP (fuel := fuel) (q := (Verif.getQueue w none).2) (i := 0) (acc := []) h1 hco'
  generalize Verif.dumpLoop P fuel (Verif.getQueue w none).1 (Verif.getQueue w none).2 0 [] = x at key ⊢
  generalize Verif.dumpLoop P fuel (Verif.getQueue w' none).1 (Verif.getQueue w none).2 0 [] = x' at key ⊢
  cases x with
  | none =>
    cases x' with
    | none => rfl
    | some x' => exact key.elim
  | some x =>
    cases x' with
    | none => exact key.elim
    | some x' =>
      obtain ⟨x, rx⟩ := x
      obtain ⟨x', rx'⟩ := x'
      obtain ⟨k1, k2⟩ := key
      dsimp only at k1 k2
      subst k1
      cases rx' with
      | error e => rfl
      | ok ps =>
        dsimp only
        rw [k2.encodeAll]
        cases Verif.encodeAll ij x ps <;> rfl

/-! ### Viewports -/

/-- The collected parameters: the object under `canvas(id)`, and the number under `canvas`. -/
def Swapped (r : Nat) (v : Val) (p p' : String × Val) : Prop :=
  (p' = p ∧ p.1 ≠ "canvas" ∧ p.1 ≠ "canvas(id)") ∨
    (p = ("canvas(id)", .obj r) ∧ p' = ("canvas", v))

theorem swapped_dset {r : Nat} {v : Val} {d d' : Dict String Val}
    (h : List.Forall₂ (Swapped r v) d d') {k : String} {x : Val} (h1 : k ≠ "canvas")
    (h2 : k ≠ "canvas(id)") : List.Forall₂ (Swapped r v) (dset d k x) (dset d' k x) := by
  induction h with
  | nil => exact List.Forall₂.cons (Or.inl ⟨rfl, h1, h2⟩) List.Forall₂.nil
  | @cons p p' _ _ hd tl ih =>
    rcases hd with ⟨rfl, g1, g2⟩ | ⟨rfl, rfl⟩
    · obtain ⟨a, b⟩ := p'
      simp only [dset]
      split
      · exact List.Forall₂.cons (Or.inl ⟨rfl, g1, g2⟩) tl
      · exact List.Forall₂.cons (Or.inl ⟨rfl, g1, g2⟩) ih
    · simp only [dset, if_neg h1.symm, if_neg h2.symm]
      exact List.Forall₂.cons (Or.inr ⟨rfl, rfl⟩) ih

theorem swapped_dset_canvas {r : Nat} {v : Val} {d d' : Dict String Val}
    (h : List.Forall₂ (Swapped r v) d d') :
    List.Forall₂ (Swapped r v) (dset d "canvas(id)" (.obj r)) (dset d' "canvas" v) := by
  induction h with
  | nil => exact List.Forall₂.cons (Or.inr ⟨rfl, rfl⟩) List.Forall₂.nil
  | @cons p p' _ _ hd tl ih =>
    rcases hd with ⟨rfl, g1, g2⟩ | ⟨rfl, rfl⟩
    · obtain ⟨a, b⟩ := p'
      simp only [dset, if_neg g1, if_neg g2]
      exact List.Forall₂.cons (Or.inl ⟨rfl, g1, g2⟩) ih
    · simp only [dset, if_pos]
      exact List.Forall₂.cons (Or.inr ⟨rfl, rfl⟩) tl

theorem swapped_dhas {r : Nat} {v : Val} {d d' : Dict String Val}
    (h : List.Forall₂ (Swapped r v) d d') {k : String} (h1 : k ≠ "canvas") (h2 : k ≠ "canvas(id)") :
    dhas d' k = dhas d k := by
  induction h with
  | nil => rfl
  | @cons p p' _ _ hd tl ih =>
    rcases hd with ⟨rfl, g1, g2⟩ | ⟨rfl, rfl⟩
    · obtain ⟨a, b⟩ := p'
      simp only [dhas, dget] at ih ⊢
      split
      · rfl
      · exact ih
    · simp only [dhas, dget, if_neg h1.symm, if_neg h2.symm] at ih ⊢
      exact ih

theorem swapped_canvas {r : Nat} {v : Val} {d d' : Dict String Val}
    (h : List.Forall₂ (Swapped r v) d d') : dhas d "canvas" = false := by
  induction h with
  | nil => rfl
  | @cons p p' _ _ hd tl ih =>
    rcases hd with ⟨rfl, g1, g2⟩ | ⟨rfl, rfl⟩
    · obtain ⟨a, b⟩ := p'
      simp only [dhas, dget, if_neg g1] at ih ⊢
      exact ih
    · simp only [dhas, dget, if_neg (by decide : ¬ "canvas(id)" = "canvas")] at ih ⊢
      exact ih

/-- The other parameters of a viewport. -/
def otherParams : List String := ["x", "y", "width", "height", "color"]

theorem keyFor_other {k : String} (hk : k ∈ otherParams) (x : Val) :
    keyFor k x ≠ "canvas" ∧ keyFor k x ≠ "canvas(id)" := by
  have key : ∀ k ∈ otherParams, (k ≠ "canvas" ∧ k ≠ "canvas(id)") ∧
      k ++ "(id)" ≠ "canvas" ∧ k ++ "(id)" ≠ "canvas(id)" := by decide +kernel
  unfold keyFor
  split
  · exact (key k hk).2
  · exact (key k hk).1

theorem swapped_pos {r : Nat} {v : Val} {l : Dict String Val} (hl : ∀ p ∈ l, p.1 ∈ otherParams)
    {d d' : Dict String Val} (h : List.Forall₂ (Swapped r v) d d') :
    List.Forall₂ (Swapped r v) (l.foldl (fun d p => dset d (keyFor p.1 p.2) p.2) d)
      (l.foldl (fun d p => dset d (keyFor p.1 p.2) p.2) d') := by
  induction l generalizing d d' with
  | nil => exact h
  | cons p l ih =>
    obtain ⟨h1, h2⟩ := keyFor_other (hl p List.mem_cons_self) p.2
    exact ih (fun q hq => hl q (List.mem_cons_of_mem _ hq)) (swapped_dset h h1 h2)

theorem swapped_missing {r : Nat} {v : Val} {l : Dict String Val} (hl : ∀ p ∈ l, p.1 ∈ otherParams)
    {d d' : Dict String Val} (h : List.Forall₂ (Swapped r v) d d') :
    List.Forall₂ (Swapped r v) (collectMissing d l) (collectMissing d' l) := by
  unfold collectMissing
  induction l generalizing d d' with
  | nil => exact h
  | cons p l ih =>
    have hp := hl p List.mem_cons_self
    obtain ⟨h1, h2⟩ := keyFor_other hp p.2
    have h0 : p.1 ≠ "canvas" ∧ p.1 ≠ "canvas(id)" := by
      have := keyFor_other hp Val.none
      exact this
    simp only [List.foldl_cons]
    rw [swapped_dhas h h0.1 h0.2]
    split
    · exact ih (fun q hq => hl q (List.mem_cons_of_mem _ hq)) h
    · exact ih (fun q hq => hl q (List.mem_cons_of_mem _ hq)) (swapped_dset h h1 h2)

/-- Naming the canvas. -/
theorem swapped_named {r : Nat} {v : Val} (hv : v.isObj = false) {l : Dict String Val}
    (hl : ∀ p ∈ l, p.1 ∈ otherParams ∨ p = ("canvas", .obj r)) (hn : (dkeys l).Nodup)
    {d d' : Dict String Val} (h : List.Forall₂ (Swapped r v) d d') (h' : dhas d' "canvas" = false) :
    List.Forall₂ (Swapped r v) (collectMissing d l)
      (collectMissing d' (l.map (fun p => if p.1 = "canvas" then (p.1, v) else p))) := by
  induction l generalizing d d' with
  | nil => exact h
  | cons p l ih =>
    have hn' : (dkeys l).Nodup := (List.nodup_cons.1 hn).2
    rcases hl p List.mem_cons_self with hp | rfl
    · obtain ⟨h1, h2⟩ := keyFor_other hp p.2
      have h0 : p.1 ≠ "canvas" ∧ p.1 ≠ "canvas(id)" := keyFor_other hp Val.none
      have hl' := fun q hq => hl q (List.mem_cons_of_mem _ hq)
      unfold collectMissing
      simp only [List.map_cons, if_neg h0.1, List.foldl_cons]
      rw [swapped_dhas h h0.1 h0.2]
      split
      · exact ih hl' hn' h h'
      · refine ih hl' hn' (swapped_dset h h1 h2) ?_
        unfold dhas at h' ⊢
        rw [dget_dset_ne _ _ h1]
        exact h'
    · have hrest : ∀ q ∈ l, q.1 ∈ otherParams := by
        intro q hq
        rcases hl q (List.mem_cons_of_mem _ hq) with hq' | rfl
        · exact hq'
        · exact absurd (List.mem_map.2 ⟨_, hq, rfl⟩) (List.nodup_cons.1 hn).1
      have hmap : l.map (fun p => if p.1 = "canvas" then (p.1, v) else p) = l := by
        conv => rhs; rw [← List.map_id l]
        apply List.map_congr_left
        intro q hq
        have h0 : q.1 ≠ "canvas" := (keyFor_other (hrest q hq) Val.none).1
        rw [if_neg h0]
        rfl
      unfold collectMissing
      simp only [List.map_cons, List.foldl_cons, if_pos]
      rw [hmap, swapped_canvas h, h']
      have hk1 : keyFor "canvas" (.obj r) = "canvas(id)" := by
        simp only [keyFor, Val.isObj, if_true]
        decide
      have hk2 : keyFor "canvas" v = "canvas" := by simp [keyFor, hv]
      rw [hk1, hk2]
      exact swapped_missing hrest (swapped_dset_canvas h)

/-- The row of the constructor of viewports. -/
def viewportRow : Row :=
  ⟨"Viewport", "__init__", some "core.Viewport", [req "canvas" ["Canvas"],
      req "x" ["Transform", "float", "int"], req "y" ["Transform", "float", "int"],
      req "width" ["Transform", "float", "int"], req "height" ["Transform", "float", "int"],
      req "color" ["Color"]]⟩

theorem viewport_sig (A : ArrayInfo) : (gspProg A).sig "Viewport" "__init__" = some viewportRow.sig := by
  show (findRow gspRows "Viewport" "__init__").map Row.sig = _
  have : findRow gspRows "Viewport" "__init__" = some viewportRow := by decide +kernel
  rw [this]
  rfl

theorem isObj_of_int {v : Val} {m : Int} (hv : intValue v = some m) : v.isObj = false := by
  cases v <;> first | rfl | cases hv

/-- A number given for a canvas is recorded with the conversion that looks it up. -/
theorem number_recorded (A : ArrayInfo) {w : World} (hcs : w.converters ∈ converterTables) {v : Val} {m : Int}
    (hv : intValue v = some m) :
    checkParam (gspProg A) w viewportRow.sig.annots "canvas" v = .ok (.conv 16 v) := by
  have key : ∀ cs ∈ converterTables, ∀ c ∈ ["int", "OID", "bool"] ++ enumClasses,
      (candidates gsp0 cs c ["Canvas"]).getLast? = some 16 := by decide +kernel
  have ha : dget viewportRow.sig.annots "canvas" = some ["Canvas"] := by decide +kernel
  have hc : className v ∈ ["int", "OID", "bool"] ++ enumClasses := by
    cases v with
    | inst c p =>
      simp only [intValue] at hv
      split at hv
      · rename_i h
        have h' : c ∈ enumClasses := by simpa using h
        exact List.mem_append_right _ h'
      · cases hv
    | int n => exact List.mem_append_left _ (by simp [className])
    | oid n => exact List.mem_append_left _ (by simp [className])
    | bool b => exact List.mem_append_left _ (by simp [className])
    | _ => cases hv
  have hr : recordedAs (gspProg A) w.converters ["Canvas"] v = some (.conv 16 v) := by
    unfold recordedAs
    have : (candidates (gspProg A) w.converters (className v) ["Canvas"]).getLast? = some 16 :=
      key _ hcs _ hc
    rw [this]
  rw [checkParam_eq _ _ _ _ (isObj_of_int hv), ha]
  dsimp only
  rw [hr]

/-- Both calls are checked alike. -/
theorem swapped_checked (A : ArrayInfo) {x x' : World} (h : Alike (gspProg A) x x')
    (hcs : x.converters ∈ converterTables) {r : Nat} {o : Obj} {v : Val} (ho : x.heap[r]? = some o)
    (hv : intValue v = some o.id) (hreg : (dget x.objects o.id).isSome = true) :
    ∀ {d d' : Dict String Val}, List.Forall₂ (Swapped r v) d d' →
    CheckedAlike (gspProg A) x x' (checkParams (gspProg A) x viewportRow.sig.annots d)
      (checkParams (gspProg A) x' viewportRow.sig.annots d') := by
  intro d d' hd
  have hobj : dget viewportRow.sig.annots "canvas(id)" = none := by decide +kernel
  have hnum := number_recorded A (w := x') (h.converters ▸ hcs) hv
  induction hd with
  | nil => exact List.Forall₂.nil
  | @cons p p' l l' hp tl ih =>
    rcases hp with ⟨rfl, _, _⟩ | ⟨rfl, rfl⟩
    · obtain ⟨k, y⟩ := p'
      simp only [Verif.checkParams, h.checkParam]
      cases checkParam (gspProg A) x viewportRow.sig.annots k y with
      | error e => rfl
      | ok y' =>
        dsimp only
        cases h1 : Verif.checkParams (gspProg A) x viewportRow.sig.annots l with
        | error e =>
          rw [h1] at ih
          cases h2 : Verif.checkParams (gspProg A) x' viewportRow.sig.annots l' with
          | error e' => rw [h2] at ih; exact ih
          | ok ps' => rw [h2] at ih; exact ih.elim
        | ok ps =>
          rw [h1] at ih
          cases h2 : Verif.checkParams (gspProg A) x' viewportRow.sig.annots l' with
          | error e' => rw [h2] at ih; exact ih.elim
          | ok ps' =>
            rw [h2] at ih
            refine List.Forall₂.cons (Or.inl ?_) ih
            have := h.stripObjs [(k, y')]
            simpa [Verif.stripObjs] using this
    · have hc1 : checkParam (gspProg A) x viewportRow.sig.annots "canvas(id)" (.obj r) = .ok (.obj r) := by
        unfold Verif.checkParam
        rw [hobj]
      simp only [Verif.checkParams, hc1, hnum]
      cases h1 : Verif.checkParams (gspProg A) x viewportRow.sig.annots l with
      | error e =>
        rw [h1] at ih
        cases h2 : Verif.checkParams (gspProg A) x' viewportRow.sig.annots l' with
        | error e' => rw [h2] at ih; exact ih
        | ok ps' => rw [h2] at ih; exact ih.elim
      | ok ps =>
        rw [h1] at ih
        cases h2 : Verif.checkParams (gspProg A) x' viewportRow.sig.annots l' with
        | error e' => rw [h2] at ih; exact ih.elim
        | ok ps' =>
          rw [h2] at ih
          refine List.Forall₂.cons (Or.inr ⟨"canvas", 16, v, intValue, o.id, ?_, rfl, rfl, hv, hreg⟩) ih
          simp only [ho]
          rfl

/-! ### Binding -/

theorem dget_isSome_keys {d d' : Dict String Val} (h : dkeys d' = dkeys d) (k : String) :
    (dget d' k).isSome = (dget d k).isSome := by
  rw [Bool.eq_iff_iff, Option.isSome_iff_exists, Option.isSome_iff_exists, ← mem_dkeys, ← mem_dkeys, h]

theorem mapM_isSome {α β : Type} {f g : α → Option β} {l : List α}
    (h : ∀ k, (f k).isSome = (g k).isSome) : (l.mapM f).isSome = (l.mapM g).isSome := by
  induction l with
  | nil => rfl
  | cons k l ih =>
    simp only [List.mapM_cons]
    have hk := h k
    cases hf : f k with
    | none =>
      rw [hf] at hk
      cases hg : g k with
      | none => rfl
      | some y => rw [hg] at hk; cases hk
    | some x =>
      rw [hf] at hk
      cases hg : g k with
      | none => rw [hg] at hk; cases hk
      | some y =>
        cases hlf : l.mapM f with
        | none =>
          rw [hlf] at ih
          cases hlg : l.mapM g with
          | none => simp [bind, hlf, hlg]
          | some z => rw [hlg] at ih; cases ih
        | some z =>
          rw [hlf] at ih
          cases hlg : l.mapM g with
          | none => rw [hlg] at ih; cases ih
          | some z' => simp [bind, hlf, hlg]

theorem dkeys_zip (ks : List String) : ∀ {args args' : List Val}, args'.length = args.length →
    dkeys (ks.zip args') = dkeys (ks.zip args) := by
  induction ks with
  | nil => intros; rfl
  | cons k ks ih =>
    intro args args' h
    cases args with
    | nil =>
      cases args' with
      | nil => rfl
      | cons => cases h
    | cons a args =>
      cases args' with
      | nil => cases h
      | cons a' args' =>
        simp only [List.zip_cons_cons, dkeys, List.map_cons]
        exact congrArg _ (ih (by simpa using h))

/-- Whether arguments can be bound depends on their number and on the names. -/
theorem bindArgs_alike (sg : Sig) {args args' : List Val} {kwargs kwargs' : Dict String Val}
    (hl : args'.length = args.length) (hk : dkeys kwargs' = dkeys kwargs) :
    (∃ e, bindArgs sg args kwargs = .error e ∧ bindArgs sg args' kwargs' = .error e) ∨
    ∃ b b', bindArgs sg args kwargs = .ok b ∧ bindArgs sg args' kwargs' = .ok b' := by
  unfold bindArgs
  rw [hl]
  have hany : kwargs'.any (fun p => !(sg.params.drop args.length).contains p.1) =
      kwargs.any (fun p => !(sg.params.drop args.length).contains p.1) := by
    have : ∀ d : Dict String Val, d.any (fun p => !(sg.params.drop args.length).contains p.1) =
        (dkeys d).any (fun k => !(sg.params.drop args.length).contains k) := by
      intro d
      rw [dkeys, List.any_map]
      rfl
    rw [this, this, hk]
  rw [hany]
  split
  · exact Or.inl ⟨_, rfl, rfl⟩
  · split
    · exact Or.inl ⟨_, rfl, rfl⟩
    · dsimp only
      have key := mapM_isSome (l := sg.params) (f := fun k =>
          match dget (sg.params.zip args) k with
          | some v => some (k, v)
          | none => match dget kwargs k with
            | some v => some (k, v)
            | none => (dget sg.defaults k).map (fun v => (k, v)))
        (g := fun k =>
          match dget (sg.params.zip args') k with
          | some v => some (k, v)
          | none => match dget kwargs' k with
            | some v => some (k, v)
            | none => (dget sg.defaults k).map (fun v => (k, v))) (by
          intro k
          have h1 := dget_isSome_keys (dkeys_zip sg.params hl) k
          have h2 := dget_isSome_keys hk k
          cases ha : dget (sg.params.zip args) k with
          | some a =>
            rw [ha] at h1
            cases ha' : dget (sg.params.zip args') k with
            | some a' => rfl
            | none => rw [ha'] at h1; cases h1
          | none =>
            rw [ha] at h1
            cases ha' : dget (sg.params.zip args') k with
            | some a' => rw [ha'] at h1; cases h1
            | none =>
              dsimp only
              cases hb : dget kwargs k with
              | some a =>
                rw [hb] at h2
                cases hb' : dget kwargs' k with
                | some a' => rfl
                | none => rw [hb'] at h2; cases h2
              | none =>
                rw [hb] at h2
                cases hb' : dget kwargs' k with
                | some a' => rw [hb'] at h2; cases h2
                | none => rfl)
      generalize List.mapM (m := Option) _ sg.params = x at key ⊢
      generalize List.mapM (m := Option) _ sg.params = x' at key ⊢
      cases x with
      | none =>
        cases x' with
        | none => exact Or.inl ⟨_, rfl, rfl⟩
        | some y => cases key
      | some z =>
        cases x' with
        | none => cases key
        | some y => exact Or.inr ⟨_, _, rfl, rfl⟩

/-! ### Sessions -/

theorem gsp_byClass (A : ArrayInfo) : ByClass (gspProg A) := by
  intro o o' f b h
  show gspRaises o' f b = gspRaises o f b
  unfold gspRaises
  rw [h]

/-- The bodies of viewports do not raise. -/
theorem viewport_runs (A : ArrayInfo) {args kwargs b} (hb : bindArgs viewportRow.sig args kwargs = .ok b)
    {o : Obj} (ho : o.cls = "Viewport") : (gspProg A).raises o "__init__" b = none := by
  show gspRaises o "__init__" b = none
  unfold gspRaises
  have hk := (bindArgs_ok hb).keys
  have hp : dget b "positions" = none := by
    cases hd : dget b "positions" with
    | none => rfl
    | some v =>
      have := (mem_dkeys b "positions").2 ⟨v, hd⟩
      rw [hk] at this
      exact absurd this (by decide +kernel)
  rw [hp, ho]
  rfl

/-- What is kept along the session. -/
structure NumInv (w : World) : Prop where
  on : w.objRecord = true
  conv : w.converters ∈ converterTables
  coherent : RegistryCoherent w
  reg : ∀ (r : Nat) (o : Obj), w.heap[r]? = some o → (dget w.objects o.id).isSome = true

theorem numInv_closed : CallClosed NumInv where
  newObj := by
    intro w cls h
    refine ⟨h.on, h.conv, coherent_closed.toCallClosed.newObj w cls h.coherent, ?_⟩
    intro r o ho
    simp only [newObject, h.on, if_true] at ho ⊢
    by_cases hr : r < w.heap.length
    · rw [List.getElem?_append_left hr] at ho
      by_cases hk : (1 : Int) + w.oidCounter = o.id
      · rw [hk, dget_dset_self]; rfl
      · rw [dget_dset_ne _ _ hk]; exact h.reg r o ho
    · rw [List.getElem?_append_right (by omega)] at ho
      cases h0 : r - w.heap.length with
      | zero =>
        rw [h0] at ho
        cases ho
        rw [dget_dset_self]; rfl
      | succ n => rw [h0] at ho; cases ho
  log := by
    intro w r m b h
    have hc := coherent_closed.toCallClosed.log w r m b h.coherent
    unfold logCall at hc ⊢
    cases ho : w.heap[r]? with
    | none => exact h
    | some o =>
      rw [ho] at hc
      refine ⟨h.on, h.conv, hc, ?_⟩
      intro i oi hi
      dsimp only at hi ⊢
      by_cases hri : r = i
      · subst hri
        rw [List.getElem?_set_self (List.getElem?_eq_some_iff.1 ho).1] at hi
        cases hi
        exact h.reg r o ho
      · rw [List.getElem?_set_ne hri] at hi
        exact h.reg i oi hi
  getq := by
    intro w h
    have hc := coherent_closed.toCallClosed.getq w h.coherent
    unfold getQueue getQueue.activeOrNew at hc ⊢
    dsimp only at hc ⊢
    split
    · exact h
    · exact ⟨h.on, h.conv, h.coherent, h.reg⟩
  push := by
    intro w q u cls meth ps h _ _ _
    exact ⟨h.on, h.conv, h.coherent, h.reg⟩

theorem numInv_step {P : Prog} {w : World} (h : NumInv w) (a : Act) : NumInv (step P w a.op).1 := by
  cases a with
  | create cls args kwargs =>
    have := numInv_closed.construct (P := P) (cls := cls) (args := args) (kwargs := kwargs) (nc := false) h
    simp only [Act.op, step]
    split <;> (rename_i heq; rw [heq] at this; exact this)
  | call r f args kwargs => exact numInv_closed.callMethod h

/-- Creating a viewport with the number of its canvas. -/
theorem Alike.viewport (A : ArrayInfo) {w w' : World} (h : Alike (gspProg A) w w') (hi : NumInv w)
    {r : Nat} {o : Obj} {v : Val} (ho : w.heap[r]? = some o) (hv : intValue v = some o.id)
    {args args' : List Val} {kwargs kwargs' : Dict String Val}
    (ha : (∃ rest, args = .obj r :: rest ∧ args' = v :: rest ∧ kwargs' = kwargs) ∨
      (args = [] ∧ args' = [] ∧ dget kwargs "canvas" = some (.obj r) ∧ (dkeys kwargs).Nodup ∧
        kwargs' = kwargs.map (fun p => if p.1 = "canvas" then (p.1, v) else p))) :
    AlikeRes (gspProg A) (Verif.construct (gspProg A) w "Viewport" args kwargs false)
      (Verif.construct (gspProg A) w' "Viewport" args' kwargs' false) := by
  refine h.constructWith (gsp_byClass A) ?_
  intro sg hs
  rw [viewport_sig] at hs
  cases hs
  have hlen : args'.length = args.length := by
    rcases ha with ⟨rest, rfl, rfl, _⟩ | ⟨rfl, rfl, _⟩ <;> rfl
  have hkeys : dkeys kwargs' = dkeys kwargs := by
    rcases ha with ⟨rest, _, _, rfl⟩ | ⟨_, _, _, _, rfl⟩
    · rfl
    · simp only [dkeys, List.map_map]
      apply List.map_congr_left
      intro p _
      simp only [Function.comp]
      split <;> rfl
  rcases bindArgs_alike viewportRow.sig hlen hkeys with he | ⟨b, b', hb, hb'⟩
  · exact Or.inl he
  · refine Or.inr ⟨b, b', hb, hb', fun o' ho' => ?_, ?_⟩
    · rw [viewport_runs A hb' ho', viewport_runs A hb ho']
    · intro x x' id hx hreg hheap hconv
      obtain ⟨o', ho', hid⟩ := hheap r o ho
      refine swapped_checked A hx (hconv ▸ hi.conv) ho' (hid ▸ hv) (hid ▸ hreg _ (hi.reg r o ho)) ?_
      have hbound := bindArgs_ok hb
      have hdef : viewportRow.sig.defaults = [] := by decide +kernel
      have hparams : viewportRow.sig.params = "canvas" :: otherParams := by decide +kernel
      have hstart : List.Forall₂ (Swapped r v) [("id", Val.oid id)] [("id", Val.oid id)] :=
        List.Forall₂.cons (Or.inl ⟨rfl, by simp, by simp⟩) List.Forall₂.nil
      unfold collect
      rw [hdef]
      simp only [collectMissing, List.foldl_nil]
      rcases ha with ⟨rest, rfl, rfl, rfl⟩ | ⟨rfl, rfl, hd, hn, rfl⟩
      · have hkw : ∀ p ∈ kwargs', p.1 ∈ otherParams := by
          intro p hp
          have := hbound.known p.1 (List.mem_map.2 ⟨p, hp, rfl⟩)
          rw [hparams] at this
          simp only [List.length_cons, List.drop_succ_cons] at this
          exact List.mem_of_mem_drop this
        refine swapped_missing hkw ?_
        unfold collectPos
        rw [hparams]
        simp only [List.zip_cons_cons, List.foldl_cons]
        have hk1 : keyFor "canvas" (.obj r) = "canvas(id)" := by
          simp only [keyFor, Val.isObj, if_true]
          decide
        have hk2 : keyFor "canvas" v = "canvas" := by simp [keyFor, isObj_of_int hv]
        rw [hk1, hk2]
        refine swapped_pos ?_ (swapped_dset_canvas hstart)
        intro p hp
        exact (List.of_mem_zip hp).1
      · refine swapped_named (isObj_of_int hv) ?_ hn ?_ ?_
        · intro p hp
          have := hbound.known p.1 (List.mem_map.2 ⟨p, hp, rfl⟩)
          rw [hparams] at this
          simp only [List.length_nil, List.drop_zero, List.mem_cons] at this
          rcases this with hc | hc
          · right
            obtain ⟨k, y⟩ := p
            dsimp only at hc
            subst hc
            have := dget_of_mem_nodup hn hp
            rw [hd] at this
            cases this
            rfl
          · exact Or.inl hc
        · exact hstart
        · rfl

theorem Alike.step (A : ArrayInfo) {w w' : World} (h : Alike (gspProg A) w w') (hi : NumInv w)
    {a a' : Act} (ha : ByNumber w a a') :
    AlikeRes (gspProg A) (step (gspProg A) w a.op) (step (gspProg A) w' a'.op) := by
  have wrap : ∀ {cls args kwargs cls' args' kwargs'},
      AlikeRes (gspProg A) (Verif.construct (gspProg A) w cls args kwargs false)
        (Verif.construct (gspProg A) w' cls' args' kwargs' false) →
      AlikeRes (gspProg A) (Verif.step (gspProg A) w (Op.create cls args kwargs false))
        (Verif.step (gspProg A) w' (Op.create cls' args' kwargs' false)) := by
    intro cls args kwargs cls' args' kwargs' hc
    obtain ⟨k1, k2⟩ := hc
    simp only [Verif.step]
    generalize Verif.construct (gspProg A) w cls args kwargs false = x at k1 k2 ⊢
    generalize Verif.construct (gspProg A) w' cls' args' kwargs' false = x' at k1 k2 ⊢
    obtain ⟨x, rx⟩ := x
    obtain ⟨x', rx'⟩ := x'
    dsimp only at k1 k2
    subst k1
    cases rx' with
    | error e => exact ⟨rfl, k2⟩
    | ok u => exact ⟨rfl, k2⟩
  rcases ha with rfl | ⟨hn, r, o, v, hc, ho, hv, rfl⟩
  · cases a' with
    | create cls args kwargs => exact wrap (h.construct (gsp_byClass A))
    | call r f args kwargs => exact h.callMethod (gsp_byClass A)
  · cases a with
    | call r f args kwargs => cases hc
    | create cls args kwargs =>
      by_cases hcls : cls = "Viewport"
      · subst hcls
        cases args with
        | nil => exact wrap (h.viewport A hi ho hv (Or.inr ⟨rfl, rfl, hc, hn, rfl⟩))
        | cons x rest =>
          simp only [canvasOf, Option.some.injEq] at hc
          subst hc
          exact wrap (h.viewport A hi ho hv (Or.inl ⟨rest, rfl, rfl, rfl⟩))
      · exfalso
        revert hc
        unfold canvasOf
        split
        · rename_i heq; cases heq; exact absurd rfl hcls
        · rename_i heq; cases heq; exact absurd rfl hcls
        · intro hc; cases hc

theorem Alike.acts (A : ArrayInfo) : ∀ {as as' : List Act} {w w' : World}, Alike (gspProg A) w w' →
    NumInv w → ByNumbers (gspProg A) w as as' →
    outcomes (gspProg A) w' as' = outcomes (gspProg A) w as ∧
      Alike (gspProg A) (runActs (gspProg A) w as) (runActs (gspProg A) w' as') ∧
      NumInv (runActs (gspProg A) w as)
  | [], [], _, _, h, hi, _ => ⟨rfl, h, hi⟩
  | [], _ :: _, _, _, _, _, hb => hb.elim
  | _ :: _, [], _, _, _, _, hb => hb.elim
  | a :: as, a' :: as', w, w', h, hi, hb => by
    obtain ⟨k1, k2⟩ := h.step A hi hb.1
    obtain ⟨i1, i2, i3⟩ := Alike.acts A k2 (numInv_step hi a) hb.2
    exact ⟨by simp only [outcomes, k1, i1], i2, i3⟩

end Verif
