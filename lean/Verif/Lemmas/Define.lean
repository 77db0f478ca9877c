import Verif.Spec.Define
import Verif.Lemmas.Simulation

namespace Verif

theorem mem_dset {κ ν : Type} [DecidableEq κ] {d : Dict κ ν} {k : κ} {v : ν} {p : κ × ν}
    (h : p ∈ dset d k v) : p = (k, v) ∨ p ∈ d := by
  induction d with
  | nil => simp [dset] at h; exact Or.inl h
  | cons e d ih =>
    obtain ⟨k', v'⟩ := e
    simp only [dset] at h
    split at h
    · rename_i hk
      rcases List.mem_cons.1 h with h | h
      · exact Or.inl (by rw [h, hk])
      · exact Or.inr (List.mem_cons_of_mem _ h)
    · rcases List.mem_cons.1 h with h | h
      · exact Or.inr (by rw [h]; simp)
      · rcases ih h with h | h
        · exact Or.inl h
        · exact Or.inr (List.mem_cons_of_mem _ h)

/-- Where the parameters of a command come from. -/
def FromArgs (sg : Sig) (selfId : Int) (args : List Val) (kwargs : Dict String Val)
    (p : String × Val) : Prop :=
  p = ("id", .oid selfId) ∨ ∃ k v, p = (keyFor k v, v) ∧
    ((k ∈ sg.params ∧ v ∈ args) ∨ (k, v) ∈ kwargs ∨ (k, v) ∈ sg.defaults)

theorem collectMissing_mem {d more : Dict String Val} {p} (h : p ∈ collectMissing d more) :
    p ∈ d ∨ ∃ k v, p = (keyFor k v, v) ∧ (k, v) ∈ more := by
  unfold collectMissing at h
  induction more generalizing d with
  | nil => exact Or.inl h
  | cons e more ih =>
    obtain ⟨k, v⟩ := e
    rw [List.foldl_cons] at h
    rcases ih h with h | ⟨k', v', h1, h2⟩
    · dsimp only at h
      split at h
      · exact Or.inl h
      · rcases mem_dset h with h | h
        · exact Or.inr ⟨k, v, h, by simp⟩
        · exact Or.inl h
    · exact Or.inr ⟨k', v', h1, List.mem_cons_of_mem _ h2⟩

theorem collectPos_mem {selfId : Int} {ks : List String} {args : List Val} {p}
    (h : p ∈ collectPos selfId ks args) :
    p = ("id", .oid selfId) ∨ ∃ k v, p = (keyFor k v, v) ∧ k ∈ ks ∧ v ∈ args := by
  unfold collectPos at h
  have key : ∀ (l : List (String × Val)) (d : Dict String Val),
      p ∈ l.foldl (fun d p => dset d (keyFor p.1 p.2) p.2) d →
      p ∈ d ∨ ∃ k v, p = (keyFor k v, v) ∧ (k, v) ∈ l := by
    intro l
    induction l with
    | nil => intro d h; exact Or.inl h
    | cons e l ih =>
      intro d h
      rw [List.foldl_cons] at h
      rcases ih _ h with h | ⟨k', v', h1, h2⟩
      · rcases mem_dset h with h | h
        · exact Or.inr ⟨e.1, e.2, h, by simp⟩
        · exact Or.inl h
      · exact Or.inr ⟨k', v', h1, List.mem_cons_of_mem _ h2⟩
  rcases key _ _ h with h | ⟨k, v, h1, h2⟩
  · simp at h; exact Or.inl h
  · exact Or.inr ⟨k, v, h1, (List.of_mem_zip h2).1, (List.of_mem_zip h2).2⟩

theorem collect_mem {sg : Sig} {selfId : Int} {args kwargs p}
    (h : p ∈ collect sg selfId args kwargs) : FromArgs sg selfId args kwargs p := by
  unfold collect at h
  rcases collectMissing_mem h with h | ⟨k, v, h1, h2⟩
  · rcases collectMissing_mem h with h | ⟨k, v, h1, h2⟩
    · rcases collectPos_mem h with h | ⟨k, v, h1, h2⟩
      · exact Or.inl h
      · exact Or.inr ⟨k, v, h1, Or.inl h2⟩
    · exact Or.inr ⟨k, v, h1, Or.inr (Or.inl h2)⟩
  · exact Or.inr ⟨k, v, h1, Or.inr (Or.inr h2)⟩

theorem checkParams_mem {P : Prog} {w : World} {annots} {ps ps' : Dict String Val}
    (h : checkParams P w annots ps = .ok ps') :
    ∀ p ∈ ps', ∃ v, (p.1, v) ∈ ps ∧ checkParam P w annots p.1 v = .ok p.2 := by
  induction ps generalizing ps' with
  | nil => simp [checkParams] at h; subst h; simp
  | cons e ps ih =>
    obtain ⟨k, v⟩ := e
    unfold checkParams at h
    split at h
    · simp at h
    · rename_i v' hv
      split at h
      · simp at h
      · rename_i ps'' h1
        cases h
        intro p hp
        rcases List.mem_cons.1 hp with rfl | hp
        · exact ⟨v, by simp, hv⟩
        · obtain ⟨x, h2, h3⟩ := ih h1 p hp
          exact ⟨x, List.mem_cons_of_mem _ h2, h3⟩

theorem checkParam_unannotated {P : Prog} {w : World} {annots k v v'}
    (hn : dget annots k = none) (h : checkParam P w annots k v = .ok v') : v' = v := by
  unfold checkParam at h
  rw [hn] at h
  cases h
  rfl

theorem annots_id {sg : Sig} (hwf : sg.WF) {k : String} (h : endsWithId k = true ∨ k = "id") :
    dget sg.annots k = none := by
  cases hg : dget sg.annots k with
  | none => rfl
  | some x =>
    exfalso
    rcases hwf.annots k ((mem_dkeys _ _).2 ⟨x, hg⟩) with h1 | h1
    · rcases h with h | h
      · rw [hwf.ident k h1] at h; cases h
      · exact hwf.noId (h ▸ h1)
    · subst h1
      rcases h with h | h
      · revert h; decide
      · revert h; decide

/-- What the parameters of a recorded command mention. -/
theorem recorded_refs {P : Prog} {w : World} {sg : Sig} {selfId : Int} {args kwargs bound ps}
    (hwf : sg.WF) (hb : bindArgs sg args kwargs = .ok bound)
    (hdef : ∀ p ∈ sg.defaults, p.2.isObj = false)
    (hc : checkParams P w sg.annots (collect sg selfId args kwargs) = .ok ps)
    (live : LiveArgs w args kwargs) {p} (hp : p ∈ stripObjs w ps) (he : endsWithId p.1 = true)
    : ∃ x o, (.obj x ∈ args ∨ ∃ e ∈ kwargs, e.2 = .obj x) ∧
      w.heap[x]? = some o ∧ p.2 = .oid o.id := by
  rw [stripObjs_eq] at hp
  obtain ⟨p', hp', rfl⟩ := List.mem_map.1 hp
  obtain ⟨v, h1, h2⟩ := checkParams_mem hc p' hp'
  have hv := checkParam_unannotated (annots_id hwf (Or.inl he)) h2
  have hB := bindArgs_ok hb
  have key : ∀ x, p'.2 = .obj x → (.obj x ∈ args ∨ ∃ e ∈ kwargs, e.2 = .obj x) →
      ∃ x o, (.obj x ∈ args ∨ ∃ e ∈ kwargs, e.2 = .obj x) ∧ w.heap[x]? = some o ∧
        stripVal w p'.2 = .oid o.id := by
    intro x hx hor
    have hlt : x < w.heap.length := by
      rcases hor with h | ⟨e, h, h'⟩
      · exact live.1 x h
      · exact live.2 e h x h'
    refine ⟨x, w.heap[x], hor, List.getElem?_eq_getElem hlt, ?_⟩
    rw [hx]
    simp only [stripVal, List.getElem?_eq_getElem hlt]
  rcases collect_mem h1 with h3 | ⟨k, v', h3, h4⟩
  · have : p'.1 = "id" := congrArg Prod.fst h3
    dsimp only at he
    rw [this] at he
    exact absurd he (by decide)
  · have hk : p'.1 = keyFor k v' := congrArg Prod.fst h3
    have hvv : v = v' := congrArg Prod.snd h3
    have hid : endsWithId k = false := by
      rcases h4 with h4 | h4 | h4
      · exact hwf.ident k h4.1
      · exact hwf.ident k (List.mem_of_mem_drop (hB.known k (List.mem_map_of_mem (f := Prod.fst) h4)))
      · exact hwf.ident k (hwf.defaultsParams k (List.mem_map_of_mem (f := Prod.fst) h4))
    have hobj : v'.isObj = true := by
      cases ho : v'.isObj with
      | true => rfl
      | false =>
        dsimp only at he
        rw [hk, keyFor_nonobj ho, hid] at he
        cases he
    dsimp only
    rw [hv, hvv] at key ⊢
    cases v' with
    | obj x =>
      apply key x rfl
      rcases h4 with h4 | h4 | h4
      · exact Or.inl h4.2
      · exact Or.inr ⟨_, h4, rfl⟩
      · exact absurd (hdef _ h4) (by simp [Val.isObj])
    | _ => simp [Val.isObj] at hobj

theorem checkParam_notObj {P : Prog} {w : World} {annots k v v'} (hv : v.isObj = false)
    (h : checkParam P w annots k v = .ok v') : v'.isObj = false := by
  have hsearch : ∀ (bases : List String) ann (st : Bool × Val), st.2.isObj = false →
      (searchConv P w.converters bases ann v st).2.isObj = false := by
    intro bases ann
    unfold searchConv
    induction bases with
    | nil => exact fun st h => h
    | cons b bases ih =>
      intro st h
      rw [List.foldl_cons]
      apply ih
      split
      · rfl
      · exact h
  have hloop : ∀ pt bases (anns : List String) (st : Bool × Val), st.2.isObj = false →
      (checkLoop P w.converters pt bases v anns st).2.isObj = false := by
    intro pt bases anns
    induction anns with
    | nil => exact fun st h => h
    | cons a anns ih =>
      intro st h
      unfold checkLoop
      split
      · exact h
      · split
        · exact h
        · exact ih _ (hsearch _ _ _ h)
  unfold checkParam at h
  split at h
  · cases h; exact hv
  · rename_i anns _
    dsimp only at h
    have := hloop (paramType P (typeName w v)) (P.mro (typeName w v)) anns (false, v) hv
    split at h
    · rename_i heq
      rw [heq] at this
      cases h
      exact this
    · cases h

/-- Commands hold no objects: they are replaced by their ids. -/
theorem recorded_noObj {P : Prog} {w : World} {sg : Sig} {selfId : Int} {args kwargs bound ps}
    (hwf : sg.WF) (hb : bindArgs sg args kwargs = .ok bound)
    (hdef : ∀ p ∈ sg.defaults, p.2.isObj = false)
    (hc : checkParams P w sg.annots (collect sg selfId args kwargs) = .ok ps)
    (live : LiveArgs w args kwargs) {p} (hp : p ∈ stripObjs w ps) : p.2.isObj = false := by
  by_cases he : endsWithId p.1 = true
  · obtain ⟨x, o, _, _, h⟩ := recorded_refs hwf hb hdef hc live hp he
    rw [h]
    rfl
  · rw [stripObjs_eq] at hp
    obtain ⟨p', hp', rfl⟩ := List.mem_map.1 hp
    obtain ⟨v, h1, h2⟩ := checkParams_mem hc p' hp'
    have hv : v.isObj = false := by
      rcases collect_mem h1 with h3 | ⟨k, v', h3, _⟩
      · rw [show v = .oid selfId from congrArg Prod.snd h3]
        rfl
      · cases hvo : v.isObj with
        | false => rfl
        | true =>
          exfalso
          apply he
          have hvv : v = v' := congrArg Prod.snd h3
          have hk : p'.1 = keyFor k v' := congrArg Prod.fst h3
          dsimp only
          rw [hk, ← hvv]
          simp only [keyFor, hvo, if_true]
          exact endsWithId_append k
    have := checkParam_notObj hv h2
    dsimp only
    generalize p'.2 = v2 at this
    cases v2 <;> first | rfl | cases this

theorem cmdId_recorded {P : Prog} {w : World} {sg : Sig} {selfId : Int} {args kwargs bound ps}
    (hwf : sg.WF) (hb : bindArgs sg args kwargs = .ok bound)
    (hc : checkParams P w sg.annots (collect sg selfId args kwargs) = .ok ps) (cid cls meth) :
    cmdId ⟨cid, cls, meth, stripObjs w ps⟩ = some selfId := by
  have hB := bindArgs_ok hb
  obtain ⟨v', h1, h2⟩ := checkParams_dget hc "id" (.oid selfId)
    (dget_collect_id hwf selfId (fun k h => List.mem_of_mem_drop (hB.known k h)))
  have := checkParam_unannotated (annots_id hwf (Or.inr rfl)) h1
  subst this
  unfold cmdId
  rw [stripObjs_eq, dget_map_snd, h2]
  rfl

/-! ### Sessions -/

/-- The invariant: the commands define before use and create every object. -/
structure DefInv (w : World) : Prop where
  on : RecInv 0 w
  first : DefinesFirst (commandsOf w 0)
  refs : ∀ c ∈ commandsOf w 0, ∀ p ∈ c.params, endsWithId p.1 = true → ∃ n, p.2 = .oid n
  all : ∀ (r : Nat) o, w.heap[r]? = some o → ∃ c ∈ commandsOf w 0, Creates c o.id
  noObj : ∀ c ∈ commandsOf w 0, ∀ p ∈ c.params, p.2.isObj = false

theorem DefinesFirst.snoc {cs : List Cmd} {c : Cmd} (h : DefinesFirst cs)
    (hc : ∀ n, Uses c n → ∃ c' ∈ cs, Creates c' n) : DefinesFirst (cs ++ [c]) := by
  intro pre c' post n heq hu
  rcases List.eq_nil_or_concat post with rfl | ⟨post', d, rfl⟩
  · have := List.append_inj' heq rfl
    obtain ⟨h1, h2⟩ := this
    cases h2
    subst h1
    exact hc n hu
  · have h2 : cs ++ [c] = (pre ++ c' :: post') ++ [d] := by
      rw [heq]; simp
    obtain ⟨h1, _⟩ := List.append_inj' h2 rfl
    exact h pre c' post' n h1 hu

theorem defInv_call {P : Prog} (hP : ProgOK P) {w : World} {r f args kwargs}
    (h : DefInv w) (live : LiveArgs w args kwargs)
    (hok : (callMethod P w r f args kwargs false).2 = .ok ()) :
    DefInv (callMethod P w r f args kwargs false).1 := by
  have hrec := (recInv_closed 0).callMethod (P := P) (r := r) (f := f) (args := args)
    (kwargs := kwargs) (nc := false) h.on
  unfold callMethod at hok hrec ⊢
  split at hok
  · simp at hok
  rename_i o ho
  simp only [ho] at hrec ⊢
  split at hok
  · simp at hok
  rename_i sg hs
  simp only [hs] at hrec ⊢
  split at hok
  · simp at hok
  rename_i bound hb
  simp only [hb] at hrec ⊢
  split at hok
  · simp at hok
  rename_i hr
  simp only [hr] at hrec ⊢
  have hw1 := logCall_eq ho f bound
  have hlt := (List.getElem?_eq_some_iff.1 ho).1
  have ho1 : (logCall w r f bound).heap[r]? = some { o with log := o.log ++ [(f, bound)] } := by
    rw [hw1]; simp [hlt]
  have hids : ∀ (x : Nat) o', (logCall w r f bound).heap[x]? = some o' →
      ∃ o'', w.heap[x]? = some o'' ∧ o''.id = o'.id := by
    intro x o' hx
    rw [hw1] at hx
    dsimp only at hx
    by_cases hxr : r = x
    · subst hxr
      rw [List.getElem?_set_self hlt] at hx
      cases hx
      exact ⟨o, ho, rfl⟩
    · rw [List.getElem?_set_ne hxr] at hx
      exact ⟨o', hx, rfl⟩
  have hsame := recordCall_sameCore P (logCall w r f bound) r f sg args kwargs false
  have hr1 : RecInv 0 (logCall w r f bound) := (recInv_closed 0).log _ _ _ _ h.on
  obtain ⟨ps, h1, h2⟩ := recordCall_commands (P := P) (f := f) (sg := sg) (args := args)
    (kwargs := kwargs) (nc := false) hr1.activeValid ho1
    (w' := (recordCall P (logCall w r f bound) r f sg args kwargs false).1)
    (res := (recordCall P (logCall w r f bound) r f sg args kwargs false).2) rfl
  have hps := h1 hok hr1.on
  have h3 := h2 0
  rw [if_pos ⟨hok, hr1.on, rfl, hr1.writable, hr1.activeIx.symm⟩, commandsOf_logCall] at h3
  have hwf := hP.wf _ _ _ hs
  have live1 : LiveArgs (logCall w r f bound) args kwargs := by
    rw [hw1]
    unfold LiveArgs
    simp only [List.length_set]
    exact live
  refine ⟨hrec, ?_, ?_, ?_, ?_⟩
  rotate_right
  · intro c hc p hp
    rw [h3] at hc
    rcases List.mem_append.1 hc with hc | hc
    · exact h.noObj c hc p hp
    · rw [List.mem_singleton.1 hc] at hp
      exact recorded_noObj hwf hb (hP.defaults _ _ _ hs) hps live1 hp
  rotate_left
  · intro c hc p hp he
    rw [h3] at hc
    rcases List.mem_append.1 hc with hc | hc
    · exact h.refs c hc p hp he
    · rw [List.mem_singleton.1 hc] at hp
      obtain ⟨x, o', _, _, h6⟩ := recorded_refs hwf hb (hP.defaults _ _ _ hs) hps live1 hp he
      exact ⟨_, h6⟩
  rotate_left
  · rw [h3]
    apply h.first.snoc
    rintro n (⟨p, hp, he, hn⟩ | ⟨_, hn⟩)
    · obtain ⟨x, o', _, h5, h6⟩ := recorded_refs hwf hb (hP.defaults _ _ _ hs) hps live1 hp he
      rw [h6] at hn
      cases hn
      obtain ⟨o'', h6, h7⟩ := hids x o' h5
      rw [← h7]
      exact h.all x o'' h6
    · rw [cmdId_recorded hwf hb hps] at hn
      rw [← Option.some.inj hn]
      exact h.all r o ho
  · intro x o' hx
    rw [hsame.heap] at hx
    obtain ⟨o'', h6, h7⟩ := hids x o' hx
    obtain ⟨c, hc, hcr⟩ := h.all x o'' h6
    rw [h3, ← h7]
    exact ⟨c, by simp [hc], hcr⟩

theorem defInv_create {P : Prog} (hP : ProgOK P) {w : World} {cls args kwargs}
    (h : DefInv w) (live : LiveArgs w args kwargs) {r'}
    (hok : (construct P w cls args kwargs false).2 = .ok r') :
    DefInv (construct P w cls args kwargs false).1 := by
  have hrec := (recInv_closed 0).construct (P := P) (cls := cls) (args := args)
    (kwargs := kwargs) (nc := false) h.on
  have ho : (newObject w cls).1.heap[w.heap.length]? =
      some (Obj.mk (1 + (w.oidCounter : Int)) cls [] (1 + (w.oidCounter : Int))) := by
    simp [newObject]
  unfold construct at hok hrec ⊢
  split at hok
  · simp at hok
  rename_i sg hs
  simp only [hs] at hrec ⊢
  split at hok
  · simp at hok
  rename_i bound hb
  simp only [hb, newObject_ref, ho] at hok hrec ⊢
  split at hok
  · simp at hok
  rename_i hr
  simp only [hr] at hrec ⊢
  have hlog : logCall (newObject w cls).1 w.heap.length "__init__" bound =
      { (newObject w cls).1 with heap := w.heap ++ [Obj.mk (1 + (w.oidCounter : Int)) cls
        [("__init__", bound)] (1 + (w.oidCounter : Int))] } := by
    simp only [logCall, ho]
    simp [newObject]
  generalize hW : logCall (newObject w cls).1 w.heap.length "__init__" bound = W at hlog hok hrec ⊢
  have hWo : W.heap[w.heap.length]? = some (Obj.mk (1 + (w.oidCounter : Int)) cls
        [("__init__", bound)] (1 + (w.oidCounter : Int))) := by rw [hlog]; simp
  have hr1 : RecInv 0 W := by
    rw [← hW]
    exact (recInv_closed 0).log _ _ _ _ ((recInv_closed 0).newObj _ _ h.on)
  have hsame := recordCall_sameCore P W w.heap.length "__init__" sg args kwargs false
  obtain ⟨ps, h1, h2⟩ := recordCall_commands (P := P) (f := "__init__") (sg := sg)
    (args := args) (kwargs := kwargs) (nc := false) hr1.activeValid hWo
    (w' := (recordCall P W w.heap.length "__init__" sg args kwargs false).1)
    (res := (recordCall P W w.heap.length "__init__" sg args kwargs false).2) rfl
  generalize recordCall P W w.heap.length "__init__" sg args kwargs false = rc
    at hok hrec hsame h1 h2 ⊢
  obtain ⟨w', res⟩ := rc
  cases res with
  | error e => simp at hok
  | ok u =>
  dsimp only at hrec hsame h1 h2 ⊢
  have hps := h1 rfl hr1.on
  have h3 := h2 0
  have hco : commandsOf W 0 = commandsOf w 0 := by rw [hlog]; rfl
  rw [if_pos ⟨rfl, hr1.on, rfl, hr1.writable, hr1.activeIx.symm⟩, hco] at h3
  have hwf := hP.wf _ _ _ hs
  have live1 : LiveArgs W args kwargs := by
    rw [hlog]
    unfold LiveArgs
    simp only [List.length_append, List.length_singleton]
    exact ⟨fun x hx => Nat.lt_succ_of_lt (live.1 x hx),
      fun p hp x hx => Nat.lt_succ_of_lt (live.2 p hp x hx)⟩
  refine ⟨hrec, ?_, ?_, ?_, ?_⟩
  rotate_right
  · intro c hc p hp
    rw [h3] at hc
    rcases List.mem_append.1 hc with hc | hc
    · exact h.noObj c hc p hp
    · rw [List.mem_singleton.1 hc] at hp
      exact recorded_noObj hwf hb (hP.defaults _ _ _ hs) hps live1 hp
  rotate_left
  · intro c hc p hp he
    rw [h3] at hc
    rcases List.mem_append.1 hc with hc | hc
    · exact h.refs c hc p hp he
    · rw [List.mem_singleton.1 hc] at hp
      obtain ⟨x, o', _, _, h6⟩ := recorded_refs hwf hb (hP.defaults _ _ _ hs) hps live1 hp he
      exact ⟨_, h6⟩
  rotate_left
  · rw [h3]
    apply h.first.snoc
    rintro n (⟨p, hp, he, hn⟩ | ⟨⟨c, f, hm⟩, _⟩)
    · obtain ⟨x, o', h4, h5, h6⟩ := recorded_refs hwf hb (hP.defaults _ _ _ hs) hps live1 hp he
      rw [h6] at hn
      cases hn
      have hx : x < w.heap.length := by
        rcases h4 with h4 | ⟨e, h4, h4'⟩
        · exact live.1 x h4
        · exact live.2 e h4 x h4'
      rw [hlog] at h5
      dsimp only at h5
      rw [List.getElem?_append_left hx] at h5
      exact h.all x o' h5
    · obtain ⟨path, hp⟩ := hP.ctor cls
      dsimp only at hm
      rw [hp] at hm
      cases hm
  · intro x o' hx
    rw [hsame.heap, hlog] at hx
    dsimp only at hx
    rw [h3]
    by_cases hxl : x < w.heap.length
    · rw [List.getElem?_append_left hxl] at hx
      obtain ⟨c, hc, hcr⟩ := h.all x o' hx
      exact ⟨c, by simp [hc], hcr⟩
    · have hxe : x = w.heap.length := by
        have := (List.getElem?_eq_some_iff.1 hx).1
        simp at this
        omega
      subst hxe
      simp at hx
      subst hx
      exact ⟨_, List.mem_append_right _ (List.mem_singleton.2 rfl), hP.ctor cls, cmdId_recorded hwf hb hps ..⟩

theorem defInv_session {P : Prog} (hP : ProgOK P) : ∀ {as : List Act} {w : World}, DefInv w →
    Succeeds P w as → LiveSession P w as → DefInv (runActs P w as)
  | [], _, h, _, _ => h
  | a :: as, w, h, hs, hl => by
    have ha : DefInv (step P w a.op).1 := by
      cases a with
      | create cls args kwargs =>
        have h1 := hs.1
        have h2 := hl.1
        simp only [Act.op, step] at h1 ⊢
        generalize hc : construct P w cls args kwargs false = rc at h1 ⊢
        obtain ⟨w', res⟩ := rc
        cases res with
        | error e => simp at h1
        | ok r =>
          have := defInv_create hP h h2 (cls := cls) (r' := r) (by rw [hc])
          rw [hc] at this
          exact this
      | call r f args kwargs => exact defInv_call hP h hl.1 hs.1
    exact defInv_session hP (w := (step P w a.op).1) ha hs.2 hl.2

theorem defInv_start (cs) : DefInv (World.start cs) :=
  ⟨⟨rfl, Or.inr ⟨rfl, rfl⟩⟩, by intro pre c post n h; simp [commandsOf, World.start, World.fresh] at h,
   by intro c h; simp [commandsOf, World.start, World.fresh] at h,
   by intro r o h; simp [World.start, World.fresh] at h,
   by intro c h; simp [commandsOf, World.start, World.fresh] at h⟩

/-! ### Saved files -/

theorem uses_of_same {ij : Codec} {c d : Cmd} (h : SameCommand ij c d)
    (hn : (dkeys c.params).Nodup)
    (hr : ∀ p ∈ c.params, endsWithId p.1 = true → ∃ n, p.2 = .oid n) {n} (hu : Uses d n) :
    Uses c n := by
  rcases hu with ⟨p, hp, he, hi⟩ | ⟨⟨cls, f, hm⟩, hi⟩
  · have hk : p.1 ∈ dkeys c.params := by
      rw [← h.keys]; exact List.mem_map_of_mem (f := Prod.fst) hp
    obtain ⟨v, hv⟩ := (mem_dkeys _ _).1 hk
    obtain ⟨v', h1, h2⟩ := h.vals _ _ hv
    have h3 := dget_of_mem_nodup (k := p.1) (v := p.2) (by rw [h.keys]; exact hn) hp
    rw [h3] at h1
    cases h1
    obtain ⟨m, hm⟩ := hr _ (dget_mem hv) he
    dsimp only at hm
    subst hm
    have h4 : p.2 = .int m := h2
    rw [h4] at hi
    exact Or.inl ⟨_, dget_mem hv, he, hi⟩
  · exact Or.inr ⟨⟨cls, f, by rw [← h.meaning]; exact hm⟩, by rw [← h.id]; exact hi⟩

theorem DefinesFirst.transfer {ij : Codec} {cs ds : List Cmd} (h : DefinesFirst cs)
    (hlen : ds.length = cs.length)
    (hsame : ∀ (i : Nat) c, cs[i]? = some c → ∃ d, ds[i]? = some d ∧ SameCommand ij c d)
    (hn : ∀ c ∈ cs, (dkeys c.params).Nodup)
    (hr : ∀ c ∈ cs, ∀ p ∈ c.params, endsWithId p.1 = true → ∃ n, p.2 = .oid n) :
    DefinesFirst ds := by
  intro pre d post n heq hu
  have hi : pre.length < cs.length := by rw [← hlen, heq]; simp
  have hc := List.getElem?_eq_getElem hi
  generalize cs[pre.length] = c at hc
  obtain ⟨d', h1, h2⟩ := hsame _ c hc
  rw [heq] at h1
  simp at h1
  subst h1
  have hmem := List.mem_of_getElem? hc
  have hu' := uses_of_same h2 (hn c hmem) (hr c hmem) hu
  have hsplit : cs = cs.take pre.length ++ c :: cs.drop (pre.length + 1) := by
    have hc' : cs[pre.length] = c := (List.getElem?_eq_some_iff.1 hc).2
    rw [← hc', List.getElem_cons_drop, List.take_append_drop]
  obtain ⟨c0, hc0, hcr⟩ := h _ c _ n hsplit hu'
  obtain ⟨j, hj⟩ := List.getElem?_of_mem hc0
  have hjl : j < pre.length := by
    have := (List.getElem?_eq_some_iff.1 hj).1
    simp at this
    omega
  rw [List.getElem?_take_of_lt hjl] at hj
  obtain ⟨d0, h3, h4⟩ := hsame j c0 hj
  rw [heq, List.getElem?_append_left hjl] at h3
  refine ⟨d0, List.mem_of_getElem? h3, ?_, ?_⟩
  · rw [h4.meaning]; exact hcr.1
  · rw [h4.id]; exact hcr.2

end Verif
