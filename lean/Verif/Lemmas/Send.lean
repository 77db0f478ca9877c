import Verif.Lemmas.Form
import Verif.Lemmas.Recorded
/-! A call whose arguments can all be recorded: what it does, and its command. -/

namespace Verif

/-- The bound arguments can all be recorded. -/
def Recordable (P : Prog) (cs : Dict (String × String) Nat) (sg : Sig) (b : Dict String Val) :
    Prop := ∀ k v, dget b k = some v → ∃ u, recordedArg P cs sg k v = some u

theorem logCall_conv (w : World) (r f b) : (logCall w r f b).converters = w.converters := by
  unfold logCall; split <;> rfl

theorem callMethod_form {P : Prog} {w : World} {r f args kwargs nc o sg bound}
    (ho : w.heap[r]? = some o) (hs : P.sig o.cls f = some sg) (hP : P.SigsWF)
    (hkw : (dkeys kwargs).Nodup) (hb : bindArgs sg args kwargs = .ok bound)
    (hr : P.raises o f bound = none)
    (hrec : w.recording = true → Recordable P w.converters sg bound) :
    ∃ w', callMethod P w r f args kwargs nc = (w', .ok ()) ∧
      SameCore (logCall w r f bound) w' ∧
      (w.ActiveValid → w.recording = true → ∀ q, commandsOf w' q = commandsOf w q ++
        if nc = false ∧ activeWritable w = true ∧ q = activeIx w then
          [{ cid := w.cidCounter + 1, cls := o.cls, meth := (P.override o.cls f).getD f,
             params := (collect sg o.id args kwargs).map (fun p =>
               (p.1, stripVal w (formVal P w.converters sg.annots p.1 p.2))) }]
        else []) := by
  obtain ⟨hwf, hdef⟩ := hP _ _ _ hs
  have hw1 := logCall_eq ho f bound
  have hlt := (List.getElem?_eq_some_iff.1 ho).1
  have ho1 : (logCall w r f bound).heap[r]? = some { o with log := o.log ++ [(f, bound)] } := by
    rw [hw1]; simp [hlt]
  have hchk : w.recording = true → _ := fun hon =>
    check_collect_form (P := P) (w := logCall w r f bound) hwf hdef o.id hkw hb
      (by rw [logCall_conv]; exact hrec hon)
  have hcm : callMethod P w r f args kwargs nc =
      recordCall P (logCall w r f bound) r f sg args kwargs nc := by
    simp only [callMethod, ho, hs, hb, hr]
  have hres : (recordCall P (logCall w r f bound) r f sg args kwargs nc).2 = .ok () := by
    cases hon : w.recording with
    | true => exact recordCall_ok_of_check (f := f) (nc := nc) ho1 (hchk hon)
    | false => rw [recordCall_off (by rw [hw1]; exact hon)]
  refine ⟨(recordCall P (logCall w r f bound) r f sg args kwargs nc).1, ?_,
    recordCall_sameCore .., ?_⟩
  · rw [hcm]; exact Prod.ext rfl hres
  · intro hval hrec q
    have hv1 : (logCall w r f bound).ActiveValid := by rw [hw1]; exact hval
    obtain ⟨ps, h1, h2⟩ := recordCall_commands (P := P) (f := f) (sg := sg) (args := args)
      (kwargs := kwargs) (nc := nc) hv1 ho1
      (w' := (recordCall P (logCall w r f bound) r f sg args kwargs nc).1)
      (res := (recordCall P (logCall w r f bound) r f sg args kwargs nc).2) rfl
    have hrec1 : (logCall w r f bound).recording = true := by rw [hw1]; exact hrec
    have hps := h1 hres hrec1
    rw [hchk hrec] at hps
    cases hps
    rw [h2 q, commandsOf_logCall]
    have hcid : (logCall w r f bound).cidCounter = w.cidCounter := by rw [hw1]
    have haw : activeWritable (logCall w r f bound) = activeWritable w := by rw [hw1]; rfl
    have hai : activeIx (logCall w r f bound) = activeIx w := by rw [hw1]; rfl
    rw [hcid, hrec1, haw, hai, hres, stripObjs_eq, List.map_map, logCall_conv]
    simp only [stripVal_logCall, true_and]
    rfl

theorem formVal_obj {P : Prog} {cs annots k v x} (h : formVal P cs annots k v = .obj x) :
    v = .obj x := by
  unfold formVal at h
  split at h
  · exact h
  · rename_i hv
    split at h
    · exact h
    · rename_i anns _
      have key : ∀ u, recordedAs P cs anns v = some u → u ≠ .obj x := by
        intro u hu
        unfold recordedAs at hu
        split at hu
        · cases hu; simp
        · split at hu
          · cases hu; rintro rfl; simp [Val.isObj] at hv
          · cases hu
      cases hra : recordedAs P cs anns v with
      | none => rw [hra] at h; exact h
      | some u => rw [hra] at h; exact absurd h (key u hra)

theorem construct_form {P : Prog} {w : World} {cls args kwargs nc sg bound}
    (hs : P.sig cls "__init__" = some sg) (hP : P.SigsWF)
    (hkw : (dkeys kwargs).Nodup) (hb : bindArgs sg args kwargs = .ok bound)
    (hr : P.raises (Obj.mk (1 + (w.oidCounter : Int)) cls [] (1 + (w.oidCounter : Int)))
      "__init__" bound = none)
    (hrec : w.recording = true → Recordable P w.converters sg bound) :
    ∃ w', construct P w cls args kwargs nc = (w', .ok w.heap.length) ∧
      SameCore { (newObject w cls).1 with heap := w.heap ++
        [Obj.mk (1 + (w.oidCounter : Int)) cls [("__init__", bound)] (1 + (w.oidCounter : Int))] }
        w' ∧
      (w.ActiveValid → (∀ k x, dget bound k = some (.obj x) → x < w.heap.length) →
       w.recording = true → ∀ q, commandsOf w' q = commandsOf w q ++
        if nc = false ∧ activeWritable w = true ∧ q = activeIx w then
          [{ cid := w.cidCounter + 1, cls := cls,
             meth := (P.override cls "__init__").getD "__init__",
             params := (collect sg (1 + (w.oidCounter : Int)) args kwargs).map
               (fun p => (p.1, stripVal w (formVal P w.converters sg.annots p.1 p.2))) }]
        else []) := by
  obtain ⟨hwf, hdef⟩ := hP _ _ _ hs
  have ho : (newObject w cls).1.heap[w.heap.length]? =
      some (Obj.mk (1 + (w.oidCounter : Int)) cls [] (1 + (w.oidCounter : Int))) := by
    simp [newObject]
  have hlog : logCall (newObject w cls).1 w.heap.length "__init__" bound =
      { (newObject w cls).1 with heap := w.heap ++ [Obj.mk (1 + (w.oidCounter : Int)) cls
        [("__init__", bound)] (1 + (w.oidCounter : Int))] } := by
    simp only [logCall, ho]
    simp [newObject]
  rw [← hlog]
  generalize hW : logCall (newObject w cls).1 w.heap.length "__init__" bound = W at hlog
  have hWo : W.heap[w.heap.length]? = some (Obj.mk (1 + (w.oidCounter : Int)) cls
        [("__init__", bound)] (1 + (w.oidCounter : Int))) := by rw [hlog]; simp
  have hWc : W.converters = w.converters := by rw [hlog]; rfl
  have hchk : w.recording = true → _ := fun hon =>
    check_collect_form (P := P) (w := W) hwf hdef (1 + (w.oidCounter : Int)) hkw hb
      (by rw [hWc]; exact hrec hon)
  have hres : (recordCall P W w.heap.length "__init__" sg args kwargs nc).2 = .ok () := by
    cases hon : w.recording with
    | true => exact recordCall_ok_of_check (f := "__init__") (nc := nc) hWo (hchk hon)
    | false => rw [recordCall_off (by rw [hlog]; exact hon)]
  refine ⟨(recordCall P W w.heap.length "__init__" sg args kwargs nc).1, ?_,
    recordCall_sameCore .., ?_⟩
  · simp only [construct, hs, hb, newObject_ref, ho, hr, hW]
    generalize recordCall P W w.heap.length "__init__" sg args kwargs nc = rc at hres
    obtain ⟨W2, res⟩ := rc
    dsimp only at hres
    subst hres
    rfl
  · intro hval hlive hrec q
    have hv1 : W.ActiveValid := by rw [hlog]; exact hval
    obtain ⟨ps, h1, h2⟩ := recordCall_commands (P := P) (f := "__init__") (sg := sg)
      (args := args) (kwargs := kwargs) (nc := nc) hv1 hWo
      (w' := (recordCall P W w.heap.length "__init__" sg args kwargs nc).1)
      (res := (recordCall P W w.heap.length "__init__" sg args kwargs nc).2) rfl
    have hrec1 : W.recording = true := by rw [hlog]; exact hrec
    have hps := h1 hres hrec1
    rw [hchk hrec] at hps
    cases hps
    have hcid : W.cidCounter = w.cidCounter := by rw [hlog]; rfl
    have haw : activeWritable W = activeWritable w := by rw [hlog]; rfl
    have hai : activeIx W = activeIx w := by rw [hlog]; rfl
    have hco : commandsOf W q = commandsOf w q := by rw [hlog]; rfl
    have hmap : (collect sg (1 + (w.oidCounter : Int)) args kwargs).map
        (fun p => (p.1, stripVal W (formVal P W.converters sg.annots p.1 p.2))) =
        (collect sg (1 + (w.oidCounter : Int)) args kwargs).map
        (fun p => (p.1, stripVal w (formVal P w.converters sg.annots p.1 p.2))) := by
      rw [hWc]
      apply List.map_congr_left
      intro p hp'
      congr 1
      cases hv : formVal P w.converters sg.annots p.1 p.2 with
      | obj x =>
        have hx : x < w.heap.length := by
          have hpx := formVal_obj hv
          rcases collect_entry hwf hdef _ hkw hb hp' with h | ⟨k, v, hk, hkv, hm⟩
          · rw [h] at hpx; cases hpx
          · unfold entriesOf at hm
            split at hm
            · split at hm
              · rename_i d hd
                simp only [List.mem_cons, List.not_mem_nil, or_false] at hm
                rcases hm with rfl | rfl
                · exact hlive k x (hpx ▸ hkv)
                · have := hdef _ (dget_mem hd)
                  dsimp only at this hpx
                  rw [hpx] at this
                  simp [Val.isObj] at this
              · simp only [List.mem_singleton] at hm
                subst hm
                exact hlive k x (hpx ▸ hkv)
            · simp only [List.mem_singleton] at hm
              subst hm
              exact hlive k x (hpx ▸ hkv)
        simp only [stripVal, hlog]
        rw [List.getElem?_append_left hx]
      | _ => rfl
    rw [h2 q, hcid, haw, hai, hres, hco, hrec1, stripObjs_eq, List.map_map]
    simp only [true_and]
    have := hmap
    simp only [Function.comp_def]
    rw [this]

/-! ### Resolving the entries of a command -/

/-- Objects built one after the other, `c` identifiers having been given before. -/
def builtObjs (c : Nat) : List (String × Dict String Val) → List Obj
  | [] => []
  | (cls, b) :: L =>
    Obj.mk (1 + (c : Int)) cls [("__init__", b)] (1 + (c : Int)) :: builtObjs (c + 1) L

/-- The same, with the place of each. -/
def madeAt (n : Nat) : List (String × Dict String Val) → List (Nat × String × Dict String Val)
  | [] => []
  | (cls, b) :: L => (n, cls, b) :: madeAt (n + 1) L

@[simp] theorem length_builtObjs (c L) : (builtObjs c L).length = L.length := by
  induction L generalizing c with
  | nil => rfl
  | cons p L ih => simp [builtObjs, ih]

@[simp] theorem length_madeAt (c L) : (madeAt c L).length = L.length := by
  induction L generalizing c with
  | nil => rfl
  | cons p L ih => simp [madeAt, ih]

theorem builtObjs_append (c L L') :
    builtObjs c (L ++ L') = builtObjs c L ++ builtObjs (c + L.length) L' := by
  induction L generalizing c with
  | nil => rfl
  | cons p L ih =>
    simp only [List.cons_append, builtObjs, ih, List.length_cons]
    rw [show c + 1 + L.length = c + (L.length + 1) by omega]

theorem madeAt_append (c L L') :
    madeAt c (L ++ L') = madeAt c L ++ madeAt (c + L.length) L' := by
  induction L generalizing c with
  | nil => rfl
  | cons p L ih =>
    simp only [List.cons_append, madeAt, ih, List.length_cons]
    rw [show c + 1 + L.length = c + (L.length + 1) by omega]

theorem mem_madeAt {n L y cls b} (h : (y, cls, b) ∈ madeAt n L) (c : Nat) :
    n ≤ y ∧ ∃ o, (builtObjs c L)[y - n]? = some o ∧ o.cls = cls ∧ o.log = [("__init__", b)] := by
  induction L generalizing n c with
  | nil => simp [madeAt] at h
  | cons p L ih =>
    obtain ⟨cls', b'⟩ := p
    simp only [madeAt, List.mem_cons, Prod.mk.injEq] at h
    rcases h with ⟨rfl, rfl, rfl⟩ | h
    · exact ⟨Nat.le_refl _, _, by simp [builtObjs]; rfl, rfl, rfl⟩
    · obtain ⟨h1, o, h2, h3⟩ := ih h (c + 1)
      refine ⟨by omega, o, ?_, h3⟩
      rw [show y - n = (y - (n + 1)) + 1 by omega]
      simpa [builtObjs] using h2

theorem madeAt_ge {n L m} (h : m ∈ (madeAt n L).map (·.1)) : n ≤ m := by
  obtain ⟨⟨y, cls, b⟩, h1, rfl⟩ := List.mem_map.1 h
  exact (mem_madeAt h1 0).1

theorem nodup_madeAt (n L) : ((madeAt n L).map (·.1)).Nodup := by
  induction L generalizing n with
  | nil => simp [madeAt]
  | cons p L ih =>
    simp only [madeAt, List.map_cons, List.nodup_cons]
    refine ⟨fun h => ?_, ih _⟩
    have := madeAt_ge h
    omega

/-- The world after conversions have built the objects `L`. -/
structure Grown (w w' : World) (L : List (String × Dict String Val)) : Prop where
  heap : w'.heap = w.heap ++ builtObjs w.oidCounter L
  cnt : w'.oidCounter = w.oidCounter + L.length
  objRecord : w'.objRecord = w.objRecord
  recording : w'.recording = w.recording
  conv : w'.converters = w.converters
  objects : ∀ n : Int, n ≤ w.oidCounter → dget w'.objects n = dget w.objects n

theorem Grown.refl (w : World) : Grown w w [] :=
  ⟨by simp [builtObjs], rfl, rfl, rfl, rfl, fun _ _ => rfl⟩

theorem Grown.trans {w w' w'' L L'} (h : Grown w w' L) (h' : Grown w' w'' L') :
    Grown w w'' (L ++ L') where
  heap := by rw [h'.heap, h.heap, builtObjs_append, h.cnt]; simp
  cnt := by rw [h'.cnt, h.cnt]; simp; omega
  objRecord := h'.objRecord.trans h.objRecord
  recording := h'.recording.trans h.recording
  conv := h'.conv.trans h.conv
  objects := fun n hn => by
    rw [h'.objects n (by rw [h.cnt]; push_cast; omega), h.objects n hn]

theorem recordedArg_of_passes {P : Prog} {cs sg k v} (hv : v.isObj = false)
    (h : Passes P cs true (dget sg.annots k) v) : ∃ u, recordedArg P cs sg k v = some u := by
  have hk : keptArg sg k v = v := by simp [keptArg, hv]
  unfold recordedArg
  rw [hk, if_neg (by simp [hv])]
  cases ha : dget sg.annots k with
  | none => exact ⟨v, rfl⟩
  | some anns =>
    have := h rfl anns ha
    cases hr : recordedAs P cs anns v with
    | none => exact absurd hr this
    | some u => exact ⟨u, hr⟩

/-- A conversion that builds an object. -/
theorem construct_builds {P : Prog} (hP : P.SigsWF) {w : World} {cls kw}
    (h : Builds P w.converters w.recording cls kw) :
    ∃ w' b, construct P w cls [] kw false = (w', .ok w.heap.length) ∧
      initArgs P cls kw = some b ∧ Grown w w' [(cls, b)] := by
  obtain ⟨sg, b, hs, hkw, hb, hargs, hr⟩ := h
  obtain ⟨w', h1, h2, _⟩ := construct_form (nc := false) hs hP hkw hb (hr _ _)
    (fun hon k v hv => recordedArg_of_passes (hargs k v hv).1 (hon ▸ (hargs k v hv).2))
  refine ⟨w', b, h1, by simp [initArgs, hs, hb, Except.toOption], ?_⟩
  refine ⟨by rw [h2.heap]; rfl, by rw [h2.oidCounter]; rfl, by rw [h2.objRecord]; rfl,
    by rw [h2.recording]; rfl, by rw [h2.converters]; rfl, ?_⟩
  intro n hn
  rw [h2.objects]
  show dget (if w.objRecord then _ else _) n = _
  split
  · exact dget_dset_ne _ _ (by omega)
  · rfl

/-- The entry can be resolved. -/
def EntryOK (P : Prog) (w : World) (p : String × Val) : Prop :=
  if endsWithId p.1 then
    ∃ (n : Int) (r : Nat), (p.2 = .oid n ∨ p.2 = .int n) ∧ dget w.objects n = some r ∧ n ≤ w.oidCounter
  else (∀ n, p.2 ≠ .oid n) ∧
    (∀ f x g, p.2 = .conv f x → P.conv f x = .pure g → ∃ v, g x = .ok v) ∧
    (∀ f x cls kw, p.2 = .conv f x → P.conv f x = .make cls kw →
      Builds P w.converters w.recording cls (kw x)) ∧
    (∀ f x key, p.2 = .conv f x → P.conv f x ≠ .look key)

/-- What an entry is resolved to. -/
def EntryVal (P : Prog) (w : World) (made : List (Nat × String × Dict String Val))
    (p : String × Val) (v : Val) : Prop :=
  if endsWithId p.1 then
    ∃ (n : Int) (r : Nat), (p.2 = .oid n ∨ p.2 = .int n) ∧ dget w.objects n = some r ∧ v = .obj r
  else ((∀ f x, p.2 ≠ .conv f x) ∧ v = p.2) ∨
    (∃ f x g, p.2 = .conv f x ∧ P.conv f x = .pure g ∧ g x = .ok v) ∨
    (∃ f x cls kw b y, p.2 = .conv f x ∧ P.conv f x = .make cls kw ∧
      initArgs P cls (kw x) = some b ∧ (y, cls, b) ∈ made ∧ v = .obj y)

theorem EntryVal.mono {P w made made' p v} (h : EntryVal P w made p v)
    (hm : ∀ m ∈ made, m ∈ made') : EntryVal P w made' p v := by
  unfold EntryVal at *
  split
  · rename_i hk; rw [if_pos hk] at h; exact h
  · rename_i hk; rw [if_neg hk] at h
    rcases h with h | h | ⟨f, x, cls, kw, b, y, h1, h2, h3, h4, h5⟩
    · exact Or.inl h
    · exact Or.inr (Or.inl h)
    · exact Or.inr (Or.inr ⟨f, x, cls, kw, b, y, h1, h2, h3, hm _ h4, h5⟩)

theorem EntryOK.grown {P w w' L p} (h : EntryOK P w p) (hg : Grown w w' L) : EntryOK P w' p := by
  unfold EntryOK at *
  split
  · rename_i hk; rw [if_pos hk] at h
    obtain ⟨n, r, h1, h2, h3⟩ := h
    exact ⟨n, r, h1, by rw [hg.objects n h3]; exact h2, by rw [hg.cnt]; push_cast; omega⟩
  · rename_i hk; rw [if_neg hk] at h
    exact ⟨h.1, h.2.1, fun f x cls kw h1 h2 => by rw [hg.conv, hg.recording]; exact h.2.2.1 f x cls kw h1 h2, h.2.2.2⟩

theorem EntryVal.ungrown {P w w' L made p v} (hok : EntryOK P w p) (h : EntryVal P w' made p v)
    (hg : Grown w w' L) : EntryVal P w made p v := by
  unfold EntryVal EntryOK at *
  split
  · rename_i hk; rw [if_pos hk] at h hok
    obtain ⟨n, r, h1, h2, h3⟩ := h
    obtain ⟨n', r', h1', h2', h3'⟩ := hok
    have : n = n' := by
      rcases h1 with h1 | h1 <;> rcases h1' with h1' | h1' <;> rw [h1] at h1' <;> simp_all
    subst this
    rw [hg.objects n h3'] at h2
    exact ⟨n, r, h1, h2, h3⟩
  · rename_i hk; rw [if_neg hk] at h; exact h

/-- Resolving a list of entries. -/
theorem resolve_entries {P : Prog} (hP : P.SigsWF) (ps : Dict String Val) :
    ∀ (w : World) (acc : Dict String Val), (∀ p ∈ ps, EntryOK P w p) →
    ∃ (w' : World) (L : List (String × Dict String Val)) (M : Dict String Val), resolveParams P w ps acc =
        (w', .ok (M.foldl (fun a m => dset a m.1 m.2) acc)) ∧ Grown w w' L ∧
      List.Forall₂ (fun p m => m.1 = target p.1 ∧
        EntryVal P w (madeAt w.heap.length L) p m.2) ps M := by
  induction ps with
  | nil => intro w acc _; exact ⟨w, [], [], rfl, Grown.refl w, List.Forall₂.nil⟩
  | cons p ps ih =>
    intro w acc hok
    obtain ⟨k, v⟩ := p
    have hp := hok (k, v) (by simp)
    have hps : ∀ p ∈ ps, EntryOK P w p := fun p hp => hok p (List.mem_cons_of_mem _ hp)
    have keep : ∀ u, (∀ made, EntryVal P w made (k, v) u) →
        resolveParams P w ((k, v) :: ps) acc = resolveParams P w ps (dset acc (target k) u) →
        ∃ (w' : World) (L : List (String × Dict String Val)) (M : Dict String Val), resolveParams P w ((k, v) :: ps) acc =
          (w', .ok (M.foldl (fun a m => dset a m.1 m.2) acc)) ∧ Grown w w' L ∧
          List.Forall₂ (fun p m => m.1 = target p.1 ∧
            EntryVal P w (madeAt w.heap.length L) p m.2) ((k, v) :: ps) M := by
      intro u hu he
      obtain ⟨w', L, M, h1, h2, h3⟩ := ih w (dset acc (target k) u) hps
      exact ⟨w', L, (target k, u) :: M, by rw [he, h1]; rfl, h2,
        List.Forall₂.cons ⟨rfl, hu _⟩ h3⟩
    have hp' := hp
    unfold EntryOK at hp
    by_cases hk : endsWithId k = true
    · rw [if_pos hk] at hp
      obtain ⟨n, r, hv, hr, hn⟩ := hp
      apply keep (.obj r)
      · intro made
        unfold EntryVal
        rw [if_pos hk]
        exact ⟨n, r, hv, hr, rfl⟩
      · dsimp only at hv
        rcases hv with rfl | rfl <;>
        · conv_lhs => unfold resolveParams
          simp only [hk, if_true, hr, target]
    · rw [if_neg hk] at hp
      dsimp only at hp
      have ht : target k = k := target_self (by simpa using hk)
      by_cases hc : ∃ f x, v = .conv f x
      · obtain ⟨f, x, rfl⟩ := hc
        cases hf : P.conv f x with
        | pure g =>
          obtain ⟨u, hu⟩ := hp.2.1 f x g rfl hf
          apply keep u
          · intro made
            unfold EntryVal
            rw [if_neg hk]
            exact Or.inr (Or.inl ⟨f, x, g, rfl, hf, hu⟩)
          · conv_lhs => unfold resolveParams
            simp only [hk, Bool.false_eq_true, if_false, callConv, hf, hu, ht]
        | make cls kw =>
          obtain ⟨w1, b, h1, h2, hg⟩ := construct_builds hP (hp.2.2.1 f x cls kw rfl hf)
          obtain ⟨w', L, M, h3, h4, h5⟩ := ih w1 (dset acc (target k) (.obj w.heap.length))
            (fun p hp => (hps p hp).grown hg)
          refine ⟨w', (cls, b) :: L, (target k, .obj w.heap.length) :: M, ?_, hg.trans h4, ?_⟩
          · conv_lhs => unfold resolveParams
            simp only [hk, Bool.false_eq_true, if_false, callConv, hf, h1]
            rw [← ht, h3]
            simp [ht]
          · refine List.Forall₂.cons ⟨rfl, ?_⟩ ?_
            · unfold EntryVal
              rw [if_neg hk]
              exact Or.inr (Or.inr ⟨f, x, cls, kw, b, w.heap.length, rfl, hf, h2,
                by simp [madeAt], rfl⟩)
            · have hlen : w1.heap.length = w.heap.length + 1 := by rw [hg.heap]; simp
              rw [hlen] at h5
              have aux : ∀ {l : Dict String Val} {M : Dict String Val}, (∀ p ∈ l, EntryOK P w p) →
                  List.Forall₂ (fun p m => m.1 = target p.1 ∧
                    EntryVal P w1 (madeAt (w.heap.length + 1) L) p m.2) l M →
                  List.Forall₂ (fun p m => m.1 = target p.1 ∧
                    EntryVal P w (madeAt w.heap.length ((cls, b) :: L)) p m.2) l M := by
                intro l M hl hf
                induction hf with
                | nil => exact List.Forall₂.nil
                | cons h _ ihf =>
                  refine List.Forall₂.cons ⟨h.1, ?_⟩
                    (ihf (fun p hp => hl p (List.mem_cons_of_mem _ hp)))
                  exact (h.2.mono (fun m hm => by simp [madeAt, hm])).ungrown
                    (hl _ (by simp)) hg
              exact aux hps h5
        | look key => exact absurd hf (hp.2.2.2 f x key rfl)
      · apply keep v
        · intro made
          unfold EntryVal
          rw [if_neg hk]
          exact Or.inl ⟨fun f x h => hc ⟨f, x, h⟩, rfl⟩
        · conv_lhs => unfold resolveParams
          simp only [hk, Bool.false_eq_true, if_false, ht]
          split
          · rename_i n; exact absurd rfl (hp.1 n)
          · rename_i f x; exact absurd ⟨f, x, rfl⟩ hc
          · rfl

end Verif
