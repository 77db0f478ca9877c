import Verif.Spec.Listing
import Verif.Lemmas.Pushed
import Verif.Lemmas.Define
import Verif.Lemmas.Json
import Verif.Lemmas.ApiFail

namespace Verif

/-! ### What recorded commands look like -/

/-- The command records a call of the program: its keys are parameters of the function. -/
def Keeps (P : Prog) (c : Cmd) : Prop :=
  ∃ func sg, P.sig c.cls func = some sg ∧ c.meth = (P.override c.cls func).getD func ∧
    ∀ p ∈ c.params, p.1 = "id" ∨ p.1 ≠ "id" ∧ target p.1 ∈ sg.params

/-- All commands of all queues do. -/
def AllKeep (P : Prog) (w : World) : Prop := ∀ u ∈ w.queues, ∀ c ∈ u.commands, Keeps P c

theorem fromArgs_key {sg : Sig} (hwf : sg.WF) {selfId args kwargs b p}
    (hb : bindArgs sg args kwargs = .ok b) (h : FromArgs sg selfId args kwargs p) :
    p.1 = "id" ∨ p.1 ≠ "id" ∧ target p.1 ∈ sg.params := by
  rcases h with h | ⟨k, v, h, h'⟩
  · exact Or.inl (by rw [h])
  · have hk : k ∈ sg.params := by
      rcases h' with h' | h' | h'
      · exact h'.1
      · exact List.mem_of_mem_drop ((bindArgs_ok hb).known k (List.mem_map_of_mem (f := Prod.fst) h'))
      · exact hwf.defaultsParams k (List.mem_map_of_mem (f := Prod.fst) h')
    refine Or.inr ⟨?_, by rw [h]; dsimp only; rw [target_keyFor (hwf.ident k hk)]; exact hk⟩
    rw [h]
    dsimp only
    intro he
    have ht : target (keyFor k v) = k := target_keyFor (hwf.ident k hk) v
    rw [he] at ht
    rw [show target "id" = "id" by decide] at ht
    exact hwf.noId (ht ▸ hk)

theorem allKeep_modify {P : Prog} {w : World} {q : Nat} {f : Queue → Queue} (h : AllKeep P w)
    (hf : ∀ u ∈ w.queues, ∀ c ∈ (f u).commands, Keeps P c) : AllKeep P (setQueue w q f) := by
  intro u hu
  unfold setQueue at hu
  dsimp only at hu
  obtain ⟨i, hi⟩ := List.getElem?_of_mem hu
  rw [List.getElem?_modify] at hi
  cases hx : w.queues[i]? with
  | none => rw [hx] at hi; cases hi
  | some u0 =>
    rw [hx] at hi
    have hm := List.mem_of_getElem? hx
    by_cases hqi : q = i
    · simp only [hqi, if_true, Option.map_eq_map, Option.map_some, Option.some.injEq] at hi
      subst hi
      exact hf u0 hm
    · simp only [hqi, if_false, Option.map_eq_map, Option.map_some, Option.some.injEq] at hi
      subst hi
      exact h u0 hm

theorem allKeep_getQueue {P : Prog} {w : World} (n : Option String) (h : AllKeep P w) :
    AllKeep P (getQueue w n).1 := by
  have hnew : ∀ s, AllKeep P (newQueue w s).1 := by
    intro s u hu
    simp only [newQueue, List.mem_append, List.mem_singleton] at hu
    rcases hu with hu | rfl
    · exact h u hu
    · intro c hc; cases hc
  have ha : AllKeep P (getQueue.activeOrNew w).1 := by
    unfold getQueue.activeOrNew
    split
    · exact h
    · exact hnew _
  unfold getQueue
  split
  · exact ha
  · split
    · exact ha
    · split
      · exact h
      · exact hnew _

theorem allKeep_closed {P : Prog} (hP : Annotated P) : PushStepClosed P (AllKeep P) where
  newObj _ _ h := h
  log w r m b h := by unfold logCall; split <;> exact h
  getq w h := allKeep_getQueue none h
  push := by
    intro w q u r o f sg args kwargs b ps h _ _ hro _ hs hb hc
    unfold pushCmd
    refine allKeep_modify (w := { w with cidCounter := w.cidCounter + 1 }) h ?_
    intro u' hu' c hcm
    simp only [Queue.push] at hcm
    split at hcm
    · exact h u' hu' c hcm
    · simp only [List.mem_append, List.mem_singleton] at hcm
      rcases hcm with hcm | rfl
      · exact h u' hu' c hcm
      · refine ⟨f, sg, hs, rfl, ?_⟩
        intro p hp
        dsimp only at hp
        rw [stripObjs_eq] at hp
        obtain ⟨p', hp', rfl⟩ := List.mem_map.1 hp
        obtain ⟨v, h1, _⟩ := checkParams_mem hc p' hp'
        have hf := fromArgs_key (hP.wf _ _ _ hs) hb (collect_mem h1)
        exact hf
  replay w r oid h _ := by
    unfold Verif.setId; split <;> exact h
  queue w n h := allKeep_getQueue n h
  empty w q h := allKeep_modify h (fun u _ c hc => by cases hc)
  readonly w q b h := allKeep_modify h (fun u hu c hc => h u hu c hc)
  record _ _ h := h
  objRecord _ _ h := h
  setId w r id h := by unfold Verif.setId; split <;> exact h
  reset _ h := h
  conv _ _ h := h

theorem funcOf_name {P : Prog} (hP : Annotated P) {cls func sg} (hs : P.sig cls func = some sg) :
    funcOf ((P.override cls func).getD func) = func ∧
      ((P.override cls func).getD func).toList ≠ [] := by
  obtain ⟨h1, h2⟩ := hP.plain _ _ _ hs
  have hd : hasChar '.' func = false := by
    cases h : hasChar '.' func with
    | false => rfl
    | true => exact absurd ((hasChar_iff _ _).1 h) h1
  cases ho : P.override cls func with
  | none => exact ⟨by simp [funcOf, hd], h2⟩
  | some n =>
    rcases hP.name _ _ _ ho with rfl | ⟨rfl, h3⟩
    · exact ⟨by simp [funcOf, hd], h2⟩
    · refine ⟨by simp [funcOf, (hasChar_iff _ _).2 h3], ?_⟩
      intro h
      simp only [Option.getD_some] at h
      rw [h] at h3
      cases h3

/-! ### Lines and blocks -/

theorem showValue_of_shownAs {P : Prog} {w : World} {v : Val} {s : Shown}
    (h : shownAs P w v = some s) : showValue P w v = (w, .ok s) := by
  cases v with
  | conv f x =>
    simp only [shownAs] at h
    simp only [showValue, callConv]
    cases hc : P.conv f x with
    | make cls kw => simp [evaluated, found, hc] at h
    | look key =>
      simp only [evaluated, found, hc] at h
      dsimp only
      cases hk : (key x).bind (dget w.objects) with
      | none => rw [hk] at h; simp at h
      | some r =>
        rw [hk] at h
        simp only [Option.map_some, Option.none_or] at h
        dsimp only
        cases ho : w.heap[r]? with
        | none => rw [ho] at h; cases h
        | some o => rw [ho] at h; cases h; rfl
    | pure g =>
      simp only [evaluated, found, hc] at h
      dsimp only
      cases hg : g x with
      | error e => rw [hg] at h; simp [Except.toOption] at h
      | ok y =>
        rw [hg] at h
        simp only [Except.toOption] at h
        cases y with
        | obj r =>
          simp only [Option.some_or] at h
          dsimp only at h ⊢
          cases ho : w.heap[r]? with
          | none => rw [ho] at h; cases h
          | some o => rw [ho] at h; cases h; rfl
        | _ => cases h; rfl
  | _ => simp only [shownAs, Option.some.injEq] at h; subst h; rfl

theorem listParam_ok {P : Prog} {w : World} {sg : Sig} {p : String × Val} {s : Shown}
    (hall : ∀ k ∈ sg.params, (dget sg.annots k).isSome = true)
    (hk : p.1 = "id" ∨ p.1 ≠ "id" ∧ target p.1 ∈ sg.params) (hs : shownAs P w p.2 = some s) :
    ∃ l, listParam (some sg.annots) p.1 s = .ok l ∧ LineOf P w sg.annots p l := by
  rcases hk with hk | ⟨hne, hk⟩
  · exact ⟨_, by rw [listParam, if_pos hk], hs, Or.inl ⟨hk, rfl, rfl⟩⟩
  · obtain ⟨t, ht⟩ := Option.isSome_iff_exists.1 (hall _ hk)
    unfold listParam
    rw [if_neg hne]
    dsimp only
    unfold target at ht
    split
    · rename_i he
      rw [if_pos he] at ht
      rw [ht]
      exact ⟨_, rfl, hs, Or.inr ⟨hne, _, t, ht, rfl, Or.inr ⟨dropId_suffix he, rfl⟩⟩⟩
    · rename_i he
      rw [if_neg he] at ht
      rw [ht]
      exact ⟨_, rfl, hs, Or.inr ⟨hne, _, t, ht, rfl, Or.inl ⟨rfl, rfl⟩⟩⟩

theorem listParams_ok {P : Prog} {w : World} {sg : Sig}
    (hall : ∀ k ∈ sg.params, (dget sg.annots k).isSome = true) :
    ∀ {ps : Dict String Val} (acc : List Line),
      (∀ p ∈ ps, p.1 = "id" ∨ p.1 ≠ "id" ∧ target p.1 ∈ sg.params) →
      (∀ p ∈ ps, (shownAs P w p.2).isSome = true) →
      ∃ ls, listParams P (some sg.annots) w ps acc = (w, .ok (acc ++ ls)) ∧
        List.Forall₂ (LineOf P w sg.annots) ps ls
  | [], acc, _, _ => ⟨[], by simp [listParams], .nil⟩
  | (k, v) :: ps, acc, hk, hs => by
    obtain ⟨s, h1⟩ := Option.isSome_iff_exists.1 (hs (k, v) (by simp))
    obtain ⟨l, h2, h3⟩ := listParam_ok hall (hk (k, v) (by simp)) h1
    obtain ⟨ls, h4, h5⟩ := listParams_ok hall (ps := ps) (acc ++ [l])
      (fun p hp => hk p (List.mem_cons_of_mem _ hp)) (fun p hp => hs p (List.mem_cons_of_mem _ hp))
    refine ⟨l :: ls, ?_, .cons h3 h5⟩
    unfold listParams
    rw [showValue_of_shownAs h1]
    dsimp only at h2 ⊢
    rw [h2]
    dsimp only
    rw [h4]
    simp

theorem listCommand_ok {P : Prog} (hP : Annotated P) {w : World} {c : Cmd} (hc : Keeps P c)
    (hs : ∀ p ∈ c.params, (shownAs P w p.2).isSome = true) :
    ∃ e, listCommand P (recordedAnnots P c) w c = (w, .ok e) ∧ EntryOf P w c e := by
  obtain ⟨func, sg, h1, h2, h3⟩ := hc
  obtain ⟨hf, hne⟩ := funcOf_name hP h1
  have hann : recordedAnnots P c = some sg.annots := by
    unfold recordedAnnots
    rw [h2, hf, h1]
    rfl
  obtain ⟨ls, h4, h5⟩ := listParams_ok (P := P) (w := w) (hP.all _ _ _ h1) [] h3 hs
  rw [hann]
  refine ⟨⟨methodString c.cls c.meth, c.cid, ls⟩, ?_, rfl, ?_, func, sg, h1, h2, h5⟩
  · unfold listCommand
    rw [h4]
    simp
  · dsimp only
    unfold methodString
    rw [if_neg (h2 ▸ hne)]
    by_cases hd : '.' ∈ c.meth.toList
    · rw [if_pos ((hasChar_iff _ _).2 hd), if_pos hd]
    · rw [if_neg (fun h => hd ((hasChar_iff _ _).1 h)), if_neg hd]

theorem listLoop_ok {P : Prog} {w : World} {q : Nat} {u : Queue}
    {ann : Cmd → Option (Dict String (List String))} {R : Cmd → Entry → Prop}
    (hq : w.queues[q]? = some u)
    (hc : ∀ c ∈ u.commands, ∃ e, listCommand P (ann c) w c = (w, .ok e) ∧ R c e) :
    ∀ (n i : Nat) (fuel : Nat) (acc : List Entry), u.commands.length - i = n → n < fuel →
      ∃ es, listLoop P ann fuel w q i acc = some (w, .ok (acc ++ es)) ∧
        List.Forall₂ R (u.commands.drop i) es
  | 0, i, fuel + 1, acc, hn, _ => by
    refine ⟨[], ?_, ?_⟩
    · unfold listLoop
      rw [hq]
      dsimp only
      rw [List.getElem?_eq_none (by omega)]
      simp
    · rw [List.drop_eq_nil_of_le (by omega)]
      exact .nil
  | n + 1, i, fuel + 1, acc, hn, hf => by
    have hi : i < u.commands.length := by omega
    obtain ⟨e, h1, h2⟩ := hc u.commands[i] (List.getElem_mem hi)
    obtain ⟨es, h3, h4⟩ := listLoop_ok hq hc n (i + 1) fuel (acc ++ [e]) (by omega) (by omega)
    refine ⟨e :: es, ?_, ?_⟩
    · unfold listLoop
      rw [hq]
      dsimp only
      rw [List.getElem?_eq_getElem hi]
      dsimp only
      rw [h1]
      dsimp only
      rw [h3]
      simp
    · rw [List.drop_eq_getElem_cons hi]
      exact .cons h2 h4

/-! ### Commands without annotations -/

theorem showValue_plain {P : Prog} {w : World} {v : Val} (h : ∀ f x, v ≠ .conv f x) :
    showValue P w v = (w, .ok (.value v)) := by
  cases v with
  | conv f x => exact absurd rfl (h f x)
  | _ => rfl

theorem listParams_none {P : Prog} {w : World} : ∀ {ps : Dict String Val} (acc : List Line),
    (∀ p ∈ ps, ∀ f x, p.2 ≠ .conv f x) →
    if ∀ p ∈ ps, p.1 = "id" then ∃ ls, listParams P none w ps acc = (w, .ok ls)
    else listParams P none w ps acc = (w, .error .typeError)
  | [], acc, _ => by
    rw [if_pos (by intro p hp; cases hp)]
    exact ⟨acc, rfl⟩
  | (k, v) :: ps, acc, hv => by
    have h1 := showValue_plain (P := P) (w := w) (hv (k, v) (by simp))
    unfold listParams
    rw [h1]
    dsimp only
    by_cases hk : k = "id"
    · have hl : ∀ s, listParam none k s = .ok ⟨"OBJECT_ID", s, "int"⟩ := by
        intro s; unfold listParam; rw [if_pos hk]
      rw [hl]
      dsimp only
      have ih := listParams_none (P := P) (w := w) (ps := ps)
        (acc ++ [⟨"OBJECT_ID", .value v, "int"⟩])
        (fun p hp => hv p (List.mem_cons_of_mem _ hp))
      by_cases hall : ∀ p ∈ ps, p.1 = "id"
      · rw [if_pos hall] at ih
        rw [if_pos (by
          intro p hp
          rcases List.mem_cons.1 hp with rfl | hp
          · exact hk
          · exact hall p hp)]
        exact ih
      · rw [if_neg hall] at ih
        rw [if_neg (fun h => hall (fun p hp => h p (List.mem_cons_of_mem _ hp)))]
        exact ih
    · have hl : ∀ s, listParam none k s = .error .typeError := by
        intro s; unfold listParam; rw [if_neg hk]
      rw [hl]
      rw [if_neg (fun h => hk (h (k, v) (by simp)))]

theorem listCommand_none {P : Prog} {w : World} {c : Cmd} 
    (hv : ∀ p ∈ c.params, ∀ f x, p.2 ≠ .conv f x) :
    if ∀ p ∈ c.params, p.1 = "id" then ∃ e, listCommand P none w c = (w, .ok e)
    else listCommand P none w c = (w, .error .typeError) := by
  have h := listParams_none (P := P) (w := w) [] hv
  unfold listCommand
  split
  · rename_i hc
    rw [if_pos hc] at h
    obtain ⟨ls, h⟩ := h
    rw [h]
    exact ⟨_, rfl⟩
  · rename_i hc
    rw [if_neg hc] at h
    rw [h]

theorem listLoop_none {P : Prog} {w : World} {q : Nat} {u : Queue}
    (hq : w.queues[q]? = some u) (hv : ∀ c ∈ u.commands, ∀ p ∈ c.params, ∀ f x, p.2 ≠ .conv f x) :
    ∀ (n i : Nat) (fuel : Nat) (acc : List Entry), u.commands.length - i = n → n < fuel →
      if ∀ c ∈ u.commands.drop i, ∀ p ∈ c.params, p.1 = "id" then
        ∃ es, listLoop P loadedAnnots fuel w q i acc = some (w, .ok es)
      else listLoop P loadedAnnots fuel w q i acc = some (w, .error .typeError)
  | 0, i, fuel + 1, acc, hn, _ => by
    rw [List.drop_eq_nil_of_le (by omega), if_pos (by intro c hc; cases hc)]
    refine ⟨acc, ?_⟩
    unfold listLoop
    rw [hq]
    dsimp only
    rw [List.getElem?_eq_none (by omega)]
  | n + 1, i, fuel + 1, acc, hn, hf => by
    have hi : i < u.commands.length := by omega
    have hc := listCommand_none (P := P) (w := w) (hv u.commands[i] (List.getElem_mem hi))
    unfold listLoop
    rw [hq]
    dsimp only
    rw [List.getElem?_eq_getElem hi]
    dsimp only [loadedAnnots]
    rw [List.drop_eq_getElem_cons hi]
    by_cases hid : ∀ p ∈ u.commands[i].params, p.1 = "id"
    · rw [if_pos hid] at hc
      obtain ⟨e, hc⟩ := hc
      rw [hc]
      dsimp only
      have ih := listLoop_none (P := P) hq hv n (i + 1) fuel (acc ++ [e]) (by omega) (by omega)
      by_cases hall : ∀ c ∈ u.commands.drop (i + 1), ∀ p ∈ c.params, p.1 = "id"
      · rw [if_pos hall] at ih
        rw [if_pos (by
          intro c hc
          rcases List.mem_cons.1 hc with rfl | hc
          · exact hid
          · exact hall c hc)]
        exact ih
      · rw [if_neg hall] at ih
        rw [if_neg (fun h => hall (fun c hc => h c (List.mem_cons_of_mem _ hc)))]
        exact ih
    · rw [if_neg hid] at hc
      rw [hc]
      rw [if_neg (fun h => hid (h _ List.mem_cons_self))]

/-! ### Conversions that build nothing -/

theorem showValue_same {P : Prog} {w : World} {v : Val}
    (h : ∀ f x, v = .conv f x → ∀ cls kw, P.conv f x ≠ .make cls kw) : (showValue P w v).1 = w := by
  cases v with
  | conv f x =>
    have hc : (callConv P w f x).1 = w := by
      unfold callConv
      cases hg : P.conv f x with
      | pure g => rfl
      | make cls kw => exact absurd hg (h f x rfl cls kw)
      | look key => dsimp only; split <;> rfl
    simp only [showValue]
    split
    · rename_i heq; rw [heq] at hc; exact hc
    · rename_i heq
      rw [heq] at hc
      split <;> exact hc
    · rename_i heq; rw [heq] at hc; exact hc
  | _ => rfl

theorem listParams_same {P : Prog} {w : World} {ann} : ∀ {ps : Dict String Val} {acc : List Line},
    (∀ p ∈ ps, ∀ f x, p.2 = .conv f x → ∀ cls kw, P.conv f x ≠ .make cls kw) →
    (listParams P ann w ps acc).1 = w
  | [], _, _ => rfl
  | (k, v) :: ps, acc, h => by
    have h1 := showValue_same (P := P) (w := w) (h (k, v) (by simp))
    unfold listParams
    split
    · rename_i heq; rw [heq] at h1; exact h1
    · rename_i heq
      rw [heq] at h1
      dsimp only at h1
      subst h1
      split
      · rfl
      · exact listParams_same (fun p hp => h p (List.mem_cons_of_mem _ hp))

theorem listCommand_same {P : Prog} {w : World} {ann} {c : Cmd}
    (h : ∀ p ∈ c.params, ∀ f x, p.2 = .conv f x → ∀ cls kw, P.conv f x ≠ .make cls kw) :
    (listCommand P ann w c).1 = w := by
  have h1 := listParams_same (P := P) (w := w) (ann := ann) (acc := []) h
  unfold listCommand
  split
  · rename_i heq; rw [heq] at h1; exact h1
  · rename_i heq; rw [heq] at h1; exact h1

theorem listLoop_same {P : Prog} {ann : Cmd → Option (Dict String (List String))} {w : World}
    {q : Nat} (hs : ∀ c ∈ commandsOf w q, ∀ p ∈ c.params, ∀ f x, p.2 = .conv f x →
      ∀ cls kw, P.conv f x ≠ .make cls kw) :
    ∀ {fuel i acc w' r}, listLoop P ann fuel w q i acc = some (w', r) → w' = w
  | 0, _, _, _, _, h => by cases h
  | fuel + 1, i, acc, w', r, h => by
    unfold listLoop at h
    split at h
    · cases h; rfl
    · rename_i c hc
      have hm : c ∈ commandsOf w q := by
        unfold commandsOf
        split at hc
        · rename_i u hu; rw [hu]; exact List.mem_of_getElem? hc
        · cases hc
      have h1 := listCommand_same (P := P) (w := w) (ann := ann c) (hs c hm)
      split at h
      · rename_i heq; rw [heq] at h1; cases h; exact h1
      · rename_i heq
        rw [heq] at h1
        dsimp only at h1
        subst h1
        exact listLoop_same hs h

end Verif
