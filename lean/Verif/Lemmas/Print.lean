import Verif.Spec.Print
import Verif.Lemmas.Listing
import Verif.Lemmas.Dtype
import Verif.Lemmas.Deliver
/-! Lemmas about printed commands -/

namespace Verif

theorem cut_eq {α : Type} {c : α} : ∀ {a b r s : List α}, a ++ c :: r = b ++ c :: s → c ∉ a → c ∉ b →
    a = b ∧ r = s
  | [], [], _, _, h, _, _ => ⟨rfl, (List.cons.inj h).2⟩
  | [], y :: b, _, _, h, _, hb => by
    exact absurd (List.mem_cons.2 (Or.inl (List.cons.inj h).1)) hb
  | x :: a, [], _, _, h, ha, _ => by
    exact absurd (List.mem_cons.2 (Or.inl (List.cons.inj h).1.symm)) ha
  | x :: a, y :: b, r, s, h, ha, hb => by
    obtain ⟨h1, h2⟩ := List.cons.inj h
    obtain ⟨h3, h4⟩ := cut_eq h2 (fun h => ha (List.mem_cons_of_mem _ h))
      (fun h => hb (List.mem_cons_of_mem _ h))
    exact ⟨by rw [h1, h3], h4⟩

theorem decimal_inj {m n : Nat} (h : decimal m = decimal n) : m = n := by
  have h1 := pyInt_decimal m
  rw [h, pyInt_decimal] at h1
  exact (Except.ok.inj h1).symm

theorem notMem_intText {c : Char} (hc : c.isDigit = false) (hm : c ≠ '-') (n : Int) :
    c ∉ intText n := by
  cases n with
  | ofNat n => exact notMem_decimal hc n
  | negSucc n => simp [intText, hm, notMem_decimal hc]

theorem intText_inj {m n : Int} (h : intText m = intText n) : m = n := by
  have key : ∀ a b : Nat, decimal a ≠ '-' :: decimal b := by
    intro a b h
    have := decimal_digits a '-' (by rw [h]; simp)
    revert this
    decide
  cases m with
  | ofNat m =>
    cases n with
    | ofNat n => rw [decimal_inj h]
    | negSucc n => exact absurd h (key _ _)
  | negSucc m =>
    cases n with
    | ofNat n => exact absurd h.symm (key _ _)
    | negSucc n =>
      have := decimal_inj (List.cons.inj h).2
      rw [Nat.succ.inj this]

theorem toList_eq_nil {s : String} : s.toList = [] ↔ s = "" := by
  constructor
  · intro h
    exact String.toList_injective (by rw [h]; rfl)
  · rintro rfl; rfl

theorem printsAsCreation_iff (c : Cmd) : printsAsCreation c.meth = true ↔ c.Creation := by
  unfold printsAsCreation Cmd.Creation
  rw [Bool.or_eq_true, decide_eq_true_eq, toList_eq_nil, hasChar_iff]

/-- The text of a command, cut in pieces. -/
theorem cmdText_ok {c : Cmd} {s : List Char} (h : cmdText c = .ok s) :
    ∃ v n, dget c.params "id" = some v ∧ shownNumber v = some n ∧
      s = "Command #".toList ++ (decimal c.cid ++ ':' :: (' ' :: (c.cls.toList ++ '(' ::
        ("id=".toList ++ (intText n ++ ')' :: (if printsAsCreation c.meth then [] else
          '/' :: (c.meth.toList ++ "(…)".toList))))))) := by
  unfold cmdText at h
  cases hv : dget c.params "id" with
  | none => rw [hv] at h; cases h
  | some v =>
    simp only [hv] at h
    cases hn : shownNumber v with
    | none => simp only [hn] at h; cases h
    | some n =>
      simp only [hn] at h
      refine ⟨v, n, rfl, hn, ?_⟩
      split at h
      · rename_i hc
        cases h
        rw [if_pos hc]
        simp
      · rename_i hc
        cases h
        rw [if_neg hc]
        simp

theorem cmdText_same {c c' : Cmd} {s : List Char} (h : cmdText c = .ok s) (h' : cmdText c' = .ok s)
    (hp : '(' ∉ c.cls.toList) (hp' : '(' ∉ c'.cls.toList) : ReadsSame c c' := by
  obtain ⟨v, n, h1, h2, h3⟩ := cmdText_ok h
  obtain ⟨v', n', k1, k2, k3⟩ := cmdText_ok h'
  rw [h3] at k3
  have e1 := List.append_cancel_left k3
  obtain ⟨e2, e3⟩ := cut_eq e1 (notMem_decimal (by decide) _) (notMem_decimal (by decide) _)
  obtain ⟨e4, e5⟩ := cut_eq (List.cons.inj e3).2 hp hp'
  have e6 := List.append_cancel_left e5
  obtain ⟨e7, e8⟩ := cut_eq e6 (notMem_intText (by decide) (by decide) _)
    (notMem_intText (by decide) (by decide) _)
  have hn := intText_inj e7
  subst hn
  refine ⟨(decimal_inj e2).symm, (String.toList_injective e4).symm, ⟨v, v', n, h1, k1, h2, k2⟩, ?_⟩
  cases hc : printsAsCreation c.meth with
  | true =>
    cases hc' : printsAsCreation c'.meth with
    | true => exact Or.inl ⟨(printsAsCreation_iff c).1 hc, (printsAsCreation_iff c').1 hc'⟩
    | false => rw [hc, hc'] at e8; simp at e8
  | false =>
    cases hc' : printsAsCreation c'.meth with
    | true => rw [hc, hc'] at e8; simp at e8
    | false =>
      rw [hc, hc'] at e8
      simp only [Bool.false_eq_true, if_false, List.cons.injEq, true_and] at e8
      have := String.toList_injective (List.append_cancel_right e8)
      refine Or.inr ⟨?_, ?_, this.symm⟩
      · rw [← printsAsCreation_iff, hc]; simp
      · rw [← printsAsCreation_iff, hc']; simp

theorem cmdText_iff (c : Cmd) : (∃ s, cmdText c = .ok s) ↔ PrintsNumber c := by
  constructor
  · rintro ⟨s, h⟩
    obtain ⟨v, n, h1, h2, _⟩ := cmdText_ok h
    exact ⟨v, n, h1, h2⟩
  · rintro ⟨v, n, h1, h2⟩
    unfold cmdText
    simp only [h1, h2]
    split <;> exact ⟨_, rfl⟩

theorem cmdDump_iff (w : World) (names : Nat → List Char) (c : Cmd) :
    (∃ ls, cmdDump w names c = .ok ls) ↔ PrintsNumber c := by
  unfold cmdDump
  constructor
  · rintro ⟨s, h⟩
    cases hv : dget c.params "id" with
    | none => rw [hv] at h; cases h
    | some v =>
      simp only [hv] at h
      cases hn : shownNumber v with
      | none => simp only [hn] at h; cases h
      | some n => exact ⟨v, n, hv, hn⟩
  · rintro ⟨v, n, h1, h2⟩
    simp only [h1, h2]
    exact ⟨_, rfl⟩

theorem ofDigitChars_zeros (k : Nat) (l : List Char) :
    Nat.ofDigitChars 10 (List.replicate k '0' ++ l) 0 = Nat.ofDigitChars 10 l 0 := by
  induction k with
  | zero => simp
  | succ k ih => simpa [List.replicate_succ, Nat.ofDigitChars_cons] using ih

theorem pad3_inj {m n : Nat} (h : pad3 m = pad3 n) : m = n := by
  have h1 := congrArg (fun l => Nat.ofDigitChars 10 l 0) h
  simpa [pad3, ofDigitChars_zeros, decimal, Nat.ofDigitChars_ten_toDigits] using h1

theorem notMem_pad3 {c : Char} (hc : c.isDigit = false) (n : Nat) : c ∉ pad3 n := by
  unfold pad3
  simp only [List.mem_append, List.mem_replicate, not_or]
  refine ⟨fun h => ?_, notMem_decimal hc n⟩
  rw [h.2] at hc
  revert hc
  decide

/-- The lines of a dump, cut in pieces. -/
theorem cmdDump_ok {w : World} {names : Nat → List Char} {c : Cmd} {ls : List (List Char)}
    (h : cmdDump w names c = .ok ls) :
    ∃ v n, dget c.params "id" = some v ∧ shownNumber v = some n ∧
      ls = ('#' :: (pad3 c.cid ++ ':' :: (' ' :: (((if printsAsCreation c.meth then
        "Creation of ".toList else []) ++ c.cls.toList) ++ '(' :: ("id=".toList ++ (intText n ++
          ')' :: (if printsAsCreation c.meth then [] else
            " → ".toList ++ (c.meth.toList ++ "(…)".toList)))))))) ::
        c.params.map (dumpLine w names) := by
  unfold cmdDump at h
  cases hv : dget c.params "id" with
  | none => rw [hv] at h; cases h
  | some v =>
    simp only [hv] at h
    cases hn : shownNumber v with
    | none => simp only [hn] at h; cases h
    | some n =>
      simp only [hn] at h
      refine ⟨v, n, rfl, hn, ?_⟩
      cases h
      split
      · simp
      · simp

theorem cmdDump_same {w w' : World} {names names' : Nat → List Char} {c c' : Cmd}
    {ls : List (List Char)} (h : cmdDump w names c = .ok ls) (h' : cmdDump w' names' c' = .ok ls)
    (hp : '(' ∉ c.cls.toList ∧ ' ' ∉ c.cls.toList) (hp' : '(' ∉ c'.cls.toList ∧ ' ' ∉ c'.cls.toList) :
    ReadsSame c c' ∧ c.params.map (dumpLine w names) = c'.params.map (dumpLine w' names') := by
  obtain ⟨v, n, h1, h2, h3⟩ := cmdDump_ok h
  obtain ⟨v', n', k1, k2, k3⟩ := cmdDump_ok h'
  rw [h3] at k3
  obtain ⟨e0, e9⟩ := List.cons.inj k3
  refine ⟨?_, e9⟩
  obtain ⟨e2, e3⟩ := cut_eq (List.cons.inj e0).2 (notMem_pad3 (by decide) _) (notMem_pad3 (by decide) _)
  have hpar : ∀ (b : Bool) (l : List Char), '(' ∉ l →
      '(' ∉ (if b = true then "Creation of ".toList else []) ++ l := by
    intro b l hl
    cases b <;> simp [hl]
  obtain ⟨e4, e5⟩ := cut_eq (List.cons.inj e3).2 (hpar _ _ hp.1) (hpar _ _ hp'.1)
  have e6 := List.append_cancel_left e5
  obtain ⟨e7, e8⟩ := cut_eq e6 (notMem_intText (by decide) (by decide) _)
    (notMem_intText (by decide) (by decide) _)
  have hn := intText_inj e7
  subst hn
  have hsp : ∀ (b b' : Bool) (l l' : List Char), ' ' ∉ l → ' ' ∉ l' →
      (if b = true then "Creation of ".toList else []) ++ l =
        (if b' = true then "Creation of ".toList else []) ++ l' → b = b' ∧ l = l' := by
    intro b b' l l' hl hl' he
    have hm := congrArg (fun x => decide (' ' ∈ x)) he
    cases b <;> cases b'
    · exact ⟨rfl, by simpa using he⟩
    · simp [hl] at hm
    · simp [hl'] at hm
    · exact ⟨rfl, List.append_cancel_left he⟩
  obtain ⟨f1, f2⟩ := hsp _ _ _ _ hp.2 hp'.2 e4
  refine ⟨(pad3_inj e2).symm, (String.toList_injective f2).symm, ⟨v, v', n, h1, k1, h2, k2⟩, ?_⟩
  cases hc : printsAsCreation c.meth with
  | true => exact Or.inl ⟨(printsAsCreation_iff c).1 hc, (printsAsCreation_iff c').1 (by rw [← f1, hc])⟩
  | false =>
    have hc' : printsAsCreation c'.meth = false := by rw [← f1, hc]
    rw [hc, hc'] at e8
    simp only [Bool.false_eq_true, if_false] at e8
    have := String.toList_injective (List.append_cancel_right (List.append_cancel_left e8))
    refine Or.inr ⟨?_, ?_, this.symm⟩
    · rw [← printsAsCreation_iff, hc]; simp
    · rw [← printsAsCreation_iff, hc']; simp

theorem dumpLine_cut {w w' : World} {names names' : Nat → List Char} {p p' : String × Val}
    (h : dumpLine w names p = dumpLine w' names' p') (hn : ':' ∉ p.1.toList) (hn' : ':' ∉ p'.1.toList) :
    p.1 = p'.1 := by
  unfold dumpLine at h
  simp only [List.append_assoc] at h
  have e1 : p.1.toList ++ ':' :: (" ".toList ++ _) = p'.1.toList ++ ':' :: (" ".toList ++ _) :=
    List.append_cancel_left h
  exact String.toList_injective (cut_eq e1 hn hn').1

theorem newline_cmdText {c : Cmd} {s : List Char} (h : cmdText c = .ok s) (hp : PlainNames c) :
    '\n' ∉ s := by
  obtain ⟨v, n, _, _, rfl⟩ := cmdText_ok h
  have h1 := notMem_decimal (c := '\n') (by decide) c.cid
  have h2 := notMem_intText (c := '\n') (by decide) (by decide) n
  have h3 := hp.2.1
  have h4 := hp.2.2
  split <;> simp [h1, h2, h3, h4]

/-- Lines that end with a line break can be told apart. -/
theorem lines_inj {l l' : List (List Char)} (h : ∀ s ∈ l, '\n' ∉ s) (h' : ∀ s ∈ l', '\n' ∉ s)
    (he : l.flatMap (fun s => "  - ".toList ++ s ++ "\n".toList) =
      l'.flatMap (fun s => "  - ".toList ++ s ++ "\n".toList)) : l = l' := by
  induction l generalizing l' with
  | nil =>
    cases l' with
    | nil => rfl
    | cons s l' => simp at he
  | cons s l ih =>
    cases l' with
    | nil => simp at he
    | cons s' l' =>
      simp only [List.flatMap_cons, List.append_assoc] at he
      have e1 := List.append_cancel_left he
      obtain ⟨e2, e3⟩ := cut_eq (c := '\n') (r := l.flatMap _) (s := l'.flatMap _) e1
        (h s (by simp)) (h' s' (by simp))
      rw [e2, ih (fun x hx => h x (by simp [hx])) (fun x hx => h' x (by simp [hx])) e3]

theorem mapM_ok_forall {α β : Type} {f : α → Except Err β} : ∀ {l : List α} {l' : List β},
    l.mapM f = .ok l' → List.Forall₂ (fun a b => f a = .ok b) l l'
  | [], l', h => by
    simp [pure, Except.pure] at h
    subst h
    exact List.Forall₂.nil
  | a :: l, l', h => by
    rw [List.mapM_cons] at h
    cases hf : f a with
    | error e => rw [hf] at h; cases h
    | ok b =>
      rw [hf] at h
      cases hl : l.mapM f with
      | error e => rw [hl] at h; cases h
      | ok l2 =>
        rw [hl] at h
        cases h
        exact List.Forall₂.cons hf (mapM_ok_forall hl)

theorem mapM_isOk {α β : Type} {f : α → Except Err β} : ∀ {l : List α},
    (∀ a ∈ l, ∃ b, f a = .ok b) → ∃ l', l.mapM f = .ok l'
  | [], _ => ⟨[], rfl⟩
  | a :: l, h => by
    obtain ⟨b, hb⟩ := h a (by simp)
    obtain ⟨l2, h2⟩ := mapM_isOk (l := l) (fun x hx => h x (by simp [hx]))
    exact ⟨b :: l2, by rw [List.mapM_cons, hb, h2]; rfl⟩

theorem activity_inj {a a' : Bool} {s s' : List Char}
    (h : (if a then "active, ".toList else "not active, ".toList) ++ s =
      (if a' then "active, ".toList else "not active, ".toList) ++ s') : a = a' ∧ s = s' := by
  have h0 := congrArg (fun l => l[0]?) h
  cases a <;> cases a'
  · exact ⟨rfl, List.append_cancel_left h⟩
  · exact absurd (Option.some.inj (show some 'n' = some 'a' from h0)) (by decide)
  · exact absurd (Option.some.inj (show some 'a' = some 'n' from h0)) (by decide)
  · exact ⟨rfl, List.append_cancel_left h⟩

theorem mode_inj {a a' : Bool} {s s' : List Char}
    (h : (if a then "read-only) : ".toList else "read-write) : ".toList) ++ s =
      (if a' then "read-only) : ".toList else "read-write) : ".toList) ++ s') : a = a' ∧ s = s' := by
  have h0 := congrArg (fun l => l[5]?) h
  cases a <;> cases a'
  · exact ⟨rfl, List.append_cancel_left h⟩
  · exact absurd (Option.some.inj (show some 'w' = some 'o' from h0)) (by decide)
  · exact absurd (Option.some.inj (show some 'o' = some 'w' from h0)) (by decide)
  · exact ⟨rfl, List.append_cancel_left h⟩

theorem queueHead_inj {name name' : String} {a a' r r' : Bool} {n n' : Nat} {s s' : List Char}
    (hn : '"' ∉ name.toList) (hn' : '"' ∉ name'.toList)
    (h : queueHead name a r n ++ s = queueHead name' a' r' n' ++ s') :
    name = name' ∧ a = a' ∧ r = r' ∧ n = n' ∧ s = s' := by
  unfold queueHead at h
  simp only [List.append_assoc] at h
  have e1 := List.append_cancel_left h
  have e1' : name.toList ++ '"' :: (", ".toList ++ _) = name'.toList ++ '"' :: (", ".toList ++ _) := e1
  obtain ⟨e2, e3⟩ := cut_eq e1' hn hn'
  obtain ⟨e5, e6⟩ := activity_inj (List.append_cancel_left e3)
  obtain ⟨e8, e9⟩ := mode_inj e6
  have e9' : decimal n ++ ' ' :: ("command(s)\n".toList ++ s) =
      decimal n' ++ ' ' :: ("command(s)\n".toList ++ s') := e9
  obtain ⟨e10, e11⟩ := cut_eq e9' (notMem_decimal (by decide) _) (notMem_decimal (by decide) _)
  exact ⟨String.toList_injective e2, e5, e8, decimal_inj e10, List.append_cancel_left e11⟩

/-! ### Recorded commands have a number -/

/-- All commands of all queues have an id that is an `OID`. -/
def AllIds (w : World) : Prop :=
  ∀ u ∈ w.queues, ∀ c ∈ u.commands, ∃ n, dget c.params "id" = some (.oid n)

theorem allIds_modify {w : World} {q : Nat} {f : Queue → Queue} (h : AllIds w)
    (hf : ∀ u ∈ w.queues, ∀ c ∈ (f u).commands, ∃ n, dget c.params "id" = some (.oid n)) :
    AllIds (setQueue w q f) := by
  intro u hu
  unfold setQueue at hu
  dsimp only at hu
  obtain ⟨i, hi⟩ := List.getElem?_of_mem hu
  rw [List.getElem?_modify] at hi
  cases hx : w.queues[i]? with
  | none => rw [hx] at hi; cases hi
  | some u0 =>
    rw [hx] at hi
    have hm := List.mem_of_getElem? hx
    by_cases hqi : q = i
    · simp only [hqi, if_true, Option.map_eq_map, Option.map_some, Option.some.injEq] at hi
      subst hi
      exact hf u0 hm
    · simp only [hqi, if_false, Option.map_eq_map, Option.map_some, Option.some.injEq] at hi
      subst hi
      exact h u0 hm

theorem allIds_getQueue {w : World} (n : Option String) (h : AllIds w) :
    AllIds (getQueue w n).1 := by
  have hnew : ∀ s, AllIds (newQueue w s).1 := by
    intro s u hu
    simp only [newQueue, List.mem_append, List.mem_singleton] at hu
    rcases hu with hu | rfl
    · exact h u hu
    · intro c hc; cases hc
  have ha : AllIds (getQueue.activeOrNew w).1 := by
    unfold getQueue.activeOrNew
    split
    · exact h
    · exact hnew _
  unfold getQueue
  split
  · exact ha
  · split
    · exact ha
    · split
      · exact h
      · exact hnew _

theorem allIds_closed {P : Prog} (hP : ∀ cls f sg, P.sig cls f = some sg → sg.WF) :
    PushStepClosed P AllIds where
  newObj _ _ h := h
  log w r m b h := by unfold logCall; split <;> exact h
  getq w h := allIds_getQueue none h
  push := by
    intro w q u r o f sg args kwargs b ps h _ _ hro _ hs hb hc
    have hwf := hP _ _ _ hs
    unfold pushCmd
    refine allIds_modify (w := { w with cidCounter := w.cidCounter + 1 }) h ?_
    intro u' hu' c hcm
    simp only [Queue.push] at hcm
    split at hcm
    · exact h u' hu' c hcm
    · simp only [List.mem_append, List.mem_singleton] at hcm
      rcases hcm with hcm | rfl
      · exact h u' hu' c hcm
      · refine ⟨o.id, ?_⟩
        have hid := dget_collect_id hwf (args := args) o.id
          (fun k hk => List.mem_of_mem_drop ((bindArgs_ok hb).known k hk))
        obtain ⟨v', hv', hg⟩ := checkParams_dget hc "id" _ hid
        have : v' = .oid o.id := by
          simp only [checkParam, annots_id hwf (Or.inr rfl), Except.ok.injEq] at hv'
          exact hv'.symm
        subst this
        show dget (stripObjs w ps) "id" = _
        apply dget_of_mem_nodup
        · have : dkeys (stripObjs w ps) = dkeys ps := by simp [dkeys, stripObjs]
          rw [this, checkParams_keys hc]
          exact nodup_collect o.id
        · unfold stripObjs
          exact List.mem_map.2 ⟨_, dget_mem hg, rfl⟩
  replay w r oid h _ := by unfold Verif.setId; split <;> exact h
  queue w n h := allIds_getQueue n h
  empty w q h := allIds_modify h (fun u _ c hc => by cases hc)
  readonly w q b h := allIds_modify h (fun u hu c hc => h u hu c hc)
  record _ _ h := h
  objRecord _ _ h := h
  setId w r id h := by unfold Verif.setId; split <;> exact h
  reset _ h := h
  conv _ _ h := h

/-! ### One command in the text format -/

theorem textValue_of_shownAs {P : Prog} {w : World} {v : Val} {s : Shown}
    (h : shownAs P w v = some s) (hn : ∀ n, s ≠ .objectId n) : textValue P w v = (w, .ok s) := by
  have h1 := showValue_of_shownAs h
  cases v with
  | conv f x =>
    simp only [showValue] at h1
    simp only [textValue]
    rcases hc : callConv P w f x with ⟨w', r⟩
    rw [hc] at h1
    cases r with
    | error e => simp at h1
    | ok y =>
      cases y with
      | obj r =>
        dsimp only at h1
        cases ho : w'.heap[r]? with
        | none => rw [ho] at h1; simp at h1
        | some o =>
          rw [ho] at h1
          simp only [Prod.mk.injEq, Except.ok.injEq] at h1
          exact absurd h1.2.symm (hn o.id)
      | _ => exact h1
  | _ => exact h1

/-- References are not found among the annotations, everything else is printed as in the other
format. -/
theorem textParams_eq {P : Prog} {w : World} {sg : Sig} (hwf : sg.WF) : ∀ {ps : Dict String Val}
    {acc : List Line}, (∀ p ∈ ps, ∃ s, shownAs P w p.2 = some s ∧ ∀ n, s ≠ .objectId n) →
    (∀ p ∈ ps, p.1 = "id" ∨ p.1 ≠ "id" ∧ (dget sg.annots (target p.1)).isSome = true) →
    textParams P (some sg.annots) w ps acc =
      if ps.any (fun p => endsWithId p.1) then (w, .error .keyError)
      else listParams P (some sg.annots) w ps acc
  | [], acc, _, _ => rfl
  | (k, v) :: ps, acc, h, hk => by
    obtain ⟨s, h1, h2⟩ := h (k, v) (by simp)
    have ih := fun acc => textParams_eq hwf (ps := ps) (acc := acc) (fun p hp => h p (by simp [hp]))
      (fun p hp => hk p (by simp [hp]))
    simp only [textParams, listParams, textValue_of_shownAs h1 h2, showValue_of_shownAs h1]
    by_cases hid : k = "id"
    · subst hid
      have he : endsWithId "id" = false := by decide
      simp only [textParam, listParam, if_true, ih, List.any_cons, he, Bool.false_or]
    · cases he : endsWithId k with
      | true =>
        simp only [textParam, hid, if_false, annots_id hwf (Or.inl he), List.any_cons, he,
          Bool.true_or, if_true]
      | false =>
        rcases hk (k, v) (by simp) with h3 | ⟨_, h3⟩
        · exact absurd h3 hid
        · dsimp only at h3
          rw [target_self he] at h3
          obtain ⟨t, ht⟩ := Option.isSome_iff_exists.1 h3
          simp only [textParam, listParam, hid, if_false, he, ht, Bool.false_eq_true, ih,
            List.any_cons, Bool.false_or]

end Verif
