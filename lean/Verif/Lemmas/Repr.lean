import Verif.Spec.Repr
import Verif.Lemmas.Dtype

namespace Verif

/-! ### The text of what is told -/

def baseText : Option Nat → Text
  | none => []
  | some b => '[' :: ("base=".toList ++ decimal b ++ [']'])

def argText : Option Nat → Text
  | none => []
  | some b => '(' :: (decimal b ++ [')'])

/-- The text that tells this. -/
def ReprTold.text : ReprTold → Text
  | .word w => w
  | .buffer c d => "Buffer".toList ++ '(' :: (decimal c ++ ',' :: ' ' :: (d ++ [')']))
  | .plain cls id b a => cls.className ++ ' ' :: ("(id=".toList ++ (decimal id ++ (baseText b ++ ')' :: argText a)))
  | .oper cls id b l r => cls.className ++ ' ' :: ("(id=".toList ++ (decimal id ++ (baseText b ++
      ',' :: (" (left=".toList ++ (l.text ++ ',' :: (" right=".toList ++ (r.text ++ [')'])))))))

/-- All its words are words. -/
def ReprTold.Fine : ReprTold → Prop
  | .word w => OneWord w
  | .buffer _ d => OneWord d
  | .plain cls _ _ _ => cls ∈ knownClasses
  | .oper cls _ _ l r => cls ∈ knownClasses ∧ l.Fine ∧ r.Fine

theorem class_words : ∀ d ∈ knownClasses, ∀ c ∈ d.className, c ∉ sepChars := by decide +kernel

theorem class_word {d : TData RVal} (h : d ∈ knownClasses) : OneWord d.className := class_words d h

theorem class_inj : ∀ d ∈ knownClasses, ∀ d' ∈ knownClasses, d.className = d'.className → d = d' := by
  decide +kernel

theorem className_fresh (d : TData RVal) : d.fresh.className = d.className := by
  cases d with
  | arith op l r => cases op <;> rfl
  | accessor own key => cases own <;> rfl
  | measure u => cases u <;> rfl
  | _ => rfl

theorem lit_id : " (id=".toList = ' ' :: "(id=".toList := by decide
theorem lit_base : "[base=".toList = '[' :: "base=".toList := by decide
theorem lit_left : ", ".toList ++ "(left=".toList = ',' :: " (left=".toList := by decide
theorem lit_right : ", right=".toList = ',' :: " right=".toList := by decide
theorem lit_comma : ", ".toList = [',', ' '] := by decide
theorem lit_close : ")".toList = [')'] := by decide
theorem lit_open : "(".toList = ['('] := by decide
theorem lit_sq : "]".toList = [']'] := by decide
theorem lit_buffer : "Buffer(".toList = "Buffer".toList ++ ['('] := by decide

theorem oneWord_decimal (n : Nat) : OneWord (decimal n) := by
  intro c hc hs
  have := decimal_digits n c hc
  simp only [sepChars, List.mem_cons, List.not_mem_nil, or_false] at hs
  rcases hs with rfl | rfl | rfl | rfl | rfl | rfl <;> simp at this

theorem decimal_injective {m n : Nat} (h : decimal m = decimal n) : m = n := by
  have := pyInt_decimal m
  rw [h, pyInt_decimal n] at this
  exact (Except.ok.inj this).symm

/-- Words end at the first separator. -/
theorem word_cut : ∀ {w w' : Text} {c c' : Char} {r r' : Text}, OneWord w → OneWord w' → c ∈ sepChars →
    c' ∈ sepChars → w ++ c :: r = w' ++ c' :: r' → w = w' ∧ c = c' ∧ r = r'
  | [], [], _, _, _, _, _, _, _, _, h => by
    simp only [List.nil_append, List.cons.injEq] at h
    exact ⟨rfl, h.1, h.2⟩
  | [], a :: w', c, _, _, _, _, hw', hc, _, h => by
    simp only [List.nil_append, List.cons_append, List.cons.injEq] at h
    exact absurd (h.1 ▸ hc) (hw' a (by simp))
  | a :: w, [], _, c', _, _, hw, _, _, hc', h => by
    simp only [List.nil_append, List.cons_append, List.cons.injEq] at h
    exact absurd (h.1 ▸ hc') (hw a (by simp))
  | a :: w, a' :: w', _, _, _, _, hw, hw', hc, hc', h => by
    simp only [List.cons_append, List.cons.injEq] at h
    obtain ⟨e1, e2, e3⟩ := word_cut (fun c hc => hw c (by simp [hc])) (fun c hc => hw' c (by simp [hc])) hc hc' h.2
    exact ⟨by rw [h.1, e1], e2, e3⟩

theorem number_cut {m n : Nat} {c c' : Char} {r r' : Text} (hc : c ∈ sepChars) (hc' : c' ∈ sepChars)
    (h : decimal m ++ c :: r = decimal n ++ c' :: r') : m = n ∧ c = c' ∧ r = r' := by
  obtain ⟨h1, h2, h3⟩ := word_cut (oneWord_decimal m) (oneWord_decimal n) hc hc' h
  exact ⟨decimal_injective h1, h2, h3⟩

/-- The ids of a transform and of its base can be read. -/
theorem ids_cut {m n : Nat} {b b' : Option Nat} {c c' : Char} {r r' : Text} (hc : c = ')' ∨ c = ',')
    (hc' : c' = ')' ∨ c' = ',') (h : decimal m ++ (baseText b ++ c :: r) = decimal n ++ (baseText b' ++ c' :: r')) :
    m = n ∧ b = b' ∧ c = c' ∧ r = r' := by
  have sc : c ∈ sepChars := by rcases hc with rfl | rfl <;> decide
  have sc' : c' ∈ sepChars := by rcases hc' with rfl | rfl <;> decide
  have sb : '[' ∈ sepChars := by decide
  cases b with
  | none =>
    cases b' with
    | none =>
      obtain ⟨h1, h2, h3⟩ := number_cut sc sc' h
      exact ⟨h1, rfl, h2, h3⟩
    | some y =>
      obtain ⟨-, h2, -⟩ := number_cut sc sb h
      rcases hc with rfl | rfl <;> simp at h2
  | some x =>
    cases b' with
    | none =>
      obtain ⟨-, h2, -⟩ := number_cut sb sc' h
      rcases hc' with rfl | rfl <;> simp at h2
    | some y =>
      simp only [baseText, List.cons_append, List.append_assoc, List.nil_append] at h
      obtain ⟨h1, -, h3⟩ := number_cut sb sb h
      simp only [List.append_cancel_left_eq] at h3
      obtain ⟨h4, -, h5⟩ := number_cut (c := ']') (c' := ']') (by decide) (by decide) h3
      simp only [List.cons.injEq] at h5
      exact ⟨h1, by rw [h4], h5⟩

theorem arg_cut {a a' : Option Nat} {c c' : Char} {r r' : Text} (hc : c = ')' ∨ c = ',')
    (hc' : c' = ')' ∨ c' = ',') (h : argText a ++ c :: r = argText a' ++ c' :: r') :
    a = a' ∧ c :: r = c' :: r' := by
  cases a with
  | none =>
    cases a' with
    | none => exact ⟨rfl, h⟩
    | some y =>
      simp only [argText, List.nil_append, List.cons_append, List.cons.injEq] at h
      rcases hc with rfl | rfl <;> simp at h
  | some x =>
    cases a' with
    | none =>
      simp only [argText, List.nil_append, List.cons_append, List.cons.injEq] at h
      rcases hc' with rfl | rfl <;> simp at h
    | some y =>
      simp only [argText, List.cons_append, List.append_assoc, List.cons.injEq, List.nil_append, true_and] at h
      obtain ⟨h4, -, h5⟩ := number_cut (c := ')') (c' := ')') (by decide) (by decide) h
      exact ⟨by rw [h4], h5⟩

theorem buffer_word : OneWord "Buffer".toList := by unfold OneWord; decide

/-- The text can be read back, whatever follows. -/
theorem text_cut : ∀ {s s' : ReprTold} {c c' : Char} {r r' : Text}, s.Fine → s'.Fine → (c = ')' ∨ c = ',') →
    (c' = ')' ∨ c' = ',') → s.text ++ c :: r = s'.text ++ c' :: r' → s = s' ∧ c :: r = c' :: r' := by
  intro s
  induction s with
  | word w =>
    intro s' c c' r r' f f' hc hc' h
    have sc : c ∈ sepChars := by rcases hc with rfl | rfl <;> decide
    have sc' : c' ∈ sepChars := by rcases hc' with rfl | rfl <;> decide
    cases s' with
    | word w' =>
      obtain ⟨h1, h2, h3⟩ := word_cut f f' sc sc' h
      exact ⟨by rw [h1], by rw [h2, h3]⟩
    | buffer k d =>
      simp only [ReprTold.text, List.append_assoc, List.cons_append] at h
      obtain ⟨-, h2, -⟩ := word_cut f buffer_word sc (by decide) h
      rcases hc with rfl | rfl <;> simp at h2
    | plain cls id b a =>
      simp only [ReprTold.text, List.append_assoc, List.cons_append] at h
      obtain ⟨-, h2, -⟩ := word_cut f (class_word f') sc (by decide) h
      rcases hc with rfl | rfl <;> simp at h2
    | oper cls id b x y =>
      simp only [ReprTold.text, List.append_assoc, List.cons_append] at h
      obtain ⟨-, h2, -⟩ := word_cut f (class_word f'.1) sc (by decide) h
      rcases hc with rfl | rfl <;> simp at h2
  | buffer k d =>
    intro s' c c' r r' f f' hc hc' h
    have sc' : c' ∈ sepChars := by rcases hc' with rfl | rfl <;> decide
    cases s' with
    | word w' =>
      simp only [ReprTold.text, List.append_assoc, List.cons_append] at h
      obtain ⟨-, h2, -⟩ := word_cut buffer_word f' (by decide) sc' h
      rcases hc' with rfl | rfl <;> simp at h2
    | buffer k' d' =>
      simp only [ReprTold.text, List.append_assoc, List.cons_append, List.nil_append, List.append_cancel_left_eq,
        List.cons.injEq, true_and] at h
      obtain ⟨h1, -, h2⟩ := number_cut (by decide) (by decide) h
      simp only [List.cons.injEq, true_and] at h2
      obtain ⟨h3, -, h4⟩ := word_cut f f' (by decide) (by decide) h2
      exact ⟨by rw [h1, h3], h4⟩
    | plain cls id b a =>
      simp only [ReprTold.text, List.append_assoc, List.cons_append] at h
      obtain ⟨-, h2, -⟩ := word_cut buffer_word (class_word f') (by decide) (by decide) h
      simp at h2
    | oper cls id b x y =>
      simp only [ReprTold.text, List.append_assoc, List.cons_append] at h
      obtain ⟨-, h2, -⟩ := word_cut buffer_word (class_word f'.1) (by decide) (by decide) h
      simp at h2
  | plain cls id b a =>
    intro s' c c' r r' f f' hc hc' h
    have sc' : c' ∈ sepChars := by rcases hc' with rfl | rfl <;> decide
    cases s' with
    | word w' =>
      simp only [ReprTold.text, List.append_assoc, List.cons_append] at h
      obtain ⟨-, h2, -⟩ := word_cut (class_word f) f' (by decide) sc' h
      rcases hc' with rfl | rfl <;> simp at h2
    | buffer k' d' =>
      simp only [ReprTold.text, List.append_assoc, List.cons_append] at h
      obtain ⟨-, h2, -⟩ := word_cut (class_word f) buffer_word (by decide) (by decide) h
      simp at h2
    | plain cls' id' b' a' =>
      simp only [ReprTold.text, List.append_assoc, List.cons_append] at h
      obtain ⟨h1, -, h2⟩ := word_cut (class_word f) (class_word f') (by decide) (by decide) h
      simp only [List.append_cancel_left_eq] at h2
      obtain ⟨h3, h4, -, h5⟩ := ids_cut (.inl rfl) (.inl rfl) h2
      obtain ⟨h6, h7⟩ := arg_cut hc hc' h5
      exact ⟨by rw [class_inj _ f _ f' h1, h3, h4, h6], h7⟩
    | oper cls' id' b' x y =>
      simp only [ReprTold.text, List.append_assoc, List.cons_append] at h
      obtain ⟨h1, -, h2⟩ := word_cut (class_word f) (class_word f'.1) (by decide) (by decide) h
      simp only [List.append_cancel_left_eq] at h2
      obtain ⟨-, -, h5, -⟩ := ids_cut (.inl rfl) (.inr rfl) h2
      simp at h5
  | oper cls id b x y ihx ihy =>
    intro s' c c' r r' f f' hc hc' h
    have sc' : c' ∈ sepChars := by rcases hc' with rfl | rfl <;> decide
    cases s' with
    | word w' =>
      simp only [ReprTold.text, List.append_assoc, List.cons_append] at h
      obtain ⟨-, h2, -⟩ := word_cut (class_word f.1) f' (by decide) sc' h
      rcases hc' with rfl | rfl <;> simp at h2
    | buffer k' d' =>
      simp only [ReprTold.text, List.append_assoc, List.cons_append] at h
      obtain ⟨-, h2, -⟩ := word_cut (class_word f.1) buffer_word (by decide) (by decide) h
      simp at h2
    | plain cls' id' b' a' =>
      simp only [ReprTold.text, List.append_assoc, List.cons_append] at h
      obtain ⟨h1, -, h2⟩ := word_cut (class_word f.1) (class_word f') (by decide) (by decide) h
      simp only [List.append_cancel_left_eq] at h2
      obtain ⟨-, -, h5, -⟩ := ids_cut (.inr rfl) (.inl rfl) h2
      simp at h5
    | oper cls' id' b' x' y' =>
      simp only [ReprTold.text, List.append_assoc, List.cons_append, List.nil_append] at h
      obtain ⟨h1, -, h2⟩ := word_cut (class_word f.1) (class_word f'.1) (by decide) (by decide) h
      simp only [List.append_cancel_left_eq] at h2
      obtain ⟨h3, h4, -, h5⟩ := ids_cut (.inr rfl) (.inr rfl) h2
      simp only [List.append_cancel_left_eq] at h5
      obtain ⟨h6, h7⟩ := ihx f.2.1 f'.2.1 (.inr rfl) (.inr rfl) h5
      simp only [List.cons.injEq, true_and, List.append_cancel_left_eq] at h7
      obtain ⟨h8, h9⟩ := ihy f.2.2 f'.2.2 (.inl rfl) (.inl rfl) h7
      simp only [List.cons.injEq, true_and] at h9
      exact ⟨by rw [class_inj _ f.1 _ f'.1 h1, h3, h4, h6, h8], by rw [h9.1, h9.2]⟩

/-- Different things are told by different texts. -/
theorem text_inj {s s' : ReprTold} (f : s.Fine) (f' : s'.Fine) (h : s.text = s'.text) : s = s' :=
  (text_cut (c := ')') (c' := ')') (r := []) (r' := []) f f' (.inl rfl) (.inl rfl) (by rw [h])).1

/-! ### The program tells it -/

theorem baseOf_ends {h : THeap RVal} : ∀ {n r b}, baseOf h n r = .ok b → BaseEnds h r b
  | 0, _, _, e => by simp [baseOf] at e
  | n + 1, r, b, e => by
    unfold baseOf at e
    split at e
    · cases e
    · rename_i t ht
      split at e
      · rename_i hb
        cases e
        exact .here ht hb
      · rename_i c hb
        exact .there ht hb (baseOf_ends e)

theorem ends_baseOf {h : THeap RVal} {r b} (e : BaseEnds h r b) : ∃ n, ∀ m, n ≤ m → baseOf h m r = .ok b := by
  induction e with
  | here ht hb =>
    refine ⟨1, fun m hm => ?_⟩
    obtain ⟨k, rfl⟩ : ∃ k, m = k + 1 := ⟨m - 1, by omega⟩
    simp only [baseOf, ht, hb]
  | there ht hb _ ih =>
    obtain ⟨n, ih⟩ := ih
    refine ⟨n + 1, fun m hm => ?_⟩
    obtain ⟨k, rfl⟩ : ∃ k, m = k + 1 := ⟨m - 1, by omega⟩
    simp only [baseOf, ht, hb]
    exact ih _ (by omega)

theorem reprHead_told {h : THeap RVal} {ids : Nat → Nat} {n r : Nat} {t : TNode RVal} {s : Text}
    (e : reprHead h ids n r t = .ok s) : ∃ b, BaseTold h ids r t b ∧
      s = t.data.fresh.className ++ ' ' :: ("(id=".toList ++ (decimal (ids r) ++ baseText b)) := by
  rw [className_fresh]
  unfold reprHead at e
  split at e
  · rename_i c hb
    split at e
    · cases e
    · rename_i b he
      cases e
      refine ⟨some (ids b), .some (by rw [hb]; simp) (baseOf_ends he), ?_⟩
      simp only [lit_id, lit_base, lit_sq, baseText, List.append_assoc, List.cons_append]
  · rename_i hb
    cases e
    refine ⟨none, .none hb, ?_⟩
    simp only [lit_id, baseText, List.append_assoc, List.cons_append, List.append_nil]

theorem told_reprHead {h : THeap RVal} {ids : Nat → Nat} {r : Nat} {t : TNode RVal} {b : Option Nat}
    (e : BaseTold h ids r t b) : ∃ n, ∀ m, n ≤ m → reprHead h ids m r t =
      .ok (t.data.fresh.className ++ ' ' :: ("(id=".toList ++ (decimal (ids r) ++ baseText b))) := by
  rw [className_fresh]
  cases e with
  | none hb =>
    refine ⟨0, fun m _ => ?_⟩
    simp only [reprHead, hb, lit_id, baseText, List.append_assoc, List.cons_append, List.append_nil]
  | some hb he =>
    obtain ⟨n, hn⟩ := ends_baseOf he
    refine ⟨n, fun m hm => ?_⟩
    unfold reprHead
    rw [hn m hm]
    cases hc : t.base with
    | none => exact absurd hc hb
    | some c => simp only [lit_id, lit_base, lit_sq, baseText, List.append_assoc, List.cons_append]

theorem argText_lit (i : Nat) : "(".toList ++ decimal i ++ ")".toList = argText (some i) := by
  simp only [lit_open, lit_close, argText, List.cons_append, List.nil_append]

theorem reprArg_told {ids : Nat → Nat} {t : TNode RVal} {s : Text} :
    reprArg ids t = .ok s ↔ ∃ a, ArgTold ids t a ∧ s = argText a := by
  constructor
  · intro e
    unfold reprArg at e
    split at e
    · rename_i x hx
      cases e
      exact ⟨_, .next hx, argText_lit _⟩
    · rename_i hx
      split at e
      · rename_i hv
        cases e
        exact ⟨_, .none hx hv, rfl⟩
      · rename_i v hv
        cases v with
        | num w z =>
          cases z with
          | true =>
            cases e
            exact ⟨_, .zero hx hv, rfl⟩
          | false => cases e
        | buffer i c d =>
          cases c with
          | zero =>
            cases e
            exact ⟨_, .empty hx hv, rfl⟩
          | succ c =>
            cases e
            exact ⟨_, .buffer hx hv, argText_lit _⟩
        | other w z =>
          rcases z with e' | z
          · cases e
          · cases z with
            | false =>
              cases e
              exact ⟨_, .false hx hv, rfl⟩
            | true => cases e
  · rintro ⟨a, ha, rfl⟩
    cases ha with
    | next hx => simp only [reprArg, hx, argText_lit]
    | none hx hv => simp only [reprArg, hx, hv, argText]
    | buffer hx hv => simp [reprArg, hx, hv, RVal.truth, RVal.idOf, argText]
    | empty hx hv => simp [reprArg, hx, hv, RVal.truth, argText]
    | zero hx hv => simp [reprArg, hx, hv, RVal.truth, argText]
    | false hx hv => simp [reprArg, hx, hv, RVal.truth, argText]

theorem buffer_text (i c : Nat) (d : Text) : (RVal.buffer i c d).repr = (ReprTold.buffer c d).text := by
  show "Buffer(".toList ++ decimal c ++ ", ".toList ++ d ++ ")".toList = _
  rw [lit_buffer, lit_comma, lit_close, ReprTold.text]
  simp only [List.append_assoc, List.cons_append, List.nil_append]

theorem reprOpd_told {rec : Nat → Except Err Text} {tells : Nat → ReprTold → Prop}
    (hr : ∀ r s, rec r = .ok s → ∃ x, tells r x ∧ s = x.text) {o : Opd RVal} {s : Text}
    (e : reprOpd rec o = .ok s) : ∃ x, ReprTellsOpd tells o x ∧ s = x.text := by
  cases o with
  | none => cases e; exact ⟨_, .none, rfl⟩
  | val v =>
    cases e
    cases v with
    | num w z => exact ⟨_, .num, rfl⟩
    | buffer i c d => exact ⟨_, .buffer, buffer_text _ _ _⟩
    | other w z => exact ⟨_, .other, rfl⟩
  | ref r =>
    obtain ⟨x, h1, h2⟩ := hr r s e
    exact ⟨x, .ref h1, h2⟩

theorem oper_text (cls : TData RVal) (i : Nat) (b : Option Nat) (x y : ReprTold) :
    cls.className ++ ' ' :: ("(id=".toList ++ (decimal i ++ baseText b)) ++ ", ".toList ++ "(left=".toList ++ x.text ++
      ", right=".toList ++ y.text ++ ")".toList = (ReprTold.oper cls i b x y).text := by
  rw [List.append_assoc (cls.className ++ _), lit_left]
  simp only [lit_right, lit_close, ReprTold.text, List.append_assoc, List.cons_append]

theorem plain_text (cls : TData RVal) (i : Nat) (b a : Option Nat) :
    cls.className ++ ' ' :: ("(id=".toList ++ (decimal i ++ baseText b)) ++ ")".toList ++ argText a =
      (ReprTold.plain cls i b a).text := by
  simp only [lit_close, ReprTold.text, List.append_assoc, List.cons_append, List.nil_append]

theorem reprOf_told {h : THeap RVal} {ids : Nat → Nat} : ∀ {n r s}, reprOf h ids n r = .ok s →
    ∃ x, ReprTells h ids n r x ∧ s = x.text
  | 0, _, _, e => by simp [reprOf] at e
  | n + 1, r, s, e => by
    unfold reprOf at e
    split at e
    · cases e
    · rename_i t ht
      split at e
      · cases e
      · rename_i hd he
        obtain ⟨b, hb, rfl⟩ := reprHead_told he
        split at e
        · rename_i op left right hdata
          split at e
          · cases e
          · rename_i a ea
            split at e
            · cases e
            · rename_i a' ea'
              cases e
              obtain ⟨x, hx, rfl⟩ := reprOpd_told (fun r s e => reprOf_told e) ea
              obtain ⟨y, hy, rfl⟩ := reprOpd_told (fun r s e => reprOf_told e) ea'
              refine ⟨.oper t.data.fresh (ids r) b x y, ⟨t, b, ht, hb, ?_⟩, oper_text _ _ _ _ _⟩
              rw [hdata]
              exact ⟨x, y, hx, hy, rfl⟩
        · rename_i hdata
          split at e
          · cases e
          · rename_i a ea
            cases e
            obtain ⟨a, ha, rfl⟩ := reprArg_told.1 ea
            refine ⟨.plain t.data.fresh (ids r) b a, ⟨t, b, ht, hb, ?_⟩, plain_text _ _ _ _⟩
            split
            · rename_i l rt hd
              exact absurd hd (hdata _ _ _)
            · exact ⟨a, ha, rfl⟩

theorem told_reprOpd {h : THeap RVal} {ids : Nat → Nat} {n : Nat}
    (hr : ∀ r x, ReprTells h ids n r x → ∃ k, ∀ m, k ≤ m → reprOf h ids m r = .ok x.text) {o : Opd RVal} {x : ReprTold}
    (e : ReprTellsOpd (ReprTells h ids n) o x) : ∃ k, ∀ m, k ≤ m → reprOpd (reprOf h ids m) o = .ok x.text := by
  cases e with
  | none => exact ⟨0, fun _ _ => rfl⟩
  | num => exact ⟨0, fun _ _ => rfl⟩
  | buffer => exact ⟨0, fun _ _ => by rw [reprOpd, buffer_text]⟩
  | other => exact ⟨0, fun _ _ => rfl⟩
  | ref e => exact hr _ _ e

theorem told_reprOf {h : THeap RVal} {ids : Nat → Nat} : ∀ {n r x}, ReprTells h ids n r x →
    ∃ k, ∀ m, k ≤ m → reprOf h ids m r = .ok x.text
  | 0, _, _, e => e.elim
  | n + 1, r, x, ⟨t, b, ht, hb, e⟩ => by
    obtain ⟨k, hk⟩ := told_reprHead hb
    split at e
    · rename_i op left right hdata
      obtain ⟨x, y, hx, hy, rfl⟩ := e
      obtain ⟨k1, hk1⟩ := told_reprOpd (fun r x e => told_reprOf e) hx
      obtain ⟨k2, hk2⟩ := told_reprOpd (fun r x e => told_reprOf e) hy
      refine ⟨k + k1 + k2 + 1, fun m hm => ?_⟩
      obtain ⟨m, rfl⟩ : ∃ k, m = k + 1 := ⟨m - 1, by omega⟩
      simp only [reprOf, ht]
      rw [hk _ (by omega), hdata]
      simp only
      rw [hk1 _ (by omega), hk2 _ (by omega)]
      simp only [oper_text]
    · rename_i hdata
      obtain ⟨a, ha, rfl⟩ := e
      refine ⟨k + 1, fun m hm => ?_⟩
      obtain ⟨m, rfl⟩ : ∃ k, m = k + 1 := ⟨m - 1, by omega⟩
      simp only [reprOf, ht]
      rw [hk _ (by omega), reprArg_told.2 ⟨a, ha, rfl⟩]
      simp only [plain_text]

theorem tells_fine {h : THeap RVal} {ids : Nat → Nat} (ho : Ordinary h) : ∀ {n r x}, ReprTells h ids n r x → x.Fine
  | 0, _, _, e => e.elim
  | n + 1, r, x, ⟨t, b, ht, hb, e⟩ => by
    obtain ⟨hk, hh⟩ := ho r t ht
    split at e
    · rename_i op left right hdata
      rw [hdata] at hh
      obtain ⟨x, y, hx, hy, rfl⟩ := e
      have key : ∀ o ∈ [left, right], ∀ x, ReprTellsOpd (ReprTells h ids n) o x → x.Fine := by
        intro o hm x hx
        have := hh o hm
        cases hx with
        | none => show OneWord _; unfold OneWord; decide
        | num => exact this
        | buffer => exact this
        | other => exact this.elim
        | ref e => exact tells_fine ho e
      exact ⟨hk, key left (by simp) x hx, key right (by simp) y hy⟩
    · obtain ⟨a, ha, rfl⟩ := e
      exact hk

/-! ### Parentheses -/

theorem count_word {w : Text} (h : OneWord w) {c : Char} (hc : c ∈ sepChars) : w.count c = 0 :=
  List.count_eq_zero.2 (fun hm => h c hm hc)

theorem count_decimal (n : Nat) {c : Char} (hc : c ∈ sepChars) : (decimal n).count c = 0 :=
  count_word (oneWord_decimal n) hc

theorem count_base (b : Option Nat) : (baseText b).count '(' = 0 ∧ (baseText b).count ')' = 0 := by
  cases b with
  | none => exact ⟨rfl, rfl⟩
  | some b =>
    have e1 : "base=".toList.count '(' = 0 := by decide
    have e2 : "base=".toList.count ')' = 0 := by decide
    have e3 : ([']'] : Text).count '(' = 0 := by decide
    have e4 : ([']'] : Text).count ')' = 0 := by decide
    refine ⟨?_, ?_⟩
    · rw [baseText, List.count_cons_of_ne (by decide), List.count_append, List.count_append, e1, e3,
        count_decimal b (by decide)]
    · rw [baseText, List.count_cons_of_ne (by decide), List.count_append, List.count_append, e2, e4,
        count_decimal b (by decide)]

theorem count_arg (b : Option Nat) : (argText b).count '(' = (argText b).count ')' := by
  cases b with
  | none => rfl
  | some b =>
    have e1 := count_decimal b (show '(' ∈ sepChars by decide)
    have e2 := count_decimal b (show ')' ∈ sepChars by decide)
    simp [argText, e1, e2]

theorem count_text : ∀ {s : ReprTold}, s.Fine → s.text.count '(' = s.text.count ')' + s.operators
  | .word w, f => by
    rw [ReprTold.text, count_word f (by decide), count_word f (by decide)]
    rfl
  | .buffer c d, f => by
    have f : OneWord d := f
    have e3 := count_decimal c (show '(' ∈ sepChars by decide)
    have e4 := count_decimal c (show ')' ∈ sepChars by decide)
    have e5 := count_word f (show '(' ∈ sepChars by decide)
    have e6 := count_word f (show ')' ∈ sepChars by decide)
    simp [ReprTold.text, ReprTold.operators, List.count_append, e3, e4, e5, e6]
  | .plain cls id b a, f => by
    have f : OneWord cls.className := class_word f
    have e1 : "(id=".toList.count '(' = 1 := by decide
    have e2 : "(id=".toList.count ')' = 0 := by decide
    obtain ⟨e3, e4⟩ := count_base b
    have := count_arg a
    simp only [ReprTold.text, ReprTold.operators, List.count_append, List.count_cons_of_ne (show ' ' ≠ '(' by decide),
      List.count_cons_of_ne (show ' ' ≠ ')' by decide), List.count_cons_self,
      List.count_cons_of_ne (show ')' ≠ '(' by decide), e1, e2, e3, e4,
      count_word f (show '(' ∈ sepChars by decide), count_word f (show ')' ∈ sepChars by decide),
      count_decimal id (show '(' ∈ sepChars by decide), count_decimal id (show ')' ∈ sepChars by decide)]
    omega
  | .oper cls id b l r, f => by
    obtain ⟨f, fl, fr⟩ := f
    have f : OneWord cls.className := class_word f
    have e1 : "(id=".toList.count '(' = 1 := by decide
    have e2 : "(id=".toList.count ')' = 0 := by decide
    have e5 : " (left=".toList.count '(' = 1 := by decide
    have e6 : " (left=".toList.count ')' = 0 := by decide
    have e7 : " right=".toList.count '(' = 0 := by decide
    have e8 : " right=".toList.count ')' = 0 := by decide
    have e9 : ([')'] : Text).count '(' = 0 := by decide
    have e10 : ([')'] : Text).count ')' = 1 := by decide
    obtain ⟨e3, e4⟩ := count_base b
    have hl := count_text fl
    have hr := count_text fr
    simp only [ReprTold.text, ReprTold.operators, List.count_append, List.count_cons_of_ne (show ' ' ≠ '(' by decide),
      List.count_cons_of_ne (show ' ' ≠ ')' by decide), List.count_cons_of_ne (show ',' ≠ '(' by decide),
      List.count_cons_of_ne (show ',' ≠ ')' by decide), e1, e2, e3, e4, e5, e6, e7, e8, e9, e10,
      count_word f (show '(' ∈ sepChars by decide), count_word f (show ')' ∈ sepChars by decide),
      count_decimal id (show '(' ∈ sepChars by decide), count_decimal id (show ')' ∈ sepChars by decide)]
    omega

end Verif
