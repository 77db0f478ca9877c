import Verif.Lemmas.JsonText
/-! Lemmas on texts that go on: what has been read does not change. -/

namespace Verif

/-! ### Strings -/

theorem hex4_ext {p r : List Char} {u : Nat} (h : hex4 p = some (u, r)) (q : List Char) :
    hex4 (p ++ q) = some (u, r ++ q) := by
  match p, h with
  | a :: b :: c :: d :: s, h =>
    simp only [hex4, List.cons_append] at h ⊢
    split at h
    · simp only [Option.some.injEq, Prod.mk.injEq] at h
      obtain ⟨rfl, rfl⟩ := h
      simp_all
    · cases h

theorem afterPrefix_ext {k p r : List Char} (h : afterPrefix k p = some r) (q : List Char) :
    afterPrefix k (p ++ q) = some (r ++ q) := by
  rw [afterPrefix_some h, List.append_assoc, afterPrefix_append]

/-- A text in which an escape cannot go on. -/
def Cut (r : List Char) : Prop := r ≠ [] ∧ r ≠ ['\\']

theorem scanU_ext {p r : List Char} {c : Char} (h : scanU p = some (c, r)) (hr : Cut r)
    (q : List Char) : scanU (p ++ q) = some (c, r ++ q) := by
  unfold scanU at h
  cases hh : hex4 p with
  | none => rw [hh] at h; cases h
  | some x =>
    obtain ⟨u, s⟩ := x
    rw [hh] at h
    dsimp only at h
    unfold scanU
    rw [hex4_ext hh]
    dsimp only
    split at h
    · rename_i hu
      rw [if_pos hu]
      cases ha : afterPrefix ['\\', 'u'] s with
      | none =>
        rw [ha] at h
        cases h
        have : afterPrefix ['\\', 'u'] (r ++ q) = none := by
          clear hh
          match r, ha, hr with
          | [], _, hr => exact absurd rfl hr.1
          | [a], ha, hr =>
            have : ¬ '\\' = a := fun e => hr.2 (by rw [← e])
            simp [afterPrefix, this]
          | a :: b :: s, ha, hr =>
            simp only [afterPrefix, List.cons_append] at ha ⊢
            split at ha
            · rename_i h1
              rw [if_pos h1]
              split at ha
              · cases ha
              · rename_i h2; rw [if_neg h2]
            · rename_i h1; rw [if_neg h1]
        rw [this]
      | some r2 =>
        rw [ha] at h
        dsimp only at h
        rw [afterPrefix_ext ha]
        dsimp only
        cases h2 : hex4 r2 with
        | none => rw [h2] at h; cases h
        | some y =>
          obtain ⟨u2, r3⟩ := y
          rw [h2] at h
          rw [hex4_ext h2]
          dsimp only at h ⊢
          split at h
          · rename_i hu2
            rw [if_pos hu2]
            simp only [Option.some.injEq, Prod.mk.injEq] at h
            obtain ⟨rfl, rfl⟩ := h
            rfl
          · rename_i hu2
            rw [if_neg hu2]
            cases h
            rfl
    · rename_i hu
      rw [if_neg hu]
      cases h
      rfl

theorem scanChar_ext {a c : Char} {p r : List Char} (h : scanChar a p = some (c, r)) (hr : Cut r)
    (q : List Char) : scanChar a (p ++ q) = some (c, r ++ q) := by
  unfold scanChar at h ⊢
  split at h
  · rename_i ha
    rw [if_pos ha]
    cases p with
    | nil => cases h
    | cons e p =>
      simp only [scanEscape, List.cons_append] at h ⊢
      split at h
      · rename_i he
        rw [if_pos he]
        exact scanU_ext h hr q
      · rename_i he
        rw [if_neg he]
        split at h
        · cases h; rfl
        · cases h
  · rename_i ha
    rw [if_neg ha]
    split at h
    · cases h
    · rename_i hb
      rw [if_neg hb]
      cases h
      rfl

theorem scanStr_ext : ∀ {n m : Nat} {p cs r : List Char}, scanStr n p = some (cs, r) → n ≤ m →
    ∀ q, scanStr m (p ++ q) = some (cs, r ++ q)
  | 0, _, _, _, _, h, _, _ => by cases h
  | _ + 1, _, [], _, _, h, _, _ => by cases h
  | n + 1, 0, _ :: _, _, _, _, hm, _ => absurd hm (Nat.not_succ_le_zero _)
  | n + 1, m + 1, a :: p, cs, r, h, hm, q => by
    simp only [scanStr, List.cons_append] at h ⊢
    split at h
    · rename_i ha
      rw [if_pos ha]
      cases h
      rfl
    · rename_i ha
      rw [if_neg ha]
      cases hc : scanChar a p with
      | none => rw [hc] at h; cases h
      | some x =>
        obtain ⟨ch, r'⟩ := x
        rw [hc] at h
        dsimp only at h
        cases hs : scanStr n r' with
        | none => rw [hs] at h; cases h
        | some y =>
          obtain ⟨cs', r''⟩ := y
          rw [hs] at h
          cases h
          have hcut : Cut r' := by
            refine ⟨?_, ?_⟩
            · rintro rfl
              cases n <;> cases hs
            · rintro rfl
              cases n <;> cases hs
          rw [scanChar_ext hc hcut]
          dsimp only
          rw [scanStr_ext hs (Nat.le_of_succ_le_succ hm) q]

/-! ### Numbers -/

theorem takeWhile_digits (s : List Char) : ∀ c ∈ s.takeWhile Char.isDigit, c.isDigit = true := by
  intro c hc
  induction s with
  | nil => cases hc
  | cons a s ih =>
    rw [List.takeWhile_cons] at hc
    split at hc
    · rcases List.mem_cons.1 hc with rfl | hc
      · assumption
      · exact ih hc
    · cases hc

theorem scanNum_form {p r : List Char} {t : JTree} (h : scanNum p = some (t, r)) :
    ∃ sg ip fr ex, (sg = [] ∨ sg = ['-']) ∧ IntDigits ip ∧
      (fr = [] ∨ ∃ l, Digits l ∧ fr = '.' :: l) ∧
      (ex = [] ∨ ∃ e s l, (e = 'e' ∨ e = 'E') ∧ (s = [] ∨ s = ['+'] ∨ s = ['-']) ∧
        Digits l ∧ ex = e :: (s ++ l)) ∧
      p = sg ++ (ip ++ (fr ++ (ex ++ r))) := by
  have hmin : ((scanMinus p).1 = [] ∨ (scanMinus p).1 = ['-']) ∧
      p = (scanMinus p).1 ++ (scanMinus p).2 := by
    cases p with
    | nil => exact ⟨.inl rfl, rfl⟩
    | cons c r =>
      simp only [scanMinus]
      split
      · rename_i hc; subst hc; exact ⟨.inr rfl, rfl⟩
      · exact ⟨.inl rfl, rfl⟩
  have hint : ∀ s ds r, scanInt s = some (ds, r) → IntDigits ds ∧ s = ds ++ r := by
    intro s ds r h
    cases s with
    | nil => cases h
    | cons c s =>
      simp only [scanInt] at h
      split at h
      · rename_i hc; subst hc; cases h; exact ⟨.inl rfl, rfl⟩
      · rename_i hc
        split at h
        · rename_i hd
          cases h
          refine ⟨.inr ⟨⟨by simp, ?_⟩, by simpa using hc⟩, ?_⟩
          · intro x hx
            rcases List.mem_cons.1 hx with rfl | hx
            · exact hd
            · exact takeWhile_digits _ x hx
          · rw [List.cons_append, List.takeWhile_append_dropWhile]
        · cases h
  have hfrac : ∀ s, ((scanFrac s).1 = [] ∨ ∃ l, Digits l ∧ (scanFrac s).1 = '.' :: l) ∧
      s = (scanFrac s).1 ++ (scanFrac s).2 := by
    intro s
    cases s with
    | nil => exact ⟨.inl rfl, rfl⟩
    | cons c s =>
      simp only [scanFrac]
      split
      · rename_i hc
        refine ⟨.inr ⟨_, ⟨hc.2, takeWhile_digits _⟩, by rw [hc.1]⟩, ?_⟩
        rw [List.cons_append, List.takeWhile_append_dropWhile]
      · exact ⟨.inl rfl, rfl⟩
  have hexp : ∀ s, ((scanExp s).1 = [] ∨ ∃ e sg l, (e = 'e' ∨ e = 'E') ∧
      (sg = [] ∨ sg = ['+'] ∨ sg = ['-']) ∧ Digits l ∧ (scanExp s).1 = e :: (sg ++ l)) ∧
      s = (scanExp s).1 ++ (scanExp s).2 := by
    intro s
    cases s with
    | nil => exact ⟨.inl rfl, rfl⟩
    | cons c s =>
      have hsg : ((scanSign s).1 = [] ∨ (scanSign s).1 = ['+'] ∨ (scanSign s).1 = ['-']) ∧
          s = (scanSign s).1 ++ (scanSign s).2 := by
        cases s with
        | nil => exact ⟨.inl rfl, rfl⟩
        | cons a s =>
          simp only [scanSign]
          split
          · rename_i ha
            rcases ha with rfl | rfl
            · exact ⟨.inr (.inl rfl), rfl⟩
            · exact ⟨.inr (.inr rfl), rfl⟩
          · exact ⟨.inl rfl, rfl⟩
      simp only [scanExp]
      split
      · rename_i hc
        refine ⟨.inr ⟨c, _, _, hc.1, hsg.1, ⟨hc.2, takeWhile_digits _⟩, rfl⟩, ?_⟩
        rw [List.cons_append, List.append_assoc, List.takeWhile_append_dropWhile, ← hsg.2]
      · exact ⟨.inl rfl, rfl⟩
  unfold scanNum at h
  cases hi : scanInt (scanMinus p).2 with
  | none => rw [hi] at h; cases h
  | some x =>
    obtain ⟨ds, s⟩ := x
    rw [hi] at h
    dsimp only at h
    obtain ⟨h1, h2⟩ := hint _ _ _ hi
    have hr : (scanExp (scanFrac s).2).2 = r := by
      split at h <;> (cases h; rfl)
    refine ⟨(scanMinus p).1, ds, (scanFrac s).1, (scanExp (scanFrac s).2).1, hmin.1, h1,
      (hfrac s).1, (hexp _).1, ?_⟩
    rw [← hr, ← (hexp _).2, ← (hfrac _).2, ← h2]
    exact hmin.2

theorem stop_append {r : List Char} (h : NumStop r) (hne : r ≠ []) (q : List Char) : NumStop (r ++ q) := by
  cases r with
  | nil => exact absurd rfl hne
  | cons c r => exact stop_cons (h c rfl)

theorem scanNum_ext {p r : List Char} {t : JTree} (h : scanNum p = some (t, r)) (hs : NumStop r)
    (hne : r ≠ []) (q : List Char) : scanNum (p ++ q) = some (t, r ++ q) := by
  obtain ⟨sg, ip, fr, ex, h1, h2, h3, h4, rfl⟩ := scanNum_form h
  rw [scanNum_text h1 h2 h3 h4 hs] at h
  simp only [List.append_assoc]
  rw [scanNum_text h1 h2 h3 h4 (stop_append hs hne q)]
  split at h
  · rename_i he
    rw [if_pos he]
    cases h
    rfl
  · rename_i he
    rw [if_neg he]
    cases h
    rfl

theorem scanWord_ext {p r : List Char} {t : JTree} (h : scanWord p = some (t, r)) (hs : NumStop r)
    (hne : r ≠ []) (q : List Char) : scanWord (p ++ q) = some (t, r ++ q) := by
  unfold scanWord at h
  split at h
  · rename_i x hx
    cases h
    obtain ⟨k, hk, he⟩ := List.exists_of_findSome?_eq_some hx
    cases ha : afterPrefix k.1 p with
    | none => rw [ha] at he; cases he
    | some r' =>
      rw [ha] at he
      cases he
      rw [afterPrefix_some ha, List.append_assoc]
      simp only [constants, List.mem_cons, List.not_mem_nil, or_false] at hk
      rcases hk with rfl | rfl | rfl | rfl | rfl | rfl <;> rfl
  · have hn := scanNum_ext h hs hne q
    obtain ⟨sg, ip, fr, ex, h1, h2, h3, h4, rfl⟩ := scanNum_form h
    obtain ⟨a, l, hl, ha⟩ := intDigits_cons h2
    unfold scanWord
    rw [constants_none h1 ha (r := l ++ (fr ++ (ex ++ (r ++ q)))) (by rw [hl]; simp)]
    exact hn

/-! ### Trees -/

theorem skipWs_ext {p : List Char} (h : skipWs p ≠ []) (q : List Char) :
    skipWs (p ++ q) = skipWs p ++ q := by
  induction p with
  | nil => exact absurd rfl h
  | cons c p ih =>
    simp only [skipWs, List.cons_append, List.dropWhile_cons] at h ⊢
    split at h
    · rename_i hc
      rw [if_pos hc, if_pos hc]
      exact ih h
    · rename_i hc
      rw [if_neg hc, if_neg hc]
      rfl

theorem skipWs_head {r : List Char} {c : Char} (h : (skipWs r).head? = some c) :
    ∃ s, skipWs r = c :: s := by
  cases hs : skipWs r with
  | nil => rw [hs] at h; cases h
  | cons a s => rw [hs] at h; cases h; exact ⟨s, rfl⟩

theorem skipWs_stop {r : List Char} {c : Char} (h : (skipWs r).head? = some c)
    (hc : c.isDigit = false ∧ c ≠ '.' ∧ c ≠ 'e' ∧ c ≠ 'E') : NumStop r ∧ r ≠ [] := by
  cases r with
  | nil => cases h
  | cons a r =>
    refine ⟨?_, by simp⟩
    cases hw : isWs a with
    | false => rw [skipWs_self hw] at h; cases h; exact stop_cons hc
    | true =>
      simp only [isWs, Bool.or_eq_true, decide_eq_true_eq] at hw
      rcases hw with ((rfl | rfl) | rfl) | rfl <;> exact stop_cons (by decide)

theorem scanTree_nil (n : Nat) : scanTree n [] = none := by
  cases n <;> simp only [scanTree]

theorem scanItems_nil (n : Nat) : scanItems n [] = none := by
  cases n <;> simp only [scanItems, scanTree_nil]

theorem scanMembers_nil (n : Nat) : scanMembers n [] = none := by
  cases n
  · simp only [scanMembers]
  · simp [scanMembers]

/-- The first character is that of a string, a list or a dictionary. -/
def Delim (p : List Char) : Prop := ∃ c s, p = c :: s ∧ (c = '"' ∨ c = '{' ∨ c = '[')

mutual
theorem scanTree_ext : ∀ {n m : Nat} {p r : List Char} {t : JTree}, scanTree n p = some (t, r) →
    n ≤ m → (Delim p ∨ (NumStop r ∧ r ≠ [])) → ∀ q, scanTree m (p ++ q) = some (t, r ++ q)
  | 0, _, _, _, _, h, _, _, _ => by simp only [scanTree] at h; cases h
  | _ + 1, _, [], _, _, h, _, _, _ => by simp only [scanTree] at h; cases h
  | n + 1, 0, _ :: _, _, _, _, hm, _, _ => absurd hm (Nat.not_succ_le_zero _)
  | n + 1, m + 1, c :: p, r, t, h, hm, hd, q => by
    have hm' := Nat.le_of_succ_le_succ hm
    simp only [scanTree, List.cons_append] at h ⊢
    split at h
    · rename_i hc
      rw [if_pos hc]
      cases hs : scanStr n p with
      | none => rw [hs] at h; cases h
      | some x =>
        obtain ⟨cs, r'⟩ := x
        rw [hs] at h
        cases h
        rw [scanStr_ext hs hm' q]
    · rename_i hc
      rw [if_neg hc]
      split at h
      · rename_i hc2
        rw [if_pos hc2]
        split at h
        · rename_i hh
          obtain ⟨s, hs⟩ := skipWs_head hh
          rw [skipWs_ext (by rw [hs]; simp), hs]
          rw [hs] at h
          cases h
          simp
        · rename_i hh
          cases hs : scanMembers n (skipWs p) with
          | none => rw [hs] at h; cases h
          | some x =>
            obtain ⟨l, r'⟩ := x
            rw [hs] at h
            cases h
            have hne : skipWs p ≠ [] := fun e => by rw [e, scanMembers_nil] at hs; cases hs
            rw [skipWs_ext hne, scanMembers_ext hs hm' q, if_neg]
            cases hk : skipWs p with
            | nil => exact absurd hk hne
            | cons a s => rw [hk] at hh; exact hh
      · rename_i hc2
        rw [if_neg hc2]
        split at h
        · rename_i hc3
          rw [if_pos hc3]
          split at h
          · rename_i hh
            obtain ⟨s, hs⟩ := skipWs_head hh
            rw [skipWs_ext (by rw [hs]; simp), hs]
            rw [hs] at h
            cases h
            simp
          · rename_i hh
            cases hs : scanItems n (skipWs p) with
            | none => rw [hs] at h; cases h
            | some x =>
              obtain ⟨l, r'⟩ := x
              rw [hs] at h
              cases h
              have hne : skipWs p ≠ [] := fun e => by rw [e, scanItems_nil] at hs; cases hs
              rw [skipWs_ext hne, scanItems_ext hs hm' q, if_neg]
              cases hk : skipWs p with
              | nil => exact absurd hk hne
              | cons a s => rw [hk] at hh; exact hh
        · rename_i hc3
          rw [if_neg hc3]
          have hst : NumStop r ∧ r ≠ [] := by
            rcases hd with ⟨c', s, e, h1⟩ | hd
            · cases e
              rcases h1 with h1 | h1 | h1
              · exact absurd h1 hc
              · exact absurd h1 hc2
              · exact absurd h1 hc3
            · exact hd
          exact scanWord_ext h hst.1 hst.2 q
theorem scanItems_ext : ∀ {n m : Nat} {p r : List Char} {l : List JTree},
    scanItems n p = some (l, r) → n ≤ m → ∀ q, scanItems m (p ++ q) = some (l, r ++ q)
  | 0, _, _, _, _, h, _, _ => by simp only [scanItems] at h; cases h
  | n + 1, 0, _, _, _, _, hm, _ => absurd hm (Nat.not_succ_le_zero _)
  | n + 1, m + 1, p, r, l, h, hm, q => by
    have hm' := Nat.le_of_succ_le_succ hm
    simp only [scanItems] at h ⊢
    cases ht : scanTree n p with
    | none => rw [ht] at h; cases h
    | some x =>
      obtain ⟨v, s⟩ := x
      rw [ht] at h
      dsimp only at h
      split at h
      · rename_i hh
        rw [scanTree_ext ht hm' (.inr (skipWs_stop hh (by decide))) q]
        dsimp only
        obtain ⟨s', hs⟩ := skipWs_head hh
        rw [skipWs_ext (by rw [hs]; simp), hs]
        rw [hs] at h
        cases h
        simp
      · rename_i hh0
        split at h
        · rename_i hh
          rw [scanTree_ext ht hm' (.inr (skipWs_stop hh (by decide))) q]
          dsimp only
          obtain ⟨s', hs⟩ := skipWs_head hh
          rw [skipWs_ext (by rw [hs]; simp), hs]
          rw [hs] at h
          simp only [List.tail_cons, List.cons_append, List.head?_cons] at h ⊢
          rw [if_neg (by decide), if_pos trivial]
          cases hi : scanItems n (skipWs s') with
          | none => rw [hi] at h; cases h
          | some y =>
            obtain ⟨l', r'⟩ := y
            rw [hi] at h
            cases h
            have hne : skipWs s' ≠ [] := fun e => by rw [e, scanItems_nil] at hi; cases hi
            rw [skipWs_ext hne, scanItems_ext hi hm' q]
        · cases h
theorem scanMembers_ext : ∀ {n m : Nat} {p r : List Char} {l : List (String × JTree)},
    scanMembers n p = some (l, r) → n ≤ m → ∀ q, scanMembers m (p ++ q) = some (l, r ++ q)
  | 0, _, _, _, _, h, _, _ => by simp only [scanMembers] at h; cases h
  | n + 1, 0, _, _, _, _, hm, _ => absurd hm (Nat.not_succ_le_zero _)
  | n + 1, m + 1, [], r, l, h, hm, q => by rw [scanMembers_nil] at h; cases h
  | n + 1, m + 1, a :: p, r, l, h, hm, q => by
    have hm' := Nat.le_of_succ_le_succ hm
    simp only [scanMembers, List.cons_append] at h ⊢
    by_cases ha : (a :: p).head? = some '"'
    · rw [if_pos ha] at h
      rw [if_pos (show (a :: (p ++ q)).head? = some '"' from ha)]
      simp only [List.tail_cons] at h ⊢
      cases hk : scanStr n p with
      | none => rw [hk] at h; cases h
      | some z =>
        obtain ⟨k, r0⟩ := z
        rw [hk] at h
        rw [scanStr_ext hk hm' q]
        dsimp only at h ⊢
        split at h
        · rename_i hcol
          obtain ⟨s0, hs0⟩ := skipWs_head hcol
          rw [skipWs_ext (by rw [hs0]; simp), hs0]
          rw [hs0] at h
          simp only [List.tail_cons, List.cons_append, List.head?_cons, if_true] at h ⊢
          cases ht : scanTree n (skipWs s0) with
          | none => rw [ht] at h; cases h
          | some x =>
            obtain ⟨v, s⟩ := x
            rw [ht] at h
            dsimp only at h
            have hne0 : skipWs s0 ≠ [] := fun e => by rw [e, scanTree_nil] at ht; cases ht
            rw [skipWs_ext hne0]
            split at h
            · rename_i hh
              rw [scanTree_ext ht hm' (.inr (skipWs_stop hh (by decide))) q]
              dsimp only
              obtain ⟨s', hs⟩ := skipWs_head hh
              rw [skipWs_ext (by rw [hs]; simp), hs]
              rw [hs] at h
              cases h
              simp
            · rename_i hh0
              split at h
              · rename_i hh
                rw [scanTree_ext ht hm' (.inr (skipWs_stop hh (by decide))) q]
                dsimp only
                obtain ⟨s', hs⟩ := skipWs_head hh
                rw [skipWs_ext (by rw [hs]; simp), hs]
                rw [hs] at h
                simp only [List.tail_cons, List.cons_append, List.head?_cons] at h ⊢
                rw [if_neg (by decide), if_pos trivial]
                cases hi : scanMembers n (skipWs s') with
                | none => rw [hi] at h; cases h
                | some y =>
                  obtain ⟨l', r'⟩ := y
                  rw [hi] at h
                  cases h
                  have hne : skipWs s' ≠ [] := fun e => by rw [e, scanMembers_nil] at hi; cases hi
                  rw [skipWs_ext hne, scanMembers_ext hi hm' q]
              · cases h
        · cases h
    · rw [if_neg ha] at h
      cases h
end

end Verif
