import Verif.Spec.JsonText
import Verif.Lemmas.Dtype
import Verif.Lemmas.Py
import Mathlib.Data.List.Nodup
/-! Lemmas on the text of JSON files. -/

namespace Verif

/-! ### Characters and strings -/

theorem hexVal_hexChar {n : Nat} (h : n < 16) : hexVal (hexChar n) = some n := by
  have : ∀ k : Fin 16, hexVal (hexChar k.val) = some k.val := by decide
  exact this ⟨n, h⟩

theorem hex4_text {n : Nat} (h : n < 65536) (rest : List Char) :
    hex4 (hexChar (n / 4096 % 16) :: hexChar (n / 256 % 16) :: hexChar (n / 16 % 16) ::
      hexChar (n % 16) :: rest) = some (n, rest) := by
  simp only [hex4, hexVal_hexChar (Nat.mod_lt _ (by decide : 0 < 16)), Option.some.injEq,
    Prod.mk.injEq, and_true]
  omega

theorem char_range (c : Char) : c.toNat < 55296 ∨ (57343 < c.toNat ∧ c.toNat < 1114112) := c.valid

theorem scanChar_u (n : Nat) (rest : List Char) :
    scanChar '\\' ((uText n).tail ++ rest) = scanU ((uText n).tail.tail ++ rest) := by
  unfold scanChar
  rw [if_pos rfl]
  unfold uText
  simp only [List.tail_cons, List.cons_append, scanEscape, if_true]

theorem scanU_one {n : Nat} (h : n < 65536) (hs : ¬ (55296 ≤ n ∧ n < 57344)) (rest : List Char) :
    scanU ((uText n).tail.tail ++ rest) = some (Char.ofNat n, rest) := by
  have := hex4_text h rest
  simp only [uText, List.tail_cons, List.cons_append, List.nil_append, scanU, this]
  rw [if_neg (by omega)]
  unfold unitChar
  rw [if_neg hs]

theorem scanU_pair {a b : Nat} (h1 : 55296 ≤ a) (h2 : a < 56320) (h3 : 56320 ≤ b) (h4 : b < 57344)
    (rest : List Char) : scanU ((uText a).tail.tail ++ (uText b ++ rest)) =
      some (Char.ofNat (65536 + (a - 55296) * 1024 + (b - 56320)), rest) := by
  have ha := hex4_text (n := a) (by omega) (uText b ++ rest)
  have hb := hex4_text (n := b) (by omega) rest
  have hp : afterPrefix ['\\', 'u'] (uText b ++ rest) = some (hexChar (b / 4096 % 16) ::
      hexChar (b / 256 % 16) :: hexChar (b / 16 % 16) :: hexChar (b % 16) :: rest) := rfl
  simp only [uText, List.tail_cons, List.cons_append, List.nil_append] at ha hp ⊢
  simp only [scanU, ha]
  rw [if_pos ⟨h1, h2⟩, hp]
  dsimp only
  rw [hb]
  dsimp only
  rw [if_pos ⟨h3, h4⟩]

theorem charText_scan (c : Char) : ∃ c0 cr, charText c = c0 :: cr ∧ c0 ≠ '"' ∧
    ∀ rest, scanChar c0 (cr ++ rest) = some (c, rest) := by
  unfold charText
  cases hs : shortEscape c with
  | some e =>
    refine ⟨'\\', [e], rfl, by decide, fun rest => ?_⟩
    unfold shortEscape at hs
    have key : (c = '\\' ∧ e = '\\') ∨ (c = '"' ∧ e = '"') ∨ (c = '\n' ∧ e = 'n') ∨
        (c = '\r' ∧ e = 'r') ∨ (c = '\t' ∧ e = 't') ∨ (c = Char.ofNat 12 ∧ e = 'f') ∨
        (c = Char.ofNat 8 ∧ e = 'b') := by
      repeat' (split at hs)
      all_goals first | cases hs | skip
      all_goals simp_all
    rcases key with ⟨rfl, rfl⟩ | ⟨rfl, rfl⟩ | ⟨rfl, rfl⟩ | ⟨rfl, rfl⟩ | ⟨rfl, rfl⟩ | ⟨rfl, rfl⟩ |
      ⟨rfl, rfl⟩ <;> rfl
  | none =>
    dsimp only
    have hb : c ≠ '\\' := by rintro rfl; exact absurd hs (by decide)
    have hq : c ≠ '"' := by rintro rfl; exact absurd hs (by decide)
    split
    · rename_i h
      refine ⟨c, [], rfl, hq, fun rest => ?_⟩
      unfold scanChar
      rw [if_neg hb, if_neg (by omega)]
      rfl
    · have hr := char_range c
      split
      · rename_i h
        refine ⟨'\\', (uText c.toNat).tail, rfl, by decide, fun rest => ?_⟩
        rw [scanChar_u, scanU_one h (by omega), Char.ofNat_toNat]
      · rename_i h
        generalize ha : 55296 + (c.toNat - 65536) / 1024 = a
        generalize hb : 56320 + (c.toNat - 65536) % 1024 = b
        refine ⟨'\\', (uText a).tail ++ uText b, rfl, by decide, fun rest => ?_⟩
        rw [List.append_assoc, scanChar_u, scanU_pair (by omega) (by omega) (by omega) (by omega)]
        have : 65536 + (a - 55296) * 1024 + (b - 56320) = c.toNat := by omega
        rw [this, Char.ofNat_toNat]

theorem scanStr_text (cs rest : List Char) (n : Nat) (h : (cs.flatMap charText).length < n) :
    scanStr n (cs.flatMap charText ++ '"' :: rest) = some (cs, rest) := by
  induction cs generalizing n with
  | nil =>
    obtain ⟨m, rfl⟩ := Nat.exists_eq_succ_of_ne_zero (Nat.ne_of_gt h)
    rfl
  | cons c cs ih =>
    obtain ⟨c0, cr, h1, h2, h3⟩ := charText_scan c
    rw [List.flatMap_cons, h1] at h ⊢
    simp only [List.cons_append, List.length_cons, List.length_append] at h
    obtain ⟨m, rfl⟩ := Nat.exists_eq_succ_of_ne_zero (Nat.ne_of_gt (Nat.lt_of_le_of_lt (Nat.zero_le _) h))
    simp only [List.cons_append, List.append_assoc, scanStr, if_neg h2, h3, ih m (by omega)]

/-! ### Numbers -/

/-- The text does not go on with a character of a number. -/
def NumStop (s : List Char) : Prop :=
  ∀ c, s.head? = some c → c.isDigit = false ∧ c ≠ '.' ∧ c ≠ 'e' ∧ c ≠ 'E'

theorem takeWhile_stop {l rest : List Char} (hl : ∀ c ∈ l, c.isDigit = true)
    (hr : ∀ c, rest.head? = some c → c.isDigit = false) :
    (l ++ rest).takeWhile Char.isDigit = l ∧ (l ++ rest).dropWhile Char.isDigit = rest := by
  induction l with
  | nil =>
    cases rest with
    | nil => exact ⟨rfl, rfl⟩
    | cons c r =>
      have := hr c rfl
      simp [List.takeWhile_cons, List.dropWhile_cons, this]
  | cons a l ih =>
    have ha := hl a List.mem_cons_self
    have := ih (fun c hc => hl c (List.mem_cons_of_mem _ hc))
    simp [List.takeWhile_cons, List.dropWhile_cons, ha, this.1, this.2]

/-- An integer without leading zeros. -/
def IntDigits (ip : List Char) : Prop := ip = ['0'] ∨ (Digits ip ∧ ip.head? ≠ some '0')

theorem scanInt_text {ip rest : List Char} (h : IntDigits ip)
    (hr : ∀ c, rest.head? = some c → c.isDigit = false) :
    scanInt (ip ++ rest) = some (ip, rest) := by
  rcases h with rfl | ⟨⟨h1, h2⟩, h3⟩
  · rfl
  · cases ip with
    | nil => exact absurd rfl h1
    | cons a l =>
      have ha : a ≠ '0' := fun h => h3 (by rw [h]; rfl)
      have hd := h2 a List.mem_cons_self
      have := takeWhile_stop (fun c hc => h2 c (List.mem_cons_of_mem _ hc)) hr
      simp only [List.cons_append, scanInt, if_neg ha, hd, if_true, this.1, this.2]

theorem decimal_head {n : Nat} (h : n ≠ 0) : (decimal n).head? ≠ some '0' := by
  induction n using Nat.strongRecOn with
  | _ n ih =>
    by_cases hn : n < 10
    · have : ∀ k : Fin 10, k.val ≠ 0 → (decimal k.val).head? ≠ some '0' := by decide
      exact this ⟨n, hn⟩ h
    · have hd : decimal n = decimal (n / 10) ++ [Nat.digitChar (n % 10)] := by
        unfold decimal
        exact Nat.toDigits_of_base_le (by decide) (by omega)
      have := ih (n / 10) (by omega) (by omega)
      rw [hd]
      cases hc : decimal (n / 10) with
      | nil => exact absurd hc (decimal_ne_nil _)
      | cons a l => rw [hc] at this; exact this

theorem decimal_int (n : Nat) : IntDigits (decimal n) := by
  by_cases h : n = 0
  · subst h; exact .inl rfl
  · exact .inr ⟨⟨decimal_ne_nil n, decimal_digits n⟩, decimal_head h⟩

theorem NumStop.digit {s : List Char} (h : NumStop s) : ∀ c, s.head? = some c → c.isDigit = false :=
  fun c hc => (h c hc).1

theorem scanFrac_stop {s : List Char} (h : ∀ c, s.head? = some c → c ≠ '.') :
    scanFrac s = ([], s) := by
  cases s with
  | nil => rfl
  | cons c r => simp only [scanFrac, h c rfl, false_and, if_false]

theorem scanExp_stop {s : List Char} (h : ∀ c, s.head? = some c → c ≠ 'e' ∧ c ≠ 'E') :
    scanExp s = ([], s) := by
  cases s with
  | nil => rfl
  | cons c r => simp only [scanExp, (h c rfl).1, (h c rfl).2, false_or, false_and, if_false]

theorem isDigit_ne {c : Char} (h : c.isDigit = true) : c ≠ '-' ∧ c ≠ '+' ∧ c ≠ '.' ∧ c ≠ 'e' ∧
    c ≠ 'E' ∧ c ≠ '"' ∧ c ≠ '{' ∧ c ≠ '[' := by
  refine ⟨?_, ?_, ?_, ?_, ?_, ?_, ?_, ?_⟩ <;> (rintro rfl; exact absurd h (by decide))

theorem intDigits_cons {ip : List Char} (h : IntDigits ip) :
    ∃ a l, ip = a :: l ∧ a.isDigit = true := by
  rcases h with rfl | ⟨⟨h1, h2⟩, _⟩
  · exact ⟨_, _, rfl, by decide⟩
  · cases ip with
    | nil => exact absurd rfl h1
    | cons a l => exact ⟨a, l, rfl, h2 a List.mem_cons_self⟩

theorem scanMinus_text {sg ip rest : List Char} (hs : sg = [] ∨ sg = ['-']) (hi : IntDigits ip) :
    scanMinus (sg ++ (ip ++ rest)) = (sg, ip ++ rest) := by
  obtain ⟨a, l, rfl, ha⟩ := intDigits_cons hi
  rcases hs with rfl | rfl
  · simp only [List.nil_append, List.cons_append, scanMinus, if_neg (isDigit_ne ha).1]
  · rfl

theorem scanNum_text {sg ip fr ex rest : List Char} (hs : sg = [] ∨ sg = ['-'])
    (hi : IntDigits ip) (hf : fr = [] ∨ ∃ l, Digits l ∧ fr = '.' :: l)
    (he : ex = [] ∨ ∃ e s l, (e = 'e' ∨ e = 'E') ∧ (s = [] ∨ s = ['+'] ∨ s = ['-']) ∧
        Digits l ∧ ex = e :: (s ++ l))
    (hr : NumStop rest) :
    scanNum (sg ++ (ip ++ (fr ++ (ex ++ rest)))) =
      if fr = [] ∧ ex = [] then some (.int (if sg = [] then Nat.ofDigitChars 10 ip 0
        else -(Nat.ofDigitChars 10 ip 0 : Int)), rest)
      else some (.float (String.ofList (sg ++ (ip ++ (fr ++ ex)))), rest) := by
  have h1 : scanExp (ex ++ rest) = (ex, rest) := by
    rcases he with rfl | ⟨e, s, l, e1, h2, h3, rfl⟩
    · exact scanExp_stop (fun c hc => ⟨(hr c hc).2.2.1, (hr c hc).2.2.2⟩)
    · have hs : scanSign (s ++ (l ++ rest)) = (s, l ++ rest) := by
        rcases h2 with rfl | rfl | rfl
        · cases l with
          | nil => exact absurd rfl h3.1
          | cons a l =>
            have := isDigit_ne (h3.2 a List.mem_cons_self)
            simp only [List.nil_append, List.cons_append, scanSign, this.1, this.2.1, or_false,
              if_false]
        · rfl
        · rfl
      have ht := takeWhile_stop h3.2 hr.digit
      simp only [List.cons_append, List.append_assoc, scanExp, hs, ht.1, ht.2]
      rw [if_pos ⟨e1, h3.1⟩]
  have hne : ∀ c, (ex ++ rest).head? = some c → c.isDigit = false ∧ c ≠ '.' := by
    rcases he with rfl | ⟨e, s, l, e1, h2, h3, rfl⟩
    · exact fun c hc => ⟨(hr c hc).1, (hr c hc).2.1⟩
    · intro c hc
      simp only [List.cons_append, List.head?_cons, Option.some.injEq] at hc
      subst hc
      rcases e1 with rfl | rfl <;> decide
  have h2 : scanFrac (fr ++ (ex ++ rest)) = (fr, ex ++ rest) := by
    rcases hf with rfl | ⟨l, h3, rfl⟩
    · exact scanFrac_stop (fun c hc => (hne c hc).2)
    · have ht := takeWhile_stop h3.2 (fun c hc => (hne c hc).1)
      simp only [List.cons_append, scanFrac, ht.1, ht.2]
      rw [if_pos ⟨trivial, h3.1⟩]
  have hne2 : ∀ c, (fr ++ (ex ++ rest)).head? = some c → c.isDigit = false := by
    rcases hf with rfl | ⟨l, h3, rfl⟩
    · exact fun c hc => (hne c hc).1
    · intro c hc
      simp only [List.cons_append, List.head?_cons, Option.some.injEq] at hc
      subst hc
      decide
  unfold scanNum
  rw [scanMinus_text hs hi]
  dsimp only
  rw [scanInt_text hi hne2]
  dsimp only
  rw [h2]
  dsimp only
  rw [h1]

theorem afterPrefix_append (k s : List Char) : afterPrefix k (k ++ s) = some s := by
  induction k with
  | nil => rfl
  | cons a k ih => simp [afterPrefix, ih]

theorem afterPrefix_some {k s r : List Char} (h : afterPrefix k s = some r) : s = k ++ r := by
  induction k generalizing s with
  | nil => cases h; rfl
  | cons a k ih =>
    cases s with
    | nil => cases h
    | cons c s =>
      simp only [afterPrefix] at h
      split at h
      · rename_i e; subst e; rw [ih h]; rfl
      · cases h

/-- Texts that begin with a digit, or a sign and a digit, begin with no constant. -/
theorem constants_none {s : List Char} {sg r : List Char} {a : Char} (hs : sg = [] ∨ sg = ['-'])
    (ha : a.isDigit = true) (h : s = sg ++ a :: r) :
    constants.findSome? (fun k => (afterPrefix k.1 s).map (fun r => (k.2, r))) = none := by
  have hne : ∀ b, b.isDigit = false → b ≠ a := fun b hb e => by rw [e, ha] at hb; cases hb
  have h1 := hne 'n' (by decide)
  have h2 := hne 't' (by decide)
  have h3 := hne 'f' (by decide)
  have h4 := hne 'N' (by decide)
  have h5 := hne 'I' (by decide)
  have h6 := hne '-' (by decide)
  subst h
  rcases hs with rfl | rfl
  · simp [constants, afterPrefix, h1, h2, h3, h4, h5, h6]
  · simp [constants, afterPrefix, h5]

theorem scanWord_int (n : Int) {rest : List Char} (hr : NumStop rest) :
    scanWord (intText n ++ rest) = some (.int n, rest) := by
  have key : ∀ sg, (sg = [] ∨ sg = ['-']) → ∀ m, scanWord (sg ++ (decimal m ++ rest)) =
      some (.int (if sg = [] then (m : Int) else -(m : Int)), rest) := by
    intro sg hs m
    obtain ⟨a, l, hl, ha⟩ := intDigits_cons (decimal_int m)
    unfold scanWord
    rw [constants_none hs ha (r := l ++ rest) (by rw [hl]; rfl)]
    dsimp only
    have := scanNum_text (rest := rest) hs (decimal_int m) (.inl rfl) (.inl rfl) hr
    simp only [List.nil_append, and_self, if_true] at this
    rw [this]
    have hv : Nat.ofDigitChars 10 (decimal m) 0 = m := by
      rw [decimal, Nat.ofDigitChars_ten_toDigits]
    rw [hv]
  cases n with
  | ofNat n => exact key [] (.inl rfl) n
  | negSucc n =>
    have := key ['-'] (.inr rfl) (n + 1)
    simp only [intText, List.cons_append, List.nil_append] at this ⊢
    rw [this, if_neg (by simp)]
    rfl

theorem scanWord_float {s : String} (h : FloatWord s.toList) {rest : List Char} (hr : NumStop rest) :
    scanWord (s.toList ++ rest) = some (.float s, rest) := by
  generalize hl : s.toList = l at h
  have hs : s = String.ofList l := by rw [← hl, String.ofList_toList]
  subst hs
  clear hl
  cases h with
  | nan => rfl
  | inf => rfl
  | ninf => rfl
  | number sg ip fr ex hs hi hf he hn =>
    obtain ⟨a, l, hl, ha⟩ := intDigits_cons hi
    unfold scanWord
    rw [constants_none hs ha (r := l ++ (fr ++ (ex ++ rest))) (by rw [hl]; simp)]
    dsimp only
    have := scanNum_text (rest := rest) hs hi hf he hr
    simp only [List.append_assoc]
    rw [this, if_neg (by rintro ⟨a, b⟩; rcases hn with h | h <;> exact h (by assumption))]

/-- The first character of a constant or number is not one of a string, list or dictionary. -/
def Plain (c : Char) : Prop := c ≠ '"' ∧ c ≠ '{' ∧ c ≠ '['

theorem intText_head (n : Int) : ∃ c r, intText n = c :: r ∧ Plain c := by
  cases n with
  | ofNat n =>
    obtain ⟨a, l, hl, ha⟩ := intDigits_cons (decimal_int n)
    exact ⟨a, l, hl, (isDigit_ne ha).2.2.2.2.2⟩
  | negSucc n => exact ⟨'-', _, rfl, by decide, by decide, by decide⟩

theorem floatWord_head {l : List Char} (h : FloatWord l) : ∃ c r, l = c :: r ∧ Plain c := by
  cases h with
  | nan => exact ⟨'N', _, rfl, by decide, by decide, by decide⟩
  | inf => exact ⟨'I', _, rfl, by decide, by decide, by decide⟩
  | ninf => exact ⟨'-', _, rfl, by decide, by decide, by decide⟩
  | number sg ip fr ex hs hi hf he hn =>
    obtain ⟨a, l, hl, ha⟩ := intDigits_cons hi
    rcases hs with rfl | rfl
    · exact ⟨a, l ++ (fr ++ ex), by rw [hl]; rfl, (isDigit_ne ha).2.2.2.2.2⟩
    · exact ⟨'-', _, rfl, by decide, by decide, by decide⟩

/-! ### Trees -/

mutual
/-- Unknown values as `null`. -/
def fillTree : JTree → JTree
  | .null => .null
  | .bool b => .bool b
  | .int n => .int n
  | .float s => .float s
  | .str s => .str s
  | .arr l => .arr (fillItems l)
  | .obj d => .obj (fillMembers d)
  | .unknown => .null
def fillItems : List JTree → List JTree
  | [] => []
  | v :: l => fillTree v :: fillItems l
def fillMembers : List (String × JTree) → List (String × JTree)
  | [] => []
  | (k, v) :: l => (k, fillTree v) :: fillMembers l
end

theorem fillMembers_keys (d : List (String × JTree)) :
    (fillMembers d).map Prod.fst = d.map Prod.fst := by
  induction d with
  | nil => rfl
  | cons p d ih => obtain ⟨k, v⟩ := p; simp [fillMembers, ih]

theorem pairsDict_nodup {l : List (String × JTree)} (h : (l.map Prod.fst).Nodup) :
    pairsDict l = l := by
  have key : ∀ (l acc : List (String × JTree)), ((acc ++ l).map Prod.fst).Nodup →
      l.foldl (fun d p => dset d p.1 p.2) acc = acc ++ l := by
    intro l
    induction l with
    | nil => intro acc _; simp
    | cons p l ih =>
      intro acc hn
      rw [List.foldl_cons]
      have hp : dset acc p.1 p.2 = acc ++ [p] := by
        have hnot : p.1 ∉ acc.map Prod.fst := by
          simp only [List.map_append, List.map_cons] at hn
          have := (List.nodup_append.1 hn).2.2
          exact fun h => this _ h _ List.mem_cons_self rfl
        clear ih hn
        induction acc with
        | nil => rfl
        | cons a acc ih =>
          obtain ⟨k, v⟩ := a
          simp only [List.map_cons, List.mem_cons, not_or] at hnot
          simp only [dset, if_neg (Ne.symm hnot.1), List.cons_append, ih hnot.2]
      rw [hp, ih _ (by simpa using hn)]
      simp
  have := key l [] (by simpa using h)
  rwa [List.nil_append] at this

theorem breakText_ws (ind : Option Nat) (d : Nat) : ∀ c ∈ breakText ind d, isWs c = true := by
  intro c hc
  cases ind with
  | none => cases hc
  | some k =>
    simp only [breakText, List.mem_cons, List.mem_replicate] at hc
    rcases hc with rfl | ⟨_, rfl⟩ <;> decide

theorem skipWs_append {w s : List Char} (h : ∀ c ∈ w, isWs c = true) : skipWs (w ++ s) = skipWs s := by
  induction w with
  | nil => rfl
  | cons c w ih =>
    have := h c List.mem_cons_self
    simp only [skipWs, List.cons_append, List.dropWhile_cons, this, if_true]
    exact ih (fun c hc => h c (List.mem_cons_of_mem _ hc))

theorem skipWs_self {c : Char} {s : List Char} (h : isWs c = false) : skipWs (c :: s) = c :: s := by
  simp [skipWs, List.dropWhile_cons, h]

/-- The first character of a value. -/
theorem treeText_head {u : Prop} {t : JTree} (ht : TreeOK u t) (ind : Option Nat) (d : Nat) :
    ∃ c r, treeText ind d t = c :: r ∧ isWs c = false ∧ c ≠ ']' ∧ c ≠ '}' := by
  have hd : ∀ c : Char, c.isDigit = true → isWs c = false ∧ c ≠ ']' ∧ c ≠ '}' := by
    intro c hc
    refine ⟨?_, ?_, ?_⟩
    · cases hw : isWs c with
      | false => rfl
      | true =>
        simp only [isWs, Bool.or_eq_true, decide_eq_true_eq] at hw
        rcases hw with ((rfl | rfl) | rfl) | rfl <;> exact absurd hc (by decide)
    · rintro rfl; exact absurd hc (by decide)
    · rintro rfl; exact absurd hc (by decide)
  cases ht with
  | null => exact ⟨_, _, by simp only [treeText]; rfl, by decide⟩
  | bool b => cases b <;> exact ⟨_, _, by simp only [treeText]; rfl, by decide⟩
  | int n =>
    cases n with
    | ofNat n =>
      obtain ⟨a, l, hl, ha⟩ := intDigits_cons (decimal_int n)
      exact ⟨a, l, by simp only [treeText, intText]; exact hl, hd a ha⟩
    | negSucc n => exact ⟨'-', _, by simp only [treeText]; rfl, by decide⟩
  | float s h =>
    simp only [treeText]
    generalize s.toList = l at h
    cases h with
    | nan => exact ⟨_, _, rfl, by decide⟩
    | inf => exact ⟨_, _, rfl, by decide⟩
    | ninf => exact ⟨_, _, rfl, by decide⟩
    | number sg ip fr ex hs hi hf he hn =>
      obtain ⟨a, l, hl, ha⟩ := intDigits_cons hi
      rcases hs with rfl | rfl
      · exact ⟨a, l ++ (fr ++ ex), by rw [hl]; rfl, hd a ha⟩
      · exact ⟨'-', _, rfl, by decide⟩
  | str s => exact ⟨_, _, by simp only [treeText]; rfl, by decide⟩
  | arr l h => cases l <;> exact ⟨_, _, by simp only [treeText]; rfl, by decide⟩
  | obj l hk h =>
    cases l with
    | nil => exact ⟨_, _, by simp only [treeText]; rfl, by decide⟩
    | cons p l => obtain ⟨k, v⟩ := p; exact ⟨_, _, by simp only [treeText]; rfl, by decide⟩
  | unknown => exact ⟨_, _, by simp only [treeText]; rfl, by decide⟩

theorem stop_cons {c : Char} {s : List Char} (h : c.isDigit = false ∧ c ≠ '.' ∧ c ≠ 'e' ∧ c ≠ 'E') :
    NumStop (c :: s) := by
  intro x hx
  cases hx
  exact h

theorem stop_break (ind : Option Nat) (d : Nat) {c : Char} {s : List Char}
    (h : c.isDigit = false ∧ c ≠ '.' ∧ c ≠ 'e' ∧ c ≠ 'E') : NumStop (breakText ind d ++ c :: s) := by
  cases ind with
  | none => exact stop_cons h
  | some k => exact stop_cons (by decide)

theorem sepText_eq (ind : Option Nat) (d : Nat) : ∃ w, sepText ind d = ',' :: w ∧
    ∀ c ∈ w, isWs c = true := by
  cases ind with
  | none => exact ⟨[' '], rfl, by decide⟩
  | some k => exact ⟨_, rfl, breakText_ws _ _⟩

mutual
/-- A value is read back. -/
theorem scanTree_text (u : Prop) (ind : Option Nat) : ∀ (t : JTree) (d n : Nat) (rest : List Char),
    TreeOK u t → NumStop rest → (treeText ind d t).length < n →
    scanTree n (treeText ind d t ++ rest) = some (fillTree t, rest)
  | _, _, 0, _, _, _, hn => absurd hn (Nat.not_lt_zero _)
  | .null, d, n + 1, rest, _, _, _ => by simp only [treeText, fillTree]; rfl
  | .bool true, d, n + 1, rest, _, _, _ => by simp only [treeText, fillTree]; rfl
  | .bool false, d, n + 1, rest, _, _, _ => by simp only [treeText, fillTree]; rfl
  | .unknown, d, n + 1, rest, _, _, _ => by simp only [treeText, fillTree]; rfl
  | .int k, d, n + 1, rest, _, hr, _ => by
    simp only [treeText, fillTree]
    rw [← scanWord_int k hr]
    obtain ⟨c, r, hc, h1, h2, h3⟩ := intText_head k
    rw [hc, List.cons_append]
    simp only [scanTree, if_neg h1, if_neg h2, if_neg h3]
  | .float s, d, n + 1, rest, ht, hr, _ => by
    cases ht with
    | float _ h =>
      simp only [treeText, fillTree]
      rw [← scanWord_float h hr]
      obtain ⟨c, r, hc, h1, h2, h3⟩ := floatWord_head h
      rw [hc, List.cons_append]
      simp only [scanTree, if_neg h1, if_neg h2, if_neg h3]
  | .str s, d, n + 1, rest, _, _, hn => by
    simp only [treeText, fillTree, strText, List.length_cons, List.length_append] at hn ⊢
    simp only [List.cons_append, List.append_assoc, List.nil_append, scanTree, if_true]
    rw [scanStr_text _ _ _ (by omega)]
    simp [String.ofList_toList]
  | .arr [], d, n + 1, rest, _, _, _ => by
    simp only [treeText, fillTree, fillItems, List.cons_append, List.nil_append, scanTree]
    rfl
  | .arr (v :: l), d, n + 1, rest, ht, hr, hn => by
    cases ht with
    | arr _ h =>
      have hv := h v List.mem_cons_self
      obtain ⟨c, r, hc, h1, h2, _⟩ := treeText_head hv ind (d + 1)
      simp only [treeText, List.length_cons, List.length_append] at hn
      have key := scanItems_text u ind v l (d + 1) n (breakText ind d) rest h
        (breakText_ws _ _) (stop_break ind d) (by omega)
      simp only [treeText, fillTree, fillItems, List.cons_append, List.append_assoc,
        List.nil_append, scanTree]
      rw [if_neg (by decide), if_neg (by decide), if_pos trivial, skipWs_append (breakText_ws _ _)]
      have hsk : skipWs (treeText ind (d + 1) v ++ (itemsText ind (d + 1) l ++
          (breakText ind d ++ ']' :: rest))) = treeText ind (d + 1) v ++ (itemsText ind (d + 1) l ++
          (breakText ind d ++ ']' :: rest)) := by
        rw [hc]; exact skipWs_self h1
      rw [hsk, key, if_neg (by rw [hc]; simpa using h2)]
      simp only [fillItems]
  | .obj [], d, n + 1, rest, _, _, _ => by
    simp only [treeText, fillTree, fillMembers, List.cons_append, List.nil_append, scanTree]
    rfl
  | .obj ((k, v) :: l), d, n + 1, rest, ht, hr, hn => by
    cases ht with
    | obj _ hk h =>
      simp only [treeText, strText, List.length_cons, List.length_append] at hn
      have key := scanMembers_text u ind k v l (d + 1) n (breakText ind d) rest h
        (breakText_ws _ _) (stop_break ind d)
        (by simp only [strText, List.length_cons, List.length_append]; omega)
      simp only [treeText, fillTree, List.cons_append, List.append_assoc,
        List.nil_append, scanTree]
      rw [if_neg (by decide), if_pos trivial, skipWs_append (breakText_ws _ _)]
      have hsk : skipWs (strText k ++ ':' :: ' ' :: (treeText ind (d + 1) v ++
          (membersText ind (d + 1) l ++ (breakText ind d ++ '}' :: rest)))) =
          strText k ++ ':' :: ' ' :: (treeText ind (d + 1) v ++
          (membersText ind (d + 1) l ++ (breakText ind d ++ '}' :: rest))) := skipWs_self (by decide)
      rw [hsk, key, if_neg (by simp [strText])]
      dsimp only
      rw [pairsDict_nodup (by rw [fillMembers_keys]; exact hk)]
/-- Items are read back. -/
theorem scanItems_text (u : Prop) (ind : Option Nat) : ∀ (v : JTree) (l : List JTree) (d n : Nat)
    (w rest : List Char), (∀ t ∈ v :: l, TreeOK u t) → (∀ c ∈ w, isWs c = true) →
    (∀ {c s}, (c.isDigit = false ∧ c ≠ '.' ∧ c ≠ 'e' ∧ c ≠ 'E') → NumStop (w ++ c :: s)) →
    (treeText ind d v).length + (itemsText ind d l).length + 2 ≤ n →
    scanItems n (treeText ind d v ++ (itemsText ind d l ++ (w ++ ']' :: rest))) =
      some (fillItems (v :: l), rest)
  | _, _, _, 0, _, _, _, _, _, hn => by omega
  | v, [], d, n + 1, w, rest, h, hw, hst, hn => by
    have hv := scanTree_text u ind v d n (w ++ ']' :: rest) (h v List.mem_cons_self)
      (hst (by decide)) (by omega)
    simp only [itemsText, List.nil_append, scanItems, hv, fillItems]
    rw [skipWs_append hw, skipWs_self (by decide)]
    rfl
  | v, v2 :: l, d, n + 1, w, rest, h, hw, hst, hn => by
    obtain ⟨x, hx, hxw⟩ := sepText_eq ind d
    have hv2 := h v2 (List.mem_cons_of_mem _ List.mem_cons_self)
    obtain ⟨c, r, hc, h1, h2, _⟩ := treeText_head hv2 ind d
    simp only [itemsText, hx, List.length_append, List.length_cons] at hn
    have hv := scanTree_text u ind v d n (itemsText ind d (v2 :: l) ++ (w ++ ']' :: rest))
      (h v List.mem_cons_self) (by simp only [itemsText, hx]; exact stop_cons (by decide)) (by omega)
    have key := scanItems_text u ind v2 l d n w rest
      (fun t ht => h t (List.mem_cons_of_mem _ ht)) hw hst (by omega)
    simp only [scanItems, hv]
    simp only [itemsText, hx, List.cons_append, List.append_assoc]
    rw [skipWs_self (by decide)]
    simp only [List.head?_cons, List.tail_cons]
    rw [if_neg (by decide), if_pos trivial, skipWs_append hxw]
    have hsk : skipWs (treeText ind d v2 ++ (itemsText ind d l ++ (w ++ ']' :: rest))) =
        treeText ind d v2 ++ (itemsText ind d l ++ (w ++ ']' :: rest)) := by
      rw [hc]; exact skipWs_self h1
    rw [hsk, key]
    simp only [fillItems]
/-- Members are read back. -/
theorem scanMembers_text (u : Prop) (ind : Option Nat) : ∀ (k : String) (v : JTree)
    (l : List (String × JTree)) (d n : Nat) (w rest : List Char),
    (∀ p ∈ (k, v) :: l, TreeOK u p.2) → (∀ c ∈ w, isWs c = true) →
    (∀ {c s}, (c.isDigit = false ∧ c ≠ '.' ∧ c ≠ 'e' ∧ c ≠ 'E') → NumStop (w ++ c :: s)) →
    (strText k).length + (treeText ind d v).length + (membersText ind d l).length + 2 ≤ n →
    scanMembers n (strText k ++ ':' :: ' ' :: (treeText ind d v ++ (membersText ind d l ++
      (w ++ '}' :: rest)))) = some (fillMembers ((k, v) :: l), rest)
  | _, _, _, _, 0, _, _, _, _, _, hn => by omega
  | k, v, [], d, n + 1, w, rest, h, hw, hst, hn => by
    have hv := scanTree_text u ind v d n (w ++ '}' :: rest) (h _ List.mem_cons_self)
      (hst (by decide)) (by omega)
    obtain ⟨c, r, hc, h1, _, _⟩ := treeText_head (h _ List.mem_cons_self) ind d
    dsimp only at hc
    have hsk : ∀ s, skipWs (' ' :: (treeText ind d v ++ s)) = treeText ind d v ++ s := by
      intro s
      rw [hc]
      exact (skipWs_append (w := [' ']) (by decide)).trans (skipWs_self h1)
    simp only [strText, List.length_cons, List.length_append] at hn
    simp only [strText, membersText, List.nil_append, List.cons_append, List.append_assoc,
      scanMembers, List.head?_cons, List.tail_cons, if_true]
    rw [scanStr_text _ _ _ (by omega)]
    dsimp only
    rw [skipWs_self (by decide)]
    simp only [List.head?_cons, List.tail_cons, if_true]
    rw [hsk, hv]
    dsimp only
    rw [skipWs_append hw, skipWs_self (by decide)]
    simp [fillMembers, String.ofList_toList]
  | k, v, (k2, v2) :: l, d, n + 1, w, rest, h, hw, hst, hn => by
    obtain ⟨x, hx, hxw⟩ := sepText_eq ind d
    have hv2 := h _ (List.mem_cons_of_mem _ List.mem_cons_self)
    obtain ⟨c, r, hc, h1, _, _⟩ := treeText_head (h _ List.mem_cons_self) ind d
    dsimp only at hc
    have hsk : ∀ s, skipWs (' ' :: (treeText ind d v ++ s)) = treeText ind d v ++ s := by
      intro s
      rw [hc]
      exact (skipWs_append (w := [' ']) (by decide)).trans (skipWs_self h1)
    simp only [membersText, hx, List.length_append, List.length_cons] at hn
    have hv := scanTree_text u ind v d n (membersText ind d ((k2, v2) :: l) ++ (w ++ '}' :: rest))
      (h _ List.mem_cons_self) (by simp only [membersText, hx]; exact stop_cons (by decide))
      (by omega)
    have key := scanMembers_text u ind k2 v2 l d n w rest
      (fun t ht => h t (List.mem_cons_of_mem _ ht)) hw hst (by omega)
    simp only [strText, List.length_cons, List.length_append] at hn
    rw [strText]
    simp only [List.nil_append, List.cons_append, List.append_assoc,
      scanMembers, List.head?_cons, List.tail_cons, if_true]
    rw [scanStr_text _ _ _ (by omega)]
    dsimp only
    rw [skipWs_self (by decide)]
    simp only [List.head?_cons, List.tail_cons, if_true]
    rw [hsk, hv]
    simp only [membersText, hx, List.cons_append, List.append_assoc]
    rw [skipWs_self (by decide)]
    simp only [List.head?_cons, List.tail_cons]
    rw [if_neg (by decide), if_pos trivial, skipWs_append hxw]
    have hs2 : ∀ s, skipWs (strText k2 ++ s) = strText k2 ++ s := fun s => skipWs_self (by decide)
    rw [hs2, key]
    simp [fillMembers, String.ofList_toList]
end

end Verif
