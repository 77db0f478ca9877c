import Verif.Lemmas.JsonPrefix
import Verif.Lemmas.Json
/-! Lemmas on whole documents. -/

namespace Verif

mutual
theorem fillTree_ok : ∀ (t : JTree), TreeOK False t → fillTree t = t
  | .null, _ => by simp only [fillTree]
  | .bool b, _ => by simp only [fillTree]
  | .int n, _ => by simp only [fillTree]
  | .float s, _ => by simp only [fillTree]
  | .str s, _ => by simp only [fillTree]
  | .arr l, h => by
    cases h with
    | arr _ h => simp only [fillTree, fillItems_ok l h]
  | .obj d, h => by
    cases h with
    | obj _ _ h => simp only [fillTree, fillMembers_ok d h]
  | .unknown, h => by cases h; contradiction
theorem fillItems_ok : ∀ (l : List JTree), (∀ t ∈ l, TreeOK False t) → fillItems l = l
  | [], _ => by simp only [fillItems]
  | t :: l, h => by
    simp only [fillItems, fillTree_ok t (h t List.mem_cons_self),
      fillItems_ok l (fun t ht => h t (List.mem_cons_of_mem _ ht))]
theorem fillMembers_ok : ∀ (d : List (String × JTree)), (∀ p ∈ d, TreeOK False p.2) →
    fillMembers d = d
  | [], _ => by simp only [fillMembers]
  | (k, t) :: l, h => by
    simp only [fillMembers, fillTree_ok t (h _ List.mem_cons_self),
      fillMembers_ok l (fun t ht => h t (List.mem_cons_of_mem _ ht))]
end

theorem scan_whole {u : Prop} {t : JTree} (ht : TreeOK u t) (ind : Option Nat) :
    scanTree ((treeText ind 0 t).length + 1) (treeText ind 0 t) = some (fillTree t, []) := by
  have := scanTree_text u ind t 0 _ [] ht (fun c hc => by cases hc) (Nat.lt_succ_self _)
  simpa using this

theorem parse_fill {u : Prop} {t : JTree} (ht : TreeOK u t) (ind : Option Nat) :
    parseText (treeText ind 0 t) = some (fillTree t) := by
  obtain ⟨c, r, hc, h1, _, _⟩ := treeText_head ht ind 0
  have hs : skipWs (treeText ind 0 t) = treeText ind 0 t := by rw [hc]; exact skipWs_self h1
  unfold parseText
  rw [hs, scan_whole ht ind]
  rfl

theorem objText_cons (ind : Option Nat) (d : List (String × JTree)) :
    ∃ s, treeText ind 0 (.obj d) = '{' :: s := by
  cases d with
  | nil => exact ⟨_, by simp only [treeText]; rfl⟩
  | cons p l => obtain ⟨k, v⟩ := p; exact ⟨_, by simp only [treeText]; rfl⟩

theorem parse_prefix {u : Prop} {d : List (String × JTree)} (ht : TreeOK u (.obj d))
    (ind : Option Nat) {p : List Char} (hp : p <+: treeText ind 0 (.obj d))
    (hne : p ≠ treeText ind 0 (.obj d)) : parseText p = none := by
  obtain ⟨q, hq⟩ := hp
  have hq0 : q ≠ [] := fun e => hne (by rw [← hq, e, List.append_nil])
  cases p with
  | nil => rfl
  | cons c p =>
    obtain ⟨s, hs⟩ := objText_cons ind d
    have hc : c = '{' := by
      rw [hs] at hq
      simp only [List.cons_append, List.cons.injEq] at hq
      exact hq.1
    subst hc
    have hsk : skipWs ('{' :: p) = '{' :: p := skipWs_self (by decide)
    unfold parseText
    rw [hsk]
    cases hsc : scanTree (('{' :: p).length + 1) ('{' :: p) with
    | none => rfl
    | some x =>
      obtain ⟨t, r⟩ := x
      have h1 := scanTree_ext hsc (m := (treeText ind 0 (.obj d)).length + 1)
        (by rw [← hq, List.length_append]; omega) (.inl ⟨'{', p, rfl, .inr (.inl rfl)⟩) q
      rw [hq, scan_whole ht ind] at h1
      simp only [Option.some.injEq, Prod.mk.injEq] at h1
      have := h1.2.symm
      rw [List.append_eq_nil_iff] at this
      exact absurd this.2 hq0

/-! ### Writing -/

theorem andThen_prefix {a b : List Char × Bool} {x y : List Char} (ha : a.1 <+: x)
    (ha' : a.2 = true → a.1 = x) (hb : b.1 <+: y) : (andThen a b).1 <+: x ++ y := by
  unfold andThen
  split
  · rename_i h
    rw [ha' h]
    exact (List.prefix_append_right_inj x).2 hb
  · exact ha.trans (List.prefix_append x y)

theorem andThen_whole {a b : List Char × Bool} {x y : List Char}
    (ha' : a.2 = true → a.1 = x) (hb : b.2 = true → b.1 = y) (h : (andThen a b).2 = true) :
    (andThen a b).1 = x ++ y := by
  unfold andThen at h ⊢
  split at h
  · rename_i h2
    rw [if_pos h2]
    dsimp only at h ⊢
    rw [ha' h2, hb h]
  · rename_i h2
    exact absurd h h2

/-- Text written so far, and all of it at the end. -/
def Writes (a : List Char × Bool) (x : List Char) : Prop := a.1 <+: x ∧ (a.2 = true → a.1 = x)

theorem Writes.andThen {a b : List Char × Bool} {x y : List Char} (ha : Writes a x)
    (hb : Writes b y) : Writes (andThen a b) (x ++ y) :=
  ⟨andThen_prefix ha.1 ha.2 hb.1, andThen_whole ha.2 hb.2⟩

theorem writes_text (s : List Char) : Writes (s, true) s := ⟨List.prefix_refl s, fun _ => rfl⟩

mutual
theorem writeTree_writes : ∀ (t : JTree) (d : Nat), Writes (writeTree t) (treeText none d t)
  | .null, d => by simp only [writeTree, treeText]; exact writes_text _
  | .bool true, d => by simp only [writeTree, treeText]; exact writes_text _
  | .bool false, d => by simp only [writeTree, treeText]; exact writes_text _
  | .int n, d => by simp only [writeTree, treeText]; exact writes_text _
  | .float s, d => by simp only [writeTree, treeText]; exact writes_text _
  | .str s, d => by simp only [writeTree, treeText]; exact writes_text _
  | .arr [], d => by simp only [writeTree, treeText]; exact writes_text _
  | .obj [], d => by simp only [writeTree, treeText]; exact writes_text _
  | .unknown, d => by
    simp only [writeTree]
    exact ⟨List.nil_prefix, fun h => by cases h⟩
  | .arr (v :: l), d => by
    have h := (writes_text ['[']).andThen ((writeTree_writes v (d + 1)).andThen
      ((writeItems_writes l (d + 1)).andThen (writes_text [']'])))
    simpa only [writeTree, treeText, breakText, List.nil_append, List.cons_append] using h
  | .obj ((k, v) :: l), d => by
    have h := (writes_text ('{' :: (strText k ++ [':', ' ']))).andThen
      ((writeTree_writes v (d + 1)).andThen
      ((writeMembers_writes l (d + 1)).andThen (writes_text ['}'])))
    simpa only [writeTree, treeText, breakText, List.nil_append, List.cons_append,
      List.append_assoc] using h
theorem writeItems_writes : ∀ (l : List JTree) (d : Nat), Writes (writeItems l) (itemsText none d l)
  | [], d => by simp only [writeItems, itemsText]; exact writes_text _
  | v :: l, d => by
    have h := (writes_text [',', ' ']).andThen ((writeTree_writes v d).andThen
      (writeItems_writes l d))
    simpa only [writeItems, itemsText, sepText] using h
theorem writeMembers_writes : ∀ (l : List (String × JTree)) (d : Nat),
    Writes (writeMembers l) (membersText none d l)
  | [], d => by simp only [writeMembers, membersText]; exact writes_text _
  | (k, v) :: l, d => by
    have h := (writes_text (',' :: ' ' :: (strText k ++ [':', ' ']))).andThen
      ((writeTree_writes v d).andThen (writeMembers_writes l d))
    simpa only [writeMembers, membersText, sepText, List.cons_append, List.nil_append,
      List.append_assoc] using h
end

theorem andThen_true {a b : List Char × Bool} (ha : a.2 = true) (hb : b.2 = true) :
    (andThen a b).2 = true := by
  unfold andThen; rw [if_pos ha]; exact hb

mutual
theorem writeTree_ok : ∀ (t : JTree), TreeOK False t → (writeTree t).2 = true
  | .null, _ => by simp only [writeTree]
  | .bool b, _ => by simp only [writeTree]
  | .int n, _ => by simp only [writeTree]
  | .float s, _ => by simp only [writeTree]
  | .str s, _ => by simp only [writeTree]
  | .arr [], _ => by simp only [writeTree]
  | .obj [], _ => by simp only [writeTree]
  | .unknown, h => by cases h; contradiction
  | .arr (v :: l), h => by
    cases h with
    | arr _ h =>
      simp only [writeTree]
      exact andThen_true rfl (andThen_true (writeTree_ok v (h v List.mem_cons_self))
        (andThen_true (writeItems_ok l (fun t ht => h t (List.mem_cons_of_mem _ ht))) rfl))
  | .obj ((k, v) :: l), h => by
    cases h with
    | obj _ _ h =>
      simp only [writeTree]
      exact andThen_true rfl (andThen_true (writeTree_ok v (h _ List.mem_cons_self))
        (andThen_true (writeMembers_ok l (fun t ht => h t (List.mem_cons_of_mem _ ht))) rfl))
theorem writeItems_ok : ∀ (l : List JTree), (∀ t ∈ l, TreeOK False t) → (writeItems l).2 = true
  | [], _ => by simp only [writeItems]
  | v :: l, h => by
    simp only [writeItems]
    exact andThen_true rfl (andThen_true (writeTree_ok v (h v List.mem_cons_self))
      (writeItems_ok l (fun t ht => h t (List.mem_cons_of_mem _ ht))))
theorem writeMembers_ok : ∀ (l : List (String × JTree)), (∀ p ∈ l, TreeOK False p.2) →
    (writeMembers l).2 = true
  | [], _ => by simp only [writeMembers]
  | (k, v) :: l, h => by
    simp only [writeMembers]
    exact andThen_true rfl (andThen_true (writeTree_ok v (h _ List.mem_cons_self))
      (writeMembers_ok l (fun t ht => h t (List.mem_cons_of_mem _ ht))))
end

theorem andThen_snd {a b : List Char × Bool} (h : (andThen a b).2 = true) :
    a.2 = true ∧ b.2 = true := by
  unfold andThen at h
  split at h
  · rename_i ha; exact ⟨ha, h⟩
  · rename_i ha; exact absurd h ha

theorem andThen_short {a b : List Char × Bool} {x y : List Char} (ha : Writes a x)
    (hb : b.2 = false → b.1.length < y.length) (hy : y ≠ [])
    (h : (andThen a b).2 = false) : (andThen a b).1.length < (x ++ y).length := by
  have hl : 0 < y.length := List.length_pos_iff.2 hy
  unfold andThen at h ⊢
  rw [List.length_append]
  split at h
  · rename_i h2
    rw [if_pos h2]
    dsimp only at h ⊢
    rw [List.length_append, ha.2 h2]
    have := hb h
    omega
  · rename_i h2
    rw [if_neg h2]
    have := ha.1.length_le
    omega

/-- An exception leaves the closing brace unwritten. -/
theorem writeObj_short {d : List (String × JTree)} (h : (writeTree (.obj d)).2 = false) :
    (writeTree (.obj d)).1.length < (treeText none 0 (.obj d)).length := by
  cases d with
  | nil => simp only [writeTree] at h; cases h
  | cons p l =>
    obtain ⟨k, v⟩ := p
    have hw := andThen_short (writes_text ('{' :: (strText k ++ [':', ' '])))
      (y := treeText none 1 v ++ (membersText none 1 l ++ ['}']))
      (b := andThen (writeTree v) (andThen (writeMembers l) (['}'], true)))
      (fun hb => andThen_short (writeTree_writes v 1)
        (fun hb => andThen_short (writeMembers_writes l 1) (fun hb => by cases hb) (by simp) hb)
        (by simp) hb) (by simp)
      (by simpa only [writeTree] using h)
    simpa only [writeTree, treeText, breakText, List.nil_append, List.cons_append,
      List.append_assoc] using hw

/-! ### ASCII -/

/-- A character of printable ASCII. -/
def Printable (c : Char) : Prop := 32 ≤ c.toNat ∧ c.toNat ≤ 126

instance (c : Char) : Decidable (Printable c) := by unfold Printable; exact inferInstance

/-- Printable characters, and line breaks if `nl`. -/
def Ascii (nl : Prop) (s : List Char) : Prop := ∀ c ∈ s, Printable c ∨ (c = '\n' ∧ nl)

theorem Ascii.append {nl : Prop} {a b : List Char} (ha : Ascii nl a) (hb : Ascii nl b) :
    Ascii nl (a ++ b) := by
  intro c hc
  rcases List.mem_append.1 hc with h | h
  · exact ha c h
  · exact hb c h

theorem Ascii.cons {nl : Prop} {c : Char} {b : List Char} (hc : Printable c) (hb : Ascii nl b) :
    Ascii nl (c :: b) := by
  intro x hx
  rcases List.mem_cons.1 hx with rfl | h
  · exact .inl hc
  · exact hb x h

theorem ascii_lit {nl : Prop} {l : List Char} (h : ∀ c ∈ l, Printable c) : Ascii nl l :=
  fun c hc => .inl (h c hc)

theorem ascii_nil {nl : Prop} : Ascii nl [] := fun _ h => by cases h

theorem ascii_digits {nl : Prop} {l : List Char} (h : ∀ c ∈ l, c.isDigit = true) : Ascii nl l := by
  intro c hc
  have := h c hc
  simp only [Char.isDigit, Bool.and_eq_true, decide_eq_true_eq, ge_iff_le] at this
  have h1 : 48 ≤ c.val := this.1
  have h1 : 48 ≤ c.toNat := h1
  have h2 : c.val ≤ 57 := this.2
  have h2 : c.toNat ≤ 57 := h2
  exact .inl ⟨by omega, by omega⟩

theorem printable_hex (n : Nat) (h : n < 16) : Printable (hexChar n) := by
  have : ∀ k : Fin 16, Printable (hexChar k.val) := by decide
  exact this ⟨n, h⟩

theorem ascii_u {nl : Prop} (n : Nat) : Ascii nl (uText n) := by
  unfold uText
  refine .cons (by decide) (.cons (by decide) (.cons ?_ (.cons ?_ (.cons ?_ (.cons ?_ ascii_nil)))))
  all_goals exact printable_hex _ (Nat.mod_lt _ (by decide))

theorem ascii_char {nl : Prop} (c : Char) : Ascii nl (charText c) := by
  unfold charText
  split
  · rename_i e he
    refine .cons (by decide) (.cons ?_ ascii_nil)
    unfold shortEscape at he
    repeat' (split at he)
    all_goals first | (cases he; decide) | cases he
  · split
    · rename_i h
      exact .cons h ascii_nil
    · split
      · exact ascii_u _
      · exact (ascii_u _).append (ascii_u _)

theorem ascii_str {nl : Prop} (s : String) : Ascii nl (strText s) := by
  unfold strText
  refine .cons (by decide) (.append ?_ (.cons (by decide) ascii_nil))
  intro c hc
  obtain ⟨x, _, hx⟩ := List.mem_flatMap.1 hc
  exact ascii_char x c hx

theorem ascii_float {nl : Prop} {l : List Char} (h : FloatWord l) : Ascii nl l := by
  cases h with
  | nan => exact ascii_lit (by decide)
  | inf => exact ascii_lit (by decide)
  | ninf => exact ascii_lit (by decide)
  | number sg ip fr ex hs hi hf he hn =>
    refine .append ?_ (.append ?_ (.append ?_ ?_))
    · rcases hs with rfl | rfl <;> (exact ascii_lit (by decide))
    · rcases hi with rfl | hi
      · exact ascii_lit (by decide)
      · exact ascii_digits hi.1.2
    · rcases hf with rfl | ⟨l, hl, rfl⟩
      · exact ascii_nil
      · exact .cons (by decide) (ascii_digits hl.2)
    · rcases he with rfl | ⟨e, s, l, h1, h2, hl, rfl⟩
      · exact ascii_nil
      · refine .cons ?_ (.append ?_ (ascii_digits hl.2))
        · rcases h1 with rfl | rfl <;> decide
        · rcases h2 with rfl | rfl | rfl <;> (exact ascii_lit (by decide))

theorem ascii_break (ind : Option Nat) (d : Nat) : Ascii (ind ≠ none) (breakText ind d) := by
  cases ind with
  | none => exact ascii_nil
  | some k =>
    intro c hc
    unfold breakText at hc
    rcases List.mem_cons.1 hc with rfl | h
    · exact .inr ⟨rfl, by simp⟩
    · exact .inl ((List.eq_of_mem_replicate h) ▸ (by decide))

theorem ascii_sep (ind : Option Nat) (d : Nat) : Ascii (ind ≠ none) (sepText ind d) := by
  cases ind with
  | none => exact .cons (by decide) (.cons (by decide) ascii_nil)
  | some k => exact .cons (by decide) (ascii_break _ _)

mutual
theorem ascii_tree (u : Prop) (ind : Option Nat) : ∀ (t : JTree) (d : Nat), TreeOK u t →
    Ascii (ind ≠ none) (treeText ind d t)
  | .null, d, _ => by simp only [treeText]; exact ascii_lit (by decide)
  | .bool true, d, _ => by simp only [treeText]; exact ascii_lit (by decide)
  | .bool false, d, _ => by simp only [treeText]; exact ascii_lit (by decide)
  | .unknown, d, _ => by simp only [treeText]; exact ascii_lit (by decide)
  | .arr [], d, _ => by simp only [treeText]; exact ascii_lit (by decide)
  | .obj [], d, _ => by simp only [treeText]; exact ascii_lit (by decide)
  | .int n, d, _ => by
    simp only [treeText]
    cases n with
    | ofNat n => exact ascii_digits (decimal_digits n)
    | negSucc n => exact .cons (by decide) (ascii_digits (decimal_digits _))
  | .float s, d, h => by
    cases h with
    | float _ h => simp only [treeText]; exact ascii_float h
  | .str s, d, _ => by simp only [treeText]; exact ascii_str s
  | .arr (v :: l), d, h => by
    cases h with
    | arr _ h =>
      simp only [treeText]
      exact .cons (by decide) ((ascii_break _ _).append ((ascii_tree u ind v _
        (h v List.mem_cons_self)).append ((ascii_items u ind l _
        (fun t ht => h t (List.mem_cons_of_mem _ ht))).append
        ((ascii_break _ _).append (.cons (by decide) ascii_nil)))))
  | .obj ((k, v) :: l), d, h => by
    cases h with
    | obj _ _ h =>
      simp only [treeText]
      exact .cons (by decide) ((ascii_break _ _).append ((ascii_str k).append
        (.cons (by decide) (.cons (by decide) ((ascii_tree u ind v _
        (h _ List.mem_cons_self)).append ((ascii_members u ind l _
        (fun t ht => h t (List.mem_cons_of_mem _ ht))).append
        ((ascii_break _ _).append (.cons (by decide) ascii_nil))))))))
theorem ascii_items (u : Prop) (ind : Option Nat) : ∀ (l : List JTree) (d : Nat),
    (∀ t ∈ l, TreeOK u t) → Ascii (ind ≠ none) (itemsText ind d l)
  | [], d, _ => by simp only [itemsText]; exact ascii_nil
  | v :: l, d, h => by
    simp only [itemsText]
    exact (ascii_sep _ _).append ((ascii_tree u ind v _ (h v List.mem_cons_self)).append
      (ascii_items u ind l _ (fun t ht => h t (List.mem_cons_of_mem _ ht))))
theorem ascii_members (u : Prop) (ind : Option Nat) : ∀ (l : List (String × JTree)) (d : Nat),
    (∀ p ∈ l, TreeOK u p.2) → Ascii (ind ≠ none) (membersText ind d l)
  | [], d, _ => by simp only [membersText]; exact ascii_nil
  | (k, v) :: l, d, h => by
    simp only [membersText]
    exact (ascii_sep _ _).append ((ascii_str k).append (.cons (by decide) (.cons (by decide)
      ((ascii_tree u ind v _ (h _ List.mem_cons_self)).append
      (ascii_members u ind l _ (fun t ht => h t (List.mem_cons_of_mem _ ht)))))))
end

/-! ### Documents -/

theorem valTree_ok {R : FloatRepr} (hR : R.OK) (v : JVal) : TreeOK False (valTree R v) := by
  cases v with
  | null => exact .null
  | bool b => exact .bool b
  | int n => exact .int n
  | float n => exact .float _ (hR.word n)
  | str s => exact .str s
  | arr l =>
    refine .arr _ (fun t ht => ?_)
    obtain ⟨n, _, rfl⟩ := List.mem_map.1 ht
    exact .int n

theorem treeVal_valTree {R : FloatRepr} (hR : R.OK) (v : JVal) :
    treeVal R (valTree R v) = some v := by
  cases v with
  | null => rfl
  | bool b => rfl
  | int n => rfl
  | float n => simp [valTree, treeVal, hR.read]
  | str s => rfl
  | arr l =>
    have : treeInts (l.map .int) = some l := by
      induction l with
      | nil => rfl
      | cons n l ih => simp [treeInts, ih]
    simp [valTree, treeVal, this]

theorem cmdTree_ok {R : FloatRepr} (hR : R.OK) {s : String} {c : JCmd} (hs : FloatWord s.toList)
    (hk : ∀ ps, c.params = some ps → (dkeys ps).Nodup) : TreeOK False (cmdTree R s c) := by
  have hp : ∀ ps, c.params = some ps →
      TreeOK False (.obj (ps.map (fun p => (p.1, valTree R p.2)))) := by
    intro ps h
    refine .obj _ ?_ (fun p hp => ?_)
    · have := hk ps h
      simpa [dkeys, List.map_map, Function.comp_def] using this
    · obtain ⟨x, _, rfl⟩ := List.mem_map.1 hp
      exact valTree_ok hR x.2
  obtain ⟨m, n, ps⟩ := c
  unfold cmdTree
  refine .obj _ ?_ (fun p hp' => ?_)
  · cases m <;> cases ps <;> simp
  · simp only [List.mem_append, List.mem_cons, List.not_mem_nil, or_false] at hp'
    rcases hp' with (h | h | h) | h
    · cases m with
      | none => cases h
      | some m => simp only [List.mem_singleton] at h; subst h; exact .str m
    · subst h; exact .int _
    · subst h; exact .float _ hs
    · cases ps with
      | none => cases h
      | some ps => simp only [List.mem_singleton] at h; subst h; exact hp ps rfl

theorem docTree_ok {R : FloatRepr} (hR : R.OK) {cmds : List (String × JCmd)}
    (hc : ∀ c ∈ cmds, FloatWord c.1.toList ∧ ∀ ps, c.2.params = some ps → (dkeys ps).Nodup) :
    TreeOK False (docTree R cmds) := by
  refine .obj _ (by simp) (fun p hp => ?_)
  simp only [List.mem_cons, List.not_mem_nil, or_false] at hp
  rcases hp with rfl | rfl
  · exact .str _
  · refine .arr _ (fun t ht => ?_)
    obtain ⟨c, h, rfl⟩ := List.mem_map.1 ht
    exact cmdTree_ok hR (hc c h).1 (hc c h).2

theorem treeParams_map {R : FloatRepr} (hR : R.OK) (ps : Dict String JVal) :
    treeParams R (ps.map (fun p => (p.1, valTree R p.2))) = some ps := by
  induction ps with
  | nil => rfl
  | cons p ps ih => simp [treeParams, treeVal_valTree hR, ih]

theorem treeCmd_cmdTree {R : FloatRepr} (hR : R.OK) (s : String) (c : JCmd) :
    treeCmd R (cmdTree R s c) = some c := by
  obtain ⟨m, n, ps⟩ := c
  cases m <;> cases ps <;> simp [cmdTree, treeCmd, dget, treeParams_map hR]

theorem treeCmds_docTree {R : FloatRepr} (hR : R.OK) (cmds : List (String × JCmd)) :
    treeCmds R (cmds.map (fun c => cmdTree R c.1 c.2)) = some (cmds.map Prod.snd) := by
  induction cmds with
  | nil => rfl
  | cons c cmds ih => simp [treeCmds, treeCmd_cmdTree hR, ih]

theorem dset_nodup {κ ν : Type} [DecidableEq κ] {d : Dict κ ν} (k : κ) (v : ν)
    (h : (dkeys d).Nodup) : (dkeys (dset d k v)).Nodup := by
  induction d with
  | nil => simp [dset, dkeys]
  | cons p d ih =>
    obtain ⟨k', v'⟩ := p
    simp only [dkeys, List.map_cons, List.nodup_cons] at h
    simp only [dset]
    split
    · simp only [dkeys, List.map_cons, List.nodup_cons]; exact h
    · rename_i hk
      simp only [dkeys, List.map_cons, List.nodup_cons]
      refine ⟨fun hm => ?_, ih h.2⟩
      have : ∀ x ∈ dkeys (dset d k v), x = k ∨ x ∈ dkeys d := by
        intro x hx
        clear ih h hm hk
        induction d with
        | nil => simp [dset, dkeys] at hx; exact .inl hx
        | cons q d ih =>
          obtain ⟨k2, v2⟩ := q
          simp only [dset] at hx
          split at hx
          · exact .inr hx
          · simp only [dkeys, List.map_cons, List.mem_cons] at hx ⊢
            rcases hx with hx | hx
            · exact .inr (.inl hx)
            · rcases ih hx with h | h
              · exact .inl h
              · exact .inr (.inr h)
      rcases this _ hm with h1 | h1
      · exact hk h1
      · exact h.1 h1

theorem dumpParams_nodup {P : Prog} {w w' : World} {ps acc out : Dict String Val}
    (h : dumpParams P w ps acc = (w', .ok out)) (ha : (dkeys acc).Nodup) : (dkeys out).Nodup := by
  induction ps generalizing w acc with
  | nil => cases h; exact ha
  | cons p ps ih =>
    obtain ⟨k, v⟩ := p
    simp only [dumpParams] at h
    split at h
    · cases h
    · split at h
      · split at h
        · exact ih h (dset_nodup _ _ ha)
        · cases h
      · exact ih h (dset_nodup _ _ ha)

theorem dumpLoop_nodup {P : Prog} {fuel q i : Nat} {w w' : World} {acc ps : List Payload}
    (h : dumpLoop P fuel w q i acc = some (w', .ok ps))
    (ha : ∀ p ∈ acc, (dkeys p.params).Nodup) : ∀ p ∈ ps, (dkeys p.params).Nodup := by
  induction fuel generalizing w i acc with
  | zero => cases h
  | succ fuel ih =>
    simp only [dumpLoop] at h
    split at h
    · cases h; exact ha
    · rename_i c hc
      cases hd : dumpCommand P w c with
      | mk w1 r =>
        rw [hd] at h
        cases r with
        | error e => cases h
        | ok p =>
          refine ih h (fun x hx => ?_)
          rcases List.mem_append.1 hx with hx | hx
          · exact ha x hx
          · rw [List.mem_singleton] at hx
            subst hx
            unfold dumpCommand at hd
            split at hd
            · cases hd
            · rename_i hp
              cases hd
              exact dumpParams_nodup hp (by simp [dkeys])

theorem rawDoc_ok {R : FloatRepr} (hR : R.OK) {ij : Codec} {w : World}
    {ps : List (String × Payload)}
    (h : ∀ p ∈ ps, FloatWord p.1.toList ∧ (dkeys p.2.params).Nodup) :
    TreeOK True (rawDocTree R ij w ps) := by
  have mono : ∀ t, TreeOK False t → TreeOK True t := by
    intro t ht
    induction ht with
    | null => exact .null
    | bool b => exact .bool b
    | int n => exact .int n
    | float s h => exact .float s h
    | str s => exact .str s
    | arr l _ ih => exact .arr l ih
    | obj d hk _ ih => exact .obj d hk ih
    | unknown h => exact h.elim
  refine .obj _ (by simp) (fun p hp => ?_)
  simp only [List.mem_cons, List.not_mem_nil, or_false] at hp
  rcases hp with rfl | rfl
  · exact .str _
  · refine .arr _ (fun t ht => ?_)
    obtain ⟨c, hc, rfl⟩ := List.mem_map.1 ht
    refine .obj _ (by simp) (fun p hp => ?_)
    simp only [List.mem_cons, List.not_mem_nil, or_false] at hp
    rcases hp with rfl | rfl | rfl | rfl
    · exact .str _
    · exact .int _
    · exact .float _ (h c hc).1
    · refine .obj _ ?_ (fun p hp => ?_)
      · have := (h c hc).2
        simpa [dkeys, List.map_map, Function.comp_def] using this
      · obtain ⟨x, _, rfl⟩ := List.mem_map.1 hp
        dsimp only
        unfold rawTree
        split
        · exact mono _ (valTree_ok hR _)
        · exact .unknown trivial

theorem encodeParams_raw {R : FloatRepr} {ij : Codec} {w : World} {ps : Dict String Val}
    {js : Dict String JVal} (h : encodeParams ij w ps = .ok js) :
    ps.map (fun q => (q.1, rawTree R ij w q.2)) = js.map (fun q => (q.1, valTree R q.2)) ∧
      dkeys js = dkeys ps := by
  induction ps generalizing js with
  | nil => cases h; exact ⟨rfl, rfl⟩
  | cons p ps ih =>
    obtain ⟨k, v⟩ := p
    simp only [encodeParams] at h
    split at h
    · cases h
    · rename_i j hj
      split at h
      · cases h
      · rename_i js' hjs
        cases h
        have := ih hjs
        simp only [List.map_cons, rawTree, hj]
        refine ⟨?_, ?_⟩
        · rw [← this.1]; rfl
        · simp only [dkeys, List.map_cons, List.cons.injEq, true_and]; exact this.2

theorem encodeAll_length {ij : Codec} {w : World} {ps : List Payload} {l : List JCmd}
    (h : encodeAll ij w ps = .ok l) : l.length = ps.length := by
  induction ps generalizing l with
  | nil => cases h; rfl
  | cons p ps ih =>
    simp only [encodeAll] at h
    split at h
    · cases h
    · split at h
      · cases h
      · rename_i hl; cases h; simp [ih hl]

theorem encodeAll_keys {ij : Codec} {w : World} {ps : List Payload} {l : List JCmd}
    (h : encodeAll ij w ps = .ok l) : ∀ c ∈ l, ∀ qs, c.params = some qs →
      ∃ p ∈ ps, dkeys qs = dkeys p.params := by
  induction ps generalizing l with
  | nil => cases h; intro c hc; cases hc
  | cons p ps ih =>
    simp only [encodeAll] at h
    split at h
    · cases h
    · rename_i js hjs
      split at h
      · cases h
      · rename_i l' hl
        cases h
        intro c hc qs hq
        rcases List.mem_cons.1 hc with rfl | hc
        · cases hq
          exact ⟨p, List.mem_cons_self, (encodeParams_raw (R := ⟨fun _ => "", fun _ => none⟩) hjs).2⟩
        · obtain ⟨x, hx, hk⟩ := ih hl c hc qs hq
          exact ⟨x, List.mem_cons_of_mem _ hx, hk⟩

theorem rawDoc_encoded {R : FloatRepr} {ij : Codec} {w : World} {ps : List Payload}
    {l : List JCmd} {stamps : List String} (hl : stamps.length = ps.length)
    (h : encodeAll ij w ps = .ok l) :
    rawDocTree R ij w (stamps.zip ps) = docTree R (stamps.zip l) := by
  have key : (stamps.zip ps).map (fun p => rawCmdTree R ij w p.1 p.2) =
      (stamps.zip l).map (fun c => cmdTree R c.1 c.2) := by
    induction ps generalizing l stamps with
    | nil => cases h; simp
    | cons p ps ih =>
      cases stamps with
      | nil => cases hl
      | cons s stamps =>
        simp only [encodeAll] at h
        split at h
        · cases h
        · rename_i js hjs
          split at h
          · cases h
          · rename_i l' hl'
            cases h
            simp only [List.zip_cons_cons, List.map_cons,
              ih (by simpa using hl) hl', List.cons.injEq, and_true]
            simp only [rawCmdTree, cmdTree, (encodeParams_raw (R := R) hjs).1]
            rfl
  unfold rawDocTree docTree
  rw [key]

theorem writeMembers_true {d : List (String × JTree)} (h : (writeMembers d).2 = true) :
    ∀ p ∈ d, (writeTree p.2).2 = true := by
  induction d with
  | nil => intro p hp; cases hp
  | cons p d ih =>
    obtain ⟨k, v⟩ := p
    simp only [writeMembers] at h
    have h1 := andThen_snd (andThen_snd h).2
    intro p hp
    rcases List.mem_cons.1 hp with rfl | hp
    · exact h1.1
    · exact ih h1.2 p hp

theorem writeObj_true {d : List (String × JTree)} (h : (writeTree (.obj d)).2 = true) :
    ∀ p ∈ d, (writeTree p.2).2 = true := by
  cases d with
  | nil => intro p hp; cases hp
  | cons p d =>
    obtain ⟨k, v⟩ := p
    simp only [writeTree] at h
    have h1 := andThen_snd (andThen_snd h).2
    intro p hp
    rcases List.mem_cons.1 hp with rfl | hp
    · exact h1.1
    · exact writeMembers_true (andThen_snd h1.2).1 p hp

theorem writeItems_true {l : List JTree} (h : (writeItems l).2 = true) :
    ∀ t ∈ l, (writeTree t).2 = true := by
  induction l with
  | nil => intro p hp; cases hp
  | cons v l ih =>
    simp only [writeItems] at h
    have h1 := andThen_snd (andThen_snd h).2
    intro p hp
    rcases List.mem_cons.1 hp with rfl | hp
    · exact h1.1
    · exact ih h1.2 p hp

theorem writeArr_true {l : List JTree} (h : (writeTree (.arr l)).2 = true) :
    ∀ t ∈ l, (writeTree t).2 = true := by
  cases l with
  | nil => intro p hp; cases hp
  | cons v l =>
    simp only [writeTree] at h
    have h1 := andThen_snd (andThen_snd h).2
    intro p hp
    rcases List.mem_cons.1 hp with rfl | hp
    · exact h1.1
    · exact writeItems_true (andThen_snd h1.2).1 p hp

theorem rawDoc_error {R : FloatRepr} {ij : Codec} {w : World} {ps : List Payload} {e : Err}
    {stamps : List String} (hl : stamps.length = ps.length) (h : encodeAll ij w ps = .error e) :
    (writeTree (rawDocTree R ij w (stamps.zip ps))).2 = false := by
  cases hw : (writeTree (rawDocTree R ij w (stamps.zip ps))).2 with
  | false => rfl
  | true =>
    exfalso
    have h1 := writeObj_true hw _ (List.mem_cons_of_mem _ List.mem_cons_self)
    have h2 := writeArr_true h1
    clear hw h1
    induction ps generalizing stamps with
    | nil => cases h
    | cons p ps ih =>
      cases stamps with
      | nil => cases hl
      | cons s stamps =>
        simp only [encodeAll] at h
        split at h
        · rename_i e' he
          have h3 := h2 _ (by simp only [List.zip_cons_cons, List.map_cons]; exact List.mem_cons_self)
          have h4 := writeObj_true h3 ("parameters", _)
            (by simp only [List.mem_cons, List.not_mem_nil, or_false]; right; right; right; rfl)
          have h5 := writeObj_true h4
          clear ih h h2 h3 h4 hl
          generalize p.params = qs at he h5
          induction qs with
          | nil => cases he
          | cons q qs ih =>
            obtain ⟨k, v⟩ := q
            simp only [encodeParams] at he
            split at he
            · rename_i e2 hv
              have := h5 (k, rawTree R ij w v) (by simp)
              simp only [rawTree, hv, writeTree] at this
              cases this
            · split at he
              · rename_i hjs
                cases he
                exact ih hjs (fun p hp => h5 p (by
                  simp only [List.map_cons]; exact List.mem_cons_of_mem _ hp))
              · cases he
        · split at h
          · rename_i e2 he
            cases h
            exact ih (by simpa using hl) he (fun t ht => h2 t (by
              simp only [List.zip_cons_cons, List.map_cons]; exact List.mem_cons_of_mem _ ht))
          · cases h

end Verif
