import Verif.Lemmas.Repr
/-
C110: a transform can be recognised from what it prints.
-/

namespace Verif

/-- **C110.** If two transforms, of the same or of different programs, print the same text, they have the same
class, the same id, the same id of the base and of the argument, and, if they are operators, the same operands.
Missing: a transform bound to a number prints nothing, or nothing of the number (next theorems). -/
theorem repr_identifies_partial {h h' : THeap RVal} {ids ids' : Nat → Nat} {n n' r r' : Nat} {text : Text}
    (ho : Ordinary h) (ho' : Ordinary h') (e : reprOf h ids n r = .ok text)
    (e' : reprOf h' ids' n' r' = .ok text) : ∃ s, ReprTells h ids n r s ∧ ReprTells h' ids' n' r' s := by
  obtain ⟨s, hs, rfl⟩ := reprOf_told e
  obtain ⟨s', hs', e2⟩ := reprOf_told e'
  cases text_inj (tells_fine ho hs) (tells_fine ho' hs') e2
  exact ⟨s, hs, hs'⟩

/-- **C110.** With enough recursion, a transform prints exactly when there is something to tell of it, and of all
its operands. -/
theorem repr_prints_iff {h : THeap RVal} {ids : Nat → Nat} {r : Nat} :
    (∃ k text, ∀ m, k ≤ m → reprOf h ids m r = .ok text) ↔ ∃ n s, ReprTells h ids n r s := by
  constructor
  · rintro ⟨k, text, e⟩
    obtain ⟨s, hs, -⟩ := reprOf_told (e k (Nat.le_refl k))
    exact ⟨k, s, hs⟩
  · rintro ⟨n, s, hs⟩
    obtain ⟨k, hk⟩ := told_reprOf hs
    exact ⟨k, s.text, hk⟩

/-- **C110.** A transform that is no operator, and whose bases end, prints exactly when it is chained with another
transform, or bound to nothing, to a buffer, to 0 or to something empty. -/
theorem plain_prints_iff {h : THeap RVal} {ids : Nat → Nat} {r : Nat} {t : TNode RVal} (ht : h[r]? = some t)
    (hd : ∀ op x y, t.data ≠ .arith op x y) {b : Nat} (hb : BaseEnds h r b) :
    (∃ k text, ∀ m, k ≤ m → reprOf h ids m r = .ok text) ↔
      t.next ≠ none ∨ t.buffer = none ∨ (∃ i c d, t.buffer = some (.buffer i c d)) ∨
        (∃ w, t.buffer = some (.num w true)) ∨ ∃ w, t.buffer = some (.other w (.ok false)) := by
  rw [repr_prints_iff]
  constructor
  · rintro ⟨n, s, hs⟩
    cases n with
    | zero => exact hs.elim
    | succ n =>
      obtain ⟨t', b', ht', -, hs⟩ := hs
      cases ht.symm.trans ht'
      split at hs
      · rename_i op x y hdata
        exact absurd hdata (hd op x y)
      · obtain ⟨a, ha, -⟩ := hs
        cases ha with
        | next hx => exact .inl (by rw [hx]; simp)
        | none hx hv => exact .inr (.inl hv)
        | buffer hx hv => exact .inr (.inr (.inl ⟨_, _, _, hv⟩))
        | empty hx hv => exact .inr (.inr (.inl ⟨_, _, _, hv⟩))
        | zero hx hv => exact .inr (.inr (.inr (.inl ⟨_, hv⟩)))
        | false hx hv => exact .inr (.inr (.inr (.inr ⟨_, hv⟩)))
  · intro hp
    have hbt : ∃ b', BaseTold h ids r t b' := by
      cases hc : t.base with
      | none => exact ⟨none, .none hc⟩
      | some c => exact ⟨some (ids b), .some (by rw [hc]; simp) hb⟩
    have hat : ∃ a, ArgTold ids t a := by
      cases hx : t.next with
      | some x => exact ⟨_, .next hx⟩
      | none =>
        rcases hp with hp | hp | ⟨i, c, d, hp⟩ | ⟨w, hp⟩ | ⟨w, hp⟩
        · exact absurd hx hp
        · exact ⟨_, .none hx hp⟩
        · cases c with
          | zero => exact ⟨_, .empty hx hp⟩
          | succ c => exact ⟨_, .buffer hx hp⟩
        · exact ⟨_, .zero hx hp⟩
        · exact ⟨_, .false hx hp⟩
    obtain ⟨b', hb'⟩ := hbt
    obtain ⟨a, ha⟩ := hat
    refine ⟨1, .plain t.data.fresh (ids r) b' a, t, b', ht, hb', ?_⟩
    split
    · rename_i op x y hdata
      exact absurd hdata (hd op x y)
    · exact ⟨a, ha, rfl⟩

/-- A pixel, a copy of it chained with an inch that is bound to a buffer, and the sum of the copy and 1.5. -/
def rheap : THeap RVal :=
  [⟨none, none, none, .measure .pixel⟩,
   ⟨some 0, some 2, none, .measure .pixel⟩,
   ⟨none, none, some (.buffer 9 3 "float32".toList), .measure .inch⟩,
   ⟨none, none, none, .arith .add (.ref 1) (.val (.num "1.5".toList false))⟩]

example : reprOf rheap (· + 1) 9 3 = .ok "Add (id=4, (left=Pixel (id=2[base=1])(3), right=1.5)".toList ∧
    reprOf rheap (· + 1) 9 2 = .ok "Inch (id=3)(9)".toList := by decide +kernel

example : BaseEnds rheap 1 0 := .there rfl rfl (.here rfl rfl)

example : Ordinary rheap := by
  intro r t ht
  have hr : r < 4 := (List.getElem?_eq_some_iff.1 ht).1
  have : r = 0 ∨ r = 1 ∨ r = 2 ∨ r = 3 := by omega
  rcases this with rfl | rfl | rfl | rfl <;> cases ht <;> refine ⟨by decide +kernel, ?_⟩ <;> try trivial
  intro o ho
  simp only [List.mem_cons, List.not_mem_nil, or_false] at ho
  rcases ho with rfl | rfl
  · trivial
  · show OneWord _
    unfold OneWord
    decide

/-- **C110.** `10 * Pixel()` cannot be printed, whatever the number is unless it is 0: numbers have no id. -/
theorem repr_bound_number_fails (S : TSem RVal) (ids : Nat → Nat) (w : Text) (hok : S.ok (.num w false) = true)
    (hb : S.bindable (.num w false) = true) (hs : S.scales (.num w false) = true) : ∃ (h h' : THeap RVal) (r r' : Nat),
    combine S 9 h (.rbin .mul (.num w false) r) = (h', .ok r') ∧ Ordinary h' ∧
    ∀ m, 2 ≤ m → reprOf h' ids (m + 1) r' = .error .attributeError := by
  refine ⟨[⟨none, none, none, .measure .pixel⟩], [⟨none, none, none, .measure .pixel⟩,
    ⟨some 0, none, some (.num w false), .measure .pixel⟩], 0, 1, ?_, ?_, ?_⟩
  · rw [show ∀ h : THeap RVal, h = [⟨none, none, none, .measure .pixel⟩] →
        combine S 9 h (.rbin .mul (.num w false) 0) =
          if S.scales (.num w false) then
            (if S.bindable (.num w false) then
              (if S.ok (.num w false) then (h ++ [⟨some 0, none, some (.num w false), .measure .pixel⟩], .ok 1)
               else (h ++ [⟨some 0, none, some (.num w false), .measure .pixel⟩], .error .valueError))
            else (h ++ [⟨some 0, none, none, .measure .pixel⟩], .error .valueError))
          else newArith S 9 h .mul (.ref 0) (.val (.num w false)) from fun h e => by cases e; rfl, if_pos hs, if_pos hb,
      if_pos hok]
    rfl
    rfl
  · intro r t ht
    have hr : r < 2 := (List.getElem?_eq_some_iff.1 ht).1
    have : r = 0 ∨ r = 1 := by omega
    rcases this with rfl | rfl <;> cases ht <;> exact ⟨by simp [knownClasses, TData.fresh], trivial⟩
  · intro m hm
    obtain ⟨m, rfl⟩ : ∃ k, m = k + 2 := ⟨m - 2, by omega⟩
    rfl

/-- Such an arithmetic exists: one that takes every value. -/
example : ∃ S : TSem RVal, ∀ v, S.ok v = true ∧ S.bindable v = true ∧ S.scales v = true :=
  ⟨⟨fun _ a _ => .ok a, fun _ a => .ok a, true, fun _ a => .ok a, .num "1".toList false,
    fun _ _ _ _ => .error .valueError, fun _ => .error .valueError, fun _ => true, fun _ => true, fun _ => true,
    .num "-1".toList false⟩, fun _ => ⟨rfl, rfl, rfl⟩⟩

/-- **C110.** A transform bound to 0 prints the same as one that is not bound. -/
theorem repr_zero_fails : ∃ h h' : THeap RVal, h ≠ h' ∧ ∀ (ids : Nat → Nat) n r,
    reprOf h ids n r = reprOf h' ids n r := by
  refine ⟨[⟨none, none, none, .measure .pixel⟩], [⟨none, none, some (.num "0".toList true), .measure .pixel⟩],
    by simp, fun ids n r => ?_⟩
  cases n with
  | zero => rfl
  | succ n => cases r <;> rfl

/-- **C110.** The text of an operator is not closed: in every text, a parenthesis is missing for every operator. -/
theorem repr_parentheses {h : THeap RVal} {ids : Nat → Nat} {n r : Nat} {text : Text} (ho : Ordinary h)
    (e : reprOf h ids n r = .ok text) : ∃ s, ReprTells h ids n r s ∧
      text.count '(' = text.count ')' + s.operators := by
  obtain ⟨s, hs, rfl⟩ := reprOf_told e
  exact ⟨s, hs, count_text (tells_fine ho hs)⟩

end Verif
