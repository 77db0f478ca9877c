import Verif.Model.Dtype
import Verif.Lemmas.Py

namespace Verif

theorem splitChars_join {c : Char} : ∀ {l : List Text}, l ≠ [] → (∀ a ∈ l, c ∉ a) →
    splitChars c (joinText c l) = l
  | [], h, _ => absurd rfl h
  | [a], _, h => splitChars_of_not_mem (h a (by simp))
  | a :: b :: l, _, h => by
    rw [joinText, splitChars_append (h a (by simp)),
      splitChars_join (l := b :: l) (by simp) (fun x hx => h x (by simp [hx]))]

theorem decimal_ne_nil (n : Nat) : decimal n ≠ [] := by
  have := Nat.length_toDigits_pos (b := 10) (n := n)
  intro h
  unfold decimal at h
  rw [h] at this
  simp at this

theorem decimal_digits (n : Nat) : ∀ c ∈ decimal n, c.isDigit = true := fun _ h =>
  Nat.isDigit_of_mem_toDigits (by decide) (by decide) h

theorem pyInt_decimal (n : Nat) : pyInt (decimal n) = .ok n := by
  unfold pyInt
  rw [if_pos]
  · rw [decimal, Nat.ofDigitChars_ten_toDigits]
  · exact ⟨decimal_ne_nil n, List.all_eq_true.2 (decimal_digits n)⟩

theorem notMem_decimal {c : Char} (hc : c.isDigit = false) (n : Nat) : c ∉ decimal n := by
  intro h
  rw [decimal_digits n c h] at hc
  cases hc

/-- What is left of a shape. -/
def keptShape (shape : List Nat) : List Nat :=
  if prodShape shape > 1 then [prodShape shape] else []

theorem parseElement_text {name base : Text} {shape : List Nat} (hn : ':' ∉ name)
    (hb : ':' ∉ base) :
    parseElement (elementText name base shape) =
      .ok (if name ≠ [] then .named ⟨name, base, keptShape shape⟩
        else .bare base (keptShape shape)) := by
  unfold parseElement elementText
  rw [splitChars_append hb, splitChars_append hn,
    splitChars_of_not_mem (notMem_decimal (by decide) _)]
  simp only [decimal_ne_nil, if_false, pyInt_decimal, Except.map]
  rfl

theorem comma_elementText {name base : Text} {shape : List Nat} (hn : ',' ∉ name)
    (hb : ',' ∉ base) : ',' ∉ elementText name base shape := by
  unfold elementText
  simp [hn, hb, notMem_decimal (c := ',') (by decide)]

theorem mapM_ok {α β : Type} {f : α → Except Err β} {g : α → β} : ∀ {l : List α},
    (∀ a ∈ l, f a = .ok (g a)) → l.mapM f = .ok (l.map g)
  | [], _ => rfl
  | a :: l, h => by
    have ih := mapM_ok (l := l) (f := f) (g := g) (fun x hx => h x (by simp [hx]))
    simp [List.mapM_cons, h a (by simp), ih, bind, Except.bind, pure, Except.pure]

theorem namedFields_map (fs : List DField) : namedFields (fs.map DElem.named) = some fs := by
  induction fs with
  | nil => rfl
  | cons f fs ih => simp [namedFields, ih]

end Verif
