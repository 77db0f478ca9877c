import Verif.Model.Base64

namespace Verif

set_option maxRecDepth 8000 in
theorem b64Val_char : ∀ n < 64, b64Val (b64Char n) = some n := by decide
theorem b64Char_ne : ∀ n < 64, b64Char n ≠ '=' := by decide
theorem b64Char_mem : ∀ n < 64, b64Char n ∈ b64Alphabet := by decide

theorem b64_round_trip : ∀ b : List Nat, (∀ x ∈ b, x < 256) → b64decode (b64encode b) = some b
  | [], _ => rfl
  | [a], h => by
    have ha := h a (by simp)
    simp only [b64encode, b64decode]
    rw [b64Val_char _ (by omega), b64Val_char _ (by omega)]
    simp only [and_self, if_true]
    congr 2
    omega
  | [a, b], h => by
    have ha := h a (by simp)
    have hb := h b (by simp)
    simp only [b64encode, b64decode]
    rw [b64Val_char _ (by omega), b64Val_char _ (by omega), b64Val_char _ (by omega)]
    simp only [if_true, if_neg (b64Char_ne _ (show b % 16 * 4 < 64 by omega))]
    congr 1
    simp only [List.cons.injEq, and_true]
    constructor <;> omega
  | a :: b :: c :: rest, h => by
    have ha := h a (by simp)
    have hb := h b (by simp)
    have hc := h c (by simp)
    have ih := b64_round_trip rest (fun x hx => h x (by simp [hx]))
    simp only [b64encode, b64decode]
    rw [b64Val_char _ (by omega), b64Val_char _ (by omega), b64Val_char _ (by omega),
      b64Val_char _ (by omega), ih]
    simp only [if_neg (b64Char_ne _ (show b % 16 * 4 + c / 64 < 64 by omega)),
      if_neg (b64Char_ne _ (show c % 64 < 64 by omega)), Option.map_some]
    congr 1
    simp only [List.cons.injEq, and_true]
    refine ⟨?_, ?_, ?_⟩ <;> omega

theorem b64_chars : ∀ b : List Nat, (∀ x ∈ b, x < 256) →
    ∀ c ∈ b64encode b, c ∈ b64Alphabet ∨ c = '='
  | [], _ => by simp [b64encode]
  | [a], h => by
    have ha := h a (by simp)
    intro c hc
    simp only [b64encode, List.mem_cons, List.not_mem_nil, or_false] at hc
    rcases hc with rfl | rfl | rfl | rfl
    · exact Or.inl (b64Char_mem _ (by omega))
    · exact Or.inl (b64Char_mem _ (by omega))
    · exact Or.inr rfl
    · exact Or.inr rfl
  | [a, b], h => by
    have ha := h a (by simp)
    have hb := h b (by simp)
    intro c hc
    simp only [b64encode, List.mem_cons, List.not_mem_nil, or_false] at hc
    rcases hc with rfl | rfl | rfl | rfl
    · exact Or.inl (b64Char_mem _ (by omega))
    · exact Or.inl (b64Char_mem _ (by omega))
    · exact Or.inl (b64Char_mem _ (by omega))
    · exact Or.inr rfl
  | a :: b :: c :: rest, h => by
    have ha := h a (by simp)
    have hb := h b (by simp)
    have hc := h c (by simp)
    intro d hd
    simp only [b64encode, List.mem_cons] at hd
    rcases hd with rfl | rfl | rfl | rfl | hd
    · exact Or.inl (b64Char_mem _ (by omega))
    · exact Or.inl (b64Char_mem _ (by omega))
    · exact Or.inl (b64Char_mem _ (by omega))
    · exact Or.inl (b64Char_mem _ (by omega))
    · exact b64_chars rest (fun x hx => h x (by simp [hx])) d hd

theorem b64_length : ∀ b : List Nat, (b64encode b).length = 4 * ((b.length + 2) / 3)
  | [] => rfl
  | [_] => by simp [b64encode]
  | [_, _] => by simp [b64encode]
  | a :: b :: c :: rest => by
    have ih := b64_length rest
    simp only [b64encode, List.length_cons, ih]
    omega

end Verif
