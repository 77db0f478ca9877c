import Verif.Lemmas.Base64
/-! # C13: buffer contents survive serialisation -/

namespace Verif

/-- C13. Decoding the text written for any byte string gives that byte string. -/
theorem base64_round_trip (b : List Nat) (h : ∀ x ∈ b, x < 256) :
    b64decode (b64encode b) = some b := b64_round_trip b h

/-- Different contents have different texts. -/
theorem base64_injective (b c : List Nat) (hb : ∀ x ∈ b, x < 256) (hc : ∀ x ∈ c, x < 256)
    (h : b64encode b = b64encode c) : b = c := by
  have := base64_round_trip b hb
  rw [h, base64_round_trip c hc] at this
  exact (Option.some.inj this).symm

/-- The text only has characters that JSON writes unescaped, and its length is known. -/
theorem base64_text (b : List Nat) (h : ∀ x ∈ b, x < 256) :
    (∀ c ∈ b64encode b, c ∈ b64Alphabet ∨ c = '=') ∧
    (b64encode b).length = 4 * ((b.length + 2) / 3) := ⟨b64_chars b h, b64_length b⟩

example : ∀ x ∈ [0, 255, 17, 128], x < 256 := by decide
example : b64encode [77, 97, 110, 0] = "TWFuAA==".toList := by decide

end Verif
