import Verif.Spec.Download
/-
Lemmas on the cache of assets.
-/

namespace Verif

theorem findSub_isSome (s : List Char) : ∀ l : List Char, (findSub s l).isSome = true ↔ s <:+: l := by
  intro l
  induction l with
  | nil => simp [findSub]
  | cons c cs ih =>
    simp only [findSub]
    by_cases h : s.isPrefixOf (c :: cs) = true
    · simp only [h, if_true, Option.isSome_some, true_iff]
      exact (List.isPrefixOf_iff_prefix.1 h).isInfix
    · simp only [h, Bool.false_eq_true, if_false, Option.isSome_map, ih]
      rw [List.infix_cons_iff]
      constructor
      · exact Or.inr
      · rintro (h' | h')
        · exact absurd (List.isPrefixOf_iff_prefix.2 h') h
        · exact h'

theorem isLfsPointer_iff (decode : Bytes → List Char) (b : Bytes) :
    isLfsPointer decode b = true ↔ IsPointerText (decode b) := by
  simp only [isLfsPointer, Bool.and_eq_true, findSub_isSome, IsPointerText,
    List.isPrefixOf_iff_prefix]

theorem asset_eq (decode : Bytes → List Char) (r : Remote) :
    r.asset decode = if isLfsPointer decode r.raw then r.media else r.raw := by
  unfold Remote.asset
  by_cases h : isLfsPointer decode r.raw = true
  · rw [if_pos h, if_pos ((isLfsPointer_iff _ _).1 h)]
  · rw [if_neg h, if_neg (fun h' => h ((isLfsPointer_iff _ _).2 h'))]

end Verif
