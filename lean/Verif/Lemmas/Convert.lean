import Verif.Spec.Convert
import Verif.Lemmas.Py

namespace Verif

theorem registerLoop_get (srcs : List String) (dst : String) (f : Nat) : ∀ (cs : ConvTable)
    (m : ConvMap), (∀ k, dget cs k = m k) →
    ∀ k, dget (registerLoop cs srcs dst f).1 k = m.register srcs dst f k := by
  induction srcs with
  | nil => intro cs m h; exact h
  | cons s ss ih =>
    intro cs m h
    unfold registerLoop ConvMap.register
    have hs := h (s, dst)
    by_cases hm : m (s, dst) = none
    · have : dhas cs (s, dst) = false := by simp [dhas, hs, hm]
      simp only [this, Bool.false_eq_true, if_false, if_pos hm]
      apply ih
      intro k
      rw [dget_dset]
      by_cases hk : (s, dst) = k
      · simp [hk]
      · simp [hk, Ne.symm hk, h k]
    · obtain ⟨g, hg⟩ := Option.ne_none_iff_exists'.1 hm
      have : dhas cs (s, dst) = true := by simp [dhas, hs, hg]
      simp only [this, if_true, if_neg hm]
      exact h

theorem unregisterLoop_get (srcs : List String) (dst : String) : ∀ (cs : ConvTable) k,
    dget (unregisterLoop cs srcs dst) k =
      if k.1 ∈ srcs ∧ k.2 = dst then none else dget cs k := by
  induction srcs with
  | nil => intro cs k; simp [unregisterLoop]
  | cons s ss ih =>
    intro cs k
    have : unregisterLoop cs (s :: ss) dst = unregisterLoop
        (if dhas cs (s, dst) then ddel cs (s, dst) else cs) ss dst := rfl
    rw [this, ih]
    by_cases h1 : k.1 ∈ ss ∧ k.2 = dst
    · simp [h1]
    · rw [if_neg h1]
      have hd : dget (if dhas cs (s, dst) then ddel cs (s, dst) else cs) k =
          if k = (s, dst) then none else dget cs k := by
        cases hh : dhas cs (s, dst) with
        | true =>
          simp only [if_true, dget_ddel, eq_comm]
        | false =>
          simp only [Bool.false_eq_true, if_false]
          by_cases hk : k = (s, dst)
          · simp only [hk, if_true]
            simpa [dhas] using hh
          · simp [hk]
      rw [hd]
      obtain ⟨a, b⟩ := k
      simp only [Prod.mk.injEq, List.mem_cons] at h1 ⊢
      by_cases ha : a = s ∧ b = dst
      · simp [ha]
      · rw [if_neg ha, if_neg]
        rintro ⟨h2 | h2, h3⟩
        · exact ha ⟨h2, h3⟩
        · exact h1 ⟨h2, h3⟩

end Verif
