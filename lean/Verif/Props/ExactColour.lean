import Verif.Props.Visual
import Verif.Spec.ExactColour
import Mathlib.Logic.Equiv.Basic
/-
C29: exactly which colours are kept whatever the depths.
-/

namespace Verif

/-- Different shapes: the elements drawn are those meant just when each has its colour. -/
theorem drawn_perm_iff {n : Nat} {idx : List Nat} (hp : idx.Perm (List.range n)) (a : Attr) :
    (drawn idx (List.range n) a (.other 0) (.other 0) (.other 0)).Perm
        (meant (List.range n) a (.other 0) (.other 0) (.other 0)) ↔
      ∀ k i : Nat, idx[k]? = some i → colourAt (sortAttr n idx a) k = meantColour n a i := by
  have hlen : idx.length = n := by simpa using hp.length_eq
  have hlt := perm_range_lt hp
  have hshape : ∀ k : Nat, (permute idx (List.range n))[k]? = idx[k]? := by
    intro k
    rw [permute_getElem? (by simpa using hlt)]
    cases h : idx[k]? with
    | none => rfl
    | some i =>
      have := hlt i (List.mem_of_getElem? h)
      simp [List.getElem?_range this]
  constructor
  · intro h k i hk
    have hkn : k < n := by rw [← hlen]; exact (List.getElem?_eq_some_iff.1 hk).1
    have hin : i < n := hlt i (List.mem_of_getElem? hk)
    have hmem : (⟨some i, colourAt (sortAttr n idx a) k, some [0], some 0, some (.other 0)⟩ : Elem Nat) ∈
        drawn idx (List.range n) a (.other 0) (.other 0) (.other 0) := by
      unfold drawn
      simp only [List.length_range, List.mem_map, List.mem_range]
      refine ⟨k, hkn, ?_⟩
      rw [hshape, hk]
      simp [sortAttr, sortSizes, colourAt, widthAt, hkn]
    have := h.mem_iff.1 hmem
    unfold meant at this
    simp only [List.length_range, List.mem_map, List.mem_range] at this
    obtain ⟨j, hj, he⟩ := this
    injection he with h1 h2
    rw [List.getElem?_range hj] at h1
    injection h1 with h1
    subst h1
    exact h2.symm
  · intro h
    have heq : drawn idx (List.range n) a (.other 0) (.other 0) (.other 0) =
        idx.map (fun i => ⟨(List.range n)[i]?, meantColour n a i, meantColour n (.other 0) i,
          meantWidth n (.other 0) i, meantSize n (.other 0) i⟩) := by
      apply List.ext_getElem?
      intro k
      unfold drawn
      simp only [List.length_range]
      rw [List.getElem?_map, List.getElem?_map]
      by_cases hk : k < n
      · have hi : idx[k]? = some (idx[k]'(by omega)) := List.getElem?_eq_getElem (by omega)
        have hin := hlt _ (List.mem_of_getElem? hi)
        rw [List.getElem?_range hk, hi, Option.map_some, Option.map_some, hshape, h k _ hi, hi,
          List.getElem?_range hin]
        simp [sortAttr, sortSizes, colourAt, widthAt, hk, meantColour, meantWidth, meantSize]
      · rw [List.getElem?_eq_none (by simpa using hk), List.getElem?_eq_none (by omega)]
        rfl
    rw [heq]
    unfold meant
    simp only [List.length_range]
    exact hp.map _

/-- Keys that are sorted by the exchange of two places. -/
theorem argsort_swap (n i j : Nat) (hi : i < n) (hj : j < n) :
    IsArgsort ((List.range n).map (fun k => ((Equiv.swap i j k : Nat) : ℚ)))
      ((List.range n).map (Equiv.swap i j)) := by
  have hlt : ∀ k < n, Equiv.swap i j k < n := by
    intro k hk
    rw [Equiv.swap_apply_def]
    split
    · exact hj
    · split
      · exact hi
      · exact hk
  constructor
  · rw [List.length_map, List.length_range, List.perm_ext_iff_of_nodup
      (List.Nodup.map (Equiv.swap i j).injective List.nodup_range) List.nodup_range]
    intro x
    rw [List.mem_map, List.mem_range]
    constructor
    · rintro ⟨k, hk, rfl⟩
      exact hlt k (List.mem_range.1 hk)
    · intro hx
      exact ⟨Equiv.swap i j x, List.mem_range.2 (hlt x hx), Equiv.swap_apply_self i j x⟩
  · have : permute ((List.range n).map (Equiv.swap i j))
        ((List.range n).map (fun k => ((Equiv.swap i j k : Nat) : ℚ))) =
        (List.range n).map (fun k : Nat => (k : ℚ)) := by
      apply List.ext_getElem?
      intro k
      rw [permute_getElem? (by
        intro x hx
        obtain ⟨k, hk, rfl⟩ := List.mem_map.1 hx
        simpa using hlt k (List.mem_range.1 hk))]
      rw [List.getElem?_map, List.getElem?_map]
      by_cases hk : k < n
      · rw [List.getElem?_range hk]
        simp [hlt k hk, Equiv.swap_apply_self]
      · rw [List.getElem?_eq_none (by simpa using hk)]
        rfl
    rw [this, List.pairwise_map]
    refine List.pairwise_lt_range.imp ?_
    intro a b hab
    exact_mod_cast hab.le

/-- **C29, exactly.** Every element is drawn with its own colour whatever the depths, just when the colours
are one per element, or all those used are the same (`SaysColours`). -/
theorem colours_kept_iff (n : Nat) (a : Attr) :
    (∀ keys idx, IsArgsort keys idx → keys.length = n →
      (drawn idx (List.range n) a (.other 0) (.other 0) (.other 0)).Perm
        (meant (List.range n) a (.other 0) (.other 0) (.other 0))) ↔ SaysColours n a := by
  constructor
  · intro h
    have hswap : ∀ i j, i < n → j < n → ∀ k, k < n →
        colourAt (sortAttr n ((List.range n).map (Equiv.swap i j)) a) k =
          meantColour n a (Equiv.swap i j k) := by
      intro i j hi hj k hk
      have hs := argsort_swap n i j hi hj
      have hp : ((List.range n).map (Equiv.swap i j)).Perm (List.range n) := by simpa using hs.1
      refine (drawn_perm_iff hp a).1 (h _ _ hs (by simp)) k _ ?_
      rw [List.getElem?_map, List.getElem?_range hk]
      rfl
    cases a with
    | other x => trivial
    | items xs =>
      by_cases hl : xs.length = n
      · exact .inl hl
      · right
        intro k hk
        have := hswap k k hk hk k hk
        simpa only [sortAttr, if_neg hl, colourAt, meantColour] using this
    | flat xs =>
      by_cases hl : xs.length = n
      · right
        intro x hx y hy
        obtain ⟨i, hi, rfl⟩ := List.mem_iff_getElem.1 hx
        obtain ⟨j, hj, rfl⟩ := List.mem_iff_getElem.1 hy
        have := hswap i j (by omega) (by omega) i (by omega)
        simp only [sortAttr, if_pos hl, colourAt, meantColour, Option.some.injEq] at this
        have h2 := congrArg (fun l => l[i]?) this
        rw [permute_getElem? (by
          intro x hx
          obtain ⟨k, hk, rfl⟩ := List.mem_map.1 hx
          rw [Equiv.swap_apply_def]
          have := List.mem_range.1 hk
          split
          · omega
          · split <;> omega)] at h2
        rw [List.getElem?_map, List.getElem?_range (by omega), Option.map_some, Option.bind_some,
          Equiv.swap_apply_left, List.getElem?_eq_getElem hj, List.getElem?_eq_getElem hi] at h2
        exact (Option.some.inj h2).symm
      · exact .inl hl
  · intro h keys idx hs hk
    have hp : idx.Perm (List.range n) := hk ▸ hs.1
    have hlt := perm_range_lt hp
    have hlen : idx.length = n := by simpa using hp.length_eq
    rw [drawn_perm_iff hp]
    intro k i hi
    have hkn : k < n := by rw [← hlen]; exact (List.getElem?_eq_some_iff.1 hi).1
    cases a with
    | other x => rfl
    | items xs =>
      by_cases hl : xs.length = n
      · exact colourAt_sortAttr (a := .items xs) hp (by simpa [FitsColour] using Or.inl hl) hi
      · rcases h with h | h
        · exact absurd h hl
        · simpa only [sortAttr, if_neg hl, colourAt, meantColour] using h k hkn
    | flat xs =>
      rcases h with h | h
      · exact colourAt_sortAttr (a := .flat xs) hp h hi
      · by_cases hl : xs.length = n
        · simp only [sortAttr, if_pos hl, colourAt, meantColour, Option.some.injEq]
          apply List.ext_getElem (by rw [permute_length (by rw [hl]; exact hlt)]; omega)
          intro m h1 h2
          apply h _ ?_ _ (List.getElem_mem _)
          have := List.getElem_mem h1
          unfold permute at this
          obtain ⟨b, _, hb⟩ := List.mem_filterMap.1 this
          exact List.mem_of_getElem? hb
        · exact colourAt_sortAttr (a := .flat xs) hp hl hi

/-- Two colours for four points say nothing for sure; grey with four components does for four points. -/
example : ¬ SaysColours 4 (.items [[1], [0]]) ∧ SaysColours 4 (.items [[1], [1]]) ∧
    ¬ SaysColours 4 (.flat [1, 0, 0, 1]) ∧ SaysColours 4 (.flat [1, 1, 1, 1]) ∧
    SaysColours 3 (.flat [1, 0, 0, 1]) := by
  refine ⟨?_, ?_, ?_, ?_, ?_⟩
  · rintro (h | h)
    · exact absurd h (by decide)
    · exact absurd (h 1 (by decide)) (by decide)
  · right; decide
  · rintro (h | h)
    · exact absurd rfl h
    · exact absurd (h 1 (by simp) 0 (by simp)) (by norm_num)
  · right
    simp
  · left
    decide

end Verif
