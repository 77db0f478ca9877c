import Verif.Spec.Regress
import Mathlib.Data.List.Infix
/-
Names of output files and the output folder.
-/

namespace Verif

variable {Img : Type}

theorem baseName_folder (folder b : List Char) (h : '/' ∉ b) : baseName (folder ++ '/' :: b) = b := by
  have hb : ∀ x ∈ b.reverse, (fun x => decide (x ≠ '/')) x = true := by
    intro x hx
    have : x ≠ '/' := fun e => h (by simpa [e] using hx)
    simpa using this
  simp only [baseName, List.reverse_append, List.reverse_cons, List.append_assoc]
  rw [List.takeWhile_append_of_pos hb]
  simp

theorem removePy_cons {c : Char} {rest : List Char} (h : ¬ ".py".toList <+: c :: rest) :
    removePy (c :: rest) = c :: removePy rest := by
  rw [removePy]
  rintro rest' rfl rfl
  exact h ⟨_, rfl⟩

/-- A title without `.py` is what is left of the name of its script. -/
theorem removePy_script : ∀ t : List Char, ¬ ".py".toList <:+: t → removePy (t ++ ".py".toList) = t
  | [], _ => by decide
  | c :: t, h => by
    have ht : ¬ ".py".toList <:+: t := fun hi => h (hi.trans (List.infix_cons (List.infix_refl t)))
    have hp : ¬ ".py".toList <+: c :: (t ++ ".py".toList) := by
      intro hp
      have e : (".py".toList : List Char) = ['.', 'p', 'y'] := rfl
      rw [e] at hp h
      match t, hp, h with
      | [], hp, _ => simp at hp
      | [x], hp, _ => simp at hp
      | x :: y :: t, hp, h =>
        have : c = '.' ∧ x = 'p' ∧ y = 'y' := by simpa [eq_comm] using hp
        obtain ⟨rfl, rfl, rfl⟩ := this
        exact h (List.prefix_append _ _).isInfix
    rw [List.cons_append, removePy_cons hp, removePy_script t ht]

theorem removePy_append (t : List Char) : (removePy (t ++ ".py".toList)).length ≤ t.length ∧
    (".py".toList <:+: t → (removePy (t ++ ".py".toList)).length < t.length) := by
  have key : ∀ n, ∀ t : List Char, t.length = n →
      (removePy (t ++ ".py".toList)).length ≤ t.length ∧
      (".py".toList <:+: t → (removePy (t ++ ".py".toList)).length < t.length) := by
    intro n
    induction n using Nat.strong_induction_on with
    | _ n ih =>
      intro t hn
      match t with
      | [] => exact ⟨by decide, fun h => by simp at h⟩
      | c :: rest =>
        by_cases h : ".py".toList <+: c :: rest
        · obtain ⟨r, hr⟩ := h
          have e : c :: rest = '.' :: 'p' :: 'y' :: r := hr.symm
          have hl := congrArg List.length e
          simp only [List.length_cons] at hl hn
          have := (ih r.length (by omega) r rfl).1
          rw [e]
          have e2 : removePy ('.' :: 'p' :: 'y' :: r ++ ".py".toList) = removePy (r ++ ".py".toList) := by
            simp only [List.cons_append]
            rw [removePy]
          rw [e2]
          simp only [List.length_cons]
          exact ⟨by omega, fun _ => by omega⟩
        · simp only [List.length_cons] at hn
          have hr := ih rest.length (by omega) rest rfl
          by_cases hi : ".py".toList <:+: c :: rest
          · have hi' : ".py".toList <:+: rest := by
              rcases List.infix_cons_iff.1 hi with hi | hi
              · exact absurd hi h
              · exact hi
            have hp : ¬ ".py".toList <+: c :: (rest ++ ".py".toList) := by
              intro hp
              have h3 : 3 ≤ rest.length := by simpa using hi'.length_le
              apply h
              refine List.prefix_of_prefix_length_le hp (l₂ := c :: rest) ?_ (by simp; omega)
              exact ⟨".py".toList, by simp⟩
            rw [List.cons_append, removePy_cons hp]
            simp only [List.length_cons]
            have := hr.2 hi'
            exact ⟨by omega, fun _ => by omega⟩
          · rw [removePy_script _ hi]
            exact ⟨le_refl _, fun hi' => absurd hi' hi⟩
  exact key t.length t rfl

/-- What a folder holds after several examples have written their files. -/
theorem foldl_putFile_other (nm : String → String) (w : String → Option (OutFile Img)) (n : String) :
    ∀ (l : List String) (out : String → Option (OutFile Img)), (∀ b ∈ l, nm b ≠ n) →
      l.foldl (fun out b => putFile out (nm b) (w b)) out n = out n
  | [], _, _ => rfl
  | b :: l, out, h => by
    rw [List.foldl_cons, foldl_putFile_other nm w n l _ (fun x hx => h x (by simp [hx]))]
    cases w b with
    | none => rfl
    | some f =>
      have : n ≠ nm b := fun e => h b (by simp) e.symm
      simp [putFile, this]

theorem foldl_putFile_own (nm : String → String) (w : String → Option (OutFile Img)) :
    ∀ (l : List String) (out : String → Option (OutFile Img)) (b : String), b ∈ l →
      (∀ x ∈ l, nm x = nm b → x = b) →
      l.foldl (fun out b => putFile out (nm b) (w b)) out (nm b) = (w b).or (out (nm b))
  | [], _, _, h, _ => by simp at h
  | x :: l, out, b, h, hi => by
    rw [List.foldl_cons]
    by_cases hb : b ∈ l
    · rw [foldl_putFile_own nm w l _ b hb (fun y hy => hi y (by simp [hy]))]
      by_cases hx : x = b
      · subst hx
        cases w x <;> simp [putFile]
      · have : nm b ≠ nm x := fun e => hx (hi x (by simp) e.symm)
        cases w x <;> simp [putFile, this]
    · have hx : b = x := by simpa [hb] using h
      subst hx
      rw [foldl_putFile_other nm w (nm b) l _ (fun y hy e => hb (hi y (by simp [hy]) e ▸ hy))]
      cases w b <;> simp [putFile]

theorem mem_exampleScripts (titles : List String) (b : String) :
    b ∈ exampleScripts (titles.map (· ++ ".py")) ↔ ∃ t ∈ titles, t ++ ".py" = b := by
  rw [exampleScripts, (List.perm_insertionSort _ _).mem_iff, List.mem_filter, List.mem_map]
  constructor
  · exact fun h => h.1
  · rintro ⟨t, ht, rfl⟩
    refine ⟨⟨t, ht, rfl⟩, ?_⟩
    rw [List.isSuffixOf_iff_suffix]
    exact ⟨t.toList, by simp⟩

end Verif
