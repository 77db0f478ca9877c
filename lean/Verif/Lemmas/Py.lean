import Verif.Model.Py
/-! Lemmas on dictionaries and strings. -/

namespace Verif

section dict
variable {κ ν : Type} [DecidableEq κ]

@[simp] theorem dget_nil (k : κ) : dget ([] : Dict κ ν) k = none := rfl

theorem dget_dset (d : Dict κ ν) (k k' : κ) (v : ν) :
    dget (dset d k v) k' = if k = k' then some v else dget d k' := by
  induction d with
  | nil => simp [dset, dget]
  | cons p d ih =>
    obtain ⟨a, b⟩ := p
    by_cases h : a = k
    · subst h
      simp only [dset, if_true, dget]
      split <;> rfl
    · simp only [dset, if_neg h, dget, ih]
      by_cases h' : a = k'
      · subst h'; simp [Ne.symm h]
      · simp [h']

@[simp] theorem dget_dset_self (d : Dict κ ν) (k : κ) (v : ν) :
    dget (dset d k v) k = some v := by simp [dget_dset]

theorem dget_dset_ne (d : Dict κ ν) {k k' : κ} (v : ν) (h : k ≠ k') :
    dget (dset d k v) k' = dget d k' := by simp [dget_dset, h]

theorem dget_ddel (d : Dict κ ν) (k k' : κ) :
    dget (ddel d k) k' = if k = k' then none else dget d k' := by
  induction d with
  | nil => simp [ddel]
  | cons p d ih =>
    obtain ⟨a, b⟩ := p
    simp only [ddel] at ih
    by_cases h : a = k
    · subst h
      simp only [ddel, ne_eq, not_true, decide_false, List.filter_cons, Bool.false_eq_true,
        if_false, dget]
      rw [ih]
      split <;> simp_all
    · simp only [ddel, ne_eq, h, not_false_eq_true, decide_true, List.filter_cons, if_true, dget]
      rw [ih]
      by_cases h' : a = k'
      · subst h'; simp [Ne.symm h]
      · simp [h']

theorem dhas_iff (d : Dict κ ν) (k : κ) : dhas d k = true ↔ ∃ v, dget d k = some v := by
  simp [dhas, Option.isSome_iff_exists]

theorem dhas_false_iff (d : Dict κ ν) (k : κ) : dhas d k = false ↔ dget d k = none := by
  simp [dhas]

theorem mem_dkeys (d : Dict κ ν) (k : κ) : k ∈ dkeys d ↔ ∃ v, dget d k = some v := by
  induction d with
  | nil => simp [dkeys]
  | cons p d ih =>
    obtain ⟨a, b⟩ := p
    simp only [dkeys] at ih
    by_cases h : a = k
    · subst h; simp [dkeys, dget]
    · simp [dkeys, dget, h, Ne.symm h, ih]

theorem dkeys_dset (d : Dict κ ν) (k : κ) (v : ν) :
    dkeys (dset d k v) = if dhas d k then dkeys d else dkeys d ++ [k] := by
  induction d with
  | nil => simp [dkeys, dset, dhas]
  | cons p d ih =>
    obtain ⟨a, b⟩ := p
    simp only [dkeys] at ih
    by_cases h : a = k
    · subst h; simp [dset, dkeys, dhas, dget]
    · simp only [dset, if_neg h, dkeys, List.map_cons, ih, dhas, dget]
      split <;> simp_all

theorem dset_of_not_mem (d : Dict κ ν) (k : κ) (v : ν) (h : dget d k = none) :
    dset d k v = d ++ [(k, v)] := by
  induction d with
  | nil => rfl
  | cons p d ih =>
    obtain ⟨a, b⟩ := p
    by_cases h' : a = k
    · subst h'; simp [dget] at h
    · simp only [dget, if_neg h'] at h
      simp [dset, h', ih h]

theorem nodup_dkeys_dset (d : Dict κ ν) (k : κ) (v : ν) (h : (dkeys d).Nodup) :
    (dkeys (dset d k v)).Nodup := by
  rw [dkeys_dset]
  split
  · exact h
  · rename_i hk
    rw [List.nodup_append]
    refine ⟨h, by simp, ?_⟩
    intro a ha b hb
    simp only [List.mem_singleton] at hb
    subst hb
    intro hab
    subst hab
    obtain ⟨v, hv⟩ := (mem_dkeys _ _).1 ha
    simp [dhas, hv] at hk

theorem nodup_dkeys_ddel (d : Dict κ ν) (k : κ) (h : (dkeys d).Nodup) :
    (dkeys (ddel d k)).Nodup := by
  unfold dkeys ddel at *
  exact List.Nodup.sublist (List.Sublist.map _ List.filter_sublist) h

theorem dget_mem {d : Dict κ ν} {k : κ} {v : ν} (h : dget d k = some v) : (k, v) ∈ d := by
  induction d with
  | nil => simp at h
  | cons p d ih =>
    obtain ⟨a, b⟩ := p
    by_cases h' : a = k
    · subst h'; simp [dget] at h; simp [h]
    · simp only [dget, if_neg h'] at h
      exact List.mem_cons_of_mem _ (ih h)

theorem dget_of_mem_nodup {d : Dict κ ν} (hn : (dkeys d).Nodup) {k : κ} {v : ν}
    (h : (k, v) ∈ d) : dget d k = some v := by
  induction d with
  | nil => simp at h
  | cons p d ih =>
    obtain ⟨a, b⟩ := p
    simp only [dkeys, List.map_cons, List.nodup_cons] at hn
    rcases List.mem_cons.1 h with h | h
    · cases h; simp [dget]
    · have : a ≠ k := by
        rintro rfl
        exact hn.1 (List.mem_map_of_mem (f := Prod.fst) h)
      simp only [dget, if_neg this]
      exact ih hn.2 h

theorem dget_append (d e : Dict κ ν) (k : κ) :
    dget (d ++ e) k = (dget d k).or (dget e k) := by
  induction d with
  | nil => simp
  | cons p d ih =>
    obtain ⟨a, b⟩ := p
    by_cases h : a = k <;> simp [dget, h, ih]

end dict

/-! ### Strings -/

theorem splitChars_ne_nil (c : Char) (s : List Char) : splitChars c s ≠ [] := by
  cases s with
  | nil => simp [splitChars]
  | cons a s =>
    simp only [splitChars]
    split
    · simp
    · split <;> simp

theorem splitChars_of_not_mem {c : Char} {s : List Char} (h : c ∉ s) :
    splitChars c s = [s] := by
  induction s with
  | nil => rfl
  | cons a s ih =>
    simp only [List.mem_cons, not_or] at h
    simp [splitChars, Ne.symm h.1, ih h.2]

theorem splitChars_append {c : Char} {s : List Char} (h : c ∉ s) (t : List Char) :
    splitChars c (s ++ c :: t) = s :: splitChars c t := by
  induction s with
  | nil => simp [splitChars]
  | cons a s ih =>
    simp only [List.mem_cons, not_or] at h
    simp [splitChars, Ne.symm h.1, ih h.2]

theorem length_splitChars (c : Char) (s : List Char) :
    (splitChars c s).length = s.count c + 1 := by
  induction s with
  | nil => rfl
  | cons a s ih =>
    by_cases h : a = c
    · subst h; simp [splitChars, ih]
    · simp only [splitChars, if_neg h]
      rw [List.count_cons_of_ne h]
      split
      · rename_i hs; exact absurd hs (splitChars_ne_nil _ _)
      · rename_i hs; rw [hs] at ih; simpa using ih

/-- `c.join(words)` on character lists. -/
theorem splitChars_intercalate {c : Char} (ws : List (List Char)) (hne : ws ≠ [])
    (h : ∀ w ∈ ws, c ∉ w) : splitChars c (List.intercalate [c] ws) = ws := by
  induction ws with
  | nil => exact absurd rfl hne
  | cons w ws ih =>
    cases ws with
    | nil => simpa [List.intercalate] using splitChars_of_not_mem (h w (by simp))
    | cons w' ws =>
      have h1 : List.intercalate [c] (w :: w' :: ws)
          = w ++ c :: List.intercalate [c] (w' :: ws) := by
        simp [List.intercalate, List.intersperse]
      rw [h1, splitChars_append (h w (by simp)), ih (by simp)]
      intro x hx
      exact h x (List.mem_cons_of_mem _ hx)

@[simp] theorem endsWithId_append (k : String) : endsWithId (k ++ "(id)") = true := by
  simp [endsWithId, List.isSuffixOf_iff_suffix]

@[simp] theorem dropId_append (k : String) : dropId (k ++ "(id)") = k := by
  simp [dropId]

theorem append_id_inj {k k' : String} (h : k ++ "(id)" = k' ++ "(id)") : k = k' := by
  have := congrArg dropId h
  simpa using this

theorem not_endsWithId_ne {k k' : String} (h : endsWithId k = false) : k' ++ "(id)" ≠ k := by
  rintro rfl
  simp at h

end Verif
