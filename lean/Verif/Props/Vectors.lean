import Verif.Spec.Vectors
import Verif.Props.Swizzle
import Verif.Lemmas.Py
/-! # C73: vectors and matrices are what their names say -/

namespace Verif

theorem glmNew_form (sub : List Nat) (t : NumType) (hs : 1 ∉ sub) (count : Count) :
    glmNew sub t count = if ∀ n ∈ count.dims, 0 ≤ n
      then .ok ⟨count.dims.map Int.toNat ++ sub, t⟩ else .error .valueError := by
  cases count with
  | none =>
    have : sub.filter (fun x => decide (x ≠ 1)) = sub := by
      rw [List.filter_eq_self]
      intro a ha
      simp only [decide_eq_true_eq]
      rintro rfl
      exact hs ha
    simp [glmNew, newArray, Count.dims, Except.map, ArrayType.squeeze]
    simpa using this
  | int n => rfl
  | tuple l => rfl

/-- C73. Every constructor gives, for every `count`, an array whose elements have the form and the
type its name means. Negative counts are refused. -/
theorem vectors_as_named (name : String) (hn : name ∈ glmConstructors.map Prod.fst) :
    ∃ form type, nameMeans name = some (form, type) ∧ ∀ count : Count,
      glmMake name count = if ∀ n ∈ count.dims, 0 ≤ n
        then .ok ⟨count.dims.map Int.toNat ++ form, type⟩ else .error .valueError := by
  have key : ∀ p ∈ glmConstructors, nameMeans p.1 = some p.2 ∧ dget glmConstructors p.1 = some p.2 ∧
      1 ∉ p.2.1 := by decide +kernel
  obtain ⟨p, hp, rfl⟩ := List.mem_map.1 hn
  obtain ⟨h1, h2, h3⟩ := key p hp
  refine ⟨p.2.1, p.2.2, h1, fun count => ?_⟩
  unfold glmMake
  rw [h2]
  exact glmNew_form _ _ h3 count

example : glmMake "vec3" (.int 10) = .ok ⟨[10, 3], ⟨'f', 4⟩⟩ ∧
    glmMake "dmat4" (.tuple [3, 3]) = .ok ⟨[3, 3, 4, 4], ⟨'f', 8⟩⟩ ∧
    glmMake "uvec2" .none = .ok ⟨[2], ⟨'u', 4⟩⟩ ∧ glmMake "float" .none = .ok ⟨[], ⟨'f', 4⟩⟩ ∧
    glmMake "hvec2" (.int (-1)) = .error .valueError := by decide +kernel

/-- C73. Every name built from a letter and a form is there. -/
theorem vectors_complete (name : String) (form : List Nat) (type : NumType)
    (h : nameMeans name = some (form, type)) : name ∈ glmConstructors.map Prod.fst := by
  unfold nameMeans at h
  split at h
  · subst_vars; decide
  split at h
  · subst_vars; decide
  split at h
  · subst_vars; decide
  have back : ∀ {l}, name.toList = l → name = String.ofList l := by
    intro l hl
    rw [← hl, String.ofList_toList]
  split at h
  · rename_i f hf
    unfold formOf at hf
    repeat' (split at hf)
    all_goals first
      | (rename_i he; rw [back he]; decide +kernel)
      | cases hf
  · split at h
    · cases h
    · rename_i c s hcs
      split at h
      · rename_i t f ht hf
        unfold typeLetter at ht
        unfold formOf at hf
        have hb := back hcs
        repeat' (split at ht)
        all_goals first
          | cases ht; done
          | (rename_i hc
             subst hc
             repeat' (split at hf)
             all_goals first
               | cases hf; done
               | (rename_i hs; subst hs; rw [hb]; decide +kernel))
      · cases h

theorem prodShape_append (a b : List Nat) : prodShape (a ++ b) = prodShape a * prodShape b := by
  induction a with
  | nil => simp [prodShape]
  | cons x a ih =>
    unfold prodShape at ih ⊢
    simp only [List.cons_append, List.foldr_cons, ih, Nat.mul_assoc]

/-- C73. The memory of the array is that of its elements: the number asked for, times the size of
one. -/
theorem vectors_memory (name : String) (count : Count) (a : ArrayType)
    (h : glmMake name count = .ok a) :
    ∃ form type, nameMeans name = some (form, type) ∧
      a.nbytes = count.number * (prodShape form * type.bytes) := by
  have hn : name ∈ glmConstructors.map Prod.fst := by
    unfold glmMake at h
    split at h
    · cases h
    · rename_i hd; exact List.mem_map.2 ⟨_, dget_mem hd, rfl⟩
  obtain ⟨form, type, h1, h2⟩ := vectors_as_named name hn
  refine ⟨form, type, h1, ?_⟩
  rw [h2] at h
  split at h
  · cases h
    unfold ArrayType.nbytes Count.number
    rw [prodShape_append, Nat.mul_assoc]
  · cases h

example : (glmMake "vec3" (.int 10)).toOption.map ArrayType.nbytes = some 120 := by decide +kernel

/-- C73 is false of the documentation: scalars have no dimension of their own, and `imat2` and
`umat2` are not made of bytes. -/
theorem vectors_documented_fails : ∀ d ∈ documentedOtherwise, ∀ n : Nat,
    ∃ a, glmMake d.1 (.int n) = .ok a ∧ a ≠ ⟨n :: d.2.1, d.2.2⟩ := by
  intro d hd n
  have key : ∀ d ∈ documentedOtherwise, ∃ p ∈ glmConstructors, p.1 = d.1 ∧ p.2 ≠ d.2 ∧
      dget glmConstructors p.1 = some p.2 := by decide +kernel
  obtain ⟨p, hp, h1, h2, h3⟩ := key d hd
  refine ⟨⟨n :: p.2.1, p.2.2⟩, ?_, ?_⟩
  · unfold glmMake
    rw [← h1, h3]
    simp [glmNew, newArray]
  · intro h
    apply h2
    simp only [ArrayType.mk.injEq, List.cons.injEq, true_and] at h
    exact Prod.ext h.1 h.2

/-! ### as_vec -/

/-- C73. `as_vecN` regroups the numbers without changing or moving any, when they divide, and raises
ValueError otherwise. -/
theorem as_vec_numbers {k : Nat} (hk : 0 < k) (v : VecIn) :
    (∀ rs, asVec k v = .ok rs → rs.flatten = v.numbers ∧ IsRows k rs) ∧
    ((∃ rs, asVec k v = .ok rs) ↔ k ∣ v.numbers.length) ∧
    (¬ k ∣ v.numbers.length → asVec k v = .error .valueError) := by
  unfold asVec
  by_cases h : v.numbers.length % k = 0
  · rw [if_pos h]
    have hd : k ∣ v.numbers.length := Nat.dvd_of_mod_eq_zero h
    obtain ⟨m, hm⟩ := hd
    have hg := flat_groups hk (xs := v.numbers) (m := m) (by rw [hm, Nat.mul_comm])
    refine ⟨?_, ⟨fun _ => ⟨m, hm⟩, fun _ => ⟨_, rfl⟩⟩, fun hn => absurd ⟨m, hm⟩ hn⟩
    rintro rs hrs
    cases hrs
    exact ⟨hg.1, hg.2.2⟩
  · rw [if_neg h]
    refine ⟨fun rs hrs => (nomatch hrs), ⟨?_, ?_⟩, fun _ => rfl⟩
    · rintro ⟨rs, hrs⟩; cases hrs
    · intro hd; exact absurd (Nat.mod_eq_zero_of_dvd hd) h

example : asVec 2 (.rows false 3 [[1, 2, 3], [4, 5, 6]]) = .ok [[1, 2], [3, 4], [5, 6]] ∧
    asVec 4 (.rows false 3 [[1, 2, 3], [4, 5, 6]]) = .error .valueError := by decide +kernel

/-- C73. On vectors of the right size `as_vecN` changes nothing. -/
theorem as_vec_same {k : Nat} (hk : 0 < k) (int : Bool) (rs : Rows) (h : IsRows k rs) :
    asVec k (.rows int k rs) = .ok rs := by
  have hlen : rs.flatten.length = rs.length * k := by
    clear hk
    induction rs with
    | nil => simp
    | cons r rs ih =>
      rw [List.flatten_cons, List.length_append, h r List.mem_cons_self,
        ih (fun x hx => h x (List.mem_cons_of_mem _ hx)), List.length_cons, Nat.succ_mul, Nat.add_comm]
  have hg := flat_groups hk hlen
  unfold asVec VecIn.numbers
  rw [if_pos (by rw [hlen]; exact Nat.mul_mod_left _ _)]
  congr 1
  have key : ∀ (a b : Rows), IsRows k a → IsRows k b → a.flatten = b.flatten → a = b := by
    intro a
    induction a with
    | nil =>
      intro b _ hb he
      cases b with
      | nil => rfl
      | cons r b =>
        have := congrArg List.length he
        have hr := hb r List.mem_cons_self
        simp only [List.flatten_nil, List.length_nil, List.flatten_cons, List.length_append] at this
        omega
    | cons r a ih =>
      intro b ha hb he
      cases b with
      | nil =>
        have := congrArg List.length he
        have hr := ha r List.mem_cons_self
        simp only [List.flatten_nil, List.length_nil, List.flatten_cons, List.length_append] at this
        omega
      | cons s b =>
        rw [List.flatten_cons, List.flatten_cons] at he
        have := List.append_inj he (by
          rw [ha r List.mem_cons_self, hb s List.mem_cons_self])
        rw [this.1, ih b (fun x hx => ha x (List.mem_cons_of_mem _ hx))
          (fun x hx => hb x (List.mem_cons_of_mem _ hx)) this.2]
  exact key _ _ hg.2.2 h hg.1

example : asVec 3 (.rows false 3 [[1, 2, 3], [4, 5, 6]]) = .ok [[1, 2, 3], [4, 5, 6]] := by
  decide +kernel

end Verif
