import Verif.Spec.Session
import Verif.Lemmas.Session
/-! Invariants behind C01 and C02. -/

namespace Verif

/-- The ids minted so far are 1, 2, ..., n, in order of construction. -/
def Minted (w : World) : Prop :=
  w.oidCounter = w.heap.length ∧
  w.heap.map Obj.born = (List.range w.heap.length).map (fun i : Nat => (i : Int) + 1)

theorem map_born_set (l : List Obj) (r : Nat) (o o' : Obj) (h : l[r]? = some o)
    (hb : o'.born = o.born) : (l.set r o').map Obj.born = l.map Obj.born := by
  apply List.ext_getElem?
  intro i
  simp only [List.getElem?_map, List.getElem?_set]
  by_cases hi : r = i
  · subst hi
    rw [h]
    have : r < l.length := by
      rcases List.getElem?_eq_some_iff.1 h with ⟨hl, _⟩; exact hl
    simp [this, hb]
  · simp [hi]

theorem Minted.setId {w : World} (r : Nat) (id : Int) (h : Minted w) :
    Minted (setId w r id) := by
  unfold Verif.setId
  split
  · exact h
  · rename_i o ho
    obtain ⟨h1, h2⟩ := h
    exact ⟨by simpa using h1, by
      simp only [List.length_set]
      exact Eq.trans (map_born_set _ _ o _ ho (by rfl)) h2⟩

theorem Minted.getQueue {w : World} (n) (h : Minted w) : Minted (getQueue w n).1 := by
  unfold Verif.getQueue Verif.getQueue.activeOrNew
  obtain ⟨h1, h2⟩ := h
  split
  · split <;> exact ⟨h1, h2⟩
  · split
    · split <;> exact ⟨h1, h2⟩
    · split <;> exact ⟨h1, h2⟩

theorem minted_closed : StepClosed Minted where
  newObj := by
    rintro w cls ⟨h1, h2⟩
    refine ⟨by simp [newObject, h1], ?_⟩
    simp only [newObject, List.map_append, h2, List.map_cons, List.map_nil, List.length_append,
      List.length_cons, List.length_nil, List.range_succ, Nat.zero_add, h1]
    rw [Int.add_comm]
  log := by
    rintro w r m b h
    unfold logCall
    split
    · exact h
    · rename_i o ho
      obtain ⟨h1, h2⟩ := h
      exact ⟨by simpa using h1, by
        simp only [List.length_set]
        exact Eq.trans (map_born_set _ _ o _ ho (by rfl)) h2⟩
  getq := fun w h => h.getQueue none
  push := fun w q u cls meth ps h _ _ _ => h
  replay := fun w r oid h _ => h.setId r oid
  queue := fun w n h => h.getQueue n
  empty := fun w q h => h
  readonly := fun w q b h => h
  record := fun w b h => h
  objRecord := fun w b h => h
  setId := fun w r id h => h.setId r id
  reset := fun w h => h
  conv := fun w cs h => h

/-- A history with a failing constructor, an id assignment and a replay. -/
def IdIsBorn (w : World) : Prop := ∀ o ∈ w.heap, o.id = o.born

theorem idIsBorn_closed : CallClosed IdIsBorn where
  newObj := by
    intro w cls h o ho
    simp only [newObject, List.mem_append, List.mem_singleton] at ho
    rcases ho with ho | ho
    · exact h o ho
    · subst ho; rfl
  log := by
    intro w r m b h
    unfold logCall
    split
    · exact h
    · rename_i o ho
      intro x hx
      rcases List.mem_or_eq_of_mem_set hx with hx | hx
      · exact h x hx
      · subst hx
        exact h o (List.mem_of_getElem? ho)
  getq := by
    intro w h o ho
    rw [getQueue_none_heap] at ho
    exact h o ho
  push := fun w q u cls meth ps h _ _ _ => h

/-- C01. As long as ids are not assigned (by hand or by a replay), all objects of the
session have pairwise distinct ids. -/
theorem RegistryCoherent.setId {w : World} (r : Nat) (id : Int)
    (h : RegistryCoherent w) : RegistryCoherent (setId w r id) := by
  unfold Verif.setId
  split
  · exact h
  · rename_i o ho
    have hr : r < w.heap.length := (List.getElem?_eq_some_iff.1 ho).1
    intro k r' hk
    dsimp only at hk
    by_cases hreg : dhas w.objects o.id = true
    · rw [if_pos hreg, dget_dset] at hk
      split at hk
      · rename_i hk'
        cases hk
        exact ⟨{ o with id := id }, by simp [hr], hk'⟩
      · rw [dget_ddel] at hk
        split at hk
        · simp at hk
        · obtain ⟨o', ho', hid⟩ := h k r' hk
          have hne : r ≠ r' := by
            rintro rfl
            rw [ho] at ho'
            cases ho'
            contradiction
          exact ⟨o', by simp [hne, ho'], hid⟩
    · rw [if_neg hreg] at hk
      obtain ⟨o', ho', hid⟩ := h k r' hk
      have hne : r ≠ r' := by
        rintro rfl
        rw [ho] at ho'
        cases ho'
        rw [dhas_iff] at hreg
        exact hreg ⟨r, by rw [hid]; exact hk⟩
      exact ⟨o', by simp [hne, ho'], hid⟩

theorem RegistryCoherent.getQueue {w : World} (n) (h : RegistryCoherent w) :
    RegistryCoherent (getQueue w n).1 := by
  unfold Verif.getQueue Verif.getQueue.activeOrNew
  split
  · split <;> exact h
  · split
    · split <;> exact h
    · split <;> exact h

theorem coherent_closed : StepClosed (fun w => RegistryCoherent w) where
  newObj := by
    intro w cls h k r hk
    simp only [newObject] at hk ⊢
    split at hk
    · rw [dget_dset] at hk
      split at hk
      · rename_i heq
        cases hk
        exact ⟨{ id := 1 + w.oidCounter, cls := cls, log := [], born := 1 + w.oidCounter },
          by simp, heq⟩
      · obtain ⟨o, ho, hid⟩ := h k r hk
        exact ⟨o, by
          rw [List.getElem?_append_left (List.getElem?_eq_some_iff.1 ho).1]; exact ho, hid⟩
    · obtain ⟨o, ho, hid⟩ := h k r hk
      exact ⟨o, by
        rw [List.getElem?_append_left (List.getElem?_eq_some_iff.1 ho).1]; exact ho, hid⟩
  log := by
    intro w r m b h
    unfold logCall
    split
    · exact h
    · rename_i o ho
      have hr : r < w.heap.length := (List.getElem?_eq_some_iff.1 ho).1
      intro k r' hk
      obtain ⟨o', ho', hid⟩ := h k r' hk
      by_cases hrr : r = r'
      · subst hrr
        rw [ho] at ho'
        cases ho'
        exact ⟨{ o with log := o.log ++ [(m, b)] }, by simp [hr], hid⟩
      · exact ⟨o', by simp [hrr, ho'], hid⟩
  getq := fun w h => h.getQueue none
  push := fun w q u cls meth ps h _ _ _ => h
  replay := by
    intro w r oid h hr
    have h' := h.setId r oid
    intro k r' hk
    dsimp only at hk
    rw [dget_dset] at hk
    split at hk
    · rename_i heq
      cases hk
      refine ⟨{ w.heap[r] with id := oid }, ?_, heq⟩
      have : w.heap[r]? = some w.heap[r] := List.getElem?_eq_getElem hr
      simp only [Verif.setId, this]
      simp [hr]
    · exact h' k r' hk
  queue := fun w n h => h.getQueue n
  empty := fun w q h => h
  readonly := fun w q b h => h
  record := fun w b h => h
  objRecord := fun w b h => h
  setId := fun w r id h => h.setId r id
  reset := by intro w h k r hk; simp at hk
  conv := fun w cs h => h

/-- Every object of the session can be found under its id. -/
def AllRegistered (w : World) : Prop :=
  Minted w ∧ IdIsBorn w ∧ w.objRecord = true ∧
  ∀ i o, w.heap[i]? = some o → dget w.objects o.id = some i

theorem idIsBorn_index {w : World} (hm : Minted w) (hb : IdIsBorn w) {i : Nat} {o : Obj}
    (ho : w.heap[i]? = some o) : o.id = (i : Int) + 1 := by
  have hi : i < w.heap.length := (List.getElem?_eq_some_iff.1 ho).1
  have := congrArg (fun l => l[i]?) hm.2
  simp only [List.getElem?_map, ho, Option.map_some, List.getElem?_range hi,
    Option.some.injEq] at this
  rw [hb o (List.mem_of_getElem? ho), this]

theorem allRegistered_closed : CallClosed AllRegistered where
  newObj := by
    rintro w cls ⟨hm, hb, hr, ha⟩
    refine ⟨minted_closed.newObj _ _ hm, idIsBorn_closed.newObj _ _ hb, hr, ?_⟩
    intro i o ho
    simp only [newObject, hr, if_true] at ho ⊢
    rw [dget_dset]
    by_cases hi : i < w.heap.length
    · rw [List.getElem?_append_left hi] at ho
      have h1 := idIsBorn_index hm hb ho
      have h2 := hm.1
      rw [if_neg (by omega)]
      exact ha i o ho
    · rw [List.getElem?_append_right (by omega)] at ho
      have hi0 : i - w.heap.length = 0 := by
        rcases Nat.eq_zero_or_pos (i - w.heap.length) with h | h
        · exact h
        · rw [List.getElem?_eq_none (by simp; omega)] at ho
          simp at ho
      rw [hi0] at ho
      simp only [List.getElem?_cons_zero, Option.some.injEq] at ho
      subst ho
      have : i = w.heap.length := by omega
      have h2 := hm.1
      simp only [this, if_true]
  log := by
    rintro w r m b ⟨hm, hb, hr, ha⟩
    refine ⟨minted_closed.log _ _ _ _ hm, idIsBorn_closed.log _ _ _ _ hb, ?_, ?_⟩
    · unfold logCall; split <;> exact hr
    · unfold logCall
      split
      · exact ha
      · rename_i o ho
        intro i o' ho'
        dsimp only at ho' ⊢
        rw [List.getElem?_set] at ho'
        split at ho'
        · rename_i hri
          subst hri
          split at ho'
          · cases ho'
            exact ha r o ho
          · simp at ho'
        · exact ha i o' ho'
  getq := by
    rintro w ⟨hm, hb, hr, ha⟩
    refine ⟨minted_closed.getq _ hm, idIsBorn_closed.getq _ hb, ?_⟩
    unfold getQueue getQueue.activeOrNew
    cases w.active <;> exact ⟨hr, ha⟩
  push := fun w q u cls meth ps h _ _ _ => h


end Verif
