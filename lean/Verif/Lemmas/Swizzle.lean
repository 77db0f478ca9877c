import Verif.Spec.Swizzle
import Mathlib.Data.List.Induction
/-
Lemmas on swizzles.
-/

namespace Verif

theorem setCol_length {Z : Rows} {j : Nat} {col : List ℚ} (h : col.length = Z.length) :
    (setCol Z j col).length = Z.length := by simp [setCol, h]

theorem setCol_getElem? {Z : Rows} {j : Nat} {col : List ℚ} (h : col.length = Z.length) (i : Nat) :
    (setCol Z j col)[i]? = (Z[i]?).bind (fun r => (col[i]?).map (fun v => r.set j v)) := by
  unfold setCol
  rw [List.getElem?_zipWith]
  cases Z[i]? <;> cases col[i]? <;> rfl

/-- Writing columns one after the other. -/
theorem foldl_setCol_written (k : Nat) (Z : Rows) (hZ : IsRows k Z) (ps : List (Nat × List ℚ))
    (hn : (ps.map (·.1)).Nodup) (hk : ∀ p ∈ ps, p.1 < k) (hl : ∀ p ∈ ps, p.2.length = Z.length) :
    Written Z (ps.map (·.1)) (ps.map (·.2)) (ps.foldl (fun Z p => setCol Z p.1 p.2) Z) ∧
    IsRows k (ps.foldl (fun Z p => setCol Z p.1 p.2) Z) := by
  induction ps using List.reverseRecOn with
  | nil =>
    exact ⟨⟨rfl, fun i row h => ⟨row, h, rfl, fun p j c h1 => by simp at h1, fun _ _ => rfl⟩⟩, hZ⟩
  | append_singleton ps q ih =>
    rw [List.map_append, List.nodup_append] at hn
    obtain ⟨⟨hlen, hw⟩, hr⟩ := ih hn.1 (fun p hp => hk p (by simp [hp]))
      (fun p hp => hl p (by simp [hp]))
    rw [List.foldl_append, List.foldl_cons, List.foldl_nil]
    generalize ps.foldl (fun Z p => setCol Z p.1 p.2) Z = Y at *
    have hqk : q.1 < k := hk q (by simp)
    have hql : q.2.length = Y.length := by rw [hlen]; exact hl q (by simp)
    have hqn : q.1 ∉ ps.map (·.1) := fun hm => hn.2.2 q.1 hm q.1 (by simp) rfl
    refine ⟨⟨by rw [setCol_length hql, hlen], ?_⟩, ?_⟩
    · intro i row hrow
      obtain ⟨row', hy, hl', hc, ho⟩ := hw i row hrow
      have hi : i < q.2.length := by
        rw [hql]; exact (List.getElem?_eq_some_iff.1 hy).1
      have hrk : row'.length = k := hr row' (List.mem_of_getElem? hy)
      refine ⟨row'.set q.1 q.2[i], ?_, by simp [hl'], ?_, ?_⟩
      · rw [setCol_getElem? hql, hy, List.getElem?_eq_getElem hi]; rfl
      · intro p j c hp hpc
        rw [List.map_append] at hp hpc
        by_cases hplt : p < ps.length
        · rw [List.getElem?_append_left (by simpa using hplt)] at hp hpc
          have hj : j ≠ q.1 := fun he => hqn (he ▸ List.mem_of_getElem? hp)
          rw [List.getElem?_set_ne (fun h => hj h.symm)]
          exact hc p j c hp hpc
        · have hpe : p = ps.length := by
            have := (List.getElem?_eq_some_iff.1 hp).1
            simp at this; omega
          subst hpe
          rw [List.getElem?_append_right (by simp)] at hp hpc
          simp only [List.length_map, Nat.sub_self, List.map_cons, List.map_nil,
            List.getElem?_cons_zero, Option.some.injEq] at hp hpc
          subst hp hpc
          rw [List.getElem?_set_self (by omega), List.getElem?_eq_getElem hi]
      · intro j hj
        rw [List.map_append, List.mem_append, not_or] at hj
        have hjq : q.1 ≠ j := by
          intro he; exact hj.2 (by simp [he])
        rw [List.getElem?_set_ne hjq]
        exact ho j hj.1
    · intro r hrm
      obtain ⟨i, hi⟩ := List.mem_iff_getElem?.1 hrm
      rw [setCol_getElem? hql] at hi
      cases hy : Y[i]? with
      | none => rw [hy] at hi; cases hi
      | some row =>
        rw [hy] at hi
        cases hq : q.2[i]? with
        | none => rw [hq] at hi; simp at hi
        | some v =>
          rw [hq] at hi
          simp only [Option.bind_some, Option.map_some, Option.some.injEq] at hi
          subst hi
          rw [List.length_set]
          exact hr row (List.mem_of_getElem? hy)

/-- A fold of assignments that each write a column. -/
theorem foldlM_assign {β : Type} (Z : Rows) (xs : List β) (pos : β → Nat) (val : β → SVal)
    (col : β → List ℚ)
    (h : ∀ x ∈ xs, ∀ Y : Rows, Y.length = Z.length →
      assignCol Y (pos x) (val x) = .ok (setCol Y (pos x) (col x)))
    (hc : ∀ x ∈ xs, (col x).length = Z.length) :
    xs.foldlM (fun Z x => assignCol Z (pos x) (val x)) Z =
      .ok ((xs.map (fun x => (pos x, col x))).foldl (fun Z p => setCol Z p.1 p.2) Z) := by
  induction xs generalizing Z with
  | nil => rfl
  | cons x xs ih =>
    have hx := h x (by simp) Z rfl
    have hlen : (setCol Z (pos x) (col x)).length = Z.length := setCol_length (hc x (by simp))
    rw [List.foldlM_cons, hx]
    simp only [bind, Except.bind, List.map_cons, List.foldl_cons]
    exact ih (setCol Z (pos x) (col x))
      (fun y hy Y hY => h y (List.mem_cons_of_mem _ hy) Y (by rw [hY, hlen]))
      (fun y hy => by rw [hlen]; exact hc y (List.mem_cons_of_mem _ hy))

theorem range_map_getD (idx : List Nat) :
    (List.range idx.length).map (fun i => idx[i]?.getD 0) = idx := by
  apply List.ext_getElem?
  intro i
  rw [List.getElem?_map]
  by_cases h : i < idx.length
  · rw [List.getElem?_range h]; simp [List.getElem?_eq_getElem h]
  · rw [List.getElem?_eq_none (by simpa using h), List.getElem?_eq_none (by omega)]; rfl

theorem squeeze_row {p : Nat} {c : List ℚ} (h : p ≠ 1) : (SVal.mat p [c]).squeeze = .vec c := by
  match p, h with
  | 0, _ => rfl
  | 1, h => exact absurd rfl h
  | p + 2, _ => rfl

/-- Reading back what was written. -/
theorem written_reads {k : Nat} {Z Z' : Rows} {idx : List Nat} {cols : List (List ℚ)}
    (hw : Written Z idx cols Z') (hZ : IsRows k Z) (hk : ∀ j ∈ idx, j < k)
    (hl : cols.length = idx.length) :
    ∀ (i p : Nat) c, cols[p]? = some c → i < Z.length →
      ((getSwizzle Z' idx)[i]?).bind (fun r => r[p]?) = c[i]? := by
  intro i p c hc hi
  obtain ⟨row', hrow', hlen, hcol, _⟩ := hw.2 i Z[i] (List.getElem?_eq_getElem hi)
  have hrk : row'.length = k := by rw [hlen]; exact hZ _ (List.getElem_mem hi)
  have hp : p < idx.length := by rw [← hl]; exact (List.getElem?_eq_some_iff.1 hc).1
  unfold getSwizzle
  rw [List.getElem?_map, hrow']
  simp only [Option.map_some, Option.bind_some]
  rw [← hcol p idx[p] c (List.getElem?_eq_getElem hp) hc]
  have hfm : ∀ (l : List Nat), (∀ j ∈ l, j < row'.length) → ∀ p : Nat,
      (l.filterMap (fun j => row'[j]?))[p]? = (l[p]?).bind (fun j => row'[j]?) := by
    intro l
    induction l with
    | nil => intro _ p; simp
    | cons a l ih =>
      intro hl p
      have ha : a < row'.length := hl a (by simp)
      rw [List.filterMap_cons, List.getElem?_eq_getElem ha]
      cases p with
      | zero => simp [List.getElem?_eq_getElem ha]
      | succ p => simpa using ih (fun j hj => hl j (List.mem_cons_of_mem _ hj)) p
  rw [hfm idx (fun j hj => by rw [hrk]; exact hk j hj) p, List.getElem?_eq_getElem hp]
  rfl

end Verif
