import Verif.Spec.Derived
import Verif.Lemmas.Tracked
/-! # Lemmas on arrays computed from tracked arrays -/

namespace Verif

/-! ### The buffer of an array is that of its origin -/

/-- The arrays have the buffers of their origins, and buffers the memory of theirs. -/
structure FamInv (f : Family) (os : List (Option Nat)) : Prop where
  len : os.length = f.roots.length
  made : ∀ (i m : Nat), os[i]? = some (some m) → ∃ (r : Root) (b : Nat) (u : TrackBuf), f.roots[i]? = some r ∧ r.buf = some b ∧
    f.bufs[b]? = some u ∧ u.array = m ∧ m < f.roots.length
  none : ∀ i : Nat, os[i]? = some Option.none → ∃ r : Root, f.roots[i]? = some r ∧ r.buf = Option.none

theorem famInv_snoc {f : Family} {os : List (Option Nat)} (h : FamInv f os) {r : Root} {o : Option Nat}
    (hr : match o with
      | Option.none => r.buf = Option.none
      | some m => ∃ b u, r.buf = some b ∧ f.bufs[b]? = some u ∧ u.array = m ∧ m ≤ f.roots.length) :
    FamInv ⟨f.roots ++ [r], f.bufs⟩ (os ++ [o]) := by
  have hnew : ∀ i, os.length ≤ i → ∀ x, (os ++ [o])[i]? = some x → i = f.roots.length ∧ x = o := by
    intro i hi x hx
    rw [List.getElem?_append_right hi] at hx
    cases h0 : i - os.length with
    | zero => rw [h0] at hx; exact ⟨by have := h.len; omega, by simpa using hx.symm⟩
    | succ n => rw [h0] at hx; simp at hx
  refine ⟨by simp [h.len], ?_, ?_⟩
  · intro i m hi
    by_cases hlt : i < os.length
    · rw [List.getElem?_append_left hlt] at hi
      obtain ⟨r', b, u, h1, h2, h3, h4, h5⟩ := h.made i m hi
      exact ⟨r', b, u, by rw [List.getElem?_append_left (by rw [← h.len]; exact hlt)]; exact h1, h2, h3, h4,
        by simp only [List.length_append, List.length_singleton]; omega⟩
    · obtain ⟨rfl, hx⟩ := hnew i (by omega) _ hi
      subst hx
      obtain ⟨b, u, h1, h2, h3, h4⟩ := hr
      exact ⟨r, b, u, by simp, h1, h2, h3, by simp only [List.length_append, List.length_singleton]; omega⟩
  · intro i hi
    by_cases hlt : i < os.length
    · rw [List.getElem?_append_left hlt] at hi
      obtain ⟨r', h1, h2⟩ := h.none i hi
      exact ⟨r', by rw [List.getElem?_append_left (by rw [← h.len]; exact hlt)]; exact h1, h2⟩
    · obtain ⟨rfl, hx⟩ := hnew i (by omega) _ hi
      subst hx
      exact ⟨r, by simp, hr⟩

theorem famInv_bufs {f : Family} {os : List (Option Nat)} (h : FamInv f os) {roots : List Root}
    {bufs : List TrackBuf} (hr : ∀ i : Nat, (roots[i]?).map Root.buf = (f.roots[i]?).map Root.buf)
    (hb : ∀ (b : Nat) u, f.bufs[b]? = some u → ∃ u', bufs[b]? = some u' ∧ u'.array = u.array) :
    FamInv ⟨roots, bufs⟩ os := by
  have hl : roots.length = f.roots.length := by
    apply Nat.le_antisymm
    · by_contra hc
      have := hr f.roots.length
      rw [List.getElem?_eq_getElem (by omega), List.getElem?_eq_none (by omega)] at this
      simp at this
    · by_contra hc
      have := hr roots.length
      rw [List.getElem?_eq_none (by omega), List.getElem?_eq_getElem (by omega)] at this
      simp at this
  have there : ∀ (i : Nat) r, f.roots[i]? = some r → ∃ r', roots[i]? = some r' ∧ r'.buf = r.buf := by
    intro i r hi
    have := hr i
    rw [hi, Option.map_some, Option.map_eq_some_iff] at this
    exact this
  refine ⟨h.len.trans hl.symm, ?_, ?_⟩
  · intro i m hi
    obtain ⟨r, b, u, h1, h2, h3, h4, h5⟩ := h.made i m hi
    obtain ⟨r', h6, h7⟩ := there i r h1
    obtain ⟨u', h8, h9⟩ := hb b u h3
    exact ⟨r', b, u', h6, h7.trans h2, h8, h9.trans h4, by rw [hl]; exact h5⟩
  · intro i hi
    obtain ⟨r, h1, h2⟩ := h.none i hi
    obtain ⟨r', h6, h7⟩ := there i r h1
    exact ⟨r', h6, h7.trans h2⟩

theorem set_map {l : List Root} {i : Nat} {r r' : Root} (hi : l[i]? = some r) (hb : r'.buf = r.buf) (j : Nat) :
    ((l.set i r')[j]?).map Root.buf = (l[j]?).map Root.buf := by
  by_cases hij : i = j
  · subst hij
    rw [List.getElem?_set_self (List.getElem?_eq_some_iff.1 hi).1, hi]
    simp [hb]
  · rw [List.getElem?_set_ne hij]

theorem famInv_step {f : Family} {os : List (Option Nat)} (h : FamInv f os) (op : FamOp) :
    FamInv (famStep f op).1 (originsStep os (famStep f op).2.isNone op) := by
  cases op with
  | make item shape mem =>
    have h' : FamInv ⟨f.roots, f.bufs ++ [⟨f.roots.length, mem⟩]⟩ os :=
      famInv_bufs h (fun _ => rfl) (fun b u hb => ⟨u, by
        rw [List.getElem?_append_left (List.getElem?_eq_some_iff.1 hb).1]; exact hb, rfl⟩)
    simp only [famStep, originsStep]
    exact famInv_snoc h' (o := some os.length) ⟨f.bufs.length, ⟨f.roots.length, mem⟩, rfl, by simp, h.len.symm,
      Nat.le_of_eq h.len⟩
  | derive i src item shape mem =>
    simp only [famStep]
    cases hr : f.roots[i]? with
    | none => exact h
    | some r =>
      dsimp only
      cases hl : r.arr.layout src with
      | none => exact h
      | some L =>
        simp only [originsStep, Option.isNone_none, if_true]
        have hi : i < os.length := by rw [h.len]; exact (List.getElem?_eq_some_iff.1 hr).1
        refine famInv_snoc h ?_
        cases ho : os[i]? with
        | none => rw [List.getElem?_eq_none_iff] at ho; omega
        | some o =>
          cases o with
          | none =>
            obtain ⟨r', h1, h2⟩ := h.none i ho
            rw [hr] at h1
            cases h1
            exact h2
          | some m =>
            obtain ⟨r', b, u, h1, h2, h3, h4, h5⟩ := h.made i m ho
            rw [hr] at h1
            cases h1
            exact ⟨b, u, h2, h3, h4, Nat.le_of_lt h5⟩
  | join item shape mem => exact famInv_snoc h (o := Option.none) rfl
  | on i op =>
    simp only [famStep, originsStep]
    cases hr : f.roots[i]? with
    | none => exact h
    | some r =>
      dsimp only
      cases hb : r.buf.bind (fun b => f.bufs[b]?) with
      | none => exact famInv_bufs h (set_map hr rfl) (fun b u hu => ⟨u, hu, rfl⟩)
      | some u =>
        refine famInv_bufs h (set_map hr rfl) ?_
        intro b u' hu'
        simp only [List.getElem?_modify, hu', Option.map_eq_map, Option.map_some]
        exact ⟨_, rfl, by split <;> rfl⟩

theorem famInv_run {f : Family} {os : List (Option Nat)} (h : FamInv f os) (ops : List FamOp) :
    FamInv (famRun f ops) (origins f ops os) := by
  induction ops generalizing f os with
  | nil => exact h
  | cons op ops ih => exact ih (famInv_step h op)

theorem famInv_empty : FamInv Family.empty [] :=
  ⟨rfl, fun i m h => by simp at h, fun i h => by simp at h⟩

/-! ### The contents of an array -/

theorem elemsGo_c (item : Nat) (sh : List Nat) (off : Int) :
    elemsGo off sh (cStrides item sh) = (List.range sh.prod).map (fun i : Nat => off + (i * item : Nat)) := by
  induction sh generalizing off with
  | nil => simp [cStrides, elemsGo]
  | cons n sh ih =>
    simp only [cStrides, elemsGo, List.prod_cons, ih]
    induction n with
    | zero => simp
    | succ n ihn =>
      rw [List.range_succ, List.flatMap_append, ihn, Nat.succ_mul, List.range_add, List.map_append,
        List.flatMap_cons, List.flatMap_nil, List.append_nil, List.map_map]
      congr 1
      apply List.map_congr_left
      intro i _
      simp only [Function.comp_apply]
      push_cast
      ring

theorem owner_bytes_eq (s : ArrState) :
    s.owner.bytes s.item = (List.range (s.shape.prod * s.item)).map (fun p : Nat => (p : Int)) := by
  unfold Layout.bytes ArrState.owner
  simp only [elemsGo_c]
  induction s.shape.prod with
  | zero => simp
  | succ n ih =>
    rw [List.range_succ, List.map_append, List.flatMap_append, ih, Nat.succ_mul, List.range_add,
      List.map_append, List.map_map]
    simp only [List.map_cons, List.map_nil, List.flatMap_cons, List.flatMap_nil, List.append_nil]
    congr 1
    apply List.map_congr_left
    intro i _
    simp only [Function.comp_apply]
    push_cast
    ring

theorem read_all {l : List Nat} {n : Nat} (h : l.length = n) :
    ((List.range n).map (fun p : Nat => (p : Int))).map (fun p => l[p.toNat]?.getD 0) = l := by
  subst h
  apply List.ext_getElem?
  intro i
  rw [List.map_map, List.getElem?_map]
  by_cases hi : i < l.length
  · rw [List.getElem?_range hi, List.getElem?_eq_getElem hi]
    simp [List.getElem?_eq_getElem hi]
  · rw [List.getElem?_eq_none (by simpa using hi), List.getElem?_eq_none (by omega)]
    rfl

/-- The memory keeps its size. -/
theorem arrStep_size (s : ArrState) (op : ArrOp) : (arrStep s op).1.mem.length = s.mem.length ∧
    (arrStep s op).1.shape = s.shape ∧ (arrStep s op).1.item = s.item := by
  unfold arrStep
  repeat' (first | split | exact ⟨rfl, rfl, rfl⟩ | exact ⟨writeBytes_length _ _ _, rfl, rfl⟩)

theorem rootStep_size (ext : Int × Int) (s : ArrState) (op : ArrOp) :
    (rootStep ext s op).1.mem.length = s.mem.length ∧
    (rootStep ext s op).1.shape = s.shape ∧ (rootStep ext s op).1.item = s.item := by
  unfold rootStep
  split
  · exact arrStep_size s _
  · exact arrStep_size s _

/-- All arrays have the memory their shape and items ask for. -/
def FamSized (f : Family) : Prop := ∀ r ∈ f.roots, r.arr.mem.length = r.arr.shape.prod * r.arr.item

theorem famSized_snoc {f : Family} (h : FamSized f) {r : Root} {bufs : List TrackBuf}
    (hr : r.arr.mem.length = r.arr.shape.prod * r.arr.item) : FamSized ⟨f.roots ++ [r], bufs⟩ := by
  intro q hq
  rcases List.mem_append.1 hq with hq | hq
  · exact h q hq
  · rw [List.mem_singleton.1 hq]; exact hr

theorem famSized_set {f : Family} (h : FamSized f) {i : Nat} {r : Root} {bufs : List TrackBuf}
    (hr : r.arr.mem.length = r.arr.shape.prod * r.arr.item) : FamSized ⟨f.roots.set i r, bufs⟩ := by
  intro q hq
  rcases List.mem_or_eq_of_mem_set hq with hq | rfl
  · exact h q hq
  · exact hr

theorem famSized_step {f : Family} (h : FamSized f) {op : FamOp} (hs : op.Sized) :
    FamSized (famStep f op).1 := by
  cases op with
  | make item shape mem => exact famSized_snoc h hs
  | derive i src item shape mem =>
    simp only [famStep]
    split
    · exact h
    · split
      · exact h
      · exact famSized_snoc h hs
  | join item shape mem => exact famSized_snoc h hs
  | on i op =>
    simp only [famStep]
    cases hr : f.roots[i]? with
    | none => exact h
    | some r =>
      have h0 := h r (List.mem_of_getElem? hr)
      dsimp only
      cases hb : r.buf.bind (fun b => f.bufs[b]?) with
      | none =>
        obtain ⟨h1, h2, h3⟩ := rootStep_size r.ext { r.arr with tracker := false } op
        exact famSized_set h (by simp only [h1, h2, h3]; exact h0)
      | some u =>
        obtain ⟨h1, h2, h3⟩ := rootStep_size r.ext { r.arr with mirror := u.bytes } op
        exact famSized_set h (by simp only [h1, h2, h3]; exact h0)

theorem famSized_run {f : Family} (h : FamSized f) {ops : List FamOp} (hs : ∀ op ∈ ops, op.Sized) :
    FamSized (famRun f ops) := by
  induction ops generalizing f with
  | nil => exact h
  | cons op ops ih =>
    exact ih (famSized_step h (hs op List.mem_cons_self)) (fun o ho => hs o (List.mem_cons_of_mem _ ho))

theorem contents_owner {f : Family} (h : FamSized f) {i : Nat} {r : Root} (hr : f.roots[i]? = some r) :
    f.contents i .owner = some r.arr.mem := by
  simp only [Family.contents, hr, Option.bind_some, ArrState.layout, Option.map_some, owner_bytes_eq]
  rw [read_all (h r (List.mem_of_getElem? hr))]

end Verif
