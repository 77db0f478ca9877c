import Verif.Spec.Keys
import Verif.Lemmas.Py
/-! Lemmas about dictionaries of objects and their equality. -/

namespace Verif

variable {cmp : Nat → Nat → Except Err Bool}

/-- What a history without changes of identifiers keeps. -/
structure KeysOk (s : KState) : Prop where
  small : ∀ o ∈ s.heap, o.id ≤ s.counter
  inj : ∀ r t : Nat, ∀ x y : KObj, s.heap[r]? = some x → s.heap[t]? = some y → x.id = y.id → r = t
  entries : s.dict.map (fun e => e.2) = s.made.zipIdx
  hashes : ∀ e ∈ s.dict, ∃ o, s.heap[e.2.1]? = some o ∧ o.id = e.1
  nodup : s.made.Nodup

theorem pfind_own {ν : Type} {h : List KObj} {eq : Nat → Nat → Except Err Bool} {v : Nat} {o : KObj}
    (ho : h[v]? = some o)
    (hinj : ∀ r t : Nat, ∀ x y : KObj, h[r]? = some x → h[t]? = some y → x.id = y.id → r = t) :
    ∀ {d : PDict ν}, (∀ e ∈ d, ∃ o, h[e.2.1]? = some o ∧ o.id = e.1) →
    pfind eq o.id v d = .ok ((d.find? (fun e => e.2.1 = v)).map (fun e => e.2.2)) := by
  intro d
  induction d with
  | nil => intro _; rfl
  | cons e d ih =>
    obtain ⟨hk, k, x⟩ := e
    intro hh
    obtain ⟨o', ho', hid⟩ := hh _ (List.mem_cons_self)
    dsimp only at ho' hid
    have ih' := ih (fun e he => hh e (List.mem_cons_of_mem _ he))
    unfold pfind
    by_cases hkv : k = v
    · subst hkv
      rw [ho] at ho'
      cases ho'
      simp [hid]
    · have : hk ≠ o.id := by
        intro he
        exact hkv (hinj k v o' o ho' ho (by rw [hid, he]))
      rw [if_neg this, ih']
      simp [hkv]

theorem find_zipIdx (made : List Nat) (hn : made.Nodup) (v : Nat) {d : PDict Nat}
    (hd : d.map (fun e => e.2) = made.zipIdx) :
    (d.find? (fun e => e.2.1 = v)).map (fun e => e.2.2) =
      if v ∈ made then some (made.idxOf v) else none := by
  have e1 : (d.find? (fun e => e.2.1 = v)).map (fun e => e.2.2) =
      ((d.map (fun e => e.2)).find? (fun e => e.1 = v)).map (fun e => e.2) := by
    rw [List.find?_map]
    simp [Option.map_map, Function.comp_def]
  rw [e1, hd]
  split
  · rename_i hv
    have : made.zipIdx.find? (fun e => e.1 = v) = some (v, made.idxOf v) := by
      rw [List.find?_eq_some_iff_getElem]
      have hlt := List.idxOf_lt_length_of_mem hv
      refine ⟨by simp, made.idxOf v, by simpa using hlt, ?_, ?_⟩
      · simp
      · intro j hj
        simp only [List.getElem_zipIdx, decide_eq_true_eq, Bool.not_eq_true', decide_eq_false_iff_not]
        intro hjv
        have hjl : j < made.length := by omega
        have := hn.idxOf_getElem j hjl
        rw [hjv] at this
        omega
    rw [this]
    rfl
  · rename_i hv
    have : made.zipIdx.find? (fun e => e.1 = v) = none := by
      rw [List.find?_eq_none]
      rintro ⟨a, i⟩ he
      simp only [decide_eq_true_eq]
      rintro rfl
      exact hv (List.fst_mem_of_mem_zipIdx he)
    rw [this]
    rfl

theorem kRun_own (fuel : Nat) : ∀ (ops : List KOp) (s : KState), KeysOk s → KeepsIds ops →
    Existing s.heap.length ops →
    (kRun cmp fuel s ops).2 = (ownCollections s.made ops).map Except.ok ∧
    KeysOk (kRun cmp fuel s ops).1 := by
  intro ops
  induction ops with
  | nil => intro s h _ _; exact ⟨rfl, h⟩
  | cons op ops ih =>
    intro s h hk hex
    have hk' : KeepsIds ops := fun o ho => hk o (List.mem_cons_of_mem _ ho)
    cases op with
    | make cls attrs =>
      have hs : KeysOk (kStep cmp fuel s (.make cls attrs)).1 := by
        refine ⟨?_, ?_, h.entries, ?_, h.nodup⟩
        · intro o ho
          simp only [kStep, List.mem_append, List.mem_singleton] at ho ⊢
          rcases ho with ho | rfl
          · have := h.small o ho
            omega
          · dsimp only
            omega
        · intro r t x y hx hy he
          simp only [kStep, List.getElem?_append, List.getElem?_singleton] at hx hy
          split at hx <;> split at hy
          · exact h.inj r t x y hx hy he
          · have := h.small x (List.mem_of_getElem? hx)
            split at hy
            · cases hy
              dsimp only at he
              omega
            · cases hy
          · have := h.small y (List.mem_of_getElem? hy)
            split at hx
            · cases hx
              dsimp only at he
              omega
            · cases hx
          · split at hx
            · split at hy
              · omega
              · cases hy
            · cases hx
        · intro e he
          obtain ⟨o, ho, hid⟩ := h.hashes e he
          refine ⟨o, ?_, hid⟩
          simp only [kStep]
          rw [List.getElem?_append_left (List.getElem?_eq_some_iff.1 ho).1]
          exact ho
      have := ih _ hs hk' (by simpa [kStep, Existing] using hex)
      exact ⟨this.1, this.2⟩
    | setAttr r k v =>
      have hget : ∀ (t : Nat) (y : KObj),
          (s.heap.modify r (fun o => { o with attrs := dset o.attrs k v }))[t]? = some y →
          ∃ x, s.heap[t]? = some x ∧ x.id = y.id := by
        intro t y hy
        rw [List.getElem?_modify] at hy
        cases hx : s.heap[t]? with
        | none => rw [hx] at hy; cases hy
        | some x =>
          rw [hx] at hy
          refine ⟨x, rfl, ?_⟩
          have hy' := Option.some.inj hy
          dsimp only at hy'
          split at hy' <;> rw [← hy']
      have hs : KeysOk (kStep cmp fuel s (.setAttr r k v)).1 := by
        refine ⟨?_, ?_, h.entries, ?_, h.nodup⟩
        · intro o ho
          obtain ⟨t, ht⟩ := List.mem_iff_getElem?.1 ho
          obtain ⟨x, hx, hid⟩ := hget t o ht
          rw [← hid]
          exact h.small x (List.mem_of_getElem? hx)
        · intro a b x y hx hy he
          obtain ⟨x', hx', ex⟩ := hget a x hx
          obtain ⟨y', hy', ey⟩ := hget b y hy
          exact h.inj a b x' y' hx' hy' (by rw [ex, ey, he])
        · intro e he
          obtain ⟨o, ho, hid⟩ := h.hashes e he
          simp only [kStep, List.getElem?_modify, ho]
          refine ⟨_, rfl, ?_⟩
          dsimp only
          split <;> exact hid
      have := ih _ hs hk' (by simpa [kStep, Existing] using hex)
      exact ⟨this.1, this.2⟩
    | setId r id => exact absurd rfl (hk _ List.mem_cons_self r id)
    | render v =>
      obtain ⟨hv, hex⟩ := hex
      obtain ⟨o, ho⟩ : ∃ o, s.heap[v]? = some o := ⟨_, List.getElem?_eq_getElem hv⟩
      have hhash : hashOf s.heap v = o.id := by simp [hashOf, ho]
      have hf := (pfind_own (eq := fun k x => eqVal cmp s.heap fuel (.ref k) (.ref x)) ho h.inj
        h.hashes).trans (congrArg _ (find_zipIdx s.made h.nodup v h.entries))
      by_cases hm : v ∈ s.made
      · have hr : renderOn cmp fuel s v = (s, .ok (s.made.idxOf v)) := by
          unfold renderOn
          rw [hhash, hf, if_pos hm]
        have := ih s h hk' hex
        refine ⟨?_, ?_⟩
        · simp only [kRun, kStep, hr, ownCollections, if_pos hm, this.1]
          rfl
        · simp only [kRun, kStep, hr]
          exact this.2
      · have hr : renderOn cmp fuel s v =
            ({ s with dict := s.dict ++ [(o.id, v, s.made.length)], made := s.made ++ [v] },
              .ok s.made.length) := by
          unfold renderOn
          rw [hhash, hf, if_neg hm]
        have hs : KeysOk { s with
            dict := s.dict ++ [(o.id, v, s.made.length)], made := s.made ++ [v] } := by
          refine ⟨h.small, h.inj, ?_, ?_, ?_⟩
          · simp [h.entries, List.zipIdx_append]
          · intro e he
            rcases List.mem_append.1 he with he | he
            · exact h.hashes e he
            · simp only [List.mem_singleton] at he
              subst he
              exact ⟨o, ho, rfl⟩
          · rw [List.nodup_append]
            refine ⟨h.nodup, by simp, ?_⟩
            rintro a ha b hb rfl
            simp only [List.mem_singleton] at hb
            subst hb
            exact hm ha
        have := ih _ hs hk' hex
        refine ⟨?_, ?_⟩
        · simp only [kRun, kStep, hr, ownCollections, if_neg hm, this.1]
          rfl
        · simp only [kRun, kStep, hr]
          exact this.2

theorem sameAttrs_self {eq : AVal → AVal → Except Err Bool} {other : Dict String AVal} :
    ∀ {as : Dict String AVal}, (∀ p ∈ as, ∃ b, dget other p.1 = some b ∧ eq p.2 b = .ok true) →
    sameAttrs eq other as = .ok true := by
  intro as
  induction as with
  | nil => intro _; rfl
  | cons p as ih =>
    obtain ⟨k, a⟩ := p
    intro h
    obtain ⟨b, hb, he⟩ := h _ List.mem_cons_self
    unfold sameAttrs
    dsimp only at hb he
    rw [hb]
    dsimp only
    rw [he]
    exact ih (fun p hp => h p (List.mem_cons_of_mem _ hp))

theorem sameAttrs_true {eq : AVal → AVal → Except Err Bool} {other : Dict String AVal} :
    ∀ {as : Dict String AVal}, sameAttrs eq other as = .ok true →
    ∀ p ∈ as, ∃ b, dget other p.1 = some b ∧ eq p.2 b = .ok true := by
  intro as
  induction as with
  | nil => intro _ p hp; cases hp
  | cons p as ih =>
    obtain ⟨k, a⟩ := p
    intro h
    unfold sameAttrs at h
    cases hb : dget other k with
    | none => rw [hb] at h; cases h
    | some b =>
      rw [hb] at h
      dsimp only at h
      split at h
      · cases h
      · cases h
      · rename_i he
        intro p hp
        rcases List.mem_cons.1 hp with rfl | hp
        · exact ⟨b, hb, he⟩
        · exact ih h p hp

theorem eqVal_calm (h : List KObj) : ∀ (n : Nat) (v : AVal), Calm cmp h n v →
    ∀ fuel, n ≤ fuel → eqVal cmp h fuel v v = .ok true := by
  intro n
  induction n with
  | zero => intro v hv; exact absurd hv (by simp [Calm])
  | succ n ih =>
    intro v hv fuel hf
    obtain ⟨fuel, rfl⟩ : ∃ f, fuel = f + 1 := ⟨fuel - 1, by omega⟩
    cases v with
    | «opaque» m => simpa [eqVal, Calm] using hv
    | array l =>
      have : l.length = 1 := hv
      simp [eqVal, this]
    | ref r =>
      obtain ⟨o, ho, hnd, hall⟩ := hv
      simp only [eqVal, ho, if_true]
      exact sameAttrs_self (fun p hp => ⟨p.2, dget_of_mem_nodup hnd hp,
        ih _ (hall p hp) fuel (by omega)⟩)

end Verif
