import Verif.Lemmas.Keys
/-! # C69: objects as keys, and their equality -/

namespace Verif

variable {cmp : Nat → Nat → Except Err Bool}

/-! ## Dictionaries of viewports -/

/-- C69 (part). As long as no identifier is changed, a visual draws on each viewport with a
collection of its own, made at the first render and found again ever after, whatever attributes the
objects have or get; looking it up never raises. -/
theorem viewports_are_keys_partial (fuel : Nat) (ops : List KOp) (hk : KeepsIds ops)
    (hex : Existing 0 ops) :
    (kRun cmp fuel KState.fresh ops).2 = (ownCollections [] ops).map Except.ok :=
  (kRun_own fuel ops KState.fresh ⟨by simp [KState.fresh], by simp [KState.fresh], rfl,
    by simp [KState.fresh], by simp [KState.fresh]⟩ hk hex).1

example : Existing 0 [.make "Viewport" [], .make "Viewport" [], .render 0, .render 1,
      .setAttr 0 "_axes" (.array [1, 2]), .render 0] ∧
    ownCollections [] [.make "Viewport" [], .make "Viewport" [], .render 0, .render 1,
      .setAttr 0 "_axes" (.array [1, 2]), .render 0] = [0, 1, 0] := by simp [Existing, ownCollections]

/-- C69 fails when an identifier is changed: the viewport is no longer found, and drawn on with a
second collection. -/
theorem viewports_are_keys_fails :
    let ops : List KOp := [.make "Viewport" [], .render 0, .setId 0 7, .render 0]
    (kRun cmp 9 KState.fresh ops).2 = [.ok 0, .ok 1] ∧ ownCollections [] ops = [0, 0] :=
  ⟨rfl, rfl⟩

/-- C69 fails when two viewports of `gsp`, which have no attributes, have one identifier, as after
an example of the documentation (C67): the second is taken for the first. -/
theorem viewports_same_id_fails :
    let ops : List KOp := [.make "Viewport" [], .make "Viewport" [], .setId 1 1, .render 0, .render 1]
    (kRun cmp 9 KState.fresh ops).2 = [.ok 0, .ok 0] ∧ ownCollections [] ops = [0, 1] :=
  ⟨rfl, rfl⟩

/-! ## Equality -/

/-- C69 (part). An object is equal to itself if its attributes are, objects nested in them
included. -/
theorem object_eq_self_partial (h : List KObj) (n r : Nat) (hc : Calm cmp h n (.ref r)) (fuel : Nat)
    (hf : n ≤ fuel) : eqVal cmp h fuel (.ref r) (.ref r) = .ok true := eqVal_calm h n _ hc fuel hf

/-- C69 fails for visuals, which hold matrices: an object with an array of several items is equal to
no object, itself included; a comparison with true attributes before it raises `ValueError`. -/
theorem object_eq_self_fails (h : List KObj) (r s : Nat) (o : KObj) (ho : h[r]? = some o) (k : String)
    (l : List Int) (hl : l.length ≠ 1) (hk : (k, .array l) ∈ o.attrs) (fuel : Nat) :
    eqVal cmp h fuel (.ref r) (.ref s) ≠ .ok true := by
  intro he
  cases fuel with
  | zero => cases he
  | succ fuel =>
    simp only [eqVal, ho] at he
    cases hs : h[s]? with
    | none => rw [hs] at he; cases he
    | some y =>
      rw [hs] at he
      dsimp only at he
      split at he
      · obtain ⟨b, _, hb⟩ := sameAttrs_true he _ hk
        cases fuel with
        | zero => cases hb
        | succ fuel =>
          cases b <;> simp only [eqVal] at hb <;> split at hb <;>
            first | cases hb | (rename_i h1; exact hl (by first | exact h1 | exact h1.1))
      · cases he

/-- The attributes of a visual up to its first matrix (gsp/visual/visual.py:20-27): comparing it with
itself. -/
example : eqVal (fun m n => .ok (m == n)) [⟨1, "Pixels", [("_in_variables", .opaque 0),
      ("_out_variables", .opaque 1), ("_viewports", .opaque 2),
      ("_model", .array [1, 0, 0, 0, 0, 1, 0, 0, 0, 0, 1, 0, 0, 0, 0, 1])]⟩] 9 (.ref 0) (.ref 0) =
    .error .valueError := rfl

/-- C69 (part). Equality is symmetric between objects of classes whose objects all have the same
attributes. -/
theorem object_eq_symm_partial (h : List KObj) (hs : SameShape h) (hn : NamedOnce h)
    (hcmp : ∀ m n, cmp m n = .ok true → cmp n m = .ok true) : ∀ (fuel : Nat) (a b : AVal),
    eqVal cmp h fuel a b = .ok true → eqVal cmp h fuel b a = .ok true := by
  intro fuel
  induction fuel with
  | zero => intro a b he; cases he
  | succ fuel ih =>
    intro a b he
    cases a with
    | «opaque» m =>
      cases b with
      | «opaque» n => exact hcmp m n he
      | ref r => cases he
      | array l => simp only [eqVal] at he; split at he <;> cases he
    | array l =>
      cases b with
      | array m =>
        simp only [eqVal] at he ⊢
        split at he
        · rename_i hlm
          rw [if_pos hlm.symm]
          have : l = m := by simpa using he
          simp [this]
        · cases he
      | «opaque» n => simp only [eqVal] at he; split at he <;> cases he
      | ref r => simp only [eqVal] at he; split at he <;> cases he
    | ref r =>
      cases b with
      | «opaque» n => cases he
      | array l => simp only [eqVal] at he; split at he <;> cases he
      | ref t =>
        simp only [eqVal] at he ⊢
        cases hx : h[r]? with
        | none => rw [hx] at he; cases he
        | some x =>
          cases hy : h[t]? with
          | none => rw [hx, hy] at he; cases he
          | some y =>
            rw [hx, hy] at he
            dsimp only at he ⊢
            split at he
            · rename_i hc
              rw [if_pos hc.symm]
              have hxm := List.mem_of_getElem? hx
              have hym := List.mem_of_getElem? hy
              refine sameAttrs_self ?_
              intro p hp
              have hkx : p.1 ∈ dkeys x.attrs :=
                (hs x hxm y hym hc p.1).2 (List.mem_map.2 ⟨p, hp, rfl⟩)
              obtain ⟨v, hv⟩ := (mem_dkeys _ _).1 hkx
              obtain ⟨b, hb, heb⟩ := sameAttrs_true he _ (dget_mem hv)
              have hpb := dget_of_mem_nodup (hn y hym) hp
              dsimp only at hb
              rw [hpb] at hb
              cases hb
              exact ⟨v, hv, ih _ _ heb⟩
            · cases he

/-- C69 fails otherwise: `a == b` is true and `b == a` raises. -/
theorem object_eq_symm_fails :
    let h : List KObj := [⟨1, "Foo", []⟩, ⟨2, "Foo", [("x", .opaque 0)]⟩]
    eqVal cmp h 9 (.ref 0) (.ref 1) = .ok true ∧
    eqVal cmp h 9 (.ref 1) (.ref 0) = .error .attributeError := ⟨rfl, rfl⟩

/-- C69. Equality is transitive. -/
theorem object_eq_trans (h : List KObj)
    (hcmp : ∀ m n p, cmp m n = .ok true → cmp n p = .ok true → cmp m p = .ok true) :
    ∀ (fuel : Nat) (a b c : AVal), eqVal cmp h fuel a b = .ok true →
    eqVal cmp h fuel b c = .ok true → eqVal cmp h fuel a c = .ok true := by
  intro fuel
  induction fuel with
  | zero => intro a b c he; cases he
  | succ fuel ih =>
    intro a b c he hf
    cases b with
    | «opaque» n =>
      cases a with
      | «opaque» m =>
        cases c with
        | «opaque» p => exact hcmp m n p he hf
        | ref r => cases hf
        | array l => simp only [eqVal] at hf; split at hf <;> cases hf
      | ref r => cases he
      | array l => simp only [eqVal] at he; split at he <;> cases he
    | array m =>
      cases a with
      | array l =>
        cases c with
        | array p =>
          simp only [eqVal] at he hf ⊢
          split at he
          · rename_i h1
            split at hf
            · rename_i h2
              rw [if_pos ⟨h1.1, h2.2⟩]
              have e1 : l = m := by simpa using he
              have e2 : m = p := by simpa using hf
              simp [e1, e2]
            · cases hf
          · cases he
        | «opaque» p => simp only [eqVal] at hf; split at hf <;> cases hf
        | ref r => simp only [eqVal] at hf; split at hf <;> cases hf
      | «opaque» n => simp only [eqVal] at he; split at he <;> cases he
      | ref r => simp only [eqVal] at he; split at he <;> cases he
    | ref t =>
      cases a with
      | «opaque» n => cases he
      | array l => simp only [eqVal] at he; split at he <;> cases he
      | ref r =>
        cases c with
        | «opaque» n => cases hf
        | array l => simp only [eqVal] at hf; split at hf <;> cases hf
        | ref u =>
          simp only [eqVal] at he hf ⊢
          cases hx : h[r]? with
          | none => rw [hx] at he; cases he
          | some x =>
            cases hy : h[t]? with
            | none => rw [hx, hy] at he; cases he
            | some y =>
              cases hz : h[u]? with
              | none => rw [hy, hz] at hf; cases hf
              | some z =>
                rw [hx, hy] at he
                rw [hy, hz] at hf
                dsimp only at he hf ⊢
                split at he
                · rename_i h1
                  split at hf
                  · rename_i h2
                    rw [if_pos (h1.trans h2)]
                    refine sameAttrs_self ?_
                    intro p hp
                    obtain ⟨b, hb, heb⟩ := sameAttrs_true he p hp
                    obtain ⟨c, hc, hec⟩ := sameAttrs_true hf _ (dget_mem hb)
                    exact ⟨c, hc, ih _ _ _ heb hec⟩
                  · cases hf
                · cases he

/-- C69 fails: equal objects have different hashes. Any two canvases of `gsp`, which keep none of
their arguments, are equal, so that a set has both and a list seems to have either. -/
theorem object_hash_fails (h : List KObj) (r s : Nat) (x y : KObj) (hx : h[r]? = some x)
    (hy : h[s]? = some y) (hc : x.cls = y.cls) (ha : x.attrs = []) (hid : x.id ≠ y.id) (fuel : Nat) :
    eqVal cmp h (fuel + 1) (.ref r) (.ref s) = .ok true ∧ hashOf h r ≠ hashOf h s := by
  refine ⟨?_, by simpa [hashOf, hx, hy] using hid⟩
  simp [eqVal, hx, hy, hc, ha, sameAttrs]

/-- Two canvases made one after the other. -/
example : let s := (kRun (fun _ _ => .ok false) 9 KState.fresh [.make "Canvas" [], .make "Canvas" []]).1
    eqVal (fun _ _ => .ok false) s.heap 9 (.ref 0) (.ref 1) = .ok true ∧
      hashOf s.heap 0 ≠ hashOf s.heap 1 := by decide

/-- Nested objects are compared by their attributes: two objects that refer to equal ones. -/
example : let h : List KObj := [⟨1, "B", [("c", .opaque 3)]⟩, ⟨2, "B", [("c", .opaque 3)]⟩,
      ⟨3, "T", [("_buffer", .ref 0)]⟩, ⟨4, "T", [("_buffer", .ref 1)]⟩]
    let c := fun m n => Except.ok (m == n)
    eqVal c h 9 (.ref 2) (.ref 3) = .ok true ∧ Calm c h 3 (.ref 2) ∧ NamedOnce h := by
  refine ⟨rfl, ⟨_, rfl, by decide, ?_⟩, by unfold NamedOnce; decide⟩
  simp [Calm, dkeys]

end Verif
